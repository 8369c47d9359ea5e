import Verif.SrcLib
import Verif.StackExec
/-!
# The stack library in AssemblyScript (model)

Models `supported-languages/assemblyscript/src/generate/instrumentation/mod.rs` (`AGEN` below) and the fixed part of the
library, `lib_boilerplate.ts` in the same directory (`TS` below).
-/

namespace Wastrum

/-! ## Generated functions -/

/-- `assemblyscript_generics`: AGEN 70-74. -/
def asGenerics (r a : Nat) : List String :=
  (List.range r).map (fun n => "R" ++ n.repr) ++ (List.range a).map (fun n => "T" ++ n.repr)

/-- `assemblyscript_comma_separated_types`: AGEN 46-59 (as a list; empty for the empty signature). -/
def asTypes (t : FuncType) : List String := (t.results ++ t.inputs).map ValType.asStr

/-- The type parameter of a slot: AGEN 71-72. -/
def slotParam : Side → Nat → String
  | .arg, n => "T" ++ n.repr
  | .ret, n => "R" ++ n.repr

/-- The name `a{n}` of a parameter: AGEN 80. -/
def asVar (n : Nat) : String := "a" ++ n.repr

/-- `arg_index_offset` and `ret_index_offset`: AGEN 91-105. -/
def asSlot (r : Nat) : Side → Nat → Nat
  | .ret, n => n
  | .arg, n => r + n

/-- `generate_allocate_generic`: AGEN 107-140. -/
def asAllocateGeneric (r a : Nat) : SFn :=
  ⟨false, "allocate_" ++ countName r a, asGenerics r a, (List.range a).map (fun n => (asVar n, "T" ++ n.repr)), "usize",
    .bind "stack_begin" (.call "stack_allocate_values" [] [.int (r + a)]) ::
      (List.range a).map (fun n => .run (.call "wastrumentation_memory_store" ["T" ++ n.repr] [.var "stack_begin", .var (asVar n), .int (asSlot r .arg n)])),
    some (.atom (.var "stack_begin"))⟩

/-- `generate_allocate_specialized`: AGEN 142-172. -/
def asAllocate (t : FuncType) : SFn :=
  ⟨true, allocateValuesName t, [], t.inputs.mapIdx (fun i v => (asVar i, v.asStr)), "usize", [],
    some (.call ("allocate_" ++ countName t.results.length t.inputs.length) (asTypes t) (t.inputs.mapIdx fun i _ => .var (asVar i)))⟩

/-- `generate_allocate_types_buffer_generic`: AGEN 174-186. -/
def asAllocateTypesGeneric (r a : Nat) : SFn :=
  ⟨false, "allocate_signature_types_buffer_" ++ countName r a, [], [], "usize",
    [.bind "stack_begin" (.call "stack_allocate_types" [] [.int (r + a)])], some (.atom (.var "stack_begin"))⟩

/-- `generate_allocate_types_buffer_specialized`: AGEN 188-216. -/
def asAllocateTypes (t : FuncType) : SFn :=
  ⟨true, allocateTypesName t, [], [], "usize",
    .bind "types_buffer" (.call ("allocate_signature_types_buffer_" ++ countName t.results.length t.inputs.length) [] []) ::
      (t.results ++ t.inputs).mapIdx (fun i v =>
        .run (.call "wastrumentation_stack_store_type" [] [.var "types_buffer", .int i, .int v.runtimeEnumValue])),
    some (.atom (.var "types_buffer"))⟩

/-- One function of `generate_load_generic`: AGEN 218-247. -/
def asLoadGeneric (r a : Nat) (side : Side) (n : Nat) : SFn :=
  ⟨false, "load_" ++ side.asStr ++ n.repr ++ "_" ++ countName r a, asGenerics r a, [("stack_ptr", "usize")], slotParam side n, [],
    some (.call "wastrumentation_memory_load" [slotParam side n] [.var "stack_ptr", .int (asSlot r side n)])⟩

/-- One function of `generate_load_specialized`: AGEN 249-287. -/
def asLoad (t : FuncType) (side : Side) (n : Nat) (v : ValType) : SFn :=
  ⟨true, loadName t side n, [], [("stack_ptr", "usize")], v.asStr, [],
    some (.call ("load_" ++ side.asStr ++ n.repr ++ "_" ++ countName t.results.length t.inputs.length) (asTypes t) [.var "stack_ptr"])⟩

/-- The name of the value parameter of a generic store function: AGEN 299, 309. -/
def asValueVar : Side → Nat → String
  | .arg, n => "a" ++ n.repr
  | .ret, n => "r" ++ n.repr

/-- One function of `generate_store_generic`: AGEN 289-318. -/
def asStoreGeneric (r a : Nat) (side : Side) (n : Nat) : SFn :=
  ⟨false, "store_" ++ side.asStr ++ n.repr ++ "_" ++ countName r a, asGenerics r a, [("stack_ptr", "usize"), (asValueVar side n, slotParam side n)], "()",
    [.run (.call "wastrumentation_memory_store" [slotParam side n] [.var "stack_ptr", .var (asValueVar side n), .int (asSlot r side n)])], none⟩

/-- One function of `generate_store_specialized`: AGEN 320-357. -/
def asStore (t : FuncType) (side : Side) (n : Nat) (v : ValType) : SFn :=
  ⟨true, storeName t side n, [], [("stack_ptr", "usize"), (asVar n, v.asStr)], "()",
    [.run (.call ("store_" ++ side.asStr ++ n.repr ++ "_" ++ countName t.results.length t.inputs.length) (asTypes t)
      [.var "stack_ptr", .var (asVar n)])], none⟩

/-- `generate_free_values_buffer_generic`: AGEN 359-375. -/
def asFreeValuesGeneric (r a : Nat) : SFn :=
  ⟨false, "free_values_" ++ countName r a, asGenerics r a, [("ptr", "usize")], "()",
    [.run (.call "stack_deallocate_values" [] [.var "ptr", .int (r + a)])], none⟩

/-- `generate_free_values_buffer_specialized`: AGEN 377-387. -/
def asFreeValues (t : FuncType) : SFn :=
  ⟨true, freeValuesName t, [], [("ptr", "usize")], "()",
    [.run (.call ("free_values_" ++ countName t.results.length t.inputs.length) (asTypes t) [.var "ptr"])], none⟩

/-- `generate_free_types_buffer_generic`: AGEN 389-401. -/
def asFreeTypesGeneric (r a : Nat) : SFn :=
  ⟨false, "free_types_" ++ countName r a, [], [("ptr", "usize")], "()",
    [.run (.call "stack_deallocate_types" [] [.var "ptr", .int (r + a)])], none⟩

/-- `generate_free_types_buffer_specialized`: AGEN 403-412. -/
def asFreeTypes (t : FuncType) : SFn :=
  ⟨true, freeTypesName t, [], [("ptr", "usize")], "()",
    [.run (.call ("free_types_" ++ countName t.results.length t.inputs.length) [] [.var "ptr"])], none⟩

/-- `generate_store_rets_generic`: AGEN 414-449. -/
def asStoreRetsGeneric (r a : Nat) : SFn :=
  ⟨false, "store_rets_" ++ countName r a, asGenerics r a,
    ("stack_ptr", "usize") :: (List.range r).map (fun n => (asVar n, "R" ++ n.repr)), "()",
    (List.range r).map (fun n =>
      .run (.call ("store_ret" ++ n.repr ++ "_" ++ countName r a) (asGenerics r a) [.var "stack_ptr", .var (asVar n)])), none⟩

/-- `generate_store_rets_specialized`: AGEN 451-487. -/
def asStoreRets (t : FuncType) : SFn :=
  ⟨true, storeRetsName t, [], ("stack_ptr", "usize") :: t.results.mapIdx (fun i v => (asVar i, v.asStr)), "()",
    [.run (.call ("store_rets_" ++ countName t.results.length t.inputs.length) (asTypes t)
      (.var "stack_ptr" :: t.results.mapIdx fun i _ => .var (asVar i)))], none⟩

/-- The generic functions for a pair of counts, in the order of AGEN 508-518. -/
def asGeneric (r a : Nat) : List SFn :=
  [asAllocateGeneric r a] ++
    ((List.range a).map (asLoadGeneric r a .arg) ++ (List.range r).map (asLoadGeneric r a .ret)) ++
    ((List.range a).map (asStoreGeneric r a .arg) ++ (List.range r).map (asStoreGeneric r a .ret)) ++
    [asFreeValuesGeneric r a, asStoreRetsGeneric r a, asAllocateTypesGeneric r a, asFreeTypesGeneric r a]

/-- The exported functions for a signature, in the order of AGEN 521-531. -/
def asSpecial (t : FuncType) : List SFn :=
  [asAllocate t] ++
    (t.inputs.mapIdx (asLoad t .arg) ++ t.results.mapIdx (asLoad t .ret)) ++
    (t.inputs.mapIdx (asStore t .arg) ++ t.results.mapIdx (asStore t .ret)) ++
    [asFreeValues t, asStoreRets t, asAllocateTypes t, asFreeTypes t]

/-! ## The fixed part -/

/-- An exported accessor reading a value: TS 69-84. The load at a computed address is the fixed function `load` below. -/
def asTypedLoad (ty : String) : SFn :=
  ⟨true, "wastrumentation_stack_load_" ++ ty, [], [("ptr", "usize"), ("offset", "usize")], ty, [],
    some (.call "load" [ty] [.var "ptr", .var "offset"])⟩

/-- An exported accessor writing a value: TS 86-101. -/
def asTypedStore (ty : String) : SFn :=
  ⟨true, "wastrumentation_stack_store_" ++ ty, [], [("ptr", "usize"), ("value", ty), ("offset", "usize")], "()",
    [.run (.call "store" [ty] [.var "ptr", .var "value", .var "offset"])], none⟩

/-- The exported reader of type codes: TS 59-62. -/
def asLoadType : SFn :=
  ⟨true, "wastrumentation_stack_load_type", [], [("ptr", "usize"), ("offset", "usize")], "i32", [],
    some (.call "load_type" [] [.var "ptr", .var "offset"])⟩

/-- The exported writer of type codes: TS 64-67. -/
def asStoreType : SFn :=
  ⟨true, "wastrumentation_stack_store_type", [], [("ptr", "usize"), ("offset", "usize"), ("ty", "i32")], "()",
    [.run (.call "store_type" [] [.var "ptr", .var "offset", .var "ty"])], none⟩

/-- The exported functions of `lib_boilerplate.ts`: TS 59-101. -/
def asBoilerplate : List SFn :=
  asLoadType :: asStoreType :: ["i32", "f32", "i64", "f64"].map asTypedLoad ++ ["i32", "f32", "i64", "f64"].map asTypedStore

/-- `generate_lib` with `generate_lib_for`: AGEN 491-536. -/
def asLib (sigs : List FuncType) : List SFn := asBoilerplate ++ sourceLoop asGeneric asSpecial [] [] sigs

/-- Types in scope. -/
def asTypesKnown : String → Bool
  | "usize" => true | "i32" => true | "i64" => true | "f32" => true | "f64" => true
  | _ => false

/-- Types of the functions of `lib_boilerplate.ts` that are not exported (TS 25-57, 103-127), and of the loads and stores at
computed addresses (TS 61, 66, 71-100). -/
def asPrimSigs : String → Option SSig
  | "wastrumentation_memory_load" => some ⟨["T"], ["usize", "usize"], "T"⟩
  | "wastrumentation_memory_store" => some ⟨["T"], ["usize", "T", "usize"], "()"⟩
  | "stack_allocate_types" => some ⟨[], ["usize"], "usize"⟩
  | "stack_deallocate_types" => some ⟨[], ["usize", "usize"], "()"⟩
  | "stack_allocate_values" => some ⟨[], ["usize"], "usize"⟩
  | "stack_deallocate_values" => some ⟨[], ["usize", "usize"], "()"⟩
  | "load" => some ⟨["T"], ["usize", "usize"], "T"⟩
  | "store" => some ⟨["T"], ["usize", "T", "usize"], "()"⟩
  | "load_type" => some ⟨[], ["usize", "usize"], "i32"⟩
  | "store_type" => some ⟨[], ["usize", "usize", "i32"], "()"⟩
  | _ => none

/-- State of the compiled library: the variables `$STACK_FREE_PTR` and `$TOTAL_MEMORY` (TS 1-2), and the memory. -/
structure AState where
  free : BitVec 32
  total : BitVec 32
  mem : Mem

/-- The loop of `stack_allocate` (TS 25-32) with `grow_memory` (TS 7-17) and `total_used_memory_in_bytes` (TS 19-23): grow by a page until the
bytes counted suffice. `n` is the number of pages the memory can still grow, which bounds the number of rounds. -/
def asGrow (after : BitVec 32) : Nat → AState → SRes AState Unit
  | n, s =>
    if s.total * 65536 < after then
      match n with
      | 0 => .trap s
      | n + 1 => asGrow after n ⟨s.free, s.total + 1, s.mem.grown⟩
    else .ok () s

/-- `stack_allocate`: TS 25-32. -/
def asStackAllocate (bytes : BitVec 32) (s : AState) : SRes AState SVal :=
  match asGrow (s.free + bytes) (s.mem.limit - s.mem.pages) s with
  | .ok _ s' => .ok (.num (.i32 s.free)) ⟨s.free + bytes, s'.total, s'.mem⟩
  | .trap s' => .trap s'
  | .ub => .ub
  | .stuck => .stuck

/-- `load<T>`: the value of type `T` at an address; out of bounds traps. -/
def asLoadAt (ty : String) (a : BitVec 32) (s : AState) : SRes AState SVal :=
  match ty with
  | "i32" => if a.toNat + 4 ≤ s.mem.size then .ok (.num (.i32 (BitVec.ofNat 32 (s.mem.word a.toNat 4)))) s else .trap s
  | "f32" => if a.toNat + 4 ≤ s.mem.size then .ok (.num (.f32 (BitVec.ofNat 32 (s.mem.word a.toNat 4)))) s else .trap s
  | "i64" => if a.toNat + 8 ≤ s.mem.size then .ok (.num (.i64 (BitVec.ofNat 64 (s.mem.word a.toNat 8)))) s else .trap s
  | "f64" => if a.toNat + 8 ≤ s.mem.size then .ok (.num (.f64 (BitVec.ofNat 64 (s.mem.word a.toNat 8)))) s else .trap s
  | _ => .stuck

/-- `store<T>`: out of bounds traps. -/
def asStoreAt (ty : String) (a : BitVec 32) (v : SVal) (s : AState) : SRes AState SVal :=
  match ty, v with
  | "i32", .num (.i32 x) => if a.toNat + 4 ≤ s.mem.size then .ok .unit ⟨s.free, s.total, s.mem.put a.toNat 4 x.toNat⟩ else .trap s
  | "f32", .num (.f32 x) => if a.toNat + 4 ≤ s.mem.size then .ok .unit ⟨s.free, s.total, s.mem.put a.toNat 4 x.toNat⟩ else .trap s
  | "i64", .num (.i64 x) => if a.toNat + 8 ≤ s.mem.size then .ok .unit ⟨s.free, s.total, s.mem.put a.toNat 8 x.toNat⟩ else .trap s
  | "f64", .num (.f64 x) => if a.toNat + 8 ≤ s.mem.size then .ok .unit ⟨s.free, s.total, s.mem.put a.toNat 8 x.toNat⟩ else .trap s
  | _, _ => .stuck

/-- The functions of `lib_boilerplate.ts` that are not exported, and the loads and stores at computed addresses. `SIZE_WASM_VALUE` is 8,
`SIZE_WASM_TYPE` 4 (TS 4-5); arithmetic is modulo `2^32`. `wastrumentation_memory_load` and `_store` (TS 103-127) choose the accessor of their type
parameter by size and kind, which for the four number types is the accessor of that type. -/
def asPrim (name : String) (ts : List String) (args : List SVal) (s : AState) : Option (SRes AState SVal) :=
  match name, ts, args with
  | "wastrumentation_memory_load", [t], [.num (.i32 p), .num (.i32 k)] => some (asLoadAt t (p + k * 8) s)
  | "wastrumentation_memory_store", [t], [.num (.i32 p), v, .num (.i32 k)] => some (asStoreAt t (p + k * 8) v s)
  | "load", [t], [.num (.i32 p), .num (.i32 k)] => some (asLoadAt t (p + k * 8) s)
  | "store", [t], [.num (.i32 p), v, .num (.i32 k)] => some (asStoreAt t (p + k * 8) v s)
  | "load_type", [], [.num (.i32 p), .num (.i32 k)] => some (asLoadAt "i32" (p + k * 4) s)
  | "store_type", [], [.num (.i32 p), .num (.i32 k), v] => some (asStoreAt "i32" (p + k * 4) v s)
  | "stack_allocate_values", [], [.num (.i32 n)] => some (asStackAllocate (n * 8) s)
  | "stack_allocate_types", [], [.num (.i32 n)] => some (asStackAllocate (n * 4) s)
  | "stack_deallocate_values", [], [.num (.i32 _), .num (.i32 n)] => some (.ok .unit ⟨s.free - n * 8, s.total, s.mem⟩)
  | "stack_deallocate_types", [], [.num (.i32 _), .num (.i32 n)] => some (.ok .unit ⟨s.free - n * 4, s.total, s.mem⟩)
  | _, _, _ => none

/-- Calling an exported function of the library compiled from AssemblyScript. -/
def asCall (sigs : List FuncType) (name : String) (args : List Val) (s : AState) : SRes AState SVal :=
  exportCall asPrim (asLib sigs) 4 name args s

/-- The state of a freshly instantiated library, whose memory has `pages` pages at first. -/
def asStart (pages limit : Nat) : AState := ⟨0, 0, ⟨pages, limit, fun _ => 0⟩⟩

end Wastrum
