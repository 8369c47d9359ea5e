import Verif.SrcLib
import Verif.StackExec
/-!
# The stack library in Rust (model)

Models `supported-languages/rust/src/generate/instrumentation/mod.rs` (`RGEN` below). This is the library the command
line tool uses (`cli/src/main.rs` 131).
-/

namespace Wastrum

/-! ## Generated functions -/

/-- `wasmvalue_constructor_for_type`: RGEN 48-57. -/
def rustConstructor : ValType → String
  | .i32 => "new_i32" | .f32 => "new_f32" | .i64 => "new_i64" | .f64 => "new_f64"
  | .ref .externRef => "new_extern_ref" | .ref .funcRef => "new_func_ref"

/-- `wasmvalue_accessor_for_type`: RGEN 59-68. -/
def rustAccessor : ValType → String
  | .i32 => "i32" | .f32 => "f32" | .i64 => "i64" | .f64 => "f64"
  | .ref .externRef => "extern_ref" | .ref .funcRef => "func_ref"

/-- `WasmType::runtime_enum_variant`: `wasm_constructs/mod.rs` 19-28. -/
def ValType.runtimeEnumVariant : ValType → String
  | .i32 => "I32" | .f32 => "F32" | .i64 => "I64" | .f64 => "F64"
  | .ref .funcRef => "FuncRef" | .ref .externRef => "ExternRef"

/-- The name `a{n}` of a parameter. -/
def argVar (n : Nat) : String := "a" ++ n.repr

/-- `generate_allocate_generic`: RGEN 71-107. -/
def rustAllocateGeneric (r a : Nat) : SFn :=
  if r + a = 0 then ⟨false, "allocate_" ++ countName r a, [], [], "usize", [], some (.atom (.int 0))⟩
  else ⟨false, "allocate_" ++ countName r a, [], (List.range a).map (fun n => (argVar n, "WasmValue")), "usize",
    .bind "frame_ptr" (.call "stack_allocate_values" [] [.int (r + a)]) ::
      (List.range a).map (fun n => .run (.call "wastrumentation_memory_store" [] [.var "frame_ptr", .var (argVar n), .int (r + n)])),
    some (.atom (.var "frame_ptr"))⟩

/-- `generate_allocate_specialized`: RGEN 109-139. -/
def rustAllocate (t : FuncType) : SFn :=
  ⟨true, allocateValuesName t, [], t.inputs.mapIdx (fun i v => (argVar i, v.asStr)), "usize", [],
    some (.call ("allocate_" ++ countName t.results.length t.inputs.length) []
      (t.inputs.mapIdx fun i v => .new (rustConstructor v) (argVar i)))⟩

/-- `generate_allocate_types_buffer_generic`: RGEN 141-151. -/
def rustAllocateTypesGeneric (r a : Nat) : SFn :=
  ⟨false, "allocate_signature_types_buffer_" ++ countName r a, [], [], "usize", [],
    some (.call "stack_allocate_types" [] [.int (r + a)])⟩

/-- `generate_allocate_types_buffer_specialized`: RGEN 153-180. -/
def rustAllocateTypes (t : FuncType) : SFn :=
  ⟨true, allocateTypesName t, [], [], "usize",
    .bind "types_buffer" (.call ("allocate_signature_types_buffer_" ++ countName t.results.length t.inputs.length) [] []) ::
      (t.results ++ t.inputs).mapIdx (fun i v =>
        .run (.call "wastrumentation_stack_store_type" [] [.var "types_buffer", .int i, .variant v.runtimeEnumVariant])),
    some (.atom (.var "types_buffer"))⟩

/-- Where side and position put a value: results first (RGEN 83, 187, 204, 253, 270). -/
def slotIndex (r : Nat) : Side → Nat → Nat
  | .ret, n => n
  | .arg, n => r + n

/-- One function of `generate_load_generic`: RGEN 182-210. -/
def rustLoadGeneric (r a : Nat) (side : Side) (n : Nat) : SFn :=
  ⟨false, "load_" ++ side.asStr ++ n.repr ++ "_" ++ countName r a, [], [("stack_ptr", "usize")], "WasmValue", [],
    some (.call "wastrumentation_memory_load" [] [.var "stack_ptr", .int (slotIndex r side n)])⟩

/-- One function of `generate_load_specialized`: RGEN 212-247. -/
def rustLoad (t : FuncType) (side : Side) (n : Nat) (v : ValType) : SFn :=
  ⟨true, loadName t side n, [], [("stack_ptr", "usize")], v.asStr,
    [.bind "val" (.call ("load_" ++ side.asStr ++ n.repr ++ "_" ++ countName t.results.length t.inputs.length) [] [.var "stack_ptr"])],
    some (.field "val" (rustAccessor v))⟩

/-- The name of the value parameter of a generic store function: RGEN 257, 267. -/
def valueVar : Side → Nat → String
  | .arg, n => "a" ++ n.repr
  | .ret, n => "r" ++ n.repr

/-- One function of `generate_store_generic`: RGEN 249-277. -/
def rustStoreGeneric (r a : Nat) (side : Side) (n : Nat) : SFn :=
  ⟨false, "store_" ++ side.asStr ++ n.repr ++ "_" ++ countName r a, [], [("stack_ptr", "usize"), (valueVar side n, "WasmValue")], "()",
    [.run (.call "wastrumentation_memory_store" [] [.var "stack_ptr", .var (valueVar side n), .int (slotIndex r side n)])], none⟩

/-- One function of `generate_store_specialized`: RGEN 279-312. -/
def rustStore (t : FuncType) (side : Side) (n : Nat) (v : ValType) : SFn :=
  ⟨true, storeName t side n, [], [("stack_ptr", "usize"), (argVar n, v.asStr)], "()",
    [.run (.call ("store_" ++ side.asStr ++ n.repr ++ "_" ++ countName t.results.length t.inputs.length) []
      [.var "stack_ptr", .new (rustConstructor v) (argVar n)])], none⟩

/-- `generate_free_values_buffer_generic`: RGEN 314-335. -/
def rustFreeValuesGeneric (r a : Nat) : SFn :=
  if r + a = 0 then ⟨false, "free_values_" ++ countName r a, [], [("_ptr", "usize")], "()", [], none⟩
  else ⟨false, "free_values_" ++ countName r a, [], [("ptr", "usize")], "()",
    [.run (.call "stack_deallocate_values" [] [.var "ptr", .int (r + a)])], none⟩

/-- `generate_free_values_buffer_specialized`: RGEN 337-347. -/
def rustFreeValues (t : FuncType) : SFn :=
  ⟨true, freeValuesName t, [], [("ptr", "usize")], "()",
    [.run (.call ("free_values_" ++ countName t.results.length t.inputs.length) [] [.var "ptr"])], none⟩

/-- `generate_free_types_buffer_generic`: RGEN 349-360. -/
def rustFreeTypesGeneric (r a : Nat) : SFn :=
  ⟨false, "free_types_" ++ countName r a, [], [("ptr", "usize")], "()",
    [.run (.call "stack_deallocate_types" [] [.var "ptr", .int (r + a)])], none⟩

/-- `generate_free_types_buffer_specialized`: RGEN 362-372. -/
def rustFreeTypes (t : FuncType) : SFn :=
  ⟨true, freeTypesName t, [], [("ptr", "usize")], "()",
    [.run (.call ("free_types_" ++ countName t.results.length t.inputs.length) [] [.var "ptr"])], none⟩

/-- `generate_store_rets_generic`: RGEN 374-402. -/
def rustStoreRetsGeneric (r a : Nat) : SFn :=
  ⟨false, "store_rets_" ++ countName r a, [],
    (if r = 0 then "_stack_ptr" else "stack_ptr", "usize") :: (List.range r).map (fun n => (argVar n, "WasmValue")), "()",
    (List.range r).map (fun n => .run (.call ("store_ret" ++ n.repr ++ "_" ++ countName r a) [] [.var "stack_ptr", .var (argVar n)])), none⟩

/-- `generate_store_rets_specialized`: RGEN 404-444. -/
def rustStoreRets (t : FuncType) : SFn :=
  ⟨true, storeRetsName t, [], ("stack_ptr", "usize") :: t.results.mapIdx (fun i v => (argVar i, v.asStr)), "()",
    [.run (.call ("store_rets_" ++ countName t.results.length t.inputs.length) []
      (.var "stack_ptr" :: t.results.mapIdx fun i v => .new (rustConstructor v) (argVar i)))], none⟩

/-- The generic functions for a pair of counts, in the order of RGEN 692-702. -/
def rustGeneric (r a : Nat) : List SFn :=
  [rustAllocateGeneric r a] ++
    ((List.range a).map (rustLoadGeneric r a .arg) ++ (List.range r).map (rustLoadGeneric r a .ret)) ++
    ((List.range a).map (rustStoreGeneric r a .arg) ++ (List.range r).map (rustStoreGeneric r a .ret)) ++
    [rustFreeValuesGeneric r a, rustStoreRetsGeneric r a, rustAllocateTypesGeneric r a, rustFreeTypesGeneric r a]

/-- The exported functions for a signature, in the order of RGEN 705-715. -/
def rustSpecial (t : FuncType) : List SFn :=
  [rustAllocate t] ++
    (t.inputs.mapIdx (rustLoad t .arg) ++ t.results.mapIdx (rustLoad t .ret)) ++
    (t.inputs.mapIdx (rustStore t .arg) ++ t.results.mapIdx (rustStore t .ret)) ++
    [rustFreeValues t, rustStoreRets t, rustAllocateTypes t, rustFreeTypes t]

/-! ## The fixed part -/

/-- An exported accessor reading a value: RGEN 624-650. -/
def rustTypedLoad (ty : String) : SFn :=
  ⟨true, "wastrumentation_stack_load_" ++ ty, [], [("ptr", "usize"), ("offset", "usize")], ty,
    [.bind "wasm_val" (.call "wastrumentation_memory_load" [] [.var "ptr", .var "offset"])], some (.field "wasm_val" ty)⟩

/-- An exported accessor writing a value: RGEN 648-666. -/
def rustTypedStore (ty : String) : SFn :=
  ⟨true, "wastrumentation_stack_store_" ++ ty, [], [("ptr", "usize"), ("value", ty), ("offset", "usize")], "()",
    [.run (.call "wastrumentation_memory_store" [] [.var "ptr", .new ("new_" ++ ty) "value", .var "offset"])], none⟩

/-- The exported reader of type codes: RGEN 616-621; the dereference is the fixed function `*ptr.add(offset)` below. -/
def rustLoadType : SFn :=
  ⟨true, "wastrumentation_stack_load_type", [], [("ptr", "usize"), ("offset", "usize")], "i32", [],
    some (.call "*ptr.add(offset)" [] [.var "ptr", .var "offset"])⟩

/-- The exported functions of `LIB_BOILERPLATE`: RGEN 616-666. -/
def rustBoilerplate : List SFn :=
  rustLoadType :: ["i32", "f32", "i64", "f64"].map rustTypedLoad ++ ["i32", "f32", "i64", "f64"].map rustTypedStore

/-- `generate_lib` with `generate_lib_for`: RGEN 671-722. -/
def rustLib (sigs : List FuncType) : List SFn := rustBoilerplate ++ sourceLoop rustGeneric rustSpecial [] [] sigs

/-- Types in scope. -/
def rustTypes : String → Bool
  | "usize" => true | "i32" => true | "i64" => true | "f32" => true | "f64" => true | "WasmValue" => true | "RuntimeType" => true | "RefType" => true
  | _ => false

/-- Types of the functions of `LIB_BOILERPLATE` that are not exported: RGEN 560-613. -/
def rustPrimSigs : String → Option SSig
  | "wastrumentation_memory_load" => some ⟨[], ["usize", "usize"], "WasmValue"⟩
  | "wastrumentation_memory_store" => some ⟨[], ["usize", "WasmValue", "usize"], "()"⟩
  | "stack_allocate_types" => some ⟨[], ["usize"], "usize"⟩
  | "stack_deallocate_types" => some ⟨[], ["usize", "usize"], "()"⟩
  | "stack_allocate_values" => some ⟨[], ["usize"], "usize"⟩
  | "stack_deallocate_values" => some ⟨[], ["usize", "usize"], "()"⟩
  | "wastrumentation_stack_store_type" => some ⟨[], ["usize", "usize", "RuntimeType"], "()"⟩
  | "*ptr.add(offset)" => some ⟨[], ["usize", "usize"], "i32"⟩
  | _ => none

/-- The global allocator (`wee_alloc`, RGEN 461-463), a parameter: `alloc size align` returns an address, 0 being null;
both may change the memory; `zero` says whether it supports requests of size zero, which the contract of `GlobalAlloc` does not ask for. -/
structure Allocator (α : Type) where
  zero : Bool
  alloc : Nat → Nat → α → Mem → Nat × α × Mem
  dealloc : Nat → Nat → Nat → α → Mem → α × Mem

/-- State of the compiled library. -/
structure RState (α : Type) where
  heap : α
  mem : Mem

/-- A pointer may be dereferenced at a type of `w` bytes (aligned to `w`): not null, aligned, and inside the memory. Everything else is
undefined behaviour. -/
def derefable (m : Mem) (p k w : Nat) : Bool := p != 0 && p % w == 0 && p + w * k + w ≤ m.size

/-- A layout `Layout::from_size_align_unchecked` may be asked for: the size, rounded up to the alignment, is at most `isize::MAX`. -/
def layoutOk (size align : Nat) : Bool := size + (align - 1) ≤ 2 ^ 31 - 1

/-- Writing a `WasmValue`; the bytes not initialised get whatever the compiled code leaves there (`junk`). -/
def putUnion (junk : Mem → Nat → Nat) (m : Mem) (a x w : Nat) : Mem :=
  if w = 8 then m.put a 8 x else (m.put a 4 x).put (a + 4) 4 (junk m a)

/-- The functions of `LIB_BOILERPLATE` that are not exported: RGEN 560-613. `size_of` and `align_of` are 8 for `WasmValue` and
4 for `RuntimeType`. Asking the allocator for a layout of size zero, or returning one, is undefined behaviour unless the allocator supports it (contract of
`GlobalAlloc::alloc`). Reading
memory that was never written is undefined behaviour in Rust; here it gives whatever is there. -/
def rustPrim {α : Type} (A : Allocator α) (junk : Mem → Nat → Nat) (name : String) (_ts : List String) (args : List SVal) (s : RState α) :
    Option (SRes (RState α) SVal) :=
  match name, args with
  | "wastrumentation_memory_load", [.num (.i32 p), .num (.i32 k)] => some <|
    if derefable s.mem p.toNat k.toNat 8 then .ok (.union (s.mem.word (p.toNat + 8 * k.toNat) 8) 8) s else .ub
  | "wastrumentation_memory_store", [.num (.i32 p), .union x w, .num (.i32 k)] => some <|
    if derefable s.mem p.toNat k.toNat 8 then .ok .unit ⟨s.heap, putUnion junk s.mem (p.toNat + 8 * k.toNat) x w⟩ else .ub
  | "stack_allocate_types", [.num (.i32 n)] => some <|
    if (4 * n.toNat = 0 ∧ A.zero = false) ∨ layoutOk (4 * n.toNat) 4 = false then .ub
    else
      let (p, h, m) := A.alloc (4 * n.toNat) 4 s.heap s.mem
      .ok (.num (.i32 (BitVec.ofNat 32 p))) ⟨h, m⟩
  | "stack_deallocate_types", [.num (.i32 p), .num (.i32 n)] => some <|
    if (4 * n.toNat = 0 ∧ A.zero = false) ∨ layoutOk (4 * n.toNat) 4 = false then .ub
    else
      let (h, m) := A.dealloc p.toNat (4 * n.toNat) 4 s.heap s.mem
      .ok .unit ⟨h, m⟩
  | "stack_allocate_values", [.num (.i32 n)] => some <|
    if (n.toNat * 8 = 0 ∧ A.zero = false) ∨ layoutOk (n.toNat * 8) 8 = false then .ub
    else
      let (p, h, m) := A.alloc (n.toNat * 8) 8 s.heap s.mem
      .ok (.num (.i32 (BitVec.ofNat 32 p))) ⟨h, m⟩
  | "stack_deallocate_values", [.num (.i32 p), .num (.i32 n)] => some <|
    if (n.toNat * 8 = 0 ∧ A.zero = false) ∨ layoutOk (n.toNat * 8) 8 = false then .ub
    else
      let (h, m) := A.dealloc p.toNat (n.toNat * 8) 8 s.heap s.mem
      .ok .unit ⟨h, m⟩
  | "wastrumentation_stack_store_type", [.num (.i32 p), .num (.i32 k), .num (.i32 ty)] => some <|
    if derefable s.mem p.toNat k.toNat 4 then .ok .unit ⟨s.heap, s.mem.put (p.toNat + 4 * k.toNat) 4 ty.toNat⟩ else .ub
  | "*ptr.add(offset)", [.num (.i32 p), .num (.i32 k)] => some <|
    if derefable s.mem p.toNat k.toNat 4 ∧ s.mem.word (p.toNat + 4 * k.toNat) 4 ≤ 5 then
      .ok (.num (.i32 (BitVec.ofNat 32 (s.mem.word (p.toNat + 4 * k.toNat) 4)))) s
    else .ub
  | _, _ => none

/-- Calling an exported function of the library compiled from Rust. -/
def rustCall {α : Type} (A : Allocator α) (junk : Mem → Nat → Nat) (sigs : List FuncType) (name : String) (args : List Val) (s : RState α) : SRes (RState α) SVal :=
  exportCall (rustPrim A junk) (rustLib sigs) 4 name args s

end Wastrum
