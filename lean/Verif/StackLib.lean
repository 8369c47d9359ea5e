import Verif.Semantics
import Verif.StackHooks
/-!
# The generated stack library (model)

Models the WebAssembly-text generator of the stack library,
`supported-languages/webassembly/src/generate/instrumentation/mod.rs` (`GEN` below), as a function from
signatures to the syntax tree of the generated `.wat` text.

Simplifications: the text is modelled by its syntax tree, folded expressions being unfolded in evaluation
order (as the text format defines); parameters, locals and globals are numbered in order of declaration
instead of named (their names are local to one function, or fixed); comments, white space and the unused
`(type $type_..)` declarations (GEN 75-101, 118-125) are left out. Function identifiers (`$name`) and export
names are kept as strings, because whether they clash is a property to be proved.
-/

namespace Wastrum

/-- An instruction of the text format, functions being called by identifier. The only structured
instructions in the generated text have no parameters and results. -/
inductive WI where
  | ins (b : Basic)
  | call (name : String)
  | loop (body : List WI)
  | ifThen (thn : List WI)
  | ifElse (thn els : List WI)

/-- A function of the generated text. `id` is the identifier (without `$`), `exps` the export names. -/
structure WatFunc where
  id : Option String
  exps : List String
  params : List ValType
  results : List ValType
  locals : List ValType
  body : List WI

/-- The type of a function. -/
def WatFunc.type (f : WatFunc) : FuncType := ⟨f.params, f.results⟩

/-! ## Abbreviations for the text -/

/-- `(local.get i)` -/
def lget (i : Nat) : WI := .ins (.loc .get i)
/-- `(local.set i)` -/
def lset (i : Nat) : WI := .ins (.loc .set i)
/-- `(i32.const n)` -/
def i32c (n : Nat) : WI := .ins (.const (.i32 (BitVec.ofNat 32 n)))
/-- `(global.get i)` -/
def gget (i : Nat) : WI := .ins (.glob .get i)
/-- `(global.set i)` -/
def gset (i : Nat) : WI := .ins (.glob .set i)
/-- a binary operator -/
def bin (op : BinaryOp) : WI := .ins (.binary op)
/-- a unary operator -/
def un (op : UnaryOp) : WI := .ins (.unary op)

/-- Global `$stack_free_ptr`: GEN 541. -/
def gFree : Nat := 0
/-- Global `$total_memory`: GEN 542. -/
def gTotal : Nat := 1
/-- Global `$memory_growth_size`: GEN 545. -/
def gGrowth : Nat := 2
/-- Global `$page_byte_size`: GEN 546. -/
def gPage : Nat := 3
/-- Global `$size_wasm_value`: GEN 547. -/
def gValue : Nat := 4
/-- Global `$size_wasm_type`: GEN 548. -/
def gType : Nat := 5

/-! ## The fixed part -/

/-- `$grow_memory`: GEN 551-559. -/
def wGrowMemory : WatFunc := ⟨some "grow_memory", [], [], [], [],
  [gget gGrowth, .ins (.memoryGrow 0), .ins (.const (.i32 (-1))), bin .i32Eq,
   .ifElse [.ins .unreachable] [gget gTotal, gget gGrowth, bin .i32Add, gset gTotal]]⟩

/-- `$total_used_memory_in_bytes`: GEN 562-563. -/
def wTotalUsed : WatFunc := ⟨some "total_used_memory_in_bytes", [], [], [.i32], [],
  [gget gTotal, gget gPage, bin .i32Mul]⟩

/-- `$stack_allocate`: GEN 566-583. Local 1 is `$stack_free_ptr_before`, local 2 `$stack_free_ptr_after`. -/
def wStackAllocate : WatFunc := ⟨some "stack_allocate", [], [.i32], [.i32], [.i32, .i32],
  [gget gFree, lset 1,
   gget gFree, lget 0, bin .i32Add, lset 2,
   .loop [lget 2, .call "total_used_memory_in_bytes", bin .i32GtU, .ifThen [.call "grow_memory", .ins (.br 1)]],
   lget 2, gset gFree,
   lget 1]⟩

/-- `$stack_deallocate`: GEN 586-589. -/
def wStackDeallocate : WatFunc := ⟨some "stack_deallocate", [], [.i32, .i32], [], [],
  [gget gFree, lget 1, bin .i32Sub, gset gFree]⟩

/-- `$stack_allocate_values`: GEN 592-594. -/
def wAllocateValues : WatFunc := ⟨some "stack_allocate_values", [], [.i32], [.i32], [],
  [lget 0, gget gValue, bin .i32Mul, .call "stack_allocate"]⟩

/-- `$stack_deallocate_values`: GEN 597-599. -/
def wDeallocateValues : WatFunc := ⟨some "stack_deallocate_values", [], [.i32, .i32], [], [],
  [lget 0, lget 1, gget gValue, bin .i32Mul, .call "stack_deallocate"]⟩

/-- `$stack_allocate_types`: GEN 602-604. -/
def wAllocateTypes : WatFunc := ⟨some "stack_allocate_types", [], [.i32], [.i32], [],
  [lget 0, gget gType, bin .i32Mul, .call "stack_allocate"]⟩

/-- `$stack_deallocate_types`: GEN 607-609. -/
def wDeallocateTypes : WatFunc := ⟨some "stack_deallocate_types", [], [.i32, .i32], [], [],
  [lget 0, lget 1, gget gType, bin .i32Mul, .call "stack_deallocate"]⟩

/-- `i64.load` as in GEN 613. -/
def i64Load : WI := .ins (.load .i64Load ⟨0, 3⟩)
/-- `i64.store` as in GEN 621. -/
def i64Store : WI := .ins (.store .i64Store ⟨0, 3⟩)
/-- `i32.load` as in GEN 631. -/
def i32Load : WI := .ins (.load .i32Load ⟨0, 2⟩)
/-- `i32.store` as in GEN 639. -/
def i32Store : WI := .ins (.store .i32Store ⟨0, 2⟩)

/-- `$wastrumentation_memory_load`: GEN 612-618. -/
def wMemoryLoad : WatFunc := ⟨some "wastrumentation_memory_load", [], [.i32, .i32], [.i64], [],
  [lget 0, lget 1, gget gValue, bin .i32Mul, bin .i32Add, i64Load]⟩

/-- `$wastrumentation_memory_store`: GEN 620-627. -/
def wMemoryStore : WatFunc := ⟨some "wastrumentation_memory_store", [], [.i32, .i64, .i32], [], [],
  [lget 0, lget 2, gget gValue, bin .i32Mul, bin .i32Add, lget 1, i64Store]⟩

/-- `wastrumentation_stack_load_type`: GEN 630-636. -/
def wLoadType : WatFunc := ⟨none, ["wastrumentation_stack_load_type"], [.i32, .i32], [.i32], [],
  [lget 0, lget 1, gget gType, bin .i32Mul, bin .i32Add, i32Load]⟩

/-- `$wastrumentation_stack_store_type`: GEN 638-645. -/
def wStoreType : WatFunc :=
  ⟨some "wastrumentation_stack_store_type", ["wastrumentation_stack_store_type"], [.i32, .i32, .i32], [], [],
  [lget 0, lget 1, gget gType, bin .i32Mul, bin .i32Add, lget 2, i32Store]⟩

/-- `wastrumentation_stack_load_{i32,f32,i64,f64}`: GEN 648-662. -/
def wLoads : List WatFunc :=
  [⟨none, ["wastrumentation_stack_load_i32"], [.i32, .i32], [.i32], [],
    [lget 0, lget 1, .call "wastrumentation_memory_load", un .i32WrapI64]⟩,
   ⟨none, ["wastrumentation_stack_load_f32"], [.i32, .i32], [.f32], [],
    [lget 0, lget 1, .call "wastrumentation_memory_load", un .i32WrapI64, un .f32ReinterpretI32]⟩,
   ⟨none, ["wastrumentation_stack_load_i64"], [.i32, .i32], [.i64], [],
    [lget 0, lget 1, .call "wastrumentation_memory_load"]⟩,
   ⟨none, ["wastrumentation_stack_load_f64"], [.i32, .i32], [.f64], [],
    [lget 0, lget 1, .call "wastrumentation_memory_load", un .f64ReinterpretI64]⟩]

/-- `wastrumentation_stack_store_{i32,f32,i64,f64}`: GEN 664-677. -/
def wStores : List WatFunc :=
  [⟨none, ["wastrumentation_stack_store_i32"], [.i32, .i32, .i32], [], [],
    [lget 0, lget 1, un .i64ExtendI32U, lget 2, .call "wastrumentation_memory_store"]⟩,
   ⟨none, ["wastrumentation_stack_store_f32"], [.i32, .f32, .i32], [], [],
    [lget 0, lget 1, un .i32ReinterpretF32, un .i64ExtendI32U, lget 2, .call "wastrumentation_memory_store"]⟩,
   ⟨none, ["wastrumentation_stack_store_i64"], [.i32, .i64, .i32], [], [],
    [lget 0, lget 1, lget 2, .call "wastrumentation_memory_store"]⟩,
   ⟨none, ["wastrumentation_stack_store_f64"], [.i32, .f64, .i32], [], [],
    [lget 0, lget 1, un .i64ReinterpretF64, lget 2, .call "wastrumentation_memory_store"]⟩]

/-- `WAT_BOILERPLATE`: GEN 537-678. -/
def boilerplate : List WatFunc :=
  [wGrowMemory, wTotalUsed, wStackAllocate, wStackDeallocate, wAllocateValues, wDeallocateValues,
   wAllocateTypes, wDeallocateTypes, wMemoryLoad, wMemoryStore, wLoadType, wStoreType] ++ wLoads ++ wStores

/-! ## Functions per number of results and arguments -/

/-- `ret_{ret_count}_arg_{arg_count}`: GEN 69-73, 166, 214, 274. -/
def countName (r a : Nat) : String := "ret_" ++ r.repr ++ "_arg_" ++ a.repr

/-- Store one argument: GEN 193-204. Local `a` (after the `a` parameters) is `$stack_ptr`. -/
def storeArgument (r a i : Nat) : List WI := [lget a, lget i, i32c (r + i), .call "wastrumentation_memory_store"]

/-- `generate_allocate_generic_wat`: GEN 164-211. -/
def genericAllocate (r a : Nat) : WatFunc :=
  if r + a = 0 then ⟨some ("allocate_" ++ countName r a), [], [], [.i32], [], [i32c 0]⟩
  else ⟨some ("allocate_" ++ countName r a), [], List.replicate a .i64, [.i32], [.i32],
    [i32c (r + a), .call "stack_allocate_values", lset a] ++ (List.range a).flatMap (storeArgument r a) ++ [lget a]⟩

/-- One load function: GEN 217-240. -/
def genericLoad (r a : Nat) (side : Side) (i slot : Nat) : WatFunc :=
  ⟨some ("load_" ++ side.asStr ++ i.repr ++ "_" ++ countName r a), [], [.i32], [.i64], [],
    [lget 0, i32c slot, .call "wastrumentation_memory_load"]⟩

/-- One store function: GEN 242-267. -/
def genericStore (r a : Nat) (side : Side) (i slot : Nat) : WatFunc :=
  ⟨some ("store_" ++ side.asStr ++ i.repr ++ "_" ++ countName r a), [], [.i32, .i64], [], [],
    [lget 0, lget 1, i32c slot, .call "wastrumentation_memory_store"]⟩

/-- `generate_load_store_generic_wat`: GEN 213-270. -/
def genericLoadStore (r a : Nat) : List WatFunc :=
  (List.range a).map (fun i => genericLoad r a .arg i (r + i)) ++
  (List.range r).map (fun i => genericLoad r a .ret i i) ++
  (List.range a).map (fun i => genericStore r a .arg i (r + i)) ++
  (List.range r).map (fun i => genericStore r a .ret i i)

/-- `generate_free_generic_wat`: GEN 272-293. -/
def genericFree (r a : Nat) : WatFunc :=
  if r + a = 0 then ⟨some ("free_values_" ++ countName r a), [], [.i32], [], [], []⟩
  else ⟨some ("free_values_" ++ countName r a), [], [.i32], [], [],
    [lget 0, i32c (r + a), .call "stack_deallocate_values"]⟩

/-- All functions for one number of results and arguments: GEN 131-150. -/
def genericFunctions (r a : Nat) : List WatFunc := genericAllocate r a :: genericLoadStore r a ++ [genericFree r a]

/-! ## Functions per signature -/

/-- `wat_type`: GEN 22-31. -/
def ValType.watStr : ValType → String
  | .i32 => "i32" | .f32 => "f32" | .i64 => "i64" | .f64 => "f64"
  | .ref .funcRef => "funcref" | .ref .externRef => "externref"

/-- `mangled_wat_name`: GEN 47-67. (A join is empty iff the list is: no type token is empty.) -/
def mangledName (t : FuncType) : String :=
  let rets := joinUnderscore (t.results.map ValType.watStr)
  let args := joinUnderscore (t.inputs.map ValType.watStr)
  match t.results.isEmpty, t.inputs.isEmpty with
  | true, true => "ret_arg"
  | true, false => "ret_arg_" ++ args
  | false, true => "ret_" ++ rets ++ "_arg"
  | false, false => "ret_" ++ rets ++ "_arg_" ++ args

/-- `wasm_type_to_i64_conversion`: GEN 295-303. -/
def watToI64 : ValType → List WI
  | .i32 => [un .i64ExtendI32U]
  | .f32 => [un .i32ReinterpretF32, un .i64ExtendI32U]
  | .i64 => []
  | .f64 => [un .i64ReinterpretF64]
  | .ref _ => [un .i64ExtendI32U]

/-- `i64_to_wasm_type_conversion`: GEN 305-313. -/
def watFromI64 : ValType → List WI
  | .i32 => [un .i32WrapI64]
  | .f32 => [un .i32WrapI64, un .f32ReinterpretI32]
  | .i64 => []
  | .f64 => [un .f64ReinterpretI64]
  | .ref _ => [un .i32WrapI64]

/-- The exported `allocate_..`: GEN 356-375. -/
def specialAllocate (t : FuncType) : WatFunc :=
  ⟨none, ["allocate_" ++ mangledName t], t.inputs, [.i32], [],
    (t.inputs.mapIdx fun i v => lget i :: watToI64 v).flatten ++
      [.call ("allocate_" ++ countName t.results.length t.inputs.length)]⟩

/-- An exported load function: GEN 377-407. -/
def specialLoad (t : FuncType) (side : Side) (i : Nat) (v : ValType) : WatFunc :=
  ⟨none, ["load_" ++ side.asStr ++ i.repr ++ "_" ++ mangledName t], [.i32], [v], [],
    [lget 0, .call ("load_" ++ side.asStr ++ i.repr ++ "_" ++ countName t.results.length t.inputs.length)] ++ watFromI64 v⟩

/-- An exported store function: GEN 409-447. -/
def specialStore (t : FuncType) (side : Side) (i : Nat) (v : ValType) : WatFunc :=
  ⟨none, ["store_" ++ side.asStr ++ i.repr ++ "_" ++ mangledName t], [.i32, v], [], [],
    [lget 0, lget 1] ++ watToI64 v ++
      [.call ("store_" ++ side.asStr ++ i.repr ++ "_" ++ countName t.results.length t.inputs.length)]⟩

/-- Store one result: GEN 463-479. -/
def storeResult (t : FuncType) (i : Nat) (v : ValType) : List WI :=
  [lget 0, lget (i + 1)] ++ watToI64 v ++
    [.call ("store_ret" ++ i.repr ++ "_" ++ countName t.results.length t.inputs.length)]

/-- The exported `store_rets_..`: GEN 449-481. -/
def specialStoreRets (t : FuncType) : WatFunc :=
  ⟨none, ["store_rets_" ++ mangledName t], .i32 :: t.results, [], [], (t.results.mapIdx (storeResult t)).flatten⟩

/-- One store of `generate_type_stores`: GEN 316-349. Local 0 is `$types_buffer`. -/
def storeTypeAt (index : Nat) (v : ValType) : List WI :=
  [lget 0, i32c index, i32c v.runtimeEnumValue, .call "wastrumentation_stack_store_type"]

/-- `generate_type_stores`: GEN 316-349. -/
def typeStores (t : FuncType) : List WI :=
  (t.results.mapIdx storeTypeAt).flatten ++ (t.inputs.mapIdx fun i v => storeTypeAt (t.results.length + i) v).flatten

/-- The exported `allocate_types_..` and `free_types_..`: GEN 483-522. -/
def specialTypes (t : FuncType) : List WatFunc :=
  let total := t.results.length + t.inputs.length
  if total > 0 then
    [⟨none, ["allocate_types_" ++ mangledName t], [], [.i32], [.i32],
      [i32c total, .call "stack_allocate_types", lset 0] ++ typeStores t ++ [lget 0]⟩,
     ⟨none, ["free_types_" ++ mangledName t], [.i32], [], [], [lget 0, i32c total, .call "stack_deallocate_types"]⟩]
  else
    [⟨none, ["allocate_types_" ++ mangledName t], [], [.i32], [], [i32c 0]⟩,
     ⟨none, ["free_types_" ++ mangledName t], [.i32], [], [], []⟩]

/-- The exported `free_values_..`: GEN 524-530. -/
def specialFree (t : FuncType) : WatFunc :=
  ⟨none, ["free_values_" ++ mangledName t], [.i32], [], [],
    [lget 0, .call ("free_values_" ++ countName t.results.length t.inputs.length)]⟩

/-- `generate_specialized_functions_wat`: GEN 351-533. -/
def specialFunctions (t : FuncType) : List WatFunc :=
  specialAllocate t ::
  t.inputs.mapIdx (fun i v => specialLoad t .arg i v) ++
  t.results.mapIdx (fun i v => specialLoad t .ret i v) ++
  t.inputs.mapIdx (fun i v => specialStore t .arg i v) ++
  t.results.mapIdx (fun i v => specialStore t .ret i v) ++
  [specialStoreRets t] ++ specialTypes t ++ [specialFree t]

/-! ## The whole library -/

/-- A loop that generates something for every key not met before (`HashSet` of processed keys): GEN 118-125,
131-150, 152-159. -/
def forNew {α κ β : Type} [DecidableEq κ] (key : α → κ) (gen : α → List β) : List κ → List α → List β
  | _, [] => []
  | seen, x :: xs =>
    if key x ∈ seen then forNew key gen seen xs else gen x ++ forNew key gen (key x :: seen) xs

/-- The key of the generic functions: GEN 133. -/
def counts (t : FuncType) : Nat × Nat := (t.results.length, t.inputs.length)

/-- `generate_lib` with `generate_wat_functions`: GEN 104-162. -/
def generateLib (sigs : List FuncType) : List WatFunc :=
  boilerplate ++ forNew counts (fun t => genericFunctions t.results.length t.inputs.length) [] sigs ++
    forNew id specialFunctions [] sigs

/-! ## Running it -/

/-- The index that an identifier stands for (text format: the position of the function so named). -/
def idIndex (fs : List WatFunc) (name : String) : Nat := fs.findIdx fun f => f.id == some name

mutual
/-- Resolve identifiers to indices. -/
def WI.resolve (ix : String → Nat) : WI → HI
  | .ins b => .basic b
  | .call n => .basic (.call (ix n))
  | .loop b => .loop ⟨[], []⟩ (resolveL ix b)
  | .ifThen t => .ifThen ⟨[], []⟩ (resolveL ix t)
  | .ifElse t e => .ifElse ⟨[], []⟩ (resolveL ix t) (resolveL ix e)
/-- Resolve identifiers to indices. -/
def resolveL (ix : String → Nat) : List WI → List HI
  | [] => []
  | i :: l => i.resolve ix :: resolveL ix l
end

/-- The functions of the library as a machine. -/
def watMachine (fs : List WatFunc) : Machine Unit := fun k =>
  fs[k]?.map fun f => (f.type, .code f.locals fun E => denL E (resolveL (idIndex fs) f.body))

/-- The state of a freshly instantiated library: globals GEN 541-548, memory of one page GEN 540. The limit
is the embedder's. -/
def libStart (limit : Nat) : Store Unit :=
  ⟨[.i32 0, .i32 1, .i32 1, .i32 65536, .i32 8, .i32 4], [⟨1, limit, fun _ => 0⟩], [], [], [], ()⟩

/-- The index of the function exported under a name. -/
def exportIndex (fs : List WatFunc) (name : String) : Nat := fs.findIdx fun f => name ∈ f.exps

/-- Calling the library function exported as `name`. -/
def libCall (N : Num) (fs : List WatFunc) (L d : Nat) (name : String) (args : List RVal) (s : Store Unit) : Res Unit :=
  callF N (watMachine fs) L d (exportIndex fs name) args s

end Wastrum
