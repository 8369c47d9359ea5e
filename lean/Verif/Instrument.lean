import Verif.Nesting
import Verif.Interface
import Verif.StackHooks
/-!
# Instrumentation of a module (model)

Models `wastrumentation/src/instrument/mod.rs` 40-330, `wastrumentation/src/instrument/function_application.rs`
and the `inject_memory_*` functions of `wastrumentation/src/instrument/memory.rs` 373-545.

Parsing and encoding of the binary format are done by `wasabi_wasm` and are not modelled: the model starts
from a parsed module and ends with a module. `wasabi_wasm` keeps imported and defined functions in one list.
-/

namespace Wastrum

/-- `wasabi_wasm::Table` (`function_application.rs` 187-195). -/
structure TableDef where
  initial : Nat
  max : Option Nat
  imported : Option (String × String)
  ref : RefType
  exports : List String
  deriving DecidableEq, Repr

/-- `wasabi_wasm::ElementMode` (`function_application.rs` 205-208). -/
inductive ElemMode where
  | active (table : Nat) (offset : List LInstr) | passive | declarative
  deriving DecidableEq, Repr

/-- `wasabi_wasm::Element` (`function_application.rs` 202-209). -/
structure Element where
  ref : RefType
  init : List (List LInstr)
  mode : ElemMode
  deriving DecidableEq, Repr

/-- `wasabi_wasm::Memory`: limits, import and export names. -/
structure MemDef where
  initial : Nat
  max : Option Nat
  imported : Option (String × String)
  exports : List String
  deriving DecidableEq, Repr

/-- `wasabi_wasm::Global`. -/
structure GlobalDef where
  type : ValType
  mutbl : Bool
  init : Option (List LInstr)
  imported : Option (String × String)
  exports : List String
  deriving DecidableEq, Repr

/-- `wasabi_wasm::Data`: mode (memory and offset of an active segment) and bytes. -/
structure DataDef where
  active : Option (Nat × List LInstr)
  bytes : List (BitVec 8)
  deriving DecidableEq, Repr

/-- `wasabi_wasm::Module` (debug names and custom sections are dropped). -/
structure Module where
  functions : List Func
  tables : List TableDef
  elements : List Element
  memories : List MemDef
  globals : List GlobalDef
  datas : List DataDef
  start : Option Nat
  deriving DecidableEq, Repr

/-- The type checker of `wasabi_wasm` used by `typed_indexed_instr.rs` (trusted, a parameter): its state, its
initial state for a function of a module, and its step. -/
structure Checker where
  S : Type
  init : Module → Func → S
  check : S → LInstr → Option (S × InferredTy)

/-- How instrumentation can end other than well: `InstrumentationError` (`error.rs`), or a panic at one of the
named places. -/
inductive IError where
  | lowToHigh (e : LowToHighError)
  | attemptInnerInstrumentImport
  /-- the assertion in the nesting of bodies -/
  | nestPanic
  /-- a panic in one of the passes -/
  | passPanic (p : Panic)
  /-- `assert!(module.memories.len() <= 1)` -/
  | memoryAssert
  /-- `i32::try_from(..).unwrap()` / `u32::try_from(..).unwrap()` -/
  | conversion
  /-- an index outside the module (`wasabi_wasm` panics) -/
  | badIndex
  deriving DecidableEq, Repr

/-- `i32::try_from(x).unwrap()` / `u32::try_from(x).unwrap()` outside the passes (`function_application.rs`
134-142, 185). Same as `toI32` up to the error. -/
def appI32 (n : Nat) : Except IError (BitVec 32) :=
  if n < 2 ^ 31 then .ok (BitVec.ofNat 32 n) else .error .conversion

/-! ## Which functions -/

/-- `ValType::Ref(_)`. -/
def ValType.isRef : ValType → Bool
  | .ref _ => true
  | _ => false

/-- `uses_reference_types`: `instrument/mod.rs` 302-316. -/
def usesReferenceTypes (f : Func) : Bool := f.type.inputs.any ValType.isRef || f.type.results.any ValType.isRef

/-- `f.code().is_some()`. -/
def Func.hasCode (f : Func) : Bool := match f.code with
  | .present _ => true
  | .imported _ _ => false

/-- `target_indices.as_ref().is_none_or(|ts| ts.contains(..))`: `instrument/mod.rs` 131-135, 143-147. -/
def listed (ts : Option (List Nat)) (i : Nat) : Bool := match ts with
  | none => true
  | some ts => ts.contains i

/-- `target_indices_including_imports`: `instrument/mod.rs` 127-136 (as a list in index order; the set's
iteration order is applied where it is iterated). -/
def applyTargets (m : Module) (ts : Option (List Nat)) : List Nat :=
  ((m.functions.zipIdx.filter fun p => !usesReferenceTypes p.1).map (·.2)).filter (listed ts)

/-- `target_indices`: `instrument/mod.rs` 138-148. -/
def bodyTargets (m : Module) (ts : Option (List Nat)) : List Nat :=
  (((m.functions.zipIdx.filter fun p => p.1.hasCode).filter fun p => !usesReferenceTypes p.1).map (·.2)).filter (listed ts)

/-! ## Hooks on instructions -/

/-- The high-level body of one target: `instrument/mod.rs` 153-161. -/
def raiseTarget (C : Checker) (m : Module) (i : Nat) : Except IError (List TI) :=
  match m.functions[i]? with
  | none => .error .badIndex
  | some f => match f.code with
    | .imported _ _ => .error .attemptInnerInstrumentImport
    | .present c => match raiseFunction C.check (C.init m f) i c.body with
      | .ok b => .ok b
      | .error (.err e) => .error (.lowToHigh e)
      | .error .panic => .error .nestPanic

/-- `collect::<Result<Vec<_>, _>>()`: `instrument/mod.rs` 151-162. -/
def raiseTargets (C : Checker) (m : Module) : List Nat → Except IError (List (List TI))
  | [] => .ok []
  | i :: is => match raiseTarget C m i with
    | .error e => .error e
    | .ok b => match raiseTargets C m is with
      | .error e => .error e
      | .ok bs => .ok (b :: bs)

/-- `Instrumentable::install`: `instrument/mod.rs` 322-330. -/
def installHook (fs : List Func) (e : WasmExport) : Nat × List Func :=
  addFunctionImport fs e.funcType analysisModule e.name

/-- `targets`: `instrument/mod.rs` 244-252. -/
def installHooks (iface : Interface) : List (Trap × TargetKind) → List Func → List (TargetKind × Nat) × List Func
  | [], fs => ([], fs)
  | (t, k) :: r, fs => match iface.trap t with
    | none => installHooks iface r fs
    | some e =>
      let (i, fs) := installHook fs e
      let (ts, fs) := installHooks iface r fs
      ((k, i) :: ts, fs)

/-- `transformed_bodies`: `instrument/mod.rs` 254-261. -/
def transformAll (ts : List (TargetKind × Nat)) : List (List TI) → List Func → Except IError (List (List TI) × List Func)
  | [], fs => .ok ([], fs)
  | b :: bs, fs => match runPasses ts b fs with
    | .error p => .error (.passPanic p)
    | .ok (b, fs) => match transformAll ts bs fs with
      | .error e => .error e
      | .ok (bs, fs) => .ok (b :: bs, fs)

/-- The loop writing the transformed bodies back: `instrument/mod.rs` 263-275. -/
def writeBack : List (Nat × List TI) → List Func → Except IError (List Func)
  | [], fs => .ok fs
  | (i, b) :: r, fs => match fs[i]? with
    | none => .error .badIndex
    | some f => match f.code with
      | .imported _ _ => .error .attemptInnerInstrumentImport
      | .present c => writeBack r (fs.set i { f with code := .present ⟨c.locals, lowerTyped b⟩ })

/-- `instrument/mod.rs` 150-275: hooks on instructions. `order` is the iteration order of `target_indices`. -/
def instrumentBodies (C : Checker) (iface : Interface) (order : List Nat) (m : Module) : Except IError (List Func) :=
  match raiseTargets C m order with
  | .error e => .error e
  | .ok bodies =>
    let (targets, fs) := installHooks iface trapTable m.functions
    match transformAll targets bodies fs with
    | .error e => .error e
    | .ok (bodies, fs) => writeBack (order.zip bodies) fs

/-! ## Function application -/

/-- The body of the "base apply" function: `function_application.rs` 93-106. -/
def baseApplyBody (h : StackHooks) (uninstrumented : Nat) : List LInstr :=
  .loc .get 0 :: (h.argLoad.flatMap fun l => [.loc .get 0, .call l]) ++
    [.call uninstrumented, .call h.retStoreAll, .fin]

/-- The new body of an instrumented function: `function_application.rs` 119-182. `p` and `t` are the two fresh
locals (`add_fresh_local` of `wasabi_wasm` numbers them after the parameters, the code having been cleared). -/
def applyTrampoline (ty : FuncType) (h : StackHooks) (genericApply : Nat) (tableIndex funIndex argc resc present : BitVec 32) :
    List LInstr :=
  let p := ty.inputs.length
  let t := ty.inputs.length + 1
  (List.range ty.inputs.length).map (LInstr.loc .get) ++
  [.call h.allocateValues, .loc .set p, .call h.allocateTypes, .loc .set t,
   .const (.i32 tableIndex), .const (.i32 funIndex), .const (.i32 argc), .const (.i32 resc),
   .loc .get p, .loc .get t, .const (.i32 present), .call genericApply] ++
  (h.retLoad.flatMap fun l => [.loc .get p, .call l]) ++
  [.loc .get p, .call h.freeValues, .loc .get t, .call h.freeTypes, .fin]

/-- `CODE_IS_PRESENT` / `CODE_IS_IMPORT`: `function_application.rs` 28-29, 148-152. -/
def codePresent (f : Func) : BitVec 32 := if f.hasCode then 0 else 1

/-- The "uninstrumented" function: `function_application.rs` 67-87. -/
def addUninstrumented (f : Func) (fs : List Func) : Nat × List Func :=
  match f.code with
  | .imported ns name => addFunctionImport fs f.type ns name
  | .present c => addFunction fs f.type c.locals c.body

/-- One round of the loop over the functions to instrument: `function_application.rs` 58-183. `funs` are the
apply functions made so far. -/
def applyOne (links : List (FuncType × StackHooks)) (genericApply : Nat) (i : Nat) (funs : List Nat) (fs : List Func) :
    Except IError (List Nat × List Func) :=
  match fs[i]? with
  | none => .error .badIndex
  | some f => match links.lookup f.type with
    | none => .error .badIndex
    | some h =>
      let (un, fs) := addUninstrumented f fs
      let (ap, fs) := addFunction fs ⟨[.i32], []⟩ [.i32] (baseApplyBody h un)
      match appI32 f.type.inputs.length, appI32 f.type.results.length, appI32 funs.length, appI32 i with
      | .ok argc, .ok resc, .ok ti, .ok fi =>
        .ok (funs ++ [ap],
          fs.set i { f with code := .present ⟨[.i32, .i32], applyTrampoline f.type h genericApply ti fi argc resc (codePresent f)⟩ })
      | .error e, _, _, _ => .error e
      | _, .error e, _, _ => .error e
      | _, _, .error e, _ => .error e
      | _, _, _, .error e => .error e

/-- The loop over the functions to instrument: `function_application.rs` 58-183. -/
def applyAll (links : List (FuncType × StackHooks)) (genericApply : Nat) :
    List Nat → List Nat → List Func → Except IError (List Nat × List Func)
  | [], funs, fs => .ok (funs, fs)
  | i :: is, funs, fs => match applyOne links genericApply i funs fs with
    | .error e => .error e
    | .ok (funs, fs) => applyAll links genericApply is funs fs

/-- The body of `call_base`: `function_application.rs` 215-223. -/
def callBaseBody (table : Nat) : List LInstr :=
  [.loc .get 1, .loc .get 0, .callIndirect ⟨[.i32], []⟩ table, .fin]

/-- `function_application::instrument`: `function_application.rs` 32-232. Returns the module and the signatures
for which a stack library is to be generated. The `u32::try_from` of line 185 can fail only for more functions
than any module has; it is subsumed by the `appI32` of the loop. -/
def instrumentApply (order : List Nat) (genApply : WasmExport) (callBase : WasmImport) (m : Module) :
    Except IError (Module × List FuncType) :=
  let (ga, fs) := addFunctionImport m.functions genApply.funcType analysisModule genApply.name
  match linkAll order [] fs with
  | none => .error .badIndex
  | some (links, fs) =>
    match applyAll links ga order [] fs with
    | .error e => .error e
    | .ok (funs, fs) =>
      let table := m.tables.length
      let (cb, fs) := addFunction fs callBase.funcType [] (callBaseBody table)
      .ok ({ m with
        tables := m.tables ++ [⟨funs.length, some funs.length, none, .funcRef, []⟩]
        elements := m.elements ++ [⟨.funcRef, funs.map fun i => [.refFunc i, .fin], .active table [.const (.i32 0), .fin]⟩]
        functions := fs.modify cb fun f => { f with exports := f.exports ++ [callBase.name] } },
        links.map (·.1))

/-! ## Base memory functions -/

/-- `ValType::zero` of `wasabi_wasm`, as an instruction (`memory.rs` 415). -/
def zeroVal : ValType → Val
  | .i32 => .i32 0 | .i64 => .i64 0 | .f32 => .f32 0 | .f64 => .f64 0
  | .ref _ => .i32 0

/-- `Memarg::default(op)` of `wasabi_wasm`: offset 0, natural alignment (the alignment is a hint only). -/
def Memarg.default (alignExp : Nat) : Memarg := ⟨0, alignExp⟩

/-- Add an exported function: `add_function` followed by `export.push(name)` (`memory.rs` 431-435 and alike). -/
def addExported (t : FuncType) (body : List LInstr) (name : String) (fs : List Func) : List Func :=
  fs ++ [⟨t, .present ⟨[], body⟩, [name]⟩]

/-- The table of `inject_memory_loads`: `memory.rs` 389-407. -/
def loadExports : List (String × LoadOp × ValType) := [
  ("instrumented_base_load_i32", .i32Load, .i32),
  ("instrumented_base_load_i64", .i64Load, .i64),
  ("instrumented_base_load_f32", .f32Load, .f32),
  ("instrumented_base_load_f64", .f64Load, .f64),
  ("instrumented_base_load_i32_8S", .i32Load8S, .i32),
  ("instrumented_base_load_i32_8U", .i32Load8U, .i32),
  ("instrumented_base_load_i32_16S", .i32Load16S, .i32),
  ("instrumented_base_load_i32_16U", .i32Load16U, .i32),
  ("instrumented_base_load_i64_8S", .i64Load8S, .i64),
  ("instrumented_base_load_i64_8U", .i64Load8U, .i64),
  ("instrumented_base_load_i64_16S", .i64Load16S, .i64),
  ("instrumented_base_load_i64_16U", .i64Load16U, .i64),
  ("instrumented_base_load_i64_32S", .i64Load32S, .i64),
  ("instrumented_base_load_i64_32U", .i64Load32U, .i64)]

/-- Natural alignment of a load. -/
def LoadOp.alignExp : LoadOp → Nat
  | .i32Load | .f32Load | .i64Load32S | .i64Load32U => 2
  | .i64Load | .f64Load => 3
  | .i32Load8S | .i32Load8U | .i64Load8S | .i64Load8U => 0
  | .i32Load16S | .i32Load16U | .i64Load16S | .i64Load16U => 1

/-- The body in `inject_memory_loads`: `memory.rs` 411-429. -/
def baseLoadBody (noMemory : Bool) (op : LoadOp) (ty : ValType) : List LInstr :=
  if noMemory then [.const (zeroVal ty), .fin]
  else [.loc .get 0, .loc .get 1, .binary .i32Add, .load op (Memarg.default op.alignExp), .fin]

/-- `inject_memory_loads`: `memory.rs` 373-437. -/
def injectMemoryLoads (m : Module) : Except IError Module :=
  if m.memories.length ≤ 1 then
    .ok { m with functions := loadExports.foldl (fun fs e =>
      addExported ⟨[.i32, .i32], [e.2.2]⟩ (baseLoadBody m.memories.isEmpty e.2.1 e.2.2) e.1 fs) m.functions }
  else .error .memoryAssert

/-- The table of `inject_memory_stores`: `memory.rs` 447-460. -/
def storeExports : List (String × StoreOp × ValType) := [
  ("instrumented_base_store_i32", .i32Store, .i32),
  ("instrumented_base_store_i64", .i64Store, .i64),
  ("instrumented_base_store_f32", .f32Store, .f32),
  ("instrumented_base_store_f64", .f64Store, .f64),
  ("instrumented_base_store_i32_8", .i32Store8, .i32),
  ("instrumented_base_store_i32_16", .i32Store16, .i32),
  ("instrumented_base_store_i64_8", .i64Store8, .i64),
  ("instrumented_base_store_i64_16", .i64Store16, .i64),
  ("instrumented_base_store_i64_32", .i64Store32, .i64)]

/-- Natural alignment of a store. -/
def StoreOp.alignExp : StoreOp → Nat
  | .i32Store | .f32Store | .i64Store32 => 2
  | .i64Store | .f64Store => 3
  | .i32Store8 | .i64Store8 => 0
  | .i32Store16 | .i64Store16 => 1

/-- The body in `inject_memory_stores`: `memory.rs` 463-479. -/
def baseStoreBody (noMemory : Bool) (op : StoreOp) : List LInstr :=
  if noMemory then [.fin]
  else [.loc .get 0, .loc .get 2, .binary .i32Add, .loc .get 1, .store op (Memarg.default op.alignExp), .fin]

/-- `inject_memory_stores`: `memory.rs` 439-487. -/
def injectMemoryStores (m : Module) : Except IError Module :=
  if m.memories.length ≤ 1 then
    .ok { m with functions := storeExports.foldl (fun fs e =>
      addExported ⟨[.i32, e.2.2, .i32], []⟩ (baseStoreBody m.memories.isEmpty e.2.1) e.1 fs) m.functions }
  else .error .memoryAssert

/-- The body in `inject_memory_grow`: `memory.rs` 494-510. -/
def baseGrowBody (noMemory : Bool) : List LInstr :=
  if noMemory then [.const (.i32 (-1)), .fin] else [.loc .get 0, .memoryGrow 0, .fin]

/-- `inject_memory_grow`: `memory.rs` 489-517. -/
def injectMemoryGrow (m : Module) : Except IError Module :=
  if m.memories.length ≤ 1 then
    .ok { m with functions :=
      addExported ⟨[.i32, .i32], [.i32]⟩ (baseGrowBody m.memories.isEmpty) "instrumented_memory_grow" m.functions }
  else .error .memoryAssert

/-- The body in `inject_memory_size`: `memory.rs` 524-538. -/
def baseSizeBody (noMemory : Bool) : List LInstr :=
  if noMemory then [.const (.i32 0), .fin] else [.memorySize 0, .fin]

/-- `inject_memory_size`: `memory.rs` 519-545. -/
def injectMemorySize (m : Module) : Except IError Module :=
  if m.memories.length ≤ 1 then
    .ok { m with functions :=
      addExported ⟨[.i32], [.i32]⟩ (baseSizeBody m.memories.isEmpty) "instrumented_memory_size" m.functions }
  else .error .memoryAssert

/-- The four injections: `instrument/mod.rs` 289-292. -/
def injectMemory (m : Module) : Except IError Module := do
  let m ← injectMemoryLoads m
  let m ← injectMemoryStores m
  let m ← injectMemoryGrow m
  injectMemorySize m

/-! ## The whole -/

/-- `Instrumented`: `instrument/mod.rs` 34-38. The library is represented by the signatures it is generated from
(`stack_library.rs` 36-42). -/
structure Instrumented where
  module : Module
  librarySignatures : Option (List FuncType)

/-- `instrument`: `instrument/mod.rs` 40-300. `ord` and `ord'` are the iteration orders of the two sets
`target_indices` and `target_indices_including_imports` (unspecified in Rust; the theorems hold for all). -/
def instrument (C : Checker) (ord ord' : List Nat → List Nat) (iface : Interface) (ts : Option (List Nat)) (m : Module) :
    Except IError Instrumented := do
  let fs ← instrumentBodies C iface (ord (bodyTargets m ts)) m
  let m' := { m with functions := fs }
  match iface.generic with
  | none => do
    let m'' ← injectMemory m'
    pure ⟨m'', none⟩
  | some (genApply, callBase) => do
    let (m', sigs) ← instrumentApply (ord' (applyTargets m ts)) genApply callBase m'
    let m'' ← injectMemory m'
    pure ⟨m'', some sigs⟩

end Wastrum
