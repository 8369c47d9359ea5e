import Verif.Passes
/-!
# Names and imports of the stack library (model)

Models `wastrumentation/src/wasm_constructs/mod.rs` (names) and `wastrumentation/src/stack_library.rs`
(imports added to the program).
-/

namespace Wastrum

/-- `WasmType::as_str`: `wasm_constructs/mod.rs` 41-50 (`ValType` converted as in `stack_library.rs` 52-68). -/
def ValType.asStr : ValType → String
  | .i32 => "i32" | .f32 => "f32" | .i64 => "i64" | .f64 => "f64"
  | .ref .funcRef => "ref_func" | .ref .externRef => "ref_extern"

/-- `WasmType::runtime_enum_value`: `wasm_constructs/mod.rs` 30-39. -/
def ValType.runtimeEnumValue : ValType → Nat
  | .i32 => 0 | .f32 => 1 | .i64 => 2 | .f64 => 3
  | .ref .funcRef => 4 | .ref .externRef => 5

/-- `[&str]::join("_")` of the Rust standard library. -/
def joinUnderscore : List String → String
  | [] => ""
  | [x] => x
  | x :: y :: r => x ++ "_" ++ joinUnderscore (y :: r)

/-- `Signature::generate_name`: `wasm_constructs/mod.rs` 73-89. A `Signature` is modelled by the
`FuncType` it is converted from (`stack_library.rs` 70-87). -/
def generateName (t : FuncType) (name : String) : String :=
  let rets := joinUnderscore ("ret" :: t.results.map ValType.asStr)
  let args := joinUnderscore ("arg" :: t.inputs.map ValType.asStr)
  name ++ "_" ++ rets ++ "_" ++ args

/-- `SignatureSide` and its `Display`: `wasm_constructs/mod.rs` 136-151. -/
inductive Side where
  | ret | arg
  deriving DecidableEq, Repr

/-- `impl Display for SignatureSide`: `wasm_constructs/mod.rs` 143-151. -/
def Side.asStr : Side → String
  | .ret => "ret" | .arg => "arg"

/-- `generate_allocate_values_buffer_name`: `wasm_constructs/mod.rs` 91-93. -/
def allocateValuesName (t : FuncType) : String := generateName t "allocate"
/-- `generate_allocate_types_buffer_name`: `wasm_constructs/mod.rs` 95-97. -/
def allocateTypesName (t : FuncType) : String := generateName t "allocate_types"
/-- `generate_free_values_buffer_name`: `wasm_constructs/mod.rs` 99-101. -/
def freeValuesName (t : FuncType) : String := generateName t "free_values"
/-- `generate_free_types_buffer_name`: `wasm_constructs/mod.rs` 103-105. -/
def freeTypesName (t : FuncType) : String := generateName t "free_types"
/-- `generate_indexed_name`: `wasm_constructs/mod.rs` 107-115. -/
def indexedName (t : FuncType) (name : String) (side : Side) (index : Nat) : String :=
  generateName t (name ++ "_" ++ side.asStr ++ index.repr)
/-- `generate_load_name`: `wasm_constructs/mod.rs` 117-119. -/
def loadName (t : FuncType) (side : Side) (index : Nat) : String := indexedName t "load" side index
/-- `generate_store_name`: `wasm_constructs/mod.rs` 121-123. -/
def storeName (t : FuncType) (side : Side) (index : Nat) : String := indexedName t "store" side index
/-- `generate_store_args_name`: `wasm_constructs/mod.rs` 128-130. -/
def storeArgsName (t : FuncType) : String := generateName t "store_args"
/-- `generate_store_rets_name`: `wasm_constructs/mod.rs` 132-134. -/
def storeRetsName (t : FuncType) : String := generateName t "store_rets"

/-- `INSTRUMENTATION_STACK_MODULE`: `function_application.rs` 24. -/
def stackModule : String := "wastrumentation_stack"
/-- `INSTRUMENTATION_ANALYSIS_MODULE`: `function_application.rs` 25. -/
def analysisModule : String := "WASTRUMENTATION_ANALYSIS"
/-- `INSTRUMENTATION_INSTRUMENTED_MODULE`: `function_application.rs` 26. -/
def instrumentedModule : String := "instrumented_input"

/-- `ModuleLinkedStackHooks`: `stack_library.rs` 90-104. -/
structure StackHooks where
  allocateValues : Nat
  freeValues : Nat
  allocateTypes : Nat
  freeTypes : Nat
  argLoad : List Nat
  retLoad : List Nat
  argStore : List Nat
  retStore : List Nat
  retStoreAll : Nat
  deriving DecidableEq, Repr

/-- `iter().enumerate().map(|..| module.add_function_import(..)).collect()`, as used four times in
`stack_library.rs` 147-197: add one import per element, `k` being the running index. -/
def addImports (mk : Nat → ValType → FuncType × String) : Nat → List ValType → List Func → List Nat × List Func
  | _, [], fs => ([], fs)
  | k, t :: ts, fs =>
    let (i, fs) := addFunctionImport fs (mk k t).1 stackModule (mk k t).2
    let (is, fs) := addImports mk (k + 1) ts fs
    (i :: is, fs)

/-- `impl From<(FunctionType, &mut Module)> for ModuleLinkedStackHooks`: `stack_library.rs` 113-219. -/
def linkStackHooks (t : FuncType) (fs : List Func) : StackHooks × List Func :=
  let (allocateValues, fs) := addFunctionImport fs ⟨t.inputs, [.i32]⟩ stackModule (allocateValuesName t)
  let (freeValues, fs) := addFunctionImport fs ⟨[.i32], []⟩ stackModule (freeValuesName t)
  let (allocateTypes, fs) := addFunctionImport fs ⟨[], [.i32]⟩ stackModule (allocateTypesName t)
  let (freeTypes, fs) := addFunctionImport fs ⟨[.i32], []⟩ stackModule (freeTypesName t)
  let (argLoad, fs) := addImports (fun i v => (⟨[.i32], [v]⟩, loadName t .arg i)) 0 t.inputs fs
  let (retLoad, fs) := addImports (fun i v => (⟨[.i32], [v]⟩, loadName t .ret i)) 0 t.results fs
  let (argStore, fs) := addImports (fun i v => (⟨[.i32, v], []⟩, storeName t .arg i)) 0 t.inputs fs
  let (retStore, fs) := addImports (fun i v => (⟨[.i32, v], []⟩, storeName t .ret i)) 0 t.results fs
  let (retStoreAll, fs) := addFunctionImport fs ⟨.i32 :: t.results, []⟩ stackModule (storeRetsName t)
  (⟨allocateValues, freeValues, allocateTypes, freeTypes, argLoad, retLoad, argStore, retStore, retStoreAll⟩, fs)

/-- The fold of `StackLibrary::from_module`: `stack_library.rs` 25-35. The map from types to links is an
association list; `order` is the iteration order of the set of functions. A function index outside the
module is an indexing panic in `wasabi_wasm`, modelled by `none`. -/
def linkAll : List Nat → List (FuncType × StackHooks) → List Func → Option (List (FuncType × StackHooks) × List Func)
  | [], acc, fs => some (acc, fs)
  | i :: is, acc, fs => match fs[i]? with
    | none => none
    | some f =>
      match acc.lookup f.type with
      | some _ => linkAll is acc fs
      | none =>
        let (h, fs) := linkStackHooks f.type fs
        linkAll is (acc ++ [(f.type, h)]) fs

end Wastrum
