import Verif.Syntax
/-!
# The analysis interface (model)

Models `wastrumentation/src/analysis/mod.rs`.
-/

namespace Wastrum

/-- The 75 trap fields of `AnalysisInterface` (`analysis/mod.rs` 119-196, all fields except
`generic_interface`), listed in the order of the trap table of `instrument/mod.rs` 166-242. The struct of
options is modelled as a function from field names (`Interface` below). -/
inductive Trap where
  | preBlock | postBlock | preLoop | postLoop | select
  | preTrapCall | postTrapCall | preTrapCallIndirect | postTrapCallIndirect | ifThenTrap
  | ifThenPostTrap | ifThenElseTrap | ifThenElsePostTrap | brTrap | brIfTrap
  | brTableTrap | dropTrap | returnTrap | constI32Trap | constF32Trap
  | constI64Trap | constF64Trap | unaryI32ToI32 | unaryI64ToI32 | unaryI64ToI64
  | unaryF32ToF32 | unaryF64ToF64 | unaryF32ToI32 | unaryF64ToI32 | unaryI32ToI64
  | unaryF32ToI64 | unaryF64ToI64 | unaryI32ToF32 | unaryI64ToF32 | unaryF64ToF32
  | unaryI32ToF64 | unaryI64ToF64 | unaryF32ToF64 | binaryI32I32ToI32 | binaryI64I64ToI32
  | binaryF32F32ToI32 | binaryF64F64ToI32 | binaryI64I64ToI64 | binaryF32F32ToF32 | binaryF64F64ToF64
  | memorySize | memoryGrow | localGetI32 | localSetI32 | localTeeI32
  | globalGetI32 | globalSetI32 | localGetF32 | localSetF32 | localTeeF32
  | globalGetF32 | globalSetF32 | localGetI64 | localSetI64 | localTeeI64
  | globalGetI64 | globalSetI64 | localGetF64 | localSetF64 | localTeeF64
  | globalGetF64 | globalSetF64 | f32Store | f64Store | i32Store
  | i64Store | f32Load | f64Load | i32Load | i64Load
  deriving DecidableEq, Repr

/-- `WasmExport` (`analysis/mod.rs` 111-116); `WasmType` is embedded into `ValType` as
`instrument/mod.rs` 333-342 does. -/
structure WasmExport where
  name : String
  args : List ValType
  results : List ValType
  deriving DecidableEq, Repr

/-- `WasmImport` (`analysis/mod.rs` 103-108). -/
structure WasmImport where
  nmspace : String
  name : String
  args : List ValType
  results : List ValType
  deriving DecidableEq, Repr

/-- `WasmExport::as_function_type`: `instrument/mod.rs` 360-367. -/
def WasmExport.funcType (e : WasmExport) : FuncType := ⟨e.args, e.results⟩

/-- `WasmImport::as_function_type`: `instrument/mod.rs` 369-376. -/
def WasmImport.funcType (e : WasmImport) : FuncType := ⟨e.args, e.results⟩

/-- `AnalysisInterface`: `analysis/mod.rs` 118-196. -/
structure Interface where
  generic : Option (WasmExport × WasmImport)
  trap : Trap → Option WasmExport

/-- `AnalysisInterface::interface_*`, the name of each trap: `analysis/mod.rs` 1-86 and 254-330. -/
def Trap.exportName : Trap → String
  | .preBlock => "trap_block_pre"
  | .postBlock => "trap_block_post"
  | .preLoop => "trap_loop_pre"
  | .postLoop => "trap_loop_post"
  | .select => "specialized_select"
  | .preTrapCall => "specialized_call_pre"
  | .postTrapCall => "specialized_call_post"
  | .preTrapCallIndirect => "specialized_call_indirect_pre"
  | .postTrapCallIndirect => "specialized_call_indirect_post"
  | .ifThenTrap => "specialized_if_then_k"
  | .ifThenPostTrap => "trap_if_then_post"
  | .ifThenElseTrap => "specialized_if_then_else_k"
  | .ifThenElsePostTrap => "trap_if_then_else_post"
  | .brTrap => "specialized_br"
  | .brIfTrap => "specialized_br_if"
  | .brTableTrap => "specialized_br_table"
  | .dropTrap => "drop_trap"
  | .returnTrap => "return_trap"
  | .constI32Trap => "trap_const_i32"
  | .constF32Trap => "trap_const_f32"
  | .constI64Trap => "trap_const_i64"
  | .constF64Trap => "trap_const_f64"
  | .unaryI32ToI32 => "unary_i32_to_i32"
  | .unaryI64ToI32 => "unary_i64_to_i32"
  | .unaryI64ToI64 => "unary_i64_to_i64"
  | .unaryF32ToF32 => "unary_f32_to_f32"
  | .unaryF64ToF64 => "unary_f64_to_f64"
  | .unaryF32ToI32 => "unary_f32_to_i32"
  | .unaryF64ToI32 => "unary_f64_to_i32"
  | .unaryI32ToI64 => "unary_i32_to_i64"
  | .unaryF32ToI64 => "unary_f32_to_i64"
  | .unaryF64ToI64 => "unary_f64_to_i64"
  | .unaryI32ToF32 => "unary_i32_to_f32"
  | .unaryI64ToF32 => "unary_i64_to_f32"
  | .unaryF64ToF32 => "unary_f64_to_f32"
  | .unaryI32ToF64 => "unary_i32_to_f64"
  | .unaryI64ToF64 => "unary_i64_to_f64"
  | .unaryF32ToF64 => "unary_f32_to_f64"
  | .binaryI32I32ToI32 => "binary_i32_i32_to_i32"
  | .binaryI64I64ToI32 => "binary_i64_i64_to_i32"
  | .binaryF32F32ToI32 => "binary_f32_f32_to_i32"
  | .binaryF64F64ToI32 => "binary_f64_f64_to_i32"
  | .binaryI64I64ToI64 => "binary_i64_i64_to_i64"
  | .binaryF32F32ToF32 => "binary_f32_f32_to_f32"
  | .binaryF64F64ToF64 => "binary_f64_f64_to_f64"
  | .memorySize => "trap_memory_size"
  | .memoryGrow => "trap_memory_grow"
  | .localGetI32 => "trap_local_get_i32"
  | .localSetI32 => "trap_local_set_i32"
  | .localTeeI32 => "trap_local_tee_i32"
  | .globalGetI32 => "trap_global_get_i32"
  | .globalSetI32 => "trap_global_set_i32"
  | .localGetF32 => "trap_local_get_f32"
  | .localSetF32 => "trap_local_set_f32"
  | .localTeeF32 => "trap_local_tee_f32"
  | .globalGetF32 => "trap_global_get_f32"
  | .globalSetF32 => "trap_global_set_f32"
  | .localGetI64 => "trap_local_get_i64"
  | .localSetI64 => "trap_local_set_i64"
  | .localTeeI64 => "trap_local_tee_i64"
  | .globalGetI64 => "trap_global_get_i64"
  | .globalSetI64 => "trap_global_set_i64"
  | .localGetF64 => "trap_local_get_f64"
  | .localSetF64 => "trap_local_set_f64"
  | .localTeeF64 => "trap_local_tee_f64"
  | .globalGetF64 => "trap_global_get_f64"
  | .globalSetF64 => "trap_global_set_f64"
  | .f32Store => "trap_f32_store"
  | .f64Store => "trap_f64_store"
  | .i32Store => "trap_i32_store"
  | .i64Store => "trap_i64_store"
  | .f32Load => "trap_f32_load"
  | .f64Load => "trap_f64_load"
  | .i32Load => "trap_i32_load"
  | .i64Load => "trap_i64_load"

/-- `AnalysisInterface::interface_*`, the declared parameter types: `analysis/mod.rs` 254-330. -/
def Trap.args : Trap → List ValType
  | .preBlock => [.i32, .i32, .i64, .i64]
  | .postBlock => [.i64, .i64]
  | .preLoop => [.i32, .i32, .i64, .i64]
  | .postLoop => [.i64, .i64]
  | .select => [.i32, .i64, .i64]
  | .preTrapCall => [.i32, .i64, .i64]
  | .postTrapCall => [.i32, .i64, .i64]
  | .preTrapCallIndirect => [.i32, .i32, .i64, .i64]
  | .postTrapCallIndirect => [.i32, .i64, .i64]
  | .ifThenTrap => [.i32, .i32, .i32, .i64, .i64]
  | .ifThenPostTrap => [.i64, .i64]
  | .ifThenElseTrap => [.i32, .i32, .i32, .i64, .i64]
  | .ifThenElsePostTrap => [.i64, .i64]
  | .brTrap => [.i64, .i64, .i64]
  | .brIfTrap => [.i32, .i32, .i64, .i64]
  | .brTableTrap => [.i32, .i32, .i32, .i64, .i64]
  | .dropTrap => [.i64, .i64]
  | .returnTrap => [.i64, .i64]
  | .constI32Trap => [.i32, .i64, .i64]
  | .constF32Trap => [.f32, .i64, .i64]
  | .constI64Trap => [.i64, .i64, .i64]
  | .constF64Trap => [.f64, .i64, .i64]
  | .unaryI32ToI32 => [.i32, .i32, .i64, .i64]
  | .unaryI64ToI32 => [.i64, .i32, .i64, .i64]
  | .unaryI64ToI64 => [.i64, .i32, .i64, .i64]
  | .unaryF32ToF32 => [.f32, .i32, .i64, .i64]
  | .unaryF64ToF64 => [.f64, .i32, .i64, .i64]
  | .unaryF32ToI32 => [.f32, .i32, .i64, .i64]
  | .unaryF64ToI32 => [.f64, .i32, .i64, .i64]
  | .unaryI32ToI64 => [.i32, .i32, .i64, .i64]
  | .unaryF32ToI64 => [.f32, .i32, .i64, .i64]
  | .unaryF64ToI64 => [.f64, .i32, .i64, .i64]
  | .unaryI32ToF32 => [.i32, .i32, .i64, .i64]
  | .unaryI64ToF32 => [.i64, .i32, .i64, .i64]
  | .unaryF64ToF32 => [.f64, .i32, .i64, .i64]
  | .unaryI32ToF64 => [.i32, .i32, .i64, .i64]
  | .unaryI64ToF64 => [.i64, .i32, .i64, .i64]
  | .unaryF32ToF64 => [.f32, .i32, .i64, .i64]
  | .binaryI32I32ToI32 => [.i32, .i32, .i32, .i64, .i64]
  | .binaryI64I64ToI32 => [.i64, .i64, .i32, .i64, .i64]
  | .binaryF32F32ToI32 => [.f32, .f32, .i32, .i64, .i64]
  | .binaryF64F64ToI32 => [.f64, .f64, .i32, .i64, .i64]
  | .binaryI64I64ToI64 => [.i64, .i64, .i32, .i64, .i64]
  | .binaryF32F32ToF32 => [.f32, .f32, .i32, .i64, .i64]
  | .binaryF64F64ToF64 => [.f64, .f64, .i32, .i64, .i64]
  | .memorySize => [.i32, .i64, .i64, .i64]
  | .memoryGrow => [.i32, .i64, .i64, .i64]
  | .localGetI32 => [.i32, .i64, .i64, .i64]
  | .localSetI32 => [.i32, .i64, .i64, .i64]
  | .localTeeI32 => [.i32, .i64, .i64, .i64]
  | .globalGetI32 => [.i32, .i64, .i64, .i64]
  | .globalSetI32 => [.i32, .i64, .i64, .i64]
  | .localGetF32 => [.f32, .i64, .i64, .i64]
  | .localSetF32 => [.f32, .i64, .i64, .i64]
  | .localTeeF32 => [.f32, .i64, .i64, .i64]
  | .globalGetF32 => [.f32, .i64, .i64, .i64]
  | .globalSetF32 => [.f32, .i64, .i64, .i64]
  | .localGetI64 => [.i64, .i64, .i64, .i64]
  | .localSetI64 => [.i64, .i64, .i64, .i64]
  | .localTeeI64 => [.i64, .i64, .i64, .i64]
  | .globalGetI64 => [.i64, .i64, .i64, .i64]
  | .globalSetI64 => [.i64, .i64, .i64, .i64]
  | .localGetF64 => [.f64, .i64, .i64, .i64]
  | .localSetF64 => [.f64, .i64, .i64, .i64]
  | .localTeeF64 => [.f64, .i64, .i64, .i64]
  | .globalGetF64 => [.f64, .i64, .i64, .i64]
  | .globalSetF64 => [.f64, .i64, .i64, .i64]
  | .f32Store => [.i32, .f32, .i64, .i32, .i64, .i64]
  | .f64Store => [.i32, .f64, .i64, .i32, .i64, .i64]
  | .i32Store => [.i32, .i32, .i64, .i32, .i64, .i64]
  | .i64Store => [.i32, .i64, .i64, .i32, .i64, .i64]
  | .f32Load => [.i32, .i64, .i32, .i64, .i64]
  | .f64Load => [.i32, .i64, .i32, .i64, .i64]
  | .i32Load => [.i32, .i64, .i32, .i64, .i64]
  | .i64Load => [.i32, .i64, .i32, .i64, .i64]

/-- `AnalysisInterface::interface_*`, the declared result types: `analysis/mod.rs` 254-330. -/
def Trap.results : Trap → List ValType
  | .preBlock => []
  | .postBlock => []
  | .preLoop => []
  | .postLoop => []
  | .select => [.i32]
  | .preTrapCall => []
  | .postTrapCall => []
  | .preTrapCallIndirect => [.i32]
  | .postTrapCallIndirect => []
  | .ifThenTrap => [.i32]
  | .ifThenPostTrap => []
  | .ifThenElseTrap => [.i32]
  | .ifThenElsePostTrap => []
  | .brTrap => []
  | .brIfTrap => [.i32]
  | .brTableTrap => [.i32]
  | .dropTrap => []
  | .returnTrap => []
  | .constI32Trap => [.i32]
  | .constF32Trap => [.f32]
  | .constI64Trap => [.i64]
  | .constF64Trap => [.f64]
  | .unaryI32ToI32 => [.i32]
  | .unaryI64ToI32 => [.i32]
  | .unaryI64ToI64 => [.i64]
  | .unaryF32ToF32 => [.f32]
  | .unaryF64ToF64 => [.f64]
  | .unaryF32ToI32 => [.i32]
  | .unaryF64ToI32 => [.i32]
  | .unaryI32ToI64 => [.i64]
  | .unaryF32ToI64 => [.i64]
  | .unaryF64ToI64 => [.i64]
  | .unaryI32ToF32 => [.f32]
  | .unaryI64ToF32 => [.f32]
  | .unaryF64ToF32 => [.f32]
  | .unaryI32ToF64 => [.f64]
  | .unaryI64ToF64 => [.f64]
  | .unaryF32ToF64 => [.f64]
  | .binaryI32I32ToI32 => [.i32]
  | .binaryI64I64ToI32 => [.i32]
  | .binaryF32F32ToI32 => [.i32]
  | .binaryF64F64ToI32 => [.i32]
  | .binaryI64I64ToI64 => [.i64]
  | .binaryF32F32ToF32 => [.f32]
  | .binaryF64F64ToF64 => [.f64]
  | .memorySize => [.i32]
  | .memoryGrow => [.i32]
  | .localGetI32 => [.i32]
  | .localSetI32 => [.i32]
  | .localTeeI32 => [.i32]
  | .globalGetI32 => [.i32]
  | .globalSetI32 => [.i32]
  | .localGetF32 => [.f32]
  | .localSetF32 => [.f32]
  | .localTeeF32 => [.f32]
  | .globalGetF32 => [.f32]
  | .globalSetF32 => [.f32]
  | .localGetI64 => [.i64]
  | .localSetI64 => [.i64]
  | .localTeeI64 => [.i64]
  | .globalGetI64 => [.i64]
  | .globalSetI64 => [.i64]
  | .localGetF64 => [.f64]
  | .localSetF64 => [.f64]
  | .localTeeF64 => [.f64]
  | .globalGetF64 => [.f64]
  | .globalSetF64 => [.f64]
  | .f32Store => []
  | .f64Store => []
  | .i32Store => []
  | .i64Store => []
  | .f32Load => [.f32]
  | .f64Load => [.f64]
  | .i32Load => [.i32]
  | .i64Load => [.i64]

/-- `simple_interface!`: `analysis/mod.rs` 236-248. -/
def Trap.export (t : Trap) : WasmExport := ⟨t.exportName, t.args, t.results⟩

/-- `AnalysisInterface::interface_generic_apply`: `analysis/mod.rs` 205-226. -/
def interfaceGenericApply : WasmExport × WasmImport :=
  (⟨"generic_apply", [.i32, .i32, .i32, .i32, .i32, .i32, .i32], []⟩,
   ⟨"transformed_input", "call_base", [.i32, .i32], []⟩)

end Wastrum
