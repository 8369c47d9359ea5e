import Verif.Report
import Verif.PurityTool
/-!
# The logging analysis (C91)

Models `wastrumentation-instr-lib/tests/analyses/rust/logging/src/lib.rs`, all advice but `apply`, which prints addresses of the library's stack. The state of
the analysis is what it has printed so far; `println!` appends to it. (In the code it is written to the standard output through WASI; that writing may fail or panic is not modelled.)
`{:?}` and `{:#?}` are those that Rust derives for the types of the library.
-/

set_option linter.unusedSimpArgs false
set_option linter.unusedVariables false

namespace Wastrum

/-! ## `Debug` of what the advice is handed -/

/-- `Debug` of floating point numbers, which is left open except that it has no comma. -/
structure FloatText where
  f32 : BitVec 32 → String
  f64 : BitVec 64 → String
  f32_plain : ∀ x, ',' ∉ (f32 x).toList
  f64_plain : ∀ x, ',' ∉ (f64 x).toList

/-- `{:?}` of an integer (all are signed): `wastrumentation-rs-stdlib/src/lib.rs` 560-579. -/
def intText {n : Nat} (v : BitVec n) : String := v.toInt.repr

/-- `{:#?}` of a tuple struct or variant with one field: derived at `wastrumentation-rs-stdlib/src/lib.rs` 83 and 181. -/
def pretty (name field : String) : String := name ++ "(\n    " ++ field ++ ",\n)"

/-- `{:?}` of a tuple struct with one field: derived at `wastrumentation-rs-stdlib/src/lib.rs` 83. -/
def compact (name field : String) : String := name ++ "(" ++ field ++ ")"

/-- `{:?}` of a `Location`: derived at `wastrumentation-rs-stdlib/src/lib.rs` 96-100. -/
def Location.text (l : Location) : String := "Location { instr_index: " ++ intText l.instrIndex ++ ", funct_index: " ++ intText l.functIndex ++ " }"

/-- `{:#?}` of a `WasmValue`: derived at `wastrumentation-rs-stdlib/src/lib.rs` 181-187. -/
def Val.text (F : FloatText) : Val → String
  | .i32 v => pretty "I32" (intText v)
  | .i64 v => pretty "I64" (intText v)
  | .f32 v => pretty "F32" (F.f32 v)
  | .f64 v => pretty "F64" (F.f64 v)

/-- `{:#?}` of a `LocalOp`: derived at `wastrumentation-rs-stdlib/src/lib.rs` 603-608. -/
def LocalOp.variant : LocalOp → String
  | .get => "Get" | .set => "Set" | .tee => "Tee"

/-- `{:#?}` of a `GlobalOp`: derived at `wastrumentation-rs-stdlib/src/lib.rs` 610-614. -/
def GlobOp.variant : GlobOp → String
  | .get => "Get" | .set => "Set"

/-- The name of the variant in the library: `wastrumentation-rs-stdlib/src/unary.rs` 19-24 and 83-142. -/
def UnaryOp.variant : UnaryOp → String
  | .i32Eqz => "I32Eqz" | .i64Eqz => "I64Eqz" | .i32Clz => "I32Clz" | .i32Ctz => "I32Ctz"
  | .i32Popcnt => "I32Popcnt" | .i64Clz => "I64Clz" | .i64Ctz => "I64Ctz" | .i64Popcnt => "I64Popcnt"
  | .f32Abs => "F32Abs" | .f32Neg => "F32Neg" | .f32Ceil => "F32Ceil" | .f32Floor => "F32Floor"
  | .f32Trunc => "F32Trunc" | .f32Nearest => "F32Nearest" | .f32Sqrt => "F32Sqrt" | .f64Abs => "F64Abs"
  | .f64Neg => "F64Neg" | .f64Ceil => "F64Ceil" | .f64Floor => "F64Floor" | .f64Trunc => "F64Trunc"
  | .f64Nearest => "F64Nearest" | .f64Sqrt => "F64Sqrt" | .i32WrapI64 => "I32WrapI64" | .i32TruncF32S => "I32TruncF32S"
  | .i32TruncF32U => "I32TruncF32U" | .i32TruncF64S => "I32TruncF64S" | .i32TruncF64U => "I32TruncF64U" | .i32TruncSatF32S => "I32TruncSatF32S"
  | .i32TruncSatF32U => "I32TruncSatF32U" | .i32TruncSatF64S => "I32TruncSatF64S" | .i32TruncSatF64U => "I32TruncSatF64U" | .i64ExtendI32S => "I64ExtendI32S"
  | .i64ExtendI32U => "I64ExtendI32U" | .i64TruncF32S => "I64TruncF32S" | .i64TruncF32U => "I64TruncF32U" | .i64TruncF64S => "I64TruncF64S"
  | .i64TruncF64U => "I64TruncF64U" | .i64TruncSatF32S => "I64TruncSatF32S" | .i64TruncSatF32U => "I64TruncSatF32U" | .i64TruncSatF64S => "I64TruncSatF64S"
  | .i64TruncSatF64U => "I64TruncSatF64U" | .f32ConvertI32S => "F32ConvertI32S" | .f32ConvertI32U => "F32ConvertI32U" | .f32ConvertI64S => "F32ConvertI64S"
  | .f32ConvertI64U => "F32ConvertI64U" | .f32DemoteF64 => "F32DemoteF64" | .f64ConvertI32S => "F64ConvertI32S" | .f64ConvertI32U => "F64ConvertI32U"
  | .f64ConvertI64S => "F64ConvertI64S" | .f64ConvertI64U => "F64ConvertI64U" | .f64PromoteF32 => "F64PromoteF32" | .i32ReinterpretF32 => "I32ReinterpretF32"
  | .i64ReinterpretF64 => "I64ReinterpretF64" | .f32ReinterpretI32 => "F32ReinterpretI32" | .f64ReinterpretI64 => "F64ReinterpretI64" | .i32Extend8S => "I32Extend8S"
  | .i32Extend16S => "I32Extend16S" | .i64Extend8S => "I64Extend8S" | .i64Extend16S => "I64Extend16S" | .i64Extend32S => "I64Extend32S"

/-- The name of the variant in the library: `wastrumentation-rs-stdlib/src/binary.rs` 18-23 and 85-160. -/
def BinaryOp.variant : BinaryOp → String
  | .i32Eq => "I32Eq" | .i32Ne => "I32Ne" | .i32LtS => "I32LtS" | .i32LtU => "I32LtU"
  | .i32GtS => "I32GtS" | .i32GtU => "I32GtU" | .i32LeS => "I32LeS" | .i32LeU => "I32LeU"
  | .i32GeS => "I32GeS" | .i32GeU => "I32GeU" | .i64Eq => "I64Eq" | .i64Ne => "I64Ne"
  | .i64LtS => "I64LtS" | .i64LtU => "I64LtU" | .i64GtS => "I64GtS" | .i64GtU => "I64GtU"
  | .i64LeS => "I64LeS" | .i64LeU => "I64LeU" | .i64GeS => "I64GeS" | .i64GeU => "I64GeU"
  | .f32Eq => "F32Eq" | .f32Ne => "F32Ne" | .f32Lt => "F32Lt" | .f32Gt => "F32Gt"
  | .f32Le => "F32Le" | .f32Ge => "F32Ge" | .f64Eq => "F64Eq" | .f64Ne => "F64Ne"
  | .f64Lt => "F64Lt" | .f64Gt => "F64Gt" | .f64Le => "F64Le" | .f64Ge => "F64Ge"
  | .i32Add => "I32Add" | .i32Sub => "I32Sub" | .i32Mul => "I32Mul" | .i32DivS => "I32DivS"
  | .i32DivU => "I32DivU" | .i32RemS => "I32RemS" | .i32RemU => "I32RemU" | .i32And => "I32And"
  | .i32Or => "I32Or" | .i32Xor => "I32Xor" | .i32Shl => "I32Shl" | .i32ShrS => "I32ShrS"
  | .i32ShrU => "I32ShrU" | .i32Rotl => "I32Rotl" | .i32Rotr => "I32Rotr" | .i64Add => "I64Add"
  | .i64Sub => "I64Sub" | .i64Mul => "I64Mul" | .i64DivS => "I64DivS" | .i64DivU => "I64DivU"
  | .i64RemS => "I64RemS" | .i64RemU => "I64RemU" | .i64And => "I64And" | .i64Or => "I64Or"
  | .i64Xor => "I64Xor" | .i64Shl => "I64Shl" | .i64ShrS => "I64ShrS" | .i64ShrU => "I64ShrU"
  | .i64Rotl => "I64Rotl" | .i64Rotr => "I64Rotr" | .f32Add => "F32Add" | .f32Sub => "F32Sub"
  | .f32Mul => "F32Mul" | .f32Div => "F32Div" | .f32Min => "F32Min" | .f32Max => "F32Max"
  | .f32Copysign => "F32Copysign" | .f64Add => "F64Add" | .f64Sub => "F64Sub" | .f64Mul => "F64Mul"
  | .f64Div => "F64Div" | .f64Min => "F64Min" | .f64Max => "F64Max" | .f64Copysign => "F64Copysign"

/-- The name of the variant in the library: `wastrumentation-rs-stdlib/src/memory.rs` 63-85. -/
def LoadOp.variant : LoadOp → String
  | .i32Load => "I32Load" | .i64Load => "I64Load" | .f32Load => "F32Load" | .f64Load => "F64Load"
  | .i32Load8S => "I32Load8S" | .i32Load8U => "I32Load8U" | .i32Load16S => "I32Load16S" | .i32Load16U => "I32Load16U"
  | .i64Load8S => "I64Load8S" | .i64Load8U => "I64Load8U" | .i64Load16S => "I64Load16S" | .i64Load16U => "I64Load16U"
  | .i64Load32S => "I64Load32S" | .i64Load32U => "I64Load32U"

/-- The name of the variant in the library: `wastrumentation-rs-stdlib/src/memory.rs` 50-61. -/
def StoreOp.variant : StoreOp → String
  | .i32Store => "I32Store" | .i64Store => "I64Store" | .f32Store => "F32Store" | .f64Store => "F64Store"
  | .i32Store8 => "I32Store8" | .i32Store16 => "I32Store16" | .i64Store8 => "I64Store8" | .i64Store16 => "I64Store16"
  | .i64Store32 => "I64Store32"

/-! ## The advice -/

/-- `location: {location:?}` -/
def Location.at (l : Location) : String := "location: " ++ l.text

/-- What the advice prints before it performs anything; `none` for `load`: `logging/src/lib.rs` 14-264. -/
def Advice.entry (F : FloatText) : Advice → Option String
  | .ifThenElse k inputs arity l => some ("[ANALYSIS:] if_ " ++ pretty "PathContinuation" (intText k) ++ " [if_then_else_input_c: " ++
      compact "IfThenElseInputCount" (intText inputs) ++ ", if_then_else_arity: " ++ compact "IfThenElseArity" (intText arity) ++ ", " ++ l.at ++ "]")
  | .ifThenElsePost l => some ("if_post (" ++ l.at ++ ")")
  | .ifThen k inputs arity l => some ("[ANALYSIS:] if_then " ++ pretty "PathContinuation" (intText k) ++ " [if_then_input_c: " ++
      compact "IfThenInputCount" (intText inputs) ++ ", if_then_arity: " ++ compact "IfThenArity" (intText arity) ++ ", " ++ l.at ++ "]")
  | .ifThenPost l => some ("if_then_post (" ++ l.at ++ ")")
  | .br label l => some ("[ANALYSIS:] br " ++ pretty "BranchTargetLabel" (intText label) ++ ", " ++ l.at)
  | .brIf k label l => some ("[ANALYSIS:] br_if " ++ pretty "ParameterBrIfCondition" (intText k) ++ " to " ++ pretty "ParameterBrIfLabel" (intText label) ++ ", " ++ l.at)
  | .brTable target effective dflt l => some ("[ANALYSIS:] br_table " ++ pretty "BranchTableTarget" (intText target) ++ " (effective: " ++
      pretty "BranchTableEffective" (intText effective) ++ ") (default: " ++ pretty "BranchTableDefault" (intText dflt) ++ "), " ++ l.at)
  | .select k l => some ("[ANALYSIS:] select " ++ pretty "PathContinuation" (intText k) ++ ", " ++ l.at)
  | .callPre f l => some ("[ANALYSIS:] call pre " ++ pretty "FunctionIndex" (intText f) ++ ", " ++ l.at)
  | .callPost f l => some ("[ANALYSIS:] call post " ++ pretty "FunctionIndex" (intText f) ++ ", " ++ l.at)
  | .callIndirectPre index table l => some ("[ANALYSIS:] call_indirect pre " ++ pretty "FunctionTableIndex" (intText index) ++ " " ++ pretty "FunctionTable" (intText table) ++ ", " ++ l.at)
  | .callIndirectPost table l => some ("[ANALYSIS:] call_indirect post " ++ pretty "FunctionTable" (intText table) ++ ", " ++ l.at)
  | .unary op v l => some ("[ANALYSIS:] unary generic " ++ op.variant ++ " " ++ v.text F ++ ", " ++ l.at)
  | .binary op v w l => some ("[ANALYSIS:] binary generic " ++ op.variant ++ " " ++ v.text F ++ " " ++ w.text F ++ ", " ++ l.at)
  | .drop l => some ("[ANALYSIS:] Drop called! " ++ l.at)
  | .ret l => some ("[ANALYSIS:] Return called! " ++ l.at)
  | .const v l => some ("[ANALYSIS:] const_ generic " ++ v.text F ++ ", " ++ l.at)
  | .loc v i op l => some ("[ANALYSIS:] local generic " ++ v.text F ++ " @ " ++ pretty "LocalIndex" (intText i) ++ " : " ++ op.variant ++ ", " ++ l.at)
  | .glob v i op l => some ("[ANALYSIS:] global generic " ++ v.text F ++ " @ " ++ pretty "GlobalIndex" (intText i) ++ " : " ++ op.variant ++ ", " ++ l.at)
  | .load _ _ _ _ => none
  | .store i v offset op l => some ("[ANALYSIS:] store generic " ++ op.variant ++ " @ (CONST " ++ pretty "StoreOffset" (intText offset) ++ " + " ++
      pretty "StoreIndex" (intText i) ++ ") <- " ++ v.text F ++ ", " ++ l.at)
  | .memorySize v i l => some ("[ANALYSIS:] memory_size " ++ v.text F ++ " @ " ++ pretty "MemoryIndex" (intText i) ++ ", " ++ l.at)
  | .memoryGrow v i l => some ("[ANALYSIS:] memory_grow " ++ v.text F ++ " @ " ++ pretty "MemoryIndex" (intText i) ++ ", " ++ l.at)
  | .blockPre inputs arity l => some ("[ANALYSIS:] block pre [block_input_count: " ++ compact "BlockInputCount" (intText inputs) ++ ", block_arity: " ++
      compact "BlockArity" (intText arity) ++ "], " ++ l.at)
  | .blockPost l => some ("[ANALYSIS:] block post, " ++ l.at)
  | .loopPre inputs arity l => some ("[ANALYSIS:] loop_ pre [loop_input_count: " ++ compact "LoopInputCount" (intText inputs) ++ ", loop_arity: " ++
      compact "LoopArity" (intText arity) ++ "], " ++ l.at)
  | .loopPost l => some ("[ANALYSIS:] loop_ post, " ++ l.at)

/-- What the advice prints after it has performed something; only `load` does: `logging/src/lib.rs` 188-198. -/
def Advice.entryAfter (F : FloatText) : Advice → List RVal → Option String
  | .load i offset op l, [.num v] => some ("[ANALYSIS:] load generic " ++ op.variant ++ " @ (CONST " ++ pretty "LoadOffset" (intText offset) ++ " + " ++
      pretty "LoadIndex" (intText i) ++ ") -> " ++ v.text F ++ ", " ++ l.at)
  | _, _ => none

/-- `println!` -/
def printLine (out : String) : Option String → String
  | some e => out ++ e ++ "\n"
  | none => out

/-- The analysis: `logging/src/lib.rs` 14-264. Its advice otherwise forwards what it is handed. -/
def logging (F : FloatText) : Observer String where
  before a out := printLine out (a.entry F)
  after a vs out := printLine out (a.entryAfter F vs)

end Wastrum
