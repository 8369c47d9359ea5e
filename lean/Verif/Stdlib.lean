import Verif.Interface
import Verif.OpTypes
import Verif.Semantics
/-!
# The analysis library for Rust (`wastrumentation-rs-stdlib`) and the forwarding analysis

Models `wastrumentation-instr-lib/tests/analyses/rust/wastrumentation-rs-stdlib/src/{lib,unary,binary,memory}.rs`, as
compiled for `wasm32` (`cfg(target_arch = "wasm32")`; the alternative implementations for other targets are not modelled),
and `wastrumentation-instr-lib/tests/analyses/rust/forward/src/lib.rs`. A Rust panic is a trap (the crates are built
with `panic = "abort"`).
-/

namespace Wastrum

/-! ## Specification: mnemonics of the WebAssembly text format -/

/-- Text format of the unary operators (WebAssembly specification, not the tool). -/
def UnaryOp.mnemonic : UnaryOp → String
  | .i32Eqz => "i32.eqz"
  | .i64Eqz => "i64.eqz"
  | .i32Clz => "i32.clz"
  | .i32Ctz => "i32.ctz"
  | .i32Popcnt => "i32.popcnt"
  | .i64Clz => "i64.clz"
  | .i64Ctz => "i64.ctz"
  | .i64Popcnt => "i64.popcnt"
  | .f32Abs => "f32.abs"
  | .f32Neg => "f32.neg"
  | .f32Ceil => "f32.ceil"
  | .f32Floor => "f32.floor"
  | .f32Trunc => "f32.trunc"
  | .f32Nearest => "f32.nearest"
  | .f32Sqrt => "f32.sqrt"
  | .f64Abs => "f64.abs"
  | .f64Neg => "f64.neg"
  | .f64Ceil => "f64.ceil"
  | .f64Floor => "f64.floor"
  | .f64Trunc => "f64.trunc"
  | .f64Nearest => "f64.nearest"
  | .f64Sqrt => "f64.sqrt"
  | .i32WrapI64 => "i32.wrap_i64"
  | .i32TruncF32S => "i32.trunc_f32_s"
  | .i32TruncF32U => "i32.trunc_f32_u"
  | .i32TruncF64S => "i32.trunc_f64_s"
  | .i32TruncF64U => "i32.trunc_f64_u"
  | .i32TruncSatF32S => "i32.trunc_sat_f32_s"
  | .i32TruncSatF32U => "i32.trunc_sat_f32_u"
  | .i32TruncSatF64S => "i32.trunc_sat_f64_s"
  | .i32TruncSatF64U => "i32.trunc_sat_f64_u"
  | .i64ExtendI32S => "i64.extend_i32_s"
  | .i64ExtendI32U => "i64.extend_i32_u"
  | .i64TruncF32S => "i64.trunc_f32_s"
  | .i64TruncF32U => "i64.trunc_f32_u"
  | .i64TruncF64S => "i64.trunc_f64_s"
  | .i64TruncF64U => "i64.trunc_f64_u"
  | .i64TruncSatF32S => "i64.trunc_sat_f32_s"
  | .i64TruncSatF32U => "i64.trunc_sat_f32_u"
  | .i64TruncSatF64S => "i64.trunc_sat_f64_s"
  | .i64TruncSatF64U => "i64.trunc_sat_f64_u"
  | .f32ConvertI32S => "f32.convert_i32_s"
  | .f32ConvertI32U => "f32.convert_i32_u"
  | .f32ConvertI64S => "f32.convert_i64_s"
  | .f32ConvertI64U => "f32.convert_i64_u"
  | .f32DemoteF64 => "f32.demote_f64"
  | .f64ConvertI32S => "f64.convert_i32_s"
  | .f64ConvertI32U => "f64.convert_i32_u"
  | .f64ConvertI64S => "f64.convert_i64_s"
  | .f64ConvertI64U => "f64.convert_i64_u"
  | .f64PromoteF32 => "f64.promote_f32"
  | .i32ReinterpretF32 => "i32.reinterpret_f32"
  | .i64ReinterpretF64 => "i64.reinterpret_f64"
  | .f32ReinterpretI32 => "f32.reinterpret_i32"
  | .f64ReinterpretI64 => "f64.reinterpret_i64"
  | .i32Extend8S => "i32.extend8_s"
  | .i32Extend16S => "i32.extend16_s"
  | .i64Extend8S => "i64.extend8_s"
  | .i64Extend16S => "i64.extend16_s"
  | .i64Extend32S => "i64.extend32_s"

/-- Text format of the binary operators (WebAssembly specification, not the tool). -/
def BinaryOp.mnemonic : BinaryOp → String
  | .i32Eq => "i32.eq"
  | .i32Ne => "i32.ne"
  | .i32LtS => "i32.lt_s"
  | .i32LtU => "i32.lt_u"
  | .i32GtS => "i32.gt_s"
  | .i32GtU => "i32.gt_u"
  | .i32LeS => "i32.le_s"
  | .i32LeU => "i32.le_u"
  | .i32GeS => "i32.ge_s"
  | .i32GeU => "i32.ge_u"
  | .i64Eq => "i64.eq"
  | .i64Ne => "i64.ne"
  | .i64LtS => "i64.lt_s"
  | .i64LtU => "i64.lt_u"
  | .i64GtS => "i64.gt_s"
  | .i64GtU => "i64.gt_u"
  | .i64LeS => "i64.le_s"
  | .i64LeU => "i64.le_u"
  | .i64GeS => "i64.ge_s"
  | .i64GeU => "i64.ge_u"
  | .f32Eq => "f32.eq"
  | .f32Ne => "f32.ne"
  | .f32Lt => "f32.lt"
  | .f32Gt => "f32.gt"
  | .f32Le => "f32.le"
  | .f32Ge => "f32.ge"
  | .f64Eq => "f64.eq"
  | .f64Ne => "f64.ne"
  | .f64Lt => "f64.lt"
  | .f64Gt => "f64.gt"
  | .f64Le => "f64.le"
  | .f64Ge => "f64.ge"
  | .i32Add => "i32.add"
  | .i32Sub => "i32.sub"
  | .i32Mul => "i32.mul"
  | .i32DivS => "i32.div_s"
  | .i32DivU => "i32.div_u"
  | .i32RemS => "i32.rem_s"
  | .i32RemU => "i32.rem_u"
  | .i32And => "i32.and"
  | .i32Or => "i32.or"
  | .i32Xor => "i32.xor"
  | .i32Shl => "i32.shl"
  | .i32ShrS => "i32.shr_s"
  | .i32ShrU => "i32.shr_u"
  | .i32Rotl => "i32.rotl"
  | .i32Rotr => "i32.rotr"
  | .i64Add => "i64.add"
  | .i64Sub => "i64.sub"
  | .i64Mul => "i64.mul"
  | .i64DivS => "i64.div_s"
  | .i64DivU => "i64.div_u"
  | .i64RemS => "i64.rem_s"
  | .i64RemU => "i64.rem_u"
  | .i64And => "i64.and"
  | .i64Or => "i64.or"
  | .i64Xor => "i64.xor"
  | .i64Shl => "i64.shl"
  | .i64ShrS => "i64.shr_s"
  | .i64ShrU => "i64.shr_u"
  | .i64Rotl => "i64.rotl"
  | .i64Rotr => "i64.rotr"
  | .f32Add => "f32.add"
  | .f32Sub => "f32.sub"
  | .f32Mul => "f32.mul"
  | .f32Div => "f32.div"
  | .f32Min => "f32.min"
  | .f32Max => "f32.max"
  | .f32Copysign => "f32.copysign"
  | .f64Add => "f64.add"
  | .f64Sub => "f64.sub"
  | .f64Mul => "f64.mul"
  | .f64Div => "f64.div"
  | .f64Min => "f64.min"
  | .f64Max => "f64.max"
  | .f64Copysign => "f64.copysign"

/-- All unary operators. -/
def UnaryOp.all : List UnaryOp := [
  .i32Eqz, .i64Eqz, .i32Clz, .i32Ctz, .i32Popcnt, .i64Clz,
  .i64Ctz, .i64Popcnt, .f32Abs, .f32Neg, .f32Ceil, .f32Floor,
  .f32Trunc, .f32Nearest, .f32Sqrt, .f64Abs, .f64Neg, .f64Ceil,
  .f64Floor, .f64Trunc, .f64Nearest, .f64Sqrt, .i32WrapI64, .i32TruncF32S,
  .i32TruncF32U, .i32TruncF64S, .i32TruncF64U, .i32TruncSatF32S, .i32TruncSatF32U, .i32TruncSatF64S,
  .i32TruncSatF64U, .i64ExtendI32S, .i64ExtendI32U, .i64TruncF32S, .i64TruncF32U, .i64TruncF64S,
  .i64TruncF64U, .i64TruncSatF32S, .i64TruncSatF32U, .i64TruncSatF64S, .i64TruncSatF64U, .f32ConvertI32S,
  .f32ConvertI32U, .f32ConvertI64S, .f32ConvertI64U, .f32DemoteF64, .f64ConvertI32S, .f64ConvertI32U,
  .f64ConvertI64S, .f64ConvertI64U, .f64PromoteF32, .i32ReinterpretF32, .i64ReinterpretF64, .f32ReinterpretI32,
  .f64ReinterpretI64, .i32Extend8S, .i32Extend16S, .i64Extend8S, .i64Extend16S, .i64Extend32S]

/-- All binary operators. -/
def BinaryOp.all : List BinaryOp := [
  .i32Eq, .i32Ne, .i32LtS, .i32LtU, .i32GtS, .i32GtU,
  .i32LeS, .i32LeU, .i32GeS, .i32GeU, .i64Eq, .i64Ne,
  .i64LtS, .i64LtU, .i64GtS, .i64GtU, .i64LeS, .i64LeU,
  .i64GeS, .i64GeU, .f32Eq, .f32Ne, .f32Lt, .f32Gt,
  .f32Le, .f32Ge, .f64Eq, .f64Ne, .f64Lt, .f64Gt,
  .f64Le, .f64Ge, .i32Add, .i32Sub, .i32Mul, .i32DivS,
  .i32DivU, .i32RemS, .i32RemU, .i32And, .i32Or, .i32Xor,
  .i32Shl, .i32ShrS, .i32ShrU, .i32Rotl, .i32Rotr, .i64Add,
  .i64Sub, .i64Mul, .i64DivS, .i64DivU, .i64RemS, .i64RemU,
  .i64And, .i64Or, .i64Xor, .i64Shl, .i64ShrS, .i64ShrU,
  .i64Rotl, .i64Rotr, .f32Add, .f32Sub, .f32Mul, .f32Div,
  .f32Min, .f32Max, .f32Copysign, .f64Add, .f64Sub, .f64Mul,
  .f64Div, .f64Min, .f64Max, .f64Copysign]

/-! ## The tables of the library -/

/-- One row of `generate_unary_boilerplate!`: code, variant, operand type, instruction text, result type. -/
structure UnaryRow where
  code : BitVec 32
  op : UnaryOp
  inTy : ValType
  asm : String
  outTy : ValType

/-- The rows: `unary.rs` 81-143. The enum `UnaryOperator` has the variants of `UnaryOp`. -/
def unaryRows : List UnaryRow := [
  ⟨1, .i32Eqz, .i32, "i32.eqz", .i32⟩,
  ⟨2, .i64Eqz, .i64, "i64.eqz", .i32⟩,
  ⟨3, .i32Clz, .i32, "i32.clz", .i32⟩,
  ⟨4, .i32Ctz, .i32, "i32.ctz", .i32⟩,
  ⟨5, .i32Popcnt, .i32, "i32.popcnt", .i32⟩,
  ⟨6, .i64Clz, .i64, "i64.clz", .i64⟩,
  ⟨7, .i64Ctz, .i64, "i64.ctz", .i64⟩,
  ⟨8, .i64Popcnt, .i64, "i64.popcnt", .i64⟩,
  ⟨9, .f32Abs, .f32, "f32.abs", .f32⟩,
  ⟨10, .f32Neg, .f32, "f32.neg", .f32⟩,
  ⟨11, .f32Ceil, .f32, "f32.ceil", .f32⟩,
  ⟨12, .f32Floor, .f32, "f32.floor", .f32⟩,
  ⟨13, .f32Trunc, .f32, "f32.trunc", .f32⟩,
  ⟨14, .f32Nearest, .f32, "f32.nearest", .f32⟩,
  ⟨15, .f32Sqrt, .f32, "f32.sqrt", .f32⟩,
  ⟨16, .f64Abs, .f64, "f64.abs", .f64⟩,
  ⟨17, .f64Neg, .f64, "f64.neg", .f64⟩,
  ⟨18, .f64Ceil, .f64, "f64.ceil", .f64⟩,
  ⟨19, .f64Floor, .f64, "f64.floor", .f64⟩,
  ⟨20, .f64Trunc, .f64, "f64.trunc", .f64⟩,
  ⟨21, .f64Nearest, .f64, "f64.nearest", .f64⟩,
  ⟨22, .f64Sqrt, .f64, "f64.sqrt", .f64⟩,
  ⟨23, .i32WrapI64, .i64, "i32.wrap_i64", .i32⟩,
  ⟨24, .i32TruncF32S, .f32, "i32.trunc_f32_s", .i32⟩,
  ⟨25, .i32TruncF32U, .f32, "i32.trunc_f32_u", .i32⟩,
  ⟨26, .i32TruncF64S, .f64, "i32.trunc_f64_s", .i32⟩,
  ⟨27, .i32TruncF64U, .f64, "i32.trunc_f64_u", .i32⟩,
  ⟨28, .i32TruncSatF32S, .f32, "i32.trunc_sat_f32_s", .i32⟩,
  ⟨29, .i32TruncSatF32U, .f32, "i32.trunc_sat_f32_u", .i32⟩,
  ⟨30, .i32TruncSatF64S, .f64, "i32.trunc_sat_f64_s", .i32⟩,
  ⟨31, .i32TruncSatF64U, .f64, "i32.trunc_sat_f64_u", .i32⟩,
  ⟨32, .i64ExtendI32S, .i32, "i64.extend_i32_s", .i64⟩,
  ⟨33, .i64ExtendI32U, .i32, "i64.extend_i32_u", .i64⟩,
  ⟨34, .i64TruncF32S, .f32, "i64.trunc_f32_s", .i64⟩,
  ⟨35, .i64TruncF32U, .f32, "i64.trunc_f32_u", .i64⟩,
  ⟨36, .i64TruncF64S, .f64, "i64.trunc_f64_s", .i64⟩,
  ⟨37, .i64TruncF64U, .f64, "i64.trunc_f64_u", .i64⟩,
  ⟨38, .i64TruncSatF32S, .f32, "i64.trunc_sat_f32_s", .i64⟩,
  ⟨39, .i64TruncSatF32U, .f32, "i64.trunc_sat_f32_u", .i64⟩,
  ⟨40, .i64TruncSatF64S, .f64, "i64.trunc_sat_f64_s", .i64⟩,
  ⟨41, .i64TruncSatF64U, .f64, "i64.trunc_sat_f64_u", .i64⟩,
  ⟨42, .f32ConvertI32S, .i32, "f32.convert_i32_s", .f32⟩,
  ⟨43, .f32ConvertI32U, .i32, "f32.convert_i32_u", .f32⟩,
  ⟨44, .f32ConvertI64S, .i64, "f32.convert_i64_s", .f32⟩,
  ⟨45, .f32ConvertI64U, .i64, "f32.convert_i64_u", .f32⟩,
  ⟨46, .f32DemoteF64, .f64, "f32.demote_f64", .f32⟩,
  ⟨47, .f64ConvertI32S, .i32, "f64.convert_i32_s", .f64⟩,
  ⟨48, .f64ConvertI32U, .i32, "f64.convert_i32_u", .f64⟩,
  ⟨49, .f64ConvertI64S, .i64, "f64.convert_i64_s", .f64⟩,
  ⟨50, .f64ConvertI64U, .i64, "f64.convert_i64_u", .f64⟩,
  ⟨51, .f64PromoteF32, .f32, "f64.promote_f32", .f64⟩,
  ⟨52, .i32ReinterpretF32, .f32, "i32.reinterpret_f32", .i32⟩,
  ⟨53, .i64ReinterpretF64, .f64, "i64.reinterpret_f64", .i64⟩,
  ⟨54, .f32ReinterpretI32, .i32, "f32.reinterpret_i32", .f32⟩,
  ⟨55, .f64ReinterpretI64, .i64, "f64.reinterpret_i64", .f64⟩,
  ⟨56, .i32Extend8S, .i32, "i32.extend8_s", .i32⟩,
  ⟨57, .i32Extend16S, .i32, "i32.extend16_s", .i32⟩,
  ⟨58, .i64Extend8S, .i64, "i64.extend8_s", .i64⟩,
  ⟨59, .i64Extend16S, .i64, "i64.extend16_s", .i64⟩,
  ⟨60, .i64Extend32S, .i64, "i64.extend32_s", .i64⟩]

/-- One row of `generate_binary_boilerplate!`: code, variant, operand types, instruction text, result type. -/
structure BinaryRow where
  code : BitVec 32
  op : BinaryOp
  lTy : ValType
  rTy : ValType
  asm : String
  outTy : ValType

/-- The rows: `binary.rs` 83-161. -/
def binaryRows : List BinaryRow := [
  ⟨1, .i32Eq, .i32, .i32, "i32.eq", .i32⟩,
  ⟨2, .i32Ne, .i32, .i32, "i32.ne", .i32⟩,
  ⟨3, .i32LtS, .i32, .i32, "i32.lt_s", .i32⟩,
  ⟨4, .i32LtU, .i32, .i32, "i32.lt_u", .i32⟩,
  ⟨5, .i32GtS, .i32, .i32, "i32.gt_s", .i32⟩,
  ⟨6, .i32GtU, .i32, .i32, "i32.gt_u", .i32⟩,
  ⟨7, .i32LeS, .i32, .i32, "i32.le_s", .i32⟩,
  ⟨8, .i32LeU, .i32, .i32, "i32.le_u", .i32⟩,
  ⟨9, .i32GeS, .i32, .i32, "i32.ge_s", .i32⟩,
  ⟨10, .i32GeU, .i32, .i32, "i32.ge_u", .i32⟩,
  ⟨11, .i64Eq, .i64, .i64, "i64.eq", .i32⟩,
  ⟨12, .i64Ne, .i64, .i64, "i64.ne", .i32⟩,
  ⟨13, .i64LtS, .i64, .i64, "i64.lt_s", .i32⟩,
  ⟨14, .i64LtU, .i64, .i64, "i64.lt_u", .i32⟩,
  ⟨15, .i64GtS, .i64, .i64, "i64.gt_s", .i32⟩,
  ⟨16, .i64GtU, .i64, .i64, "i64.gt_u", .i32⟩,
  ⟨17, .i64LeS, .i64, .i64, "i64.le_s", .i32⟩,
  ⟨18, .i64LeU, .i64, .i64, "i64.le_u", .i32⟩,
  ⟨19, .i64GeS, .i64, .i64, "i64.ge_s", .i32⟩,
  ⟨20, .i64GeU, .i64, .i64, "i64.ge_u", .i32⟩,
  ⟨21, .f32Eq, .f32, .f32, "f32.eq", .i32⟩,
  ⟨22, .f32Ne, .f32, .f32, "f32.ne", .i32⟩,
  ⟨23, .f32Lt, .f32, .f32, "f32.lt", .i32⟩,
  ⟨24, .f32Gt, .f32, .f32, "f32.gt", .i32⟩,
  ⟨25, .f32Le, .f32, .f32, "f32.le", .i32⟩,
  ⟨26, .f32Ge, .f32, .f32, "f32.ge", .i32⟩,
  ⟨27, .f64Eq, .f64, .f64, "f64.eq", .i32⟩,
  ⟨28, .f64Ne, .f64, .f64, "f64.ne", .i32⟩,
  ⟨29, .f64Lt, .f64, .f64, "f64.lt", .i32⟩,
  ⟨30, .f64Gt, .f64, .f64, "f64.gt", .i32⟩,
  ⟨31, .f64Le, .f64, .f64, "f64.le", .i32⟩,
  ⟨32, .f64Ge, .f64, .f64, "f64.ge", .i32⟩,
  ⟨33, .i32Add, .i32, .i32, "i32.add", .i32⟩,
  ⟨34, .i32Sub, .i32, .i32, "i32.sub", .i32⟩,
  ⟨35, .i32Mul, .i32, .i32, "i32.mul", .i32⟩,
  ⟨36, .i32DivS, .i32, .i32, "i32.div_s", .i32⟩,
  ⟨37, .i32DivU, .i32, .i32, "i32.div_u", .i32⟩,
  ⟨38, .i32RemS, .i32, .i32, "i32.rem_s", .i32⟩,
  ⟨39, .i32RemU, .i32, .i32, "i32.rem_u", .i32⟩,
  ⟨40, .i32And, .i32, .i32, "i32.and", .i32⟩,
  ⟨41, .i32Or, .i32, .i32, "i32.or", .i32⟩,
  ⟨42, .i32Xor, .i32, .i32, "i32.xor", .i32⟩,
  ⟨43, .i32Shl, .i32, .i32, "i32.shl", .i32⟩,
  ⟨44, .i32ShrS, .i32, .i32, "i32.shr_s", .i32⟩,
  ⟨45, .i32ShrU, .i32, .i32, "i32.shr_u", .i32⟩,
  ⟨46, .i32Rotl, .i32, .i32, "i32.rotl", .i32⟩,
  ⟨47, .i32Rotr, .i32, .i32, "i32.rotr", .i32⟩,
  ⟨48, .i64Add, .i64, .i64, "i64.add", .i64⟩,
  ⟨49, .i64Sub, .i64, .i64, "i64.sub", .i64⟩,
  ⟨50, .i64Mul, .i64, .i64, "i64.mul", .i64⟩,
  ⟨51, .i64DivS, .i64, .i64, "i64.div_s", .i64⟩,
  ⟨52, .i64DivU, .i64, .i64, "i64.div_u", .i64⟩,
  ⟨53, .i64RemS, .i64, .i64, "i64.rem_s", .i64⟩,
  ⟨54, .i64RemU, .i64, .i64, "i64.rem_u", .i64⟩,
  ⟨55, .i64And, .i64, .i64, "i64.and", .i64⟩,
  ⟨56, .i64Or, .i64, .i64, "i64.or", .i64⟩,
  ⟨57, .i64Xor, .i64, .i64, "i64.xor", .i64⟩,
  ⟨58, .i64Shl, .i64, .i64, "i64.shl", .i64⟩,
  ⟨59, .i64ShrS, .i64, .i64, "i64.shr_s", .i64⟩,
  ⟨60, .i64ShrU, .i64, .i64, "i64.shr_u", .i64⟩,
  ⟨61, .i64Rotl, .i64, .i64, "i64.rotl", .i64⟩,
  ⟨62, .i64Rotr, .i64, .i64, "i64.rotr", .i64⟩,
  ⟨63, .f32Add, .f32, .f32, "f32.add", .f32⟩,
  ⟨64, .f32Sub, .f32, .f32, "f32.sub", .f32⟩,
  ⟨65, .f32Mul, .f32, .f32, "f32.mul", .f32⟩,
  ⟨66, .f32Div, .f32, .f32, "f32.div", .f32⟩,
  ⟨67, .f32Min, .f32, .f32, "f32.min", .f32⟩,
  ⟨68, .f32Max, .f32, .f32, "f32.max", .f32⟩,
  ⟨69, .f32Copysign, .f32, .f32, "f32.copysign", .f32⟩,
  ⟨70, .f64Add, .f64, .f64, "f64.add", .f64⟩,
  ⟨71, .f64Sub, .f64, .f64, "f64.sub", .f64⟩,
  ⟨72, .f64Mul, .f64, .f64, "f64.mul", .f64⟩,
  ⟨73, .f64Div, .f64, .f64, "f64.div", .f64⟩,
  ⟨74, .f64Min, .f64, .f64, "f64.min", .f64⟩,
  ⟨75, .f64Max, .f64, .f64, "f64.max", .f64⟩,
  ⟨76, .f64Copysign, .f64, .f64, "f64.copysign", .f64⟩]

/-- `impl From<i32> for UnaryOperator`: `unary.rs` 58-67 (`none`: panic). -/
def UnaryOp.ofCode (c : BitVec 32) : Option UnaryOp := (unaryRows.find? fun r => r.code == c).map (·.op)

/-- `impl From<i32> for BinaryOperator`: `binary.rs` 60-69 (`none`: panic). -/
def BinaryOp.ofCode (c : BitVec 32) : Option BinaryOp := (binaryRows.find? fun r => r.code == c).map (·.op)

/-- The arms of `impl Deserialize for StoreOperation`: `memory.rs` 87-97. -/
def storeArms : List (BitVec 32 × StoreOp) := [
  (1, .i32Store),
  (2, .i64Store),
  (3, .f32Store),
  (4, .f64Store),
  (5, .i32Store8),
  (6, .i32Store16),
  (7, .i64Store8),
  (8, .i64Store16),
  (9, .i64Store32)]

/-- `impl Deserialize for StoreOperation`: `memory.rs` 85-100 (`none`: panic). -/
def StoreOp.ofCode (c : BitVec 32) : Option StoreOp := (storeArms.find? fun r => r.1 == c).map (·.2)

/-- The arms of `impl Deserialize for LoadOperation`: `memory.rs` 220-235. -/
def loadArms : List (BitVec 32 × LoadOp) := [
  (1, .i32Load),
  (2, .i64Load),
  (3, .f32Load),
  (4, .f64Load),
  (5, .i32Load8S),
  (6, .i32Load8U),
  (7, .i32Load16S),
  (8, .i32Load16U),
  (9, .i64Load8S),
  (10, .i64Load8U),
  (11, .i64Load16S),
  (12, .i64Load16U),
  (13, .i64Load32S),
  (14, .i64Load32U)]

/-- `impl Deserialize for LoadOperation`: `memory.rs` 218-238 (`none`: panic). -/
def LoadOp.ofCode (c : BitVec 32) : Option LoadOp := (loadArms.find? fun r => r.1 == c).map (·.2)

/-- The base function `StoreOperation::perform` calls, and the type it converts the value to: `memory.rs` 113-127. -/
def StoreOp.callee : StoreOp → String × ValType
  | .f32Store => ("instrumented_base_store_f32", .f32)
  | .f64Store => ("instrumented_base_store_f64", .f64)
  | .i32Store => ("instrumented_base_store_i32", .i32)
  | .i64Store => ("instrumented_base_store_i64", .i64)
  | .i32Store16 => ("instrumented_base_store_i32_16", .i32)
  | .i32Store8 => ("instrumented_base_store_i32_8", .i32)
  | .i64Store16 => ("instrumented_base_store_i64_16", .i64)
  | .i64Store32 => ("instrumented_base_store_i64_32", .i64)
  | .i64Store8 => ("instrumented_base_store_i64_8", .i64)

/-- The base function `LoadOperation::perform` calls: `memory.rs` 166-185. -/
def LoadOp.callee : LoadOp → String
  | .f32Load => "instrumented_base_load_f32"
  | .f64Load => "instrumented_base_load_f64"
  | .i32Load => "instrumented_base_load_i32"
  | .i64Load => "instrumented_base_load_i64"
  | .i32Load16S => "instrumented_base_load_i32_16S"
  | .i32Load16U => "instrumented_base_load_i32_16U"
  | .i32Load8S => "instrumented_base_load_i32_8S"
  | .i32Load8U => "instrumented_base_load_i32_8U"
  | .i64Load16S => "instrumented_base_load_i64_16S"
  | .i64Load16U => "instrumented_base_load_i64_16U"
  | .i64Load32S => "instrumented_base_load_i64_32S"
  | .i64Load32U => "instrumented_base_load_i64_32U"
  | .i64Load8S => "instrumented_base_load_i64_8S"
  | .i64Load8U => "instrumented_base_load_i64_8U"

/-! ## Performing operations -/

/-- Executing the instruction with the given text on a value (what `asm!` does; `none`: trap). -/
def asmUnary (N : Num) (asm : String) (v : Val) : Option Val := (UnaryOp.all.find? fun op => op.mnemonic == asm).bind fun op => N.unary op v

/-- Executing the instruction with the given text on two values. -/
def asmBinary (N : Num) (asm : String) (l r : Val) : Option Val := (BinaryOp.all.find? fun op => op.mnemonic == asm).bind fun op => N.binary op l r

/-- `UnaryOperator::apply`: `unary.rs` 27-56 (`none`: trap; `as_i32` etc. panic for values of other types). -/
def UnaryOp.apply (N : Num) (op : UnaryOp) (v : Val) : Option Val :=
  (unaryRows.find? fun r => r.op == op).bind fun r =>
    if v.type = r.inTy then (asmUnary N r.asm v).bind fun w => if w.type = r.outTy then some w else none else none

/-- `BinaryOperator::apply`: `binary.rs` 26-58. -/
def BinaryOp.apply (N : Num) (op : BinaryOp) (l r : Val) : Option Val :=
  (binaryRows.find? fun row => row.op == op).bind fun row =>
    if l.type = row.lTy ∧ r.type = row.rTy then (asmBinary N row.asm l r).bind fun w => if w.type = row.outTy then some w else none else none

/-- `i32::try_from(i64)` (`none`: out of range). -/
def i64ToI32 (x : BitVec 64) : Option (BitVec 32) := if -(2 ^ 31) ≤ x.toInt ∧ x.toInt < 2 ^ 31 then some (x.setWidth 32) else none

/-! ## Locations and continuations -/

/-- `struct Location`: `lib.rs` 93-98. -/
structure Location where
  instrIndex : BitVec 64
  functIndex : BitVec 64
  deriving DecidableEq, Repr

/-- `Location::new`: `lib.rs` 101-106. -/
def Location.new (instr_index funct_index : BitVec 64) : Location := ⟨instr_index, funct_index⟩
/-- `Location::instruction_index`: `lib.rs` 107-109. -/
def Location.instructionIndex (l : Location) : BitVec 64 := l.instrIndex
/-- `Location::function_index`: `lib.rs` 111-113. -/
def Location.functionIndex (l : Location) : BitVec 64 := l.functIndex

/-- `THEN_KONTN`, `ELSE_KONTN`, `SKIP_KONTN`, `BRANCH_FAIL`: `lib.rs` 526-529. -/
def THEN_KONTN : BitVec 32 := 1
@[inherit_doc THEN_KONTN] def ELSE_KONTN : BitVec 32 := 0
@[inherit_doc THEN_KONTN] def SKIP_KONTN : BitVec 32 := ELSE_KONTN
@[inherit_doc THEN_KONTN] def BRANCH_FAIL : BitVec 32 := 0

/-- `SerializedContinuation::is_then`: `lib.rs` 538-541. -/
def isThen (k : BitVec 32) : Bool := k != BRANCH_FAIL
/-- `SerializedContinuation::is_else`: `lib.rs` 542-545. -/
def isElse (k : BitVec 32) : Bool := k == BRANCH_FAIL
/-- `SerializedContinuation::continue_then`: `lib.rs` 547-549. -/
def continueThen : BitVec 32 := THEN_KONTN
/-- `SerializedContinuation::continue_skip`: `lib.rs` 551-553. -/
def continueSkip : BitVec 32 := SKIP_KONTN
/-- `SerializedContinuation::continue_else`: `lib.rs` 555-557. -/
def continueElse : BitVec 32 := ELSE_KONTN

/-! ## What the bodies of the advice are handed -/

/-- `enum GlobalOp`: `lib.rs` 610-614. (`enum LocalOp`, 603-608, has the variants of the instruction kind `LocalOp`.) -/
inductive GlobOp where
  | get | set
  deriving DecidableEq, Repr

/-- The formal parameters of each kind of `advice!`: `lib.rs` 616-1392 (`apply` is modelled separately). -/
inductive Advice where
  | blockPre (inputs arity : BitVec 32) (l : Location)
  | blockPost (l : Location)
  | loopPre (inputs arity : BitVec 32) (l : Location)
  | loopPost (l : Location)
  | select (k : BitVec 32) (l : Location)
  | callPre (f : BitVec 32) (l : Location)
  | callPost (f : BitVec 32) (l : Location)
  | callIndirectPre (index table : BitVec 32) (l : Location)
  | callIndirectPost (table : BitVec 32) (l : Location)
  | ifThen (k inputs arity : BitVec 32) (l : Location)
  | ifThenPost (l : Location)
  | ifThenElse (k inputs arity : BitVec 32) (l : Location)
  | ifThenElsePost (l : Location)
  | br (label : BitVec 64) (l : Location)
  | brIf (k label : BitVec 32) (l : Location)
  | brTable (target effective dflt : BitVec 32) (l : Location)
  | drop (l : Location)
  | ret (l : Location)
  | const (v : Val) (l : Location)
  | unary (op : UnaryOp) (v : Val) (l : Location)
  | binary (op : BinaryOp) (v w : Val) (l : Location)
  | memorySize (v : Val) (i : BitVec 64) (l : Location)
  | memoryGrow (v : Val) (i : BitVec 64) (l : Location)
  | loc (v : Val) (i : BitVec 64) (op : LocalOp) (l : Location)
  | glob (v : Val) (i : BitVec 64) (op : GlobOp) (l : Location)
  | load (i : BitVec 32) (offset : BitVec 64) (op : LoadOp) (l : Location)
  | store (i : BitVec 32) (v : Val) (offset : BitVec 64) (op : StoreOp) (l : Location)
  deriving Repr

/-- The location the body is handed. -/
def Advice.location : Advice → Location
  | .blockPre _ _ l | .blockPost l | .loopPre _ _ l | .loopPost l | .select _ l | .callPre _ l | .callPost _ l | .callIndirectPre _ _ l
  | .callIndirectPost _ l | .ifThen _ _ _ l | .ifThenPost l | .ifThenElse _ _ _ l | .ifThenElsePost l | .br _ l | .brIf _ _ l | .brTable _ _ _ l
  | .drop l | .ret l | .const _ l | .unary _ _ l | .binary _ _ _ l | .memorySize _ _ l | .memoryGrow _ _ l | .loc _ _ _ l | .glob _ _ _ l
  | .load _ _ _ l | .store _ _ _ _ l => l

/-- The functions `advice!` exports: name, parameters and result. Lines of `lib.rs` per hook: call pre 617-636, post
637-652, call_indirect pre 653-674, post 675-691, br 714-730, if_then_else 731-754, if_then 755-777, posts 778-801,
br_if 802-822, br_table 823-846, select 847-863, unary 867-927, binary 931-988, drop 989-1000, return 1001-1012,
const 1013-1055, local 1056-1122, global 1123-1178, load 1180-1228, store 1230-1280, memory_size 1281-1300,
memory_grow 1301-1320, block 1321-1348, loop 1349-1376. -/
def stdSig : Trap → String × List ValType × List ValType
  | .preBlock => ("trap_block_pre", [.i32, .i32, .i64, .i64], [])
  | .postBlock => ("trap_block_post", [.i64, .i64], [])
  | .preLoop => ("trap_loop_pre", [.i32, .i32, .i64, .i64], [])
  | .postLoop => ("trap_loop_post", [.i64, .i64], [])
  | .select => ("specialized_select", [.i32, .i64, .i64], [.i32])
  | .preTrapCall => ("specialized_call_pre", [.i32, .i64, .i64], [])
  | .postTrapCall => ("specialized_call_post", [.i32, .i64, .i64], [])
  | .preTrapCallIndirect => ("specialized_call_indirect_pre", [.i32, .i32, .i64, .i64], [.i32])
  | .postTrapCallIndirect => ("specialized_call_indirect_post", [.i32, .i64, .i64], [])
  | .ifThenTrap => ("specialized_if_then_k", [.i32, .i32, .i32, .i64, .i64], [.i32])
  | .ifThenPostTrap => ("trap_if_then_post", [.i64, .i64], [])
  | .ifThenElseTrap => ("specialized_if_then_else_k", [.i32, .i32, .i32, .i64, .i64], [.i32])
  | .ifThenElsePostTrap => ("trap_if_then_else_post", [.i64, .i64], [])
  | .brTrap => ("specialized_br", [.i64, .i64, .i64], [])
  | .brIfTrap => ("specialized_br_if", [.i32, .i32, .i64, .i64], [.i32])
  | .brTableTrap => ("specialized_br_table", [.i32, .i32, .i32, .i64, .i64], [.i32])
  | .dropTrap => ("drop_trap", [.i64, .i64], [])
  | .returnTrap => ("return_trap", [.i64, .i64], [])
  | .constI32Trap => ("trap_const_i32", [.i32, .i64, .i64], [.i32])
  | .constF32Trap => ("trap_const_f32", [.f32, .i64, .i64], [.f32])
  | .constI64Trap => ("trap_const_i64", [.i64, .i64, .i64], [.i64])
  | .constF64Trap => ("trap_const_f64", [.f64, .i64, .i64], [.f64])
  | .unaryI32ToI32 => ("unary_i32_to_i32", [.i32, .i32, .i64, .i64], [.i32])
  | .unaryI64ToI32 => ("unary_i64_to_i32", [.i64, .i32, .i64, .i64], [.i32])
  | .unaryI64ToI64 => ("unary_i64_to_i64", [.i64, .i32, .i64, .i64], [.i64])
  | .unaryF32ToF32 => ("unary_f32_to_f32", [.f32, .i32, .i64, .i64], [.f32])
  | .unaryF64ToF64 => ("unary_f64_to_f64", [.f64, .i32, .i64, .i64], [.f64])
  | .unaryF32ToI32 => ("unary_f32_to_i32", [.f32, .i32, .i64, .i64], [.i32])
  | .unaryF64ToI32 => ("unary_f64_to_i32", [.f64, .i32, .i64, .i64], [.i32])
  | .unaryI32ToI64 => ("unary_i32_to_i64", [.i32, .i32, .i64, .i64], [.i64])
  | .unaryF32ToI64 => ("unary_f32_to_i64", [.f32, .i32, .i64, .i64], [.i64])
  | .unaryF64ToI64 => ("unary_f64_to_i64", [.f64, .i32, .i64, .i64], [.i64])
  | .unaryI32ToF32 => ("unary_i32_to_f32", [.i32, .i32, .i64, .i64], [.f32])
  | .unaryI64ToF32 => ("unary_i64_to_f32", [.i64, .i32, .i64, .i64], [.f32])
  | .unaryF64ToF32 => ("unary_f64_to_f32", [.f64, .i32, .i64, .i64], [.f32])
  | .unaryI32ToF64 => ("unary_i32_to_f64", [.i32, .i32, .i64, .i64], [.f64])
  | .unaryI64ToF64 => ("unary_i64_to_f64", [.i64, .i32, .i64, .i64], [.f64])
  | .unaryF32ToF64 => ("unary_f32_to_f64", [.f32, .i32, .i64, .i64], [.f64])
  | .binaryI32I32ToI32 => ("binary_i32_i32_to_i32", [.i32, .i32, .i32, .i64, .i64], [.i32])
  | .binaryI64I64ToI32 => ("binary_i64_i64_to_i32", [.i64, .i64, .i32, .i64, .i64], [.i32])
  | .binaryF32F32ToI32 => ("binary_f32_f32_to_i32", [.f32, .f32, .i32, .i64, .i64], [.i32])
  | .binaryF64F64ToI32 => ("binary_f64_f64_to_i32", [.f64, .f64, .i32, .i64, .i64], [.i32])
  | .binaryI64I64ToI64 => ("binary_i64_i64_to_i64", [.i64, .i64, .i32, .i64, .i64], [.i64])
  | .binaryF32F32ToF32 => ("binary_f32_f32_to_f32", [.f32, .f32, .i32, .i64, .i64], [.f32])
  | .binaryF64F64ToF64 => ("binary_f64_f64_to_f64", [.f64, .f64, .i32, .i64, .i64], [.f64])
  | .memorySize => ("trap_memory_size", [.i32, .i64, .i64, .i64], [.i32])
  | .memoryGrow => ("trap_memory_grow", [.i32, .i64, .i64, .i64], [.i32])
  | .localGetI32 => ("trap_local_get_i32", [.i32, .i64, .i64, .i64], [.i32])
  | .localSetI32 => ("trap_local_set_i32", [.i32, .i64, .i64, .i64], [.i32])
  | .localTeeI32 => ("trap_local_tee_i32", [.i32, .i64, .i64, .i64], [.i32])
  | .globalGetI32 => ("trap_global_get_i32", [.i32, .i64, .i64, .i64], [.i32])
  | .globalSetI32 => ("trap_global_set_i32", [.i32, .i64, .i64, .i64], [.i32])
  | .localGetF32 => ("trap_local_get_f32", [.f32, .i64, .i64, .i64], [.f32])
  | .localSetF32 => ("trap_local_set_f32", [.f32, .i64, .i64, .i64], [.f32])
  | .localTeeF32 => ("trap_local_tee_f32", [.f32, .i64, .i64, .i64], [.f32])
  | .globalGetF32 => ("trap_global_get_f32", [.f32, .i64, .i64, .i64], [.f32])
  | .globalSetF32 => ("trap_global_set_f32", [.f32, .i64, .i64, .i64], [.f32])
  | .localGetI64 => ("trap_local_get_i64", [.i64, .i64, .i64, .i64], [.i64])
  | .localSetI64 => ("trap_local_set_i64", [.i64, .i64, .i64, .i64], [.i64])
  | .localTeeI64 => ("trap_local_tee_i64", [.i64, .i64, .i64, .i64], [.i64])
  | .globalGetI64 => ("trap_global_get_i64", [.i64, .i64, .i64, .i64], [.i64])
  | .globalSetI64 => ("trap_global_set_i64", [.i64, .i64, .i64, .i64], [.i64])
  | .localGetF64 => ("trap_local_get_f64", [.f64, .i64, .i64, .i64], [.f64])
  | .localSetF64 => ("trap_local_set_f64", [.f64, .i64, .i64, .i64], [.f64])
  | .localTeeF64 => ("trap_local_tee_f64", [.f64, .i64, .i64, .i64], [.f64])
  | .globalGetF64 => ("trap_global_get_f64", [.f64, .i64, .i64, .i64], [.f64])
  | .globalSetF64 => ("trap_global_set_f64", [.f64, .i64, .i64, .i64], [.f64])
  | .f32Store => ("trap_f32_store", [.i32, .f32, .i64, .i32, .i64, .i64], [])
  | .f64Store => ("trap_f64_store", [.i32, .f64, .i64, .i32, .i64, .i64], [])
  | .i32Store => ("trap_i32_store", [.i32, .i32, .i64, .i32, .i64, .i64], [])
  | .i64Store => ("trap_i64_store", [.i32, .i64, .i64, .i32, .i64, .i64], [])
  | .f32Load => ("trap_f32_load", [.i32, .i64, .i32, .i64, .i64], [.f32])
  | .f64Load => ("trap_f64_load", [.i32, .i64, .i32, .i64, .i64], [.f64])
  | .i32Load => ("trap_i32_load", [.i32, .i64, .i32, .i64, .i64], [.i32])
  | .i64Load => ("trap_i64_load", [.i32, .i64, .i32, .i64, .i64], [.i64])

/-- What the exported function for a hook hands to the body of the advice (same lines as `stdSig`; `none`: panic for an
unknown operator code). Arguments of other types than the parameters cannot occur in Wasm and are mapped to `none`. -/
def stdEntry (t : Trap) (args : List RVal) : Option Advice :=
  match t with
  | .preBlock => match args with
    | [.num (.i32 a), .num (.i32 b), .num (.i64 f), .num (.i64 i)] => some (.blockPre a b (.new f i))
    | _ => none
  | .postBlock => match args with
    | [.num (.i64 f), .num (.i64 i)] => some (.blockPost (.new f i))
    | _ => none
  | .preLoop => match args with
    | [.num (.i32 a), .num (.i32 b), .num (.i64 f), .num (.i64 i)] => some (.loopPre a b (.new f i))
    | _ => none
  | .postLoop => match args with
    | [.num (.i64 f), .num (.i64 i)] => some (.loopPost (.new f i))
    | _ => none
  | .select => match args with
    | [.num (.i32 k), .num (.i64 f), .num (.i64 i)] => some (.select k (.new f i))
    | _ => none
  | .preTrapCall => match args with
    | [.num (.i32 g), .num (.i64 f), .num (.i64 i)] => some (.callPre g (.new f i))
    | _ => none
  | .postTrapCall => match args with
    | [.num (.i32 g), .num (.i64 f), .num (.i64 i)] => some (.callPost g (.new f i))
    | _ => none
  | .preTrapCallIndirect => match args with
    | [.num (.i32 x), .num (.i32 t), .num (.i64 f), .num (.i64 i)] => some (.callIndirectPre x t (.new f i))
    | _ => none
  | .postTrapCallIndirect => match args with
    | [.num (.i32 t), .num (.i64 f), .num (.i64 i)] => some (.callIndirectPost t (.new f i))
    | _ => none
  | .ifThenTrap => match args with
    | [.num (.i32 k), .num (.i32 a), .num (.i32 b), .num (.i64 f), .num (.i64 i)] => some (.ifThen k a b (.new f i))
    | _ => none
  | .ifThenPostTrap => match args with
    | [.num (.i64 f), .num (.i64 i)] => some (.ifThenPost (.new f i))
    | _ => none
  | .ifThenElseTrap => match args with
    | [.num (.i32 k), .num (.i32 a), .num (.i32 b), .num (.i64 f), .num (.i64 i)] => some (.ifThenElse k a b (.new f i))
    | _ => none
  | .ifThenElsePostTrap => match args with
    | [.num (.i64 f), .num (.i64 i)] => some (.ifThenElsePost (.new f i))
    | _ => none
  | .brTrap => match args with
    | [.num (.i64 l), .num (.i64 f), .num (.i64 i)] => some (.br l (.new f i))
    | _ => none
  | .brIfTrap => match args with
    | [.num (.i32 k), .num (.i32 l), .num (.i64 f), .num (.i64 i)] => some (.brIf k l (.new f i))
    | _ => none
  | .brTableTrap => match args with
    | [.num (.i32 t), .num (.i32 e), .num (.i32 d), .num (.i64 f), .num (.i64 i)] => some (.brTable t e d (.new f i))
    | _ => none
  | .dropTrap => match args with
    | [.num (.i64 f), .num (.i64 i)] => some (.drop (.new f i))
    | _ => none
  | .returnTrap => match args with
    | [.num (.i64 f), .num (.i64 i)] => some (.ret (.new f i))
    | _ => none
  | .constI32Trap => match args with
    | [.num (.i32 v), .num (.i64 f), .num (.i64 i)] => some (.const (.i32 v) (.new f i))
    | _ => none
  | .constF32Trap => match args with
    | [.num (.f32 v), .num (.i64 f), .num (.i64 i)] => some (.const (.f32 v) (.new f i))
    | _ => none
  | .constI64Trap => match args with
    | [.num (.i64 v), .num (.i64 f), .num (.i64 i)] => some (.const (.i64 v) (.new f i))
    | _ => none
  | .constF64Trap => match args with
    | [.num (.f64 v), .num (.i64 f), .num (.i64 i)] => some (.const (.f64 v) (.new f i))
    | _ => none
  | .unaryI32ToI32 => match args with
    | [.num (.i32 v), .num (.i32 c), .num (.i64 f), .num (.i64 i)] => (UnaryOp.ofCode c).map fun op => .unary op (.i32 v) (.new f i)
    | _ => none
  | .unaryI64ToI32 => match args with
    | [.num (.i64 v), .num (.i32 c), .num (.i64 f), .num (.i64 i)] => (UnaryOp.ofCode c).map fun op => .unary op (.i64 v) (.new f i)
    | _ => none
  | .unaryI64ToI64 => match args with
    | [.num (.i64 v), .num (.i32 c), .num (.i64 f), .num (.i64 i)] => (UnaryOp.ofCode c).map fun op => .unary op (.i64 v) (.new f i)
    | _ => none
  | .unaryF32ToF32 => match args with
    | [.num (.f32 v), .num (.i32 c), .num (.i64 f), .num (.i64 i)] => (UnaryOp.ofCode c).map fun op => .unary op (.f32 v) (.new f i)
    | _ => none
  | .unaryF64ToF64 => match args with
    | [.num (.f64 v), .num (.i32 c), .num (.i64 f), .num (.i64 i)] => (UnaryOp.ofCode c).map fun op => .unary op (.f64 v) (.new f i)
    | _ => none
  | .unaryF32ToI32 => match args with
    | [.num (.f32 v), .num (.i32 c), .num (.i64 f), .num (.i64 i)] => (UnaryOp.ofCode c).map fun op => .unary op (.f32 v) (.new f i)
    | _ => none
  | .unaryF64ToI32 => match args with
    | [.num (.f64 v), .num (.i32 c), .num (.i64 f), .num (.i64 i)] => (UnaryOp.ofCode c).map fun op => .unary op (.f64 v) (.new f i)
    | _ => none
  | .unaryI32ToI64 => match args with
    | [.num (.i32 v), .num (.i32 c), .num (.i64 f), .num (.i64 i)] => (UnaryOp.ofCode c).map fun op => .unary op (.i32 v) (.new f i)
    | _ => none
  | .unaryF32ToI64 => match args with
    | [.num (.f32 v), .num (.i32 c), .num (.i64 f), .num (.i64 i)] => (UnaryOp.ofCode c).map fun op => .unary op (.f32 v) (.new f i)
    | _ => none
  | .unaryF64ToI64 => match args with
    | [.num (.f64 v), .num (.i32 c), .num (.i64 f), .num (.i64 i)] => (UnaryOp.ofCode c).map fun op => .unary op (.f64 v) (.new f i)
    | _ => none
  | .unaryI32ToF32 => match args with
    | [.num (.i32 v), .num (.i32 c), .num (.i64 f), .num (.i64 i)] => (UnaryOp.ofCode c).map fun op => .unary op (.i32 v) (.new f i)
    | _ => none
  | .unaryI64ToF32 => match args with
    | [.num (.i64 v), .num (.i32 c), .num (.i64 f), .num (.i64 i)] => (UnaryOp.ofCode c).map fun op => .unary op (.i64 v) (.new f i)
    | _ => none
  | .unaryF64ToF32 => match args with
    | [.num (.f64 v), .num (.i32 c), .num (.i64 f), .num (.i64 i)] => (UnaryOp.ofCode c).map fun op => .unary op (.f64 v) (.new f i)
    | _ => none
  | .unaryI32ToF64 => match args with
    | [.num (.i32 v), .num (.i32 c), .num (.i64 f), .num (.i64 i)] => (UnaryOp.ofCode c).map fun op => .unary op (.i32 v) (.new f i)
    | _ => none
  | .unaryI64ToF64 => match args with
    | [.num (.i64 v), .num (.i32 c), .num (.i64 f), .num (.i64 i)] => (UnaryOp.ofCode c).map fun op => .unary op (.i64 v) (.new f i)
    | _ => none
  | .unaryF32ToF64 => match args with
    | [.num (.f32 v), .num (.i32 c), .num (.i64 f), .num (.i64 i)] => (UnaryOp.ofCode c).map fun op => .unary op (.f32 v) (.new f i)
    | _ => none
  | .binaryI32I32ToI32 => match args with
    | [.num (.i32 v), .num (.i32 w), .num (.i32 c), .num (.i64 f), .num (.i64 i)] => (BinaryOp.ofCode c).map fun op => .binary op (.i32 v) (.i32 w) (.new f i)
    | _ => none
  | .binaryI64I64ToI32 => match args with
    | [.num (.i64 v), .num (.i64 w), .num (.i32 c), .num (.i64 f), .num (.i64 i)] => (BinaryOp.ofCode c).map fun op => .binary op (.i64 v) (.i64 w) (.new f i)
    | _ => none
  | .binaryF32F32ToI32 => match args with
    | [.num (.f32 v), .num (.f32 w), .num (.i32 c), .num (.i64 f), .num (.i64 i)] => (BinaryOp.ofCode c).map fun op => .binary op (.f32 v) (.f32 w) (.new f i)
    | _ => none
  | .binaryF64F64ToI32 => match args with
    | [.num (.f64 v), .num (.f64 w), .num (.i32 c), .num (.i64 f), .num (.i64 i)] => (BinaryOp.ofCode c).map fun op => .binary op (.f64 v) (.f64 w) (.new f i)
    | _ => none
  | .binaryI64I64ToI64 => match args with
    | [.num (.i64 v), .num (.i64 w), .num (.i32 c), .num (.i64 f), .num (.i64 i)] => (BinaryOp.ofCode c).map fun op => .binary op (.i64 v) (.i64 w) (.new f i)
    | _ => none
  | .binaryF32F32ToF32 => match args with
    | [.num (.f32 v), .num (.f32 w), .num (.i32 c), .num (.i64 f), .num (.i64 i)] => (BinaryOp.ofCode c).map fun op => .binary op (.f32 v) (.f32 w) (.new f i)
    | _ => none
  | .binaryF64F64ToF64 => match args with
    | [.num (.f64 v), .num (.f64 w), .num (.i32 c), .num (.i64 f), .num (.i64 i)] => (BinaryOp.ofCode c).map fun op => .binary op (.f64 v) (.f64 w) (.new f i)
    | _ => none
  | .memorySize => match args with
    | [.num (.i32 v), .num (.i64 x), .num (.i64 f), .num (.i64 i)] => some (.memorySize (.i32 v) x (.new f i))
    | _ => none
  | .memoryGrow => match args with
    | [.num (.i32 v), .num (.i64 x), .num (.i64 f), .num (.i64 i)] => some (.memoryGrow (.i32 v) x (.new f i))
    | _ => none
  | .localGetI32 => match args with
    | [.num (.i32 v), .num (.i64 x), .num (.i64 f), .num (.i64 i)] => some (.loc (.i32 v) x .get (.new f i))
    | _ => none
  | .localSetI32 => match args with
    | [.num (.i32 v), .num (.i64 x), .num (.i64 f), .num (.i64 i)] => some (.loc (.i32 v) x .set (.new f i))
    | _ => none
  | .localTeeI32 => match args with
    | [.num (.i32 v), .num (.i64 x), .num (.i64 f), .num (.i64 i)] => some (.loc (.i32 v) x .tee (.new f i))
    | _ => none
  | .globalGetI32 => match args with
    | [.num (.i32 v), .num (.i64 x), .num (.i64 f), .num (.i64 i)] => some (.glob (.i32 v) x .get (.new f i))
    | _ => none
  | .globalSetI32 => match args with
    | [.num (.i32 v), .num (.i64 x), .num (.i64 f), .num (.i64 i)] => some (.glob (.i32 v) x .set (.new f i))
    | _ => none
  | .localGetF32 => match args with
    | [.num (.f32 v), .num (.i64 x), .num (.i64 f), .num (.i64 i)] => some (.loc (.f32 v) x .get (.new f i))
    | _ => none
  | .localSetF32 => match args with
    | [.num (.f32 v), .num (.i64 x), .num (.i64 f), .num (.i64 i)] => some (.loc (.f32 v) x .set (.new f i))
    | _ => none
  | .localTeeF32 => match args with
    | [.num (.f32 v), .num (.i64 x), .num (.i64 f), .num (.i64 i)] => some (.loc (.f32 v) x .tee (.new f i))
    | _ => none
  | .globalGetF32 => match args with
    | [.num (.f32 v), .num (.i64 x), .num (.i64 f), .num (.i64 i)] => some (.glob (.f32 v) x .get (.new f i))
    | _ => none
  | .globalSetF32 => match args with
    | [.num (.f32 v), .num (.i64 x), .num (.i64 f), .num (.i64 i)] => some (.glob (.f32 v) x .set (.new f i))
    | _ => none
  | .localGetI64 => match args with
    | [.num (.i64 v), .num (.i64 x), .num (.i64 f), .num (.i64 i)] => some (.loc (.i64 v) x .get (.new f i))
    | _ => none
  | .localSetI64 => match args with
    | [.num (.i64 v), .num (.i64 x), .num (.i64 f), .num (.i64 i)] => some (.loc (.i64 v) x .set (.new f i))
    | _ => none
  | .localTeeI64 => match args with
    | [.num (.i64 v), .num (.i64 x), .num (.i64 f), .num (.i64 i)] => some (.loc (.i64 v) x .tee (.new f i))
    | _ => none
  | .globalGetI64 => match args with
    | [.num (.i64 v), .num (.i64 x), .num (.i64 f), .num (.i64 i)] => some (.glob (.i64 v) x .get (.new f i))
    | _ => none
  | .globalSetI64 => match args with
    | [.num (.i64 v), .num (.i64 x), .num (.i64 f), .num (.i64 i)] => some (.glob (.i64 v) x .set (.new f i))
    | _ => none
  | .localGetF64 => match args with
    | [.num (.f64 v), .num (.i64 x), .num (.i64 f), .num (.i64 i)] => some (.loc (.f64 v) x .get (.new f i))
    | _ => none
  | .localSetF64 => match args with
    | [.num (.f64 v), .num (.i64 x), .num (.i64 f), .num (.i64 i)] => some (.loc (.f64 v) x .set (.new f i))
    | _ => none
  | .localTeeF64 => match args with
    | [.num (.f64 v), .num (.i64 x), .num (.i64 f), .num (.i64 i)] => some (.loc (.f64 v) x .tee (.new f i))
    | _ => none
  | .globalGetF64 => match args with
    | [.num (.f64 v), .num (.i64 x), .num (.i64 f), .num (.i64 i)] => some (.glob (.f64 v) x .get (.new f i))
    | _ => none
  | .globalSetF64 => match args with
    | [.num (.f64 v), .num (.i64 x), .num (.i64 f), .num (.i64 i)] => some (.glob (.f64 v) x .set (.new f i))
    | _ => none
  | .f32Store => match args with
    | [.num (.i32 x), .num (.f32 v), .num (.i64 o), .num (.i32 c), .num (.i64 f), .num (.i64 i)] => (StoreOp.ofCode c).map fun op => .store x (.f32 v) o op (.new f i)
    | _ => none
  | .f64Store => match args with
    | [.num (.i32 x), .num (.f64 v), .num (.i64 o), .num (.i32 c), .num (.i64 f), .num (.i64 i)] => (StoreOp.ofCode c).map fun op => .store x (.f64 v) o op (.new f i)
    | _ => none
  | .i32Store => match args with
    | [.num (.i32 x), .num (.i32 v), .num (.i64 o), .num (.i32 c), .num (.i64 f), .num (.i64 i)] => (StoreOp.ofCode c).map fun op => .store x (.i32 v) o op (.new f i)
    | _ => none
  | .i64Store => match args with
    | [.num (.i32 x), .num (.i64 v), .num (.i64 o), .num (.i32 c), .num (.i64 f), .num (.i64 i)] => (StoreOp.ofCode c).map fun op => .store x (.i64 v) o op (.new f i)
    | _ => none
  | .f32Load => match args with
    | [.num (.i32 x), .num (.i64 o), .num (.i32 c), .num (.i64 f), .num (.i64 i)] => (LoadOp.ofCode c).map fun op => .load x o op (.new f i)
    | _ => none
  | .f64Load => match args with
    | [.num (.i32 x), .num (.i64 o), .num (.i32 c), .num (.i64 f), .num (.i64 i)] => (LoadOp.ofCode c).map fun op => .load x o op (.new f i)
    | _ => none
  | .i32Load => match args with
    | [.num (.i32 x), .num (.i64 o), .num (.i32 c), .num (.i64 f), .num (.i64 i)] => (LoadOp.ofCode c).map fun op => .load x o op (.new f i)
    | _ => none
  | .i64Load => match args with
    | [.num (.i32 x), .num (.i64 o), .num (.i32 c), .num (.i64 f), .num (.i64 i)] => (LoadOp.ofCode c).map fun op => .load x o op (.new f i)
    | _ => none

variable {W : Type}

/-- The exported function for a hook: hand the parameters to the body, return its outcome (panic if the outcome has
another type than declared; same lines as `stdSig`). The body gets the functions it may call back. -/
def stdHook (body : Advice → (Nat → List RVal → Store W → Res W) → Store W → Res W) (t : Trap) : Host W := fun call args s =>
  match stdEntry t args with
  | none => .trap s
  | some a => match body a call s with
    | .ok vs s1 => if vs.map RVal.type = (stdSig t).2.2 then .ok vs s1 else .trap s1
    | o => o

/-- An optional result; none is a trap. -/
def orTrap (o : Option Val) (s : Store W) : Res W :=
  match o with
  | some v => .ok [.num v] s
  | none => .trap s

/-- Call an imported base function by name (`extern "C"` block `transformed_input`: `lib.rs` 21-66); `base` says which
function of the instrumented module is exported under a name. -/
def callBase (base : String → Option Nat) (call : Nat → List RVal → Store W → Res W) (name : String) (args : List RVal) (s : Store W) : Res W :=
  match base name with
  | some k => call k args s
  | none => .stuck

/-- `StoreOperation::perform`: `memory.rs` 102-128. -/
def StoreOp.perform (base : String → Option Nat) (call : Nat → List RVal → Store W → Res W) (op : StoreOp) (i : BitVec 32) (v : Val) (offset : BitVec 64)
    (s : Store W) : Res W :=
  match i64ToI32 offset with
  | none => .trap s
  | some o => if v.type = op.callee.2 then callBase base call op.callee.1 [.num (.i32 i), .num v, .num (.i32 o)] s else .trap s

/-- `LoadOperation::perform`: `memory.rs` 155-186. -/
def LoadOp.perform (base : String → Option Nat) (call : Nat → List RVal → Store W → Res W) (op : LoadOp) (i : BitVec 32) (offset : BitVec 64)
    (s : Store W) : Res W :=
  match i64ToI32 offset with
  | none => .trap s
  | some o => callBase base call op.callee [.num (.i32 i), .num (.i32 o)] s

/-- `MemoryIndex::grow`: `memory.rs` 42-48. -/
def stdGrow (base : String → Option Nat) (call : Nat → List RVal → Store W → Res W) (amount : Val) (index : BitVec 64) (s : Store W) : Res W :=
  match amount with
  | .i32 n => match i64ToI32 index with
    | none => .trap s
    | some i => callBase base call "instrumented_memory_grow" [.num (.i32 n), .num (.i32 i)] s
  | _ => .trap s

/-- The bodies of the forwarding analysis: `forward/src/lib.rs` 14-271 (`apply`, 7-12, is modelled separately). -/
def forwardBody (N : Num) (base : String → Option Nat) (a : Advice) (call : Nat → List RVal → Store W → Res W) (s : Store W) : Res W :=
  match a with
  | .ifThenElse k _ _ _ | .ifThen k _ _ _ | .brIf k _ _ | .select k _ => .ok [.num (.i32 k)] s
  | .brTable t _ _ _ => .ok [.num (.i32 t)] s
  | .callIndirectPre x _ _ => .ok [.num (.i32 x)] s
  | .unary op v _ => orTrap (op.apply N v) s
  | .binary op l r _ => orTrap (op.apply N l r) s
  | .const v _ | .loc v _ _ _ | .glob v _ _ _ | .memorySize v _ _ => .ok [.num v] s
  | .load i o op _ => op.perform base call i o s
  | .store i v o op _ => op.perform base call i v o s
  | .memoryGrow v i _ => stdGrow base call v i s
  | .ifThenElsePost _ | .ifThenPost _ | .br _ _ | .callPre _ _ | .callPost _ _ | .callIndirectPost _ _ | .drop _ | .ret _
  | .blockPre _ _ _ | .blockPost _ | .loopPre _ _ _ | .loopPost _ => .ok [] s

end Wastrum
