import Verif.Syntax
/-!
# Wasm operator types (specification)

The operand and result types of the numeric and memory operators according to the WebAssembly
specification. Independent of the tool: nothing here models code in `/repo`.
-/

namespace Wastrum

/-- Operand and result type of a unary (test, arithmetic or conversion) operator. -/
def UnaryOp.sig : UnaryOp → ValType × ValType
  | .i32Eqz | .i32Clz | .i32Ctz | .i32Popcnt | .i32Extend8S | .i32Extend16S => (.i32, .i32)
  | .i64Eqz | .i32WrapI64 => (.i64, .i32)
  | .i64Clz | .i64Ctz | .i64Popcnt | .i64Extend8S | .i64Extend16S | .i64Extend32S => (.i64, .i64)
  | .f32Abs | .f32Neg | .f32Ceil | .f32Floor | .f32Trunc | .f32Nearest | .f32Sqrt => (.f32, .f32)
  | .f64Abs | .f64Neg | .f64Ceil | .f64Floor | .f64Trunc | .f64Nearest | .f64Sqrt => (.f64, .f64)
  | .i32TruncF32S | .i32TruncF32U | .i32TruncSatF32S | .i32TruncSatF32U | .i32ReinterpretF32 => (.f32, .i32)
  | .i32TruncF64S | .i32TruncF64U | .i32TruncSatF64S | .i32TruncSatF64U => (.f64, .i32)
  | .i64ExtendI32S | .i64ExtendI32U => (.i32, .i64)
  | .i64TruncF32S | .i64TruncF32U | .i64TruncSatF32S | .i64TruncSatF32U => (.f32, .i64)
  | .i64TruncF64S | .i64TruncF64U | .i64TruncSatF64S | .i64TruncSatF64U | .i64ReinterpretF64 => (.f64, .i64)
  | .f32ConvertI32S | .f32ConvertI32U | .f32ReinterpretI32 => (.i32, .f32)
  | .f32ConvertI64S | .f32ConvertI64U => (.i64, .f32)
  | .f32DemoteF64 => (.f64, .f32)
  | .f64ConvertI32S | .f64ConvertI32U => (.i32, .f64)
  | .f64ConvertI64S | .f64ConvertI64U | .f64ReinterpretI64 => (.i64, .f64)
  | .f64PromoteF32 => (.f32, .f64)

/-- Type of both operands and type of the result of a binary (comparison or arithmetic) operator. -/
def BinaryOp.sig : BinaryOp → ValType × ValType
  | .i32Eq | .i32Ne | .i32LtS | .i32LtU | .i32GtS | .i32GtU | .i32LeS | .i32LeU | .i32GeS | .i32GeU |
  .i32Add | .i32Sub | .i32Mul | .i32DivS | .i32DivU | .i32RemS | .i32RemU | .i32And | .i32Or | .i32Xor
  | .i32Shl | .i32ShrS | .i32ShrU | .i32Rotl | .i32Rotr => (.i32, .i32)
  | .i64Eq | .i64Ne | .i64LtS | .i64LtU | .i64GtS | .i64GtU | .i64LeS | .i64LeU | .i64GeS | .i64GeU => (.i64, .i32)
  | .f32Eq | .f32Ne | .f32Lt | .f32Gt | .f32Le | .f32Ge => (.f32, .i32)
  | .f64Eq | .f64Ne | .f64Lt | .f64Gt | .f64Le | .f64Ge => (.f64, .i32)
  | .i64Add | .i64Sub | .i64Mul | .i64DivS | .i64DivU | .i64RemS | .i64RemU | .i64And | .i64Or |
  .i64Xor | .i64Shl | .i64ShrS | .i64ShrU | .i64Rotl | .i64Rotr => (.i64, .i64)
  | .f32Add | .f32Sub | .f32Mul | .f32Div | .f32Min | .f32Max | .f32Copysign => (.f32, .f32)
  | .f64Add | .f64Sub | .f64Mul | .f64Div | .f64Min | .f64Max | .f64Copysign => (.f64, .f64)

/-- Type of the value a load produces. -/
def LoadOp.ty : LoadOp → ValType
  | .i32Load | .i32Load8S | .i32Load8U | .i32Load16S | .i32Load16U => .i32
  | .i64Load | .i64Load8S | .i64Load8U | .i64Load16S | .i64Load16U | .i64Load32S | .i64Load32U => .i64
  | .f32Load => .f32
  | .f64Load => .f64

/-- Type of the value a store consumes. -/
def StoreOp.ty : StoreOp → ValType
  | .i32Store | .i32Store8 | .i32Store16 => .i32
  | .i64Store | .i64Store8 | .i64Store16 | .i64Store32 => .i64
  | .f32Store => .f32
  | .f64Store => .f64

end Wastrum
