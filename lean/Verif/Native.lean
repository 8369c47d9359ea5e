import Verif.Stdlib
import Verif.NumSpec
/-!
# The operators of the analysis library outside WebAssembly

`UnaryOperator::apply` and `BinaryOperator::apply` execute the WebAssembly instruction when the library is compiled for `wasm32`
(`UnaryOp.apply` and `BinaryOp.apply` of `Stdlib`). For other targets (unit tests of an analysis, run on the developer's machine) each operator
has a second implementation in Rust, the one behind `REIFIED:` in the tables of `unary.rs` and `binary.rs`. They are modelled here row by
row. `none` is a panic.

Rust's primitive operations are modelled after the Rust reference, `libm` after its documentation (`Libm.Ok`).
-/

namespace Wastrum
open NumSpec

/-! ## Rust's primitives -/

/-- The crate `libm` (`fabs`, `ceil`, ..: the functions named so for `f64` and with a final `f` for `f32`), and `f64::min`, `f64::max` of
the core library. -/
structure Libm where
  fabs : (F : Fmt) → BitVec F.width → BitVec F.width
  ceil : (F : Fmt) → BitVec F.width → BitVec F.width
  floor : (F : Fmt) → BitVec F.width → BitVec F.width
  trunc : (F : Fmt) → BitVec F.width → BitVec F.width
  round : (F : Fmt) → BitVec F.width → BitVec F.width
  sqrt : (F : Fmt) → BitVec F.width → BitVec F.width
  fmin : (F : Fmt) → BitVec F.width → BitVec F.width → BitVec F.width
  fmax : (F : Fmt) → BitVec F.width → BitVec F.width → BitVec F.width
  copysign : (F : Fmt) → BitVec F.width → BitVec F.width → BitVec F.width
  min : (F : Fmt) → BitVec F.width → BitVec F.width → BitVec F.width
  max : (F : Fmt) → BitVec F.width → BitVec F.width → BitVec F.width

/-- What a program compiled for the host depends on: whether the profile has overflow checks (`dev` and `test`: yes; `release`: no), the
rounded arithmetic of the primitive float types, and `libm`. -/
structure Native where
  overflowChecks : Bool
  floats : FloatOps
  libm : Libm

/-- `b as i32`. -/
def asI32 (b : Bool) : BitVec 32 := BitVec.ofBool b |>.setWidth 32

/-- A result that overflowed if it is not the integer wanted: a panic with overflow checks, else it stays. -/
def Native.checked (H : Native) {w : Nat} (wanted : Int) (x : BitVec w) : Option (BitVec w) :=
  if H.overflowChecks ∧ x.toInt ≠ wanted then none else some x
/-- `l + r` of signed integers. -/
def Native.add (H : Native) {w : Nat} (l r : BitVec w) : Option (BitVec w) := H.checked (l.toInt + r.toInt) (l + r)
/-- `l - r` of signed integers. -/
def Native.sub (H : Native) {w : Nat} (l r : BitVec w) : Option (BitVec w) := H.checked (l.toInt - r.toInt) (l - r)
/-- `l * r` of signed integers. -/
def Native.mul (H : Native) {w : Nat} (l r : BitVec w) : Option (BitVec w) := H.checked (l.toInt * r.toInt) (l * r)
/-- `l << r`: overflow if `r` is not below the width; without overflow checks only the low bits of `r` are used. -/
def Native.shl (H : Native) {w : Nat} (l : BitVec w) (r : Int) : Option (BitVec w) :=
  if H.overflowChecks ∧ ¬ (0 ≤ r ∧ r < w) then none else some (l <<< (r % w).toNat)
/-- `l >> r`, of signed or unsigned integers. -/
def Native.shr (H : Native) (signed : Bool) {w : Nat} (l : BitVec w) (r : Int) : Option (BitVec w) :=
  if H.overflowChecks ∧ ¬ (0 ≤ r ∧ r < w) then none
  else some (if signed then l.sshiftRight (r % w).toNat else l >>> (r % w).toNat)
/-- `l / r` of signed integers: panics for zero and on overflow, whatever the profile. -/
def divI {w : Nat} (l r : BitVec w) : Option (BitVec w) :=
  if r = 0 ∨ l = BitVec.intMin w ∧ r = -1 then none else some (l.sdiv r)
/-- `l / r` of unsigned integers. -/
def divN {w : Nat} (l r : BitVec w) : Option (BitVec w) := if r = 0 then none else some (l.udiv r)
/-- `l % r` of unsigned integers. -/
def remN {w : Nat} (l r : BitVec w) : Option (BitVec w) := if r = 0 then none else some (l.umod r)
/-- `l.wrapping_rem(r)` of signed integers: panics for zero only. -/
def wrappingRem {w : Nat} (l r : BitVec w) : Option (BitVec w) := if r = 0 then none else some (l.srem r)

/-- `-o` of a float. -/
def negF (F : Fmt) (o : BitVec F.width) : BitVec F.width := o ^^^ F.signBit
/-- `l == r` of floats. -/
def eqF (F : Fmt) (l r : BitVec F.width) : Bool := (F.decode l).eq (F.decode r)
/-- `l < r` of floats. -/
def ltF (F : Fmt) (l r : BitVec F.width) : Bool := (F.decode l).lt (F.decode r)
/-- `l <= r` of floats. -/
def leF (F : Fmt) (l r : BitVec F.width) : Bool := (F.decode l).le (F.decode r)

/-- `o as i32`, `o as u64`, ..: rounds towards zero, saturates at the bounds of the type, zero for NaN. -/
def castInt (F : Fmt) (w : Nat) (lo hi : Int) (o : BitVec F.width) : BitVec w :=
  match F.decode o with
  | .nan => 0
  | .inf true => .ofInt w lo
  | .inf false => .ofInt w hi
  | .fin true k => .ofInt w (max lo (-(k / 2 ^ F.u : Nat)))
  | .fin false k => .ofInt w (min hi (k / 2 ^ F.u : Nat))

/-- `o.clamp(min, max)`: it also panics if `min > max` or one of them is NaN, which no call here does. -/
def clamp (F : Fmt) (min max o : BitVec F.width) : BitVec F.width :=
  if ltF F o min then min else if ltF F max o then max else o

/-- `i32::MIN as f32`: `- 2 ^ 31`. -/
def i32MinF32 : BitVec 32 := 0xcf000000
/-- `i32::MAX as f32`: rounded to `2 ^ 31`. -/
def i32MaxF32 : BitVec 32 := 0x4f000000
/-- `u32::MAX as f32`: rounded to `2 ^ 32`. -/
def u32MaxF32 : BitVec 32 := 0x4f800000
/-- `u64::MAX as f32`: rounded to `2 ^ 64`. -/
def u64MaxF32 : BitVec 32 := 0x5f800000
/-- `f32::MIN`: the lowest finite number. -/
def f32Min : BitVec 32 := 0xff7fffff
/-- `f32::MAX`. -/
def f32Max : BitVec 32 := 0x7f7fffff
/-- `i32::MIN as f64`: `- 2 ^ 31`. -/
def i32MinF64 : BitVec 64 := 0xc1e0000000000000
/-- `i32::MAX as f64`: `2 ^ 31 - 1`. -/
def i32MaxF64 : BitVec 64 := 0x41dfffffffc00000
/-- `u32::MAX as f64`: `2 ^ 32 - 1`. -/
def u32MaxF64 : BitVec 64 := 0x41efffffffe00000
/-- `u64::MAX as f64`: rounded to `2 ^ 64`. -/
def u64MaxF64 : BitVec 64 := 0x43f0000000000000
/-- `f64::MIN`. -/
def f64Min : BitVec 64 := 0xffefffffffffffff
/-- `f64::MAX`. -/
def f64Max : BitVec 64 := 0x7fefffffffffffff

/-! ## The tables -/

/-- The closures behind `REIFIED:` in `generate_unary_boilerplate!`: `unary.rs` 83-142 (the comment above a row is the Rust expression; casts between integer types of the
same width leave the bits as they are and are left out). -/
def UnaryOp.reified (H : Native) : (op : UnaryOp) → Bits op.sig.1 → Option (Bits op.sig.2)
  /- `(o == 0) as i32` -/
  | .i32Eqz => fun (o : BitVec 32) => some (asI32 (o == 0))
  /- `(o == 0) as i32` -/
  | .i64Eqz => fun (o : BitVec 64) => some (asI32 (o == 0))
  /- `i32:: leading_zeros(o) as i32` -/
  | .i32Clz => fun (o : BitVec 32) => some o.clz
  /- `i32::trailing_zeros(o) as i32` -/
  | .i32Ctz => fun (o : BitVec 32) => some o.ctz
  /- `i32:: count_ones(o) as i32` -/
  | .i32Popcnt => fun (o : BitVec 32) => some o.cpop
  /- `i64:: leading_zeros(o) as i64` -/
  | .i64Clz => fun (o : BitVec 64) => some o.clz
  /- `i64::trailing_zeros(o) as i64` -/
  | .i64Ctz => fun (o : BitVec 64) => some o.ctz
  /- `i64:: count_ones(o) as i64` -/
  | .i64Popcnt => fun (o : BitVec 64) => some o.cpop
  /- `libm:: fabsf(o)` -/
  | .f32Abs => fun (o : BitVec 32) => some (H.libm.fabs .single o)
  /- `-o` -/
  | .f32Neg => fun (o : BitVec 32) => some (negF .single o)
  /- `libm:: ceilf(o)` -/
  | .f32Ceil => fun (o : BitVec 32) => some (H.libm.ceil .single o)
  /- `libm::floorf(o)` -/
  | .f32Floor => fun (o : BitVec 32) => some (H.libm.floor .single o)
  /- `libm::truncf(o)` -/
  | .f32Trunc => fun (o : BitVec 32) => some (H.libm.trunc .single o)
  /- `libm::roundf(o)` -/
  | .f32Nearest => fun (o : BitVec 32) => some (H.libm.round .single o)
  /- `libm:: sqrtf(o)` -/
  | .f32Sqrt => fun (o : BitVec 32) => some (H.libm.sqrt .single o)
  /- `libm:: fabs(o)` -/
  | .f64Abs => fun (o : BitVec 64) => some (H.libm.fabs .double o)
  /- `-o` -/
  | .f64Neg => fun (o : BitVec 64) => some (negF .double o)
  /- `libm:: ceil(o)` -/
  | .f64Ceil => fun (o : BitVec 64) => some (H.libm.ceil .double o)
  /- `libm::floor(o)` -/
  | .f64Floor => fun (o : BitVec 64) => some (H.libm.floor .double o)
  /- `libm::trunc(o)` -/
  | .f64Trunc => fun (o : BitVec 64) => some (H.libm.trunc .double o)
  /- `libm::round(o)` -/
  | .f64Nearest => fun (o : BitVec 64) => some (H.libm.round .double o)
  /- `libm:: sqrt(o)` -/
  | .f64Sqrt => fun (o : BitVec 64) => some (H.libm.sqrt .double o)
  /- `o as i32` -/
  | .i32WrapI64 => fun (o : BitVec 64) => some (o.setWidth 32)
  /- `libm::truncf(o) as i32` -/
  | .i32TruncF32S => fun (o : BitVec 32) => some (castInt .single 32 (minS 32) (maxS 32) (H.libm.trunc .single o))
  /- `(libm::truncf(o) as u32) as i32` -/
  | .i32TruncF32U => fun (o : BitVec 32) => some (castInt .single 32 0 (maxU 32) (H.libm.trunc .single o))
  /- `libm:: trunc(o) as i32` -/
  | .i32TruncF64S => fun (o : BitVec 64) => some (castInt .double 32 (minS 32) (maxS 32) (H.libm.trunc .double o))
  /- `(libm:: trunc(o) as u32) as i32` -/
  | .i32TruncF64U => fun (o : BitVec 64) => some (castInt .double 32 0 (maxU 32) (H.libm.trunc .double o))
  /- `libm::truncf(o) .clamp(i32::MIN as f32, i32::MAX as f32) as i32` -/
  | .i32TruncSatF32S => fun (o : BitVec 32) => some (castInt .single 32 (minS 32) (maxS 32) (clamp .single i32MinF32 i32MaxF32 (H.libm.trunc .single o)))
  /- `libm::truncf(o) .clamp( 0.0, u32::MAX as f32) as u32 as i32` -/
  | .i32TruncSatF32U => fun (o : BitVec 32) => some (castInt .single 32 0 (maxU 32) (clamp .single 0 u32MaxF32 (H.libm.trunc .single o)))
  /- `libm:: trunc(o) .clamp(i32::MIN as f64, i32::MAX as f64) as i32` -/
  | .i32TruncSatF64S => fun (o : BitVec 64) => some (castInt .double 32 (minS 32) (maxS 32) (clamp .double i32MinF64 i32MaxF64 (H.libm.trunc .double o)))
  /- `(libm:: trunc(o) .clamp( 0.0, u32::MAX as f64) as u32) as i32` -/
  | .i32TruncSatF64U => fun (o : BitVec 64) => some (castInt .double 32 0 (maxU 32) (clamp .double 0 u32MaxF64 (H.libm.trunc .double o)))
  /- `(o /*as i32*/) as i64` -/
  | .i64ExtendI32S => fun (o : BitVec 32) => some (o.signExtend 64)
  /- `(o as u32 ) as i64` -/
  | .i64ExtendI32U => fun (o : BitVec 32) => some (o.setWidth 64)
  /- `libm::truncf(o) as i64` -/
  | .i64TruncF32S => fun (o : BitVec 32) => some (castInt .single 64 (minS 64) (maxS 64) (H.libm.trunc .single o))
  /- `(libm::truncf(o) as u64) as i64` -/
  | .i64TruncF32U => fun (o : BitVec 32) => some (castInt .single 64 0 (maxU 64) (H.libm.trunc .single o))
  /- `libm:: trunc(o) as i64` -/
  | .i64TruncF64S => fun (o : BitVec 64) => some (castInt .double 64 (minS 64) (maxS 64) (H.libm.trunc .double o))
  /- `(libm:: trunc(o) as u64) as i64` -/
  | .i64TruncF64U => fun (o : BitVec 64) => some (castInt .double 64 0 (maxU 64) (H.libm.trunc .double o))
  /- `libm::truncf(o).clamp(f32::MIN, f32::MAX) as i64` -/
  | .i64TruncSatF32S => fun (o : BitVec 32) => some (castInt .single 64 (minS 64) (maxS 64) (clamp .single f32Min f32Max (H.libm.trunc .single o)))
  /- `(libm::truncf(o).clamp(0.0, u64::MAX as f32) as u64) as i64` -/
  | .i64TruncSatF32U => fun (o : BitVec 32) => some (castInt .single 64 0 (maxU 64) (clamp .single 0 u64MaxF32 (H.libm.trunc .single o)))
  /- `libm:: trunc(o).clamp(f64::MIN, f64::MAX) as i64` -/
  | .i64TruncSatF64S => fun (o : BitVec 64) => some (castInt .double 64 (minS 64) (maxS 64) (clamp .double f64Min f64Max (H.libm.trunc .double o)))
  /- `(libm:: trunc(o).clamp(0.0, u64::MAX as f64) as u64) as i64` -/
  | .i64TruncSatF64U => fun (o : BitVec 64) => some (castInt .double 64 0 (maxU 64) (clamp .double 0 u64MaxF64 (H.libm.trunc .double o)))
  /- `o as f32` -/
  | .f32ConvertI32S => fun (o : BitVec 32) => some (H.floats.ofInt .single o.toInt)
  /- `(o as u32) as f32` -/
  | .f32ConvertI32U => fun (o : BitVec 32) => some (H.floats.ofInt .single o.toNat)
  /- `o as f32` -/
  | .f32ConvertI64S => fun (o : BitVec 64) => some (H.floats.ofInt .single o.toInt)
  /- `(o as u64) as f32` -/
  | .f32ConvertI64U => fun (o : BitVec 64) => some (H.floats.ofInt .single o.toNat)
  /- `o as f32` -/
  | .f32DemoteF64 => fun (o : BitVec 64) => some (H.floats.demote o)
  /- `o as f64` -/
  | .f64ConvertI32S => fun (o : BitVec 32) => some (H.floats.ofInt .double o.toInt)
  /- `(o as u32) as f64` -/
  | .f64ConvertI32U => fun (o : BitVec 32) => some (H.floats.ofInt .double o.toNat)
  /- `o as f64` -/
  | .f64ConvertI64S => fun (o : BitVec 64) => some (H.floats.ofInt .double o.toInt)
  /- `(o as u64) as f64` -/
  | .f64ConvertI64U => fun (o : BitVec 64) => some (H.floats.ofInt .double o.toNat)
  /- `o as f64` -/
  | .f64PromoteF32 => fun (o : BitVec 32) => some (H.floats.promote o)
  /- `i32::from_ne_bytes(o.to_ne_bytes())` -/
  | .i32ReinterpretF32 => fun (o : BitVec 32) => some o
  /- `i64::from_ne_bytes(o.to_ne_bytes())` -/
  | .i64ReinterpretF64 => fun (o : BitVec 64) => some o
  /- `f32::from_le_bytes(o.to_le_bytes())` -/
  | .f32ReinterpretI32 => fun (o : BitVec 32) => some o
  /- `f64::from_le_bytes(o.to_le_bytes())` -/
  | .f64ReinterpretI64 => fun (o : BitVec 64) => some o
  /- `(o as i8) as i32` -/
  | .i32Extend8S => fun (o : BitVec 32) => some ((o.setWidth 8).signExtend 32)
  /- `(o as i16) as i32` -/
  | .i32Extend16S => fun (o : BitVec 32) => some ((o.setWidth 16).signExtend 32)
  /- `(o as i8) as i64` -/
  | .i64Extend8S => fun (o : BitVec 64) => some ((o.setWidth 8).signExtend 64)
  /- `(o as i16) as i64` -/
  | .i64Extend16S => fun (o : BitVec 64) => some ((o.setWidth 16).signExtend 64)
  /- `(o as i32) as i64` -/
  | .i64Extend32S => fun (o : BitVec 64) => some ((o.setWidth 32).signExtend 64)

/-- The closures behind `REIFIED:` in `generate_binary_boilerplate!`: `binary.rs` 85-160. -/
def BinaryOp.reified (H : Native) : (op : BinaryOp) → Bits op.sig.1 → Bits op.sig.1 → Option (Bits op.sig.2)
  /- `( l == r ) as i32` -/
  | .i32Eq => fun (l r : BitVec 32) => some (asI32 (l == r))
  /- `( l != r ) as i32` -/
  | .i32Ne => fun (l r : BitVec 32) => some (asI32 (l != r))
  /- `( l < r ) as i32` -/
  | .i32LtS => fun (l r : BitVec 32) => some (asI32 (l.slt r))
  /- `((l as u32) < (r as u32)) as i32` -/
  | .i32LtU => fun (l r : BitVec 32) => some (asI32 (l.ult r))
  /- `( l > r ) as i32` -/
  | .i32GtS => fun (l r : BitVec 32) => some (asI32 (r.slt l))
  /- `((l as u32) > (r as u32)) as i32` -/
  | .i32GtU => fun (l r : BitVec 32) => some (asI32 (r.ult l))
  /- `( l <= r ) as i32` -/
  | .i32LeS => fun (l r : BitVec 32) => some (asI32 (l.sle r))
  /- `((l as u32) <= (r as u32)) as i32` -/
  | .i32LeU => fun (l r : BitVec 32) => some (asI32 (l.ule r))
  /- `( l >= r ) as i32` -/
  | .i32GeS => fun (l r : BitVec 32) => some (asI32 (r.sle l))
  /- `((l as u32) >= (r as u32)) as i32` -/
  | .i32GeU => fun (l r : BitVec 32) => some (asI32 (r.ule l))
  /- `( l == r ) as i32` -/
  | .i64Eq => fun (l r : BitVec 64) => some (asI32 (l == r))
  /- `( l != r ) as i32` -/
  | .i64Ne => fun (l r : BitVec 64) => some (asI32 (l != r))
  /- `( l < r ) as i32` -/
  | .i64LtS => fun (l r : BitVec 64) => some (asI32 (l.slt r))
  /- `((l as u64) < (r as u64)) as i32` -/
  | .i64LtU => fun (l r : BitVec 64) => some (asI32 (l.ult r))
  /- `( l > r ) as i32` -/
  | .i64GtS => fun (l r : BitVec 64) => some (asI32 (r.slt l))
  /- `((l as u64) > (r as u64)) as i32` -/
  | .i64GtU => fun (l r : BitVec 64) => some (asI32 (r.ult l))
  /- `( l <= r ) as i32` -/
  | .i64LeS => fun (l r : BitVec 64) => some (asI32 (l.sle r))
  /- `((l as u64) <= (r as u64)) as i32` -/
  | .i64LeU => fun (l r : BitVec 64) => some (asI32 (l.ule r))
  /- `( l >= r ) as i32` -/
  | .i64GeS => fun (l r : BitVec 64) => some (asI32 (r.sle l))
  /- `((l as u64) >= (r as u64)) as i32` -/
  | .i64GeU => fun (l r : BitVec 64) => some (asI32 (r.ule l))
  /- `( l == r ) as i32` -/
  | .f32Eq => fun (l r : BitVec 32) => some (asI32 (eqF .single l r))
  /- `( l != r ) as i32` -/
  | .f32Ne => fun (l r : BitVec 32) => some (asI32 (!eqF .single l r))
  /- `( l < r ) as i32` -/
  | .f32Lt => fun (l r : BitVec 32) => some (asI32 (ltF .single l r))
  /- `( l > r ) as i32` -/
  | .f32Gt => fun (l r : BitVec 32) => some (asI32 (ltF .single r l))
  /- `( l <= r ) as i32` -/
  | .f32Le => fun (l r : BitVec 32) => some (asI32 (leF .single l r))
  /- `( l >= r ) as i32` -/
  | .f32Ge => fun (l r : BitVec 32) => some (asI32 (leF .single r l))
  /- `( l == r ) as i32` -/
  | .f64Eq => fun (l r : BitVec 64) => some (asI32 (eqF .double l r))
  /- `( l != r ) as i32` -/
  | .f64Ne => fun (l r : BitVec 64) => some (asI32 (!eqF .double l r))
  /- `( l < r ) as i32` -/
  | .f64Lt => fun (l r : BitVec 64) => some (asI32 (ltF .double l r))
  /- `( l > r ) as i32` -/
  | .f64Gt => fun (l r : BitVec 64) => some (asI32 (ltF .double r l))
  /- `( l <= r ) as i32` -/
  | .f64Le => fun (l r : BitVec 64) => some (asI32 (leF .double l r))
  /- `( l >= r ) as i32` -/
  | .f64Ge => fun (l r : BitVec 64) => some (asI32 (leF .double r l))
  /- `l + r` -/
  | .i32Add => fun (l r : BitVec 32) => H.add l r
  /- `l - r` -/
  | .i32Sub => fun (l r : BitVec 32) => H.sub l r
  /- `l * r` -/
  | .i32Mul => fun (l r : BitVec 32) => H.mul l r
  /- `l / r` -/
  | .i32DivS => fun (l r : BitVec 32) => divI l r
  /- `((l as u32) / (r as u32)) as i32` -/
  | .i32DivU => fun (l r : BitVec 32) => divN l r
  /- `l .wrapping_rem( r )` -/
  | .i32RemS => fun (l r : BitVec 32) => wrappingRem l r
  /- `((l as u32) % (r as u32)) as i32` -/
  | .i32RemU => fun (l r : BitVec 32) => remN l r
  /- `l & r` -/
  | .i32And => fun (l r : BitVec 32) => some (l &&& r)
  /- `l | r` -/
  | .i32Or => fun (l r : BitVec 32) => some (l ||| r)
  /- `l ^ r` -/
  | .i32Xor => fun (l r : BitVec 32) => some (l ^^^ r)
  /- `l << r` -/
  | .i32Shl => fun (l r : BitVec 32) => H.shl l r.toInt
  /- `l >> r` -/
  | .i32ShrS => fun (l r : BitVec 32) => H.shr true l r.toInt
  /- `((l as u32) >> (r as u32)) as i32` -/
  | .i32ShrU => fun (l r : BitVec 32) => H.shr false l r.toNat
  /- `l .rotate_left( r as u32 )` -/
  | .i32Rotl => fun (l r : BitVec 32) => some (l.rotateLeft (r.setWidth 32).toNat)
  /- `l .rotate_right( r as u32 )` -/
  | .i32Rotr => fun (l r : BitVec 32) => some (l.rotateRight (r.setWidth 32).toNat)
  /- `l + r` -/
  | .i64Add => fun (l r : BitVec 64) => H.add l r
  /- `l - r` -/
  | .i64Sub => fun (l r : BitVec 64) => H.sub l r
  /- `l * r` -/
  | .i64Mul => fun (l r : BitVec 64) => H.mul l r
  /- `l / r` -/
  | .i64DivS => fun (l r : BitVec 64) => divI l r
  /- `((l as u64) / (r as u64)) as i64` -/
  | .i64DivU => fun (l r : BitVec 64) => divN l r
  /- `l .wrapping_rem( r )` -/
  | .i64RemS => fun (l r : BitVec 64) => wrappingRem l r
  /- `((l as u64) % (r as u64)) as i64` -/
  | .i64RemU => fun (l r : BitVec 64) => remN l r
  /- `l & r` -/
  | .i64And => fun (l r : BitVec 64) => some (l &&& r)
  /- `l | r` -/
  | .i64Or => fun (l r : BitVec 64) => some (l ||| r)
  /- `l ^ r` -/
  | .i64Xor => fun (l r : BitVec 64) => some (l ^^^ r)
  /- `l << r` -/
  | .i64Shl => fun (l r : BitVec 64) => H.shl l r.toInt
  /- `l >> r` -/
  | .i64ShrS => fun (l r : BitVec 64) => H.shr true l r.toInt
  /- `((l as u64) >> (r as u64)) as i64` -/
  | .i64ShrU => fun (l r : BitVec 64) => H.shr false l r.toNat
  /- `l .rotate_left( r as u32 )` -/
  | .i64Rotl => fun (l r : BitVec 64) => some (l.rotateLeft (r.setWidth 32).toNat)
  /- `l .rotate_right( r as u32 )` -/
  | .i64Rotr => fun (l r : BitVec 64) => some (l.rotateRight (r.setWidth 32).toNat)
  /- `l + r` -/
  | .f32Add => fun (l r : BitVec 32) => some (H.floats.add .single l r)
  /- `l - r` -/
  | .f32Sub => fun (l r : BitVec 32) => some (H.floats.sub .single l r)
  /- `l * r` -/
  | .f32Mul => fun (l r : BitVec 32) => some (H.floats.mul .single l r)
  /- `l / r` -/
  | .f32Div => fun (l r : BitVec 32) => some (H.floats.div .single l r)
  /- `libm::fminf( l, r )` -/
  | .f32Min => fun (l r : BitVec 32) => some (H.libm.fmin .single l r)
  /- `libm::fmaxf( l, r )` -/
  | .f32Max => fun (l r : BitVec 32) => some (H.libm.fmax .single l r)
  /- `libm::copysignf(l, r )` -/
  | .f32Copysign => fun (l r : BitVec 32) => some (H.libm.copysign .single l r)
  /- `l + r` -/
  | .f64Add => fun (l r : BitVec 64) => some (H.floats.add .double l r)
  /- `l - r` -/
  | .f64Sub => fun (l r : BitVec 64) => some (H.floats.sub .double l r)
  /- `l * r` -/
  | .f64Mul => fun (l r : BitVec 64) => some (H.floats.mul .double l r)
  /- `l / r` -/
  | .f64Div => fun (l r : BitVec 64) => some (H.floats.div .double l r)
  /- `l .min( r )` -/
  | .f64Min => fun (l r : BitVec 64) => some (H.libm.min .double l r)
  /- `l .max( r )` -/
  | .f64Max => fun (l r : BitVec 64) => some (H.libm.max .double l r)
  /- `libm::copysign( l, r )` -/
  | .f64Copysign => fun (l r : BitVec 64) => some (H.libm.copysign .double l r)

/-- `UnaryOperator::apply` on targets other than `wasm32`: `unary.rs` 27-56. -/
def UnaryOp.applyNative (H : Native) (op : UnaryOp) (v : Val) : Option Val :=
  (ofVal op.sig.1 v).bind fun o => (op.reified H o).map (toVal op.sig.2)

/-- `BinaryOperator::apply` on targets other than `wasm32`: `binary.rs` 26-58. -/
def BinaryOp.applyNative (H : Native) (op : BinaryOp) (v w : Val) : Option Val :=
  (ofVal op.sig.1 v).bind fun l => (ofVal op.sig.1 w).bind fun r => (op.reified H l r).map (toVal op.sig.2)

end Wastrum
