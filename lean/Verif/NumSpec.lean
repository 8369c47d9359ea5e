import Verif.OpTypes
import Verif.Semantics
/-!
# WebAssembly's numeric operators (specification)

What the 60 unary and 76 binary operators compute, after the section "Numerics" of the WebAssembly core specification. Nothing here
models code in `/repo`. Integers are bit vectors, read as numbers by `toNat` (unsigned) and `toInt` (signed). Floats are bit patterns;
`decode` gives their value. `none` is a trap.

Rounded arithmetic (`add`, `sub`, `mul`, `div`, `sqrt`, conversions to floats, `demote`, `promote`) is a parameter (`FloatOps`): the properties
stated with this specification hold whatever those functions are. The bits of a NaN that an operator returns are not specified (`Agree`).
-/

namespace Wastrum
namespace NumSpec

/-! ## Integers -/

variable {w : Nat}

/-- `1` for true, `0` for false. -/
def bool (b : Bool) : BitVec 32 := if b then 1 else 0

/-- `iadd`: the sum modulo `2 ^ w`. -/
def add (x y : BitVec w) : BitVec w := .ofNat w ((x.toNat + y.toNat) % 2 ^ w)
/-- `isub`: the difference modulo `2 ^ w`. -/
def sub (x y : BitVec w) : BitVec w := .ofNat w ((x.toNat + 2 ^ w - y.toNat) % 2 ^ w)
/-- `imul`: the product modulo `2 ^ w`. -/
def mul (x y : BitVec w) : BitVec w := .ofNat w (x.toNat * y.toNat % 2 ^ w)
/-- `idiv_u`: the quotient truncated towards zero; undefined for a divisor of zero. -/
def divU (x y : BitVec w) : Option (BitVec w) := if y.toNat = 0 then none else some (.ofNat w (x.toNat / y.toNat))
/-- `idiv_s`: the quotient of the signed numbers truncated towards zero; undefined for a divisor of zero and when the quotient is `2 ^ (w - 1)`. -/
def divS (x y : BitVec w) : Option (BitVec w) :=
  if y.toInt = 0 then none else if x.toInt.tdiv y.toInt = 2 ^ (w - 1) then none else some (.ofInt w (x.toInt.tdiv y.toInt))
/-- `irem_u`: the remainder; undefined for a divisor of zero. -/
def remU (x y : BitVec w) : Option (BitVec w) := if y.toNat = 0 then none else some (.ofNat w (x.toNat % y.toNat))
/-- `irem_s`: the remainder with the sign of the dividend; undefined for a divisor of zero. -/
def remS (x y : BitVec w) : Option (BitVec w) := if y.toInt = 0 then none else some (.ofInt w (x.toInt.tmod y.toInt))
/-- The bit vector with the given bits. -/
def ofBits : (w : Nat) → (Nat → Bool) → BitVec w
  | 0, _ => .nil
  | w + 1, f => .cons (f w) (ofBits w f)
/-- `iand`. -/
def and (x y : BitVec w) : BitVec w := ofBits w fun i => x.getLsbD i && y.getLsbD i
/-- `ior`. -/
def or (x y : BitVec w) : BitVec w := ofBits w fun i => x.getLsbD i || y.getLsbD i
/-- `ixor`. -/
def xor (x y : BitVec w) : BitVec w := ofBits w fun i => x.getLsbD i ^^ y.getLsbD i
/-- `ishl`: shift left by the second operand modulo the width. -/
def shl (x y : BitVec w) : BitVec w := .ofNat w (x.toNat * 2 ^ (y.toNat % w) % 2 ^ w)
/-- `ishr_u`: shift right by the second operand modulo the width, filling with zeros. -/
def shrU (x y : BitVec w) : BitVec w := .ofNat w (x.toNat / 2 ^ (y.toNat % w))
/-- `ishr_s`: shift right by the second operand modulo the width, filling with the sign: the signed number divided, rounded down. -/
def shrS (x y : BitVec w) : BitVec w := .ofInt w (x.toInt / 2 ^ (y.toNat % w))
/-- `irotl`: bit `i` moves to position `i + k` modulo the width. -/
def rotl (x y : BitVec w) : BitVec w := ofBits w fun i => x.getLsbD ((i + w - y.toNat % w) % w)
/-- `irotr`: bit `i + k` modulo the width moves to position `i`. -/
def rotr (x y : BitVec w) : BitVec w := ofBits w fun i => x.getLsbD ((i + y.toNat % w) % w)
/-- The bits, most significant first. -/
def bits (x : BitVec w) : List Bool := (List.range w).reverse.map x.getLsbD
/-- `iclz`: how many zeros the bits begin with. -/
def clz (x : BitVec w) : BitVec w := .ofNat w ((bits x).takeWhile (! ·)).length
/-- `ictz`: how many zeros the bits end with. -/
def ctz (x : BitVec w) : BitVec w := .ofNat w ((bits x).reverse.takeWhile (! ·)).length
/-- `ipopcnt`: how many bits are one. -/
def popcnt (x : BitVec w) : BitVec w := .ofNat w ((bits x).count true)
/-- `wrap`: the number modulo `2 ^ v`. -/
def wrap (v : Nat) (x : BitVec w) : BitVec v := .ofNat v (x.toNat % 2 ^ v)
/-- `extend_u`: the same unsigned number. -/
def extendU (v : Nat) (x : BitVec w) : BitVec v := .ofNat v x.toNat
/-- `extend_s`: the same signed number. -/
def extendS (v : Nat) (x : BitVec w) : BitVec v := .ofInt v x.toInt
/-- `iextendM_s`: the lowest `m` bits as a signed number. -/
def extendLow (m : Nat) (x : BitVec w) : BitVec w := extendS w (wrap m x)

/-! ## Floats -/

/-- The value of a float of a format whose smallest positive number is `2 ^ -u`: not a number, infinite, or `± k / 2 ^ u`. -/
inductive FVal where
  | nan
  | inf (neg : Bool)
  | fin (neg : Bool) (k : Nat)
  deriving DecidableEq, Repr

/-- The value of the bit pattern `n` in the format with `mb` bits of significand and `eb` bits of exponent (IEEE 754, binary interchange
formats; the smallest positive number is `2 ^ -(mb + 2 ^ (eb - 1) - 2)`). -/
def decodeNat (mb eb : Nat) (n : Nat) : FVal :=
  let neg := decide (2 ^ (eb + mb) ≤ n)
  let expo := n / 2 ^ mb % 2 ^ eb
  let frac := n % 2 ^ mb
  if expo = 2 ^ eb - 1 then (if frac = 0 then .inf neg else .nan)
  else if expo = 0 then .fin neg frac else .fin neg ((2 ^ mb + frac) * 2 ^ (expo - 1))

/-- A float format: 23 and 8 bits (`f32`), or 52 and 11 (`f64`). -/
inductive Fmt where
  | single | double

/-- Width of a float. -/
abbrev Fmt.width : Fmt → Nat | .single => 32 | .double => 64
/-- Bits of the significand. -/
abbrev Fmt.mb : Fmt → Nat | .single => 23 | .double => 52
/-- Bits of the exponent. -/
abbrev Fmt.eb : Fmt → Nat | .single => 8 | .double => 11
/-- The smallest positive number is `2 ^ -u`. -/
abbrev Fmt.u : Fmt → Nat | .single => 149 | .double => 1074

/-- The value of a float. -/
def Fmt.decode (F : Fmt) (x : BitVec F.width) : FVal := decodeNat F.mb F.eb x.toNat

/-- The bit of the sign. -/
def Fmt.signBit (F : Fmt) : BitVec F.width := BitVec.twoPow F.width (F.width - 1)
/-- `fabs`: with sign `+`, also for NaNs. -/
def Fmt.abs (F : Fmt) (x : BitVec F.width) : BitVec F.width := x &&& ~~~F.signBit
/-- `fneg`: with the sign inverted, also for NaNs. -/
def Fmt.neg (F : Fmt) (x : BitVec F.width) : BitVec F.width := x ^^^ F.signBit
/-- `fcopysign`: the first number with the sign of the second, also for NaNs. -/
def Fmt.copysign (F : Fmt) (x y : BitVec F.width) : BitVec F.width := (x &&& ~~~F.signBit) ||| (y &&& F.signBit)

/-- The number as an integer multiple of `2 ^ -u`, behind `-1`, `0` or `1` for negative infinity, finite, positive infinity. -/
def FVal.rank : FVal → Option (Int × Int)
  | .nan => none
  | .inf neg => some (if neg then -1 else 1, 0)
  | .fin neg k => some (0, if neg then -k else k)

/-- `flt`: less than (false for NaNs; zeros of both signs are equal). -/
def FVal.lt (a b : FVal) : Bool :=
  match a.rank, b.rank with
  | some (i, x), some (j, y) => i < j || (i == j && x < y)
  | _, _ => false
/-- `feq`: equal (false for NaNs; zeros of both signs are equal). -/
def FVal.eq (a b : FVal) : Bool :=
  match a.rank, b.rank with
  | some x, some y => x == y
  | _, _ => false
/-- `fle`. -/
def FVal.le (a b : FVal) : Bool := a.lt b || a.eq b

/-- `fmin`: NaN if one of them is; else the lesser; of zeros, the negative one. -/
def FVal.min (a b : FVal) : FVal :=
  if a = .nan ∨ b = .nan then .nan else if a.lt b then a else if b.lt a then b else if a = .fin true 0 then a else b
/-- `fmax`: NaN if one of them is; else the greater; of zeros, the positive one. -/
def FVal.max (a b : FVal) : FVal :=
  if a = .nan ∨ b = .nan then .nan else if a.lt b then b else if b.lt a then a else if a = .fin false 0 then a else b

/-- Ways to round a number to an integer. -/
inductive Rounding where
  | ceil | floor | trunc
  /-- To the nearest integer, in the middle of two to the even one. -/
  | nearestEven
  /-- To the nearest integer, in the middle of two away from zero. -/
  | nearestAway
  deriving DecidableEq, Repr

/-- The magnitude of the rounded number, of a number with sign `neg` and magnitude `k / 2 ^ u`. -/
def Rounding.magnitude (u : Nat) (neg : Bool) (k : Nat) : Rounding → Nat
  | .ceil => if !neg ∧ k % 2 ^ u ≠ 0 then k / 2 ^ u + 1 else k / 2 ^ u
  | .floor => if neg ∧ k % 2 ^ u ≠ 0 then k / 2 ^ u + 1 else k / 2 ^ u
  | .trunc => k / 2 ^ u
  | .nearestEven =>
    if 2 * (k % 2 ^ u) < 2 ^ u ∨ 2 * (k % 2 ^ u) = 2 ^ u ∧ k / 2 ^ u % 2 = 0 then k / 2 ^ u else k / 2 ^ u + 1
  | .nearestAway => if 2 * (k % 2 ^ u) < 2 ^ u then k / 2 ^ u else k / 2 ^ u + 1

/-- The rounded number, with the same sign (so `-0` stays, and `ceil (-0.5)` is `-0`). -/
def FVal.round (u : Nat) (r : Rounding) : FVal → FVal
  | .fin neg k => .fin neg (r.magnitude u neg k * 2 ^ u)
  | v => v

/-- The integer the truncated finite number is. -/
def FVal.toInt (u : Nat) : FVal → Option Int
  | .fin neg k => some (if neg then -(k / 2 ^ u : Nat) else (k / 2 ^ u : Nat))
  | _ => none

/-- `trunc_u`, `trunc_s`: the truncated number if it is finite and between `lo` and `hi`, else undefined. -/
def FVal.truncTo (u v : Nat) (lo hi : Int) (x : FVal) : Option (BitVec v) :=
  x.toInt u |>.bind fun i => if lo ≤ i ∧ i ≤ hi then some (.ofInt v i) else none

/-- `trunc_sat_u`, `trunc_sat_s`: the same with the nearest of the bounds in place of what is out of range, and zero in place of NaN. -/
def FVal.truncSat (u v : Nat) (lo hi : Int) : FVal → BitVec v
  | .nan => 0
  | .inf neg => .ofInt v (if neg then lo else hi)
  | .fin neg k =>
    let i : Int := if neg then -(k / 2 ^ u : Nat) else (k / 2 ^ u : Nat)
    .ofInt v (if i < lo then lo else if hi < i then hi else i)

/-- The functions on floats. Those of `Fmt` come in two formats. -/
structure FloatOps where
  add : (F : Fmt) → BitVec F.width → BitVec F.width → BitVec F.width
  sub : (F : Fmt) → BitVec F.width → BitVec F.width → BitVec F.width
  mul : (F : Fmt) → BitVec F.width → BitVec F.width → BitVec F.width
  div : (F : Fmt) → BitVec F.width → BitVec F.width → BitVec F.width
  sqrt : (F : Fmt) → BitVec F.width → BitVec F.width
  /-- The float nearest to an integer. -/
  ofInt : (F : Fmt) → Int → BitVec F.width
  demote : BitVec 64 → BitVec 32
  promote : BitVec 32 → BitVec 64
  round : (F : Fmt) → Rounding → BitVec F.width → BitVec F.width
  min : (F : Fmt) → BitVec F.width → BitVec F.width → BitVec F.width
  max : (F : Fmt) → BitVec F.width → BitVec F.width → BitVec F.width

/-- Rounding to integers, `min` and `max` are what they are called. -/
structure FloatOps.Ok (O : FloatOps) : Prop where
  round : ∀ (F : Fmt) r x, F.decode (O.round F r x) = (F.decode x).round F.u r
  min : ∀ (F : Fmt) x y, F.decode (O.min F x y) = (F.decode x).min (F.decode y)
  max : ∀ (F : Fmt) x y, F.decode (O.max F x y) = (F.decode x).max (F.decode y)

/-! ## The operators -/

/-- The values of a type. -/
abbrev Bits : ValType → Type
  | .i32 | .f32 => BitVec 32
  | .i64 | .f64 => BitVec 64
  | .ref _ => Empty

/-- Bounds of the signed and unsigned integers of a width. -/
abbrev minS (w : Nat) : Int := -(2 ^ (w - 1))
@[inherit_doc minS] abbrev maxS (w : Nat) : Int := 2 ^ (w - 1) - 1
@[inherit_doc minS] abbrev maxU (w : Nat) : Int := 2 ^ w - 1

/-- The unary operators. -/
def unary (O : FloatOps) : (op : UnaryOp) → Bits op.sig.1 → Option (Bits op.sig.2)
  | .i32Eqz => fun (x : BitVec 32) => some (bool (x.toNat == 0))
  | .i64Eqz => fun (x : BitVec 64) => some (bool (x.toNat == 0))
  | .i32Clz => fun (x : BitVec 32) => some (clz x)
  | .i32Ctz => fun (x : BitVec 32) => some (ctz x)
  | .i32Popcnt => fun (x : BitVec 32) => some (popcnt x)
  | .i64Clz => fun (x : BitVec 64) => some (clz x)
  | .i64Ctz => fun (x : BitVec 64) => some (ctz x)
  | .i64Popcnt => fun (x : BitVec 64) => some (popcnt x)
  | .f32Abs => fun (x : BitVec 32) => some (Fmt.single.abs x)
  | .f32Neg => fun (x : BitVec 32) => some (Fmt.single.neg x)
  | .f32Ceil => fun (x : BitVec 32) => some (O.round .single .ceil x)
  | .f32Floor => fun (x : BitVec 32) => some (O.round .single .floor x)
  | .f32Trunc => fun (x : BitVec 32) => some (O.round .single .trunc x)
  | .f32Nearest => fun (x : BitVec 32) => some (O.round .single .nearestEven x)
  | .f32Sqrt => fun (x : BitVec 32) => some (O.sqrt .single x)
  | .f64Abs => fun (x : BitVec 64) => some (Fmt.double.abs x)
  | .f64Neg => fun (x : BitVec 64) => some (Fmt.double.neg x)
  | .f64Ceil => fun (x : BitVec 64) => some (O.round .double .ceil x)
  | .f64Floor => fun (x : BitVec 64) => some (O.round .double .floor x)
  | .f64Trunc => fun (x : BitVec 64) => some (O.round .double .trunc x)
  | .f64Nearest => fun (x : BitVec 64) => some (O.round .double .nearestEven x)
  | .f64Sqrt => fun (x : BitVec 64) => some (O.sqrt .double x)
  | .i32WrapI64 => fun (x : BitVec 64) => some (wrap 32 x)
  | .i32TruncF32S => fun (x : BitVec 32) => (Fmt.single.decode x).truncTo 149 32 (minS 32) (maxS 32)
  | .i32TruncF32U => fun (x : BitVec 32) => (Fmt.single.decode x).truncTo 149 32 0 (maxU 32)
  | .i32TruncF64S => fun (x : BitVec 64) => (Fmt.double.decode x).truncTo 1074 32 (minS 32) (maxS 32)
  | .i32TruncF64U => fun (x : BitVec 64) => (Fmt.double.decode x).truncTo 1074 32 0 (maxU 32)
  | .i32TruncSatF32S => fun (x : BitVec 32) => some ((Fmt.single.decode x).truncSat 149 32 (minS 32) (maxS 32))
  | .i32TruncSatF32U => fun (x : BitVec 32) => some ((Fmt.single.decode x).truncSat 149 32 0 (maxU 32))
  | .i32TruncSatF64S => fun (x : BitVec 64) => some ((Fmt.double.decode x).truncSat 1074 32 (minS 32) (maxS 32))
  | .i32TruncSatF64U => fun (x : BitVec 64) => some ((Fmt.double.decode x).truncSat 1074 32 0 (maxU 32))
  | .i64ExtendI32S => fun (x : BitVec 32) => some (extendS 64 x)
  | .i64ExtendI32U => fun (x : BitVec 32) => some (extendU 64 x)
  | .i64TruncF32S => fun (x : BitVec 32) => (Fmt.single.decode x).truncTo 149 64 (minS 64) (maxS 64)
  | .i64TruncF32U => fun (x : BitVec 32) => (Fmt.single.decode x).truncTo 149 64 0 (maxU 64)
  | .i64TruncF64S => fun (x : BitVec 64) => (Fmt.double.decode x).truncTo 1074 64 (minS 64) (maxS 64)
  | .i64TruncF64U => fun (x : BitVec 64) => (Fmt.double.decode x).truncTo 1074 64 0 (maxU 64)
  | .i64TruncSatF32S => fun (x : BitVec 32) => some ((Fmt.single.decode x).truncSat 149 64 (minS 64) (maxS 64))
  | .i64TruncSatF32U => fun (x : BitVec 32) => some ((Fmt.single.decode x).truncSat 149 64 0 (maxU 64))
  | .i64TruncSatF64S => fun (x : BitVec 64) => some ((Fmt.double.decode x).truncSat 1074 64 (minS 64) (maxS 64))
  | .i64TruncSatF64U => fun (x : BitVec 64) => some ((Fmt.double.decode x).truncSat 1074 64 0 (maxU 64))
  | .f32ConvertI32S => fun (x : BitVec 32) => some (O.ofInt .single x.toInt)
  | .f32ConvertI32U => fun (x : BitVec 32) => some (O.ofInt .single x.toNat)
  | .f32ConvertI64S => fun (x : BitVec 64) => some (O.ofInt .single x.toInt)
  | .f32ConvertI64U => fun (x : BitVec 64) => some (O.ofInt .single x.toNat)
  | .f32DemoteF64 => fun (x : BitVec 64) => some (O.demote x)
  | .f64ConvertI32S => fun (x : BitVec 32) => some (O.ofInt .double x.toInt)
  | .f64ConvertI32U => fun (x : BitVec 32) => some (O.ofInt .double x.toNat)
  | .f64ConvertI64S => fun (x : BitVec 64) => some (O.ofInt .double x.toInt)
  | .f64ConvertI64U => fun (x : BitVec 64) => some (O.ofInt .double x.toNat)
  | .f64PromoteF32 => fun (x : BitVec 32) => some (O.promote x)
  | .i32ReinterpretF32 => fun (x : BitVec 32) => some x
  | .i64ReinterpretF64 => fun (x : BitVec 64) => some x
  | .f32ReinterpretI32 => fun (x : BitVec 32) => some x
  | .f64ReinterpretI64 => fun (x : BitVec 64) => some x
  | .i32Extend8S => fun (x : BitVec 32) => some (extendLow 8 x)
  | .i32Extend16S => fun (x : BitVec 32) => some (extendLow 16 x)
  | .i64Extend8S => fun (x : BitVec 64) => some (extendLow 8 x)
  | .i64Extend16S => fun (x : BitVec 64) => some (extendLow 16 x)
  | .i64Extend32S => fun (x : BitVec 64) => some (extendLow 32 x)

/-- Comparisons of integers. -/
def cmpS (p : Int → Int → Bool) (x y : BitVec w) : Option (BitVec 32) := some (bool (p x.toInt y.toInt))
@[inherit_doc cmpS] def cmpU (p : Nat → Nat → Bool) (x y : BitVec w) : Option (BitVec 32) := some (bool (p x.toNat y.toNat))
/-- Comparisons of floats. -/
def cmpF (F : Fmt) (p : FVal → FVal → Bool) (x y : BitVec F.width) : Option (BitVec 32) := some (bool (p (F.decode x) (F.decode y)))

/-- The binary operators. -/
def binary (O : FloatOps) : (op : BinaryOp) → Bits op.sig.1 → Bits op.sig.1 → Option (Bits op.sig.2)
  | .i32Eq => fun (x y : BitVec 32) => cmpU (fun a b => a == b) x y
  | .i32Ne => fun (x y : BitVec 32) => cmpU (fun a b => a != b) x y
  | .i32LtS => fun (x y : BitVec 32) => cmpS (fun a b => a < b) x y
  | .i32LtU => fun (x y : BitVec 32) => cmpU (fun a b => a < b) x y
  | .i32GtS => fun (x y : BitVec 32) => cmpS (fun a b => a > b) x y
  | .i32GtU => fun (x y : BitVec 32) => cmpU (fun a b => a > b) x y
  | .i32LeS => fun (x y : BitVec 32) => cmpS (fun a b => a ≤ b) x y
  | .i32LeU => fun (x y : BitVec 32) => cmpU (fun a b => a ≤ b) x y
  | .i32GeS => fun (x y : BitVec 32) => cmpS (fun a b => a ≥ b) x y
  | .i32GeU => fun (x y : BitVec 32) => cmpU (fun a b => a ≥ b) x y
  | .i64Eq => fun (x y : BitVec 64) => cmpU (fun a b => a == b) x y
  | .i64Ne => fun (x y : BitVec 64) => cmpU (fun a b => a != b) x y
  | .i64LtS => fun (x y : BitVec 64) => cmpS (fun a b => a < b) x y
  | .i64LtU => fun (x y : BitVec 64) => cmpU (fun a b => a < b) x y
  | .i64GtS => fun (x y : BitVec 64) => cmpS (fun a b => a > b) x y
  | .i64GtU => fun (x y : BitVec 64) => cmpU (fun a b => a > b) x y
  | .i64LeS => fun (x y : BitVec 64) => cmpS (fun a b => a ≤ b) x y
  | .i64LeU => fun (x y : BitVec 64) => cmpU (fun a b => a ≤ b) x y
  | .i64GeS => fun (x y : BitVec 64) => cmpS (fun a b => a ≥ b) x y
  | .i64GeU => fun (x y : BitVec 64) => cmpU (fun a b => a ≥ b) x y
  | .f32Eq => fun (x y : BitVec 32) => cmpF .single (fun a b => a.eq b) x y
  | .f32Ne => fun (x y : BitVec 32) => cmpF .single (fun a b => !a.eq b) x y
  | .f32Lt => fun (x y : BitVec 32) => cmpF .single (fun a b => a.lt b) x y
  | .f32Gt => fun (x y : BitVec 32) => cmpF .single (fun a b => b.lt a) x y
  | .f32Le => fun (x y : BitVec 32) => cmpF .single (fun a b => a.le b) x y
  | .f32Ge => fun (x y : BitVec 32) => cmpF .single (fun a b => b.le a) x y
  | .f64Eq => fun (x y : BitVec 64) => cmpF .double (fun a b => a.eq b) x y
  | .f64Ne => fun (x y : BitVec 64) => cmpF .double (fun a b => !a.eq b) x y
  | .f64Lt => fun (x y : BitVec 64) => cmpF .double (fun a b => a.lt b) x y
  | .f64Gt => fun (x y : BitVec 64) => cmpF .double (fun a b => b.lt a) x y
  | .f64Le => fun (x y : BitVec 64) => cmpF .double (fun a b => a.le b) x y
  | .f64Ge => fun (x y : BitVec 64) => cmpF .double (fun a b => b.le a) x y
  | .i32Add => fun (x y : BitVec 32) => some (add x y)
  | .i32Sub => fun (x y : BitVec 32) => some (sub x y)
  | .i32Mul => fun (x y : BitVec 32) => some (mul x y)
  | .i32DivS => fun (x y : BitVec 32) => divS x y
  | .i32DivU => fun (x y : BitVec 32) => divU x y
  | .i32RemS => fun (x y : BitVec 32) => remS x y
  | .i32RemU => fun (x y : BitVec 32) => remU x y
  | .i32And => fun (x y : BitVec 32) => some (and x y)
  | .i32Or => fun (x y : BitVec 32) => some (or x y)
  | .i32Xor => fun (x y : BitVec 32) => some (xor x y)
  | .i32Shl => fun (x y : BitVec 32) => some (shl x y)
  | .i32ShrS => fun (x y : BitVec 32) => some (shrS x y)
  | .i32ShrU => fun (x y : BitVec 32) => some (shrU x y)
  | .i32Rotl => fun (x y : BitVec 32) => some (rotl x y)
  | .i32Rotr => fun (x y : BitVec 32) => some (rotr x y)
  | .i64Add => fun (x y : BitVec 64) => some (add x y)
  | .i64Sub => fun (x y : BitVec 64) => some (sub x y)
  | .i64Mul => fun (x y : BitVec 64) => some (mul x y)
  | .i64DivS => fun (x y : BitVec 64) => divS x y
  | .i64DivU => fun (x y : BitVec 64) => divU x y
  | .i64RemS => fun (x y : BitVec 64) => remS x y
  | .i64RemU => fun (x y : BitVec 64) => remU x y
  | .i64And => fun (x y : BitVec 64) => some (and x y)
  | .i64Or => fun (x y : BitVec 64) => some (or x y)
  | .i64Xor => fun (x y : BitVec 64) => some (xor x y)
  | .i64Shl => fun (x y : BitVec 64) => some (shl x y)
  | .i64ShrS => fun (x y : BitVec 64) => some (shrS x y)
  | .i64ShrU => fun (x y : BitVec 64) => some (shrU x y)
  | .i64Rotl => fun (x y : BitVec 64) => some (rotl x y)
  | .i64Rotr => fun (x y : BitVec 64) => some (rotr x y)
  | .f32Add => fun (x y : BitVec 32) => some (O.add .single x y)
  | .f32Sub => fun (x y : BitVec 32) => some (O.sub .single x y)
  | .f32Mul => fun (x y : BitVec 32) => some (O.mul .single x y)
  | .f32Div => fun (x y : BitVec 32) => some (O.div .single x y)
  | .f32Min => fun (x y : BitVec 32) => some (O.min .single x y)
  | .f32Max => fun (x y : BitVec 32) => some (O.max .single x y)
  | .f32Copysign => fun (x y : BitVec 32) => some (Fmt.single.copysign x y)
  | .f64Add => fun (x y : BitVec 64) => some (O.add .double x y)
  | .f64Sub => fun (x y : BitVec 64) => some (O.sub .double x y)
  | .f64Mul => fun (x y : BitVec 64) => some (O.mul .double x y)
  | .f64Div => fun (x y : BitVec 64) => some (O.div .double x y)
  | .f64Min => fun (x y : BitVec 64) => some (O.min .double x y)
  | .f64Max => fun (x y : BitVec 64) => some (O.max .double x y)
  | .f64Copysign => fun (x y : BitVec 64) => some (Fmt.double.copysign x y)

/-! ## Operators on values -/

/-- The bits of a value of the given type. -/
def ofVal : (t : ValType) → Val → Option (Bits t)
  | .i32, .i32 x => some x
  | .i64, .i64 x => some x
  | .f32, .f32 x => some x
  | .f64, .f64 x => some x
  | _, _ => none

/-- The value with the given bits. -/
def toVal : (t : ValType) → Bits t → Val
  | .i32, x => .i32 x
  | .i64, x => .i64 x
  | .f32, x => .f32 x
  | .f64, x => .f64 x

/-- Two values are the same, or NaNs of the same type. -/
inductive Same : Val → Val → Prop where
  | refl (v : Val) : Same v v
  | nan32 (x y : BitVec 32) : Fmt.single.decode x = .nan → Fmt.single.decode y = .nan → Same (.f32 x) (.f32 y)
  | nan64 (x y : BitVec 64) : Fmt.double.decode x = .nan → Fmt.double.decode y = .nan → Same (.f64 x) (.f64 y)

/-- Two outcomes are the same: both a trap, or the same values up to the bits of NaNs. -/
inductive Agree : Option Val → Option Val → Prop where
  | trap : Agree none none
  | value {v w : Val} : Same v w → Agree (some v) (some w)

end NumSpec

open NumSpec in
/-- The arithmetic of WebAssembly computes what the specification says, up to the bits of NaNs, on operands of the right types. -/
structure Num.Standard (N : Num) (O : FloatOps) : Prop where
  unary : ∀ op x, Agree (N.unary op (toVal _ x)) ((NumSpec.unary O op x).map (toVal _))
  binary : ∀ op x y, Agree (N.binary op (toVal _ x) (toVal _ y)) ((NumSpec.binary O op x y).map (toVal _))

end Wastrum
