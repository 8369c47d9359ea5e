import Verif.NativeFloats
import Verif.StdlibThms
/-!
# The analysis library computes the same on the developer's machine (C79)

`UnaryOperator::apply` and `BinaryOperator::apply` have one implementation for `wasm32` (the instruction itself, `UnaryOp.apply`) and one for other targets
(`UnaryOp.applyNative`). For every operator it is proved on which operands the two agree:

* all operators but those below: on all operands (traps being panics, and NaNs being equal whatever their bits);
* addition, subtraction, multiplication and shifts: on all operands without overflow checks, else where there is no overflow;
* truncations to integers: exactly where the instruction does not trap (the Rust code returns the saturated number);
* `nearest`: exactly on the numbers that are not in the middle of an even integer and the next one (the Rust code rounds these away from zero);
* `min`, `max`: exactly where both or none of the operands are NaN, leaving aside zeros of opposite signs, for which Rust promises nothing.
-/

namespace Wastrum
open NumSpec

/-! ## Which operators and operands -/

/-- The instruction is a truncation to an integer that may trap. -/
def UnaryOp.truncates : UnaryOp → Bool
  | .i32TruncF32S | .i32TruncF32U | .i32TruncF64S | .i32TruncF64U | .i64TruncF32S | .i64TruncF32U | .i64TruncF64S | .i64TruncF64U => true
  | _ => false

/-- The instruction rounds to the nearest integer. -/
def UnaryOp.isNearest : UnaryOp → Bool
  | .f32Nearest | .f64Nearest => true
  | _ => false

/-- The instruction is a minimum or maximum. -/
def BinaryOp.isMinMax : BinaryOp → Bool
  | .f32Min | .f32Max | .f64Min | .f64Max => true
  | _ => false

/-- A sum, difference or product of the signed numbers outside the range of the type, or a shift by the width or more. -/
def BinaryOp.Overflows : BinaryOp → Val → Val → Prop
  | .i32Add, .i32 x, .i32 y => ¬ (minS 32 ≤ x.toInt + y.toInt ∧ x.toInt + y.toInt ≤ maxS 32)
  | .i32Sub, .i32 x, .i32 y => ¬ (minS 32 ≤ x.toInt - y.toInt ∧ x.toInt - y.toInt ≤ maxS 32)
  | .i32Mul, .i32 x, .i32 y => ¬ (minS 32 ≤ x.toInt * y.toInt ∧ x.toInt * y.toInt ≤ maxS 32)
  | .i64Add, .i64 x, .i64 y => ¬ (minS 64 ≤ x.toInt + y.toInt ∧ x.toInt + y.toInt ≤ maxS 64)
  | .i64Sub, .i64 x, .i64 y => ¬ (minS 64 ≤ x.toInt - y.toInt ∧ x.toInt - y.toInt ≤ maxS 64)
  | .i64Mul, .i64 x, .i64 y => ¬ (minS 64 ≤ x.toInt * y.toInt ∧ x.toInt * y.toInt ≤ maxS 64)
  | .i32Shl, .i32 _, .i32 y | .i32ShrS, .i32 _, .i32 y | .i32ShrU, .i32 _, .i32 y => 32 ≤ y.toNat
  | .i64Shl, .i64 _, .i64 y | .i64ShrS, .i64 _, .i64 y | .i64ShrU, .i64 _, .i64 y => 64 ≤ y.toNat
  | _, _, _ => False

/-! ## Agreement -/

namespace NumSpec

theorem same_f32 {x y : BitVec 32} : Same (.f32 x) (.f32 y) ↔ Fmt.single.decode x = Fmt.single.decode y := by
  constructor
  · intro h; cases h with
    | refl => rfl
    | nan32 _ _ h1 h2 => rw [h1, h2]
  · intro h
    rcases Fmt.single.decode_inj h with he | he
    · exact he ▸ .refl _
    · exact .nan32 _ _ he (h ▸ he)

theorem same_f64 {x y : BitVec 64} : Same (.f64 x) (.f64 y) ↔ Fmt.double.decode x = Fmt.double.decode y := by
  constructor
  · intro h; cases h with
    | refl => rfl
    | nan64 _ _ h1 h2 => rw [h1, h2]
  · intro h
    rcases Fmt.double.decode_inj h with he | he
    · exact he ▸ .refl _
    · exact .nan64 _ _ he (h ▸ he)

theorem Same.symm {v w : Val} (h : Same v w) : Same w v := by
  cases h with
  | refl => exact .refl _
  | nan32 _ _ h1 h2 => exact .nan32 _ _ h2 h1
  | nan64 _ _ h1 h2 => exact .nan64 _ _ h2 h1

theorem Same.trans {u v w : Val} (h : Same u v) (h' : Same v w) : Same u w := by
  cases h with
  | refl => exact h'
  | nan32 _ _ h1 h2 => cases h' with
    | refl => exact .nan32 _ _ h1 h2
    | nan32 _ _ _ h3 => exact .nan32 _ _ h1 h3
  | nan64 _ _ h1 h2 => cases h' with
    | refl => exact .nan64 _ _ h1 h2
    | nan64 _ _ _ h3 => exact .nan64 _ _ h1 h3

theorem Agree.refl : (o : Option Val) → Agree o o
  | none => .trap
  | some v => .value (.refl v)

theorem Agree.symm {a b : Option Val} (h : Agree a b) : Agree b a := by
  cases h with
  | trap => exact .trap
  | value h => exact .value h.symm

theorem Agree.trans {a b c : Option Val} (h : Agree a b) (h' : Agree b c) : Agree a c := by
  cases h with
  | trap => exact h'
  | value h => cases h' with
    | value h' => exact .value (h.trans h')

theorem Agree.congr {a b c : Option Val} (h : Agree b c) : Agree a b ↔ Agree a c := ⟨(·.trans h), (·.trans h.symm)⟩

theorem Agree.none_iff {a b : Option Val} (h : Agree a b) : a = none ↔ b = none := by
  cases h <;> simp

theorem agree_of_eq {a b : Option Val} (h : a = b) : Agree a b := h ▸ .refl _

theorem agree_some {v w : Val} : Agree (some v) (some w) ↔ Same v w :=
  ⟨fun h => by cases h with | value h => exact h, .value⟩

theorem ofVal_toVal (t : ValType) (x : Bits t) : ofVal t (toVal t x) = some x := by
  cases t <;> first | rfl | exact x.elim

theorem ofVal_eq_none {t : ValType} {v : Val} (h : v.type ≠ t) : ofVal t v = none := by
  cases t <;> cases v <;> first | rfl | exact absurd rfl h

theorem exists_bits {t : ValType} {v : Val} (h : v.type = t) : ∃ x : Bits t, v = toVal t x := by
  cases v <;> subst h <;> exact ⟨_, rfl⟩

theorem toVal_type (t : ValType) (x : Bits t) : (toVal t x).type = t := by
  cases t <;> first | rfl | exact x.elim

end NumSpec

theorem eqz_eq {w : Nat} (x : BitVec w) : asI32 (x == 0) = bool (x.toNat == 0) := by
  rw [bool_eq]; congr 1; rw [Bool.eq_iff_iff]; simp [← BitVec.toNat_inj]

/-! ## The closures -/

section closures
variable {H : Native} (hL : H.libm.Ok H.floats) (hO : H.floats.Ok)
include hL hO

/-- The closures of the unary operators. -/
theorem unary_reified (op : UnaryOp) (ht : op.truncates = false) (hn : op.isNearest = false) (x : Bits op.sig.1) :
    Agree ((op.reified H x).map (toVal _)) ((NumSpec.unary H.floats op x).map (toVal _)) := by
  cases op
  case i32Eqz => exact agree_of_eq (congrArg (fun b => some (Val.i32 b)) (eqz_eq x))
  case i64Eqz => exact agree_of_eq (congrArg (fun b => some (Val.i32 b)) (eqz_eq x))
  case i32Clz => exact agree_of_eq (congrArg (fun b => some (Val.i32 b)) (clz_eq (by decide) x).symm)
  case i32Ctz => exact agree_of_eq (congrArg (fun b => some (Val.i32 b)) (ctz_eq (by decide) x).symm)
  case i32Popcnt => exact agree_of_eq (congrArg (fun b => some (Val.i32 b)) (popcnt_eq x).symm)
  case i64Clz => exact agree_of_eq (congrArg (fun b => some (Val.i64 b)) (clz_eq (by decide) x).symm)
  case i64Ctz => exact agree_of_eq (congrArg (fun b => some (Val.i64 b)) (ctz_eq (by decide) x).symm)
  case i64Popcnt => exact agree_of_eq (congrArg (fun b => some (Val.i64 b)) (popcnt_eq x).symm)
  case f32Abs => exact agree_of_eq (congrArg (fun b => some (Val.f32 b)) (hL.fabs .single x))
  case f64Abs => exact agree_of_eq (congrArg (fun b => some (Val.f64 b)) (hL.fabs .double x))
  case f32Neg => exact .refl _
  case f64Neg => exact .refl _
  case f32Ceil => exact agree_some.2 (same_f32.2 ((hL.ceil .single x).trans (hO.round .single .ceil x).symm))
  case f32Floor => exact agree_some.2 (same_f32.2 ((hL.floor .single x).trans (hO.round .single .floor x).symm))
  case f32Trunc => exact agree_some.2 (same_f32.2 ((hL.trunc .single x).trans (hO.round .single .trunc x).symm))
  case f64Ceil => exact agree_some.2 (same_f64.2 ((hL.ceil .double x).trans (hO.round .double .ceil x).symm))
  case f64Floor => exact agree_some.2 (same_f64.2 ((hL.floor .double x).trans (hO.round .double .floor x).symm))
  case f64Trunc => exact agree_some.2 (same_f64.2 ((hL.trunc .double x).trans (hO.round .double .trunc x).symm))
  case f32Sqrt => exact agree_some.2 (same_f32.2 (hL.sqrt .single x))
  case f64Sqrt => exact agree_some.2 (same_f64.2 (hL.sqrt .double x))
  case i32WrapI64 => exact agree_of_eq (congrArg (fun b => some (Val.i32 b)) (wrap_eq 32 x).symm)
  case i64ExtendI32S => exact .refl _
  case i64ExtendI32U => exact agree_of_eq (congrArg (fun b => some (Val.i64 b)) (extendU_eq 64 x).symm)
  case i32TruncSatF32S =>
    exact agree_of_eq (congrArg (fun b => some (Val.i32 b)) (castInt_clamp .single 32 (by decide) (by decide) (hL.trunc .single x)
      (bl := true) (bh := false) (kl := 2 ^ 31 * 2 ^ 149) (kh := 2 ^ 31 * 2 ^ 149) (by decide +kernel) (by decide +kernel) (by decide +kernel)
      (by decide +kernel) (by decide +kernel) (by decide +kernel)))
  case i32TruncSatF32U =>
    exact agree_of_eq (congrArg (fun b => some (Val.i32 b)) (castInt_clamp .single 32 (by decide) (by decide) (hL.trunc .single x)
      (bl := false) (bh := false) (kl := 0) (kh := 2 ^ 32 * 2 ^ 149) (by decide +kernel) (by decide +kernel) (by decide +kernel)
      (by decide +kernel) (by decide +kernel) (by decide +kernel)))
  case i32TruncSatF64S =>
    exact agree_of_eq (congrArg (fun b => some (Val.i32 b)) (castInt_clamp .double 32 (by decide) (by decide) (hL.trunc .double x)
      (bl := true) (bh := false) (kl := 2 ^ 31 * 2 ^ 1074) (kh := (2 ^ 31 - 1) * 2 ^ 1074) (by decide +kernel) (by decide +kernel) (by decide +kernel)
      (by decide +kernel) (by decide +kernel) (by decide +kernel)))
  case i32TruncSatF64U =>
    exact agree_of_eq (congrArg (fun b => some (Val.i32 b)) (castInt_clamp .double 32 (by decide) (by decide) (hL.trunc .double x)
      (bl := false) (bh := false) (kl := 0) (kh := (2 ^ 32 - 1) * 2 ^ 1074) (by decide +kernel) (by decide +kernel) (by decide +kernel)
      (by decide +kernel) (by decide +kernel) (by decide +kernel)))
  case i64TruncSatF32S =>
    exact agree_of_eq (congrArg (fun b => some (Val.i64 b)) (castInt_clamp .single 64 (by decide) (by decide) (hL.trunc .single x)
      (bl := true) (bh := false) (kl := (2 ^ 24 - 1) * 2 ^ 253) (kh := (2 ^ 24 - 1) * 2 ^ 253) (by decide +kernel) (by decide +kernel) (by decide +kernel)
      (by decide +kernel) (by decide +kernel) (by decide +kernel)))
  case i64TruncSatF32U =>
    exact agree_of_eq (congrArg (fun b => some (Val.i64 b)) (castInt_clamp .single 64 (by decide) (by decide) (hL.trunc .single x)
      (bl := false) (bh := false) (kl := 0) (kh := 2 ^ 64 * 2 ^ 149) (by decide +kernel) (by decide +kernel) (by decide +kernel)
      (by decide +kernel) (by decide +kernel) (by decide +kernel)))
  case i64TruncSatF64S =>
    exact agree_of_eq (congrArg (fun b => some (Val.i64 b)) (castInt_clamp .double 64 (by decide) (by decide) (hL.trunc .double x)
      (bl := true) (bh := false) (kl := (2 ^ 53 - 1) * 2 ^ 2045) (kh := (2 ^ 53 - 1) * 2 ^ 2045) (by decide +kernel) (by decide +kernel) (by decide +kernel)
      (by decide +kernel) (by decide +kernel) (by decide +kernel)))
  case i64TruncSatF64U =>
    exact agree_of_eq (congrArg (fun b => some (Val.i64 b)) (castInt_clamp .double 64 (by decide) (by decide) (hL.trunc .double x)
      (bl := false) (bh := false) (kl := 0) (kh := 2 ^ 64 * 2 ^ 1074) (by decide +kernel) (by decide +kernel) (by decide +kernel)
      (by decide +kernel) (by decide +kernel) (by decide +kernel)))
  case i32Extend8S => exact agree_of_eq (congrArg (fun b : BitVec 8 => some (Val.i32 (b.signExtend 32))) (wrap_eq 8 x).symm)
  case i32Extend16S => exact agree_of_eq (congrArg (fun b : BitVec 16 => some (Val.i32 (b.signExtend 32))) (wrap_eq 16 x).symm)
  case i64Extend8S => exact agree_of_eq (congrArg (fun b : BitVec 8 => some (Val.i64 (b.signExtend 64))) (wrap_eq 8 x).symm)
  case i64Extend16S => exact agree_of_eq (congrArg (fun b : BitVec 16 => some (Val.i64 (b.signExtend 64))) (wrap_eq 16 x).symm)
  case i64Extend32S => exact agree_of_eq (congrArg (fun b : BitVec 32 => some (Val.i64 (b.signExtend 64))) (wrap_eq 32 x).symm)
  all_goals first | exact .refl _ | exact absurd ht (by decide) | exact absurd hn (by decide)

omit hL hO in
/-- Arithmetic that may overflow. -/
theorem checked_eq {w : Nat} (hw : 0 < w) {i : Int} {x : BitVec w} (h : x.toInt = i.bmod (2 ^ w)) :
    H.checked i x = if H.overflowChecks ∧ ¬ (minS w ≤ i ∧ i ≤ maxS w) then none else some x := by
  have hr : i.bmod (2 ^ w) = i ↔ (minS w ≤ i ∧ i ≤ maxS w) := by
    have h1 := BitVec.le_toInt x
    have h2 := BitVec.toInt_lt (x := x)
    constructor
    · intro he; rw [h, he] at h1 h2; exact ⟨h1, by show i ≤ 2 ^ (w - 1) - 1; omega⟩
    · intro ⟨h3, h4⟩
      have hp : (2 ^ w : Nat) = 2 * 2 ^ (w - 1) := by
        rw [Nat.mul_comm, ← Nat.pow_succ]; congr 1; omega
      have h3' : -(2 ^ (w - 1)) ≤ i := h3
      have h4' : i ≤ 2 ^ (w - 1) - 1 := h4
      have hc : ((2 ^ (w - 1) : Nat) : Int) = 2 ^ (w - 1) := by simp
      rw [hp]
      apply Int.bmod_eq_of_le <;> omega
  unfold Native.checked
  rw [h]
  simp only [ne_eq, hr]

omit hL hO in
theorem shift_eq {w : Nat} (hw : (w : Int) ∣ 2 ^ w) (y : BitVec w) : ¬ (0 ≤ y.toInt ∧ y.toInt < w) ↔ w ≤ y.toNat := by
  have hpow : w < 2 ^ w := Nat.lt_two_pow_self
  have : y.toInt = y.toNat ∨ (y.toInt < 0 ∧ w ≤ y.toNat) := by
    rw [BitVec.toInt_eq_toNat_cond]
    split
    · exact .inl rfl
    · right
      rename_i h
      have := y.isLt
      have hw2 : 2 * w ≤ 2 ^ w := by
        rcases w with _ | _ | w
        · simp at h; omega
        · simp
        · have := Nat.lt_two_pow_self (n := w + 1)
          rw [Nat.pow_succ]; omega
      constructor
      · have : ((2 ^ w : Nat) : Int) = 2 ^ w := by simp
        omega
      · omega
  omega

omit hL hO in
theorem cmp_eq {w : Nat} (x y : BitVec w) : asI32 (x == y) = bool (x.toNat == y.toNat) := by
  rw [bool_eq]; congr 1; rw [Bool.eq_iff_iff]; simp [← BitVec.toNat_inj]
omit hL hO in
theorem cmp_ne {w : Nat} (x y : BitVec w) : asI32 (x != y) = bool (x.toNat != y.toNat) := by
  rw [bool_eq]; congr 1; rw [Bool.eq_iff_iff]; simp [← BitVec.toNat_inj]
omit hL hO in
theorem cmp_slt {w : Nat} (x y : BitVec w) : asI32 (x.slt y) = bool (x.toInt < y.toInt) := by rw [bool_eq]; rfl
omit hL hO in
theorem cmp_ult {w : Nat} (x y : BitVec w) : asI32 (x.ult y) = bool (x.toNat < y.toNat) := by rw [bool_eq]; rfl
omit hL hO in
theorem cmp_sgt {w : Nat} (x y : BitVec w) : asI32 (y.slt x) = bool (x.toInt > y.toInt) := by rw [bool_eq]; rfl
omit hL hO in
theorem cmp_ugt {w : Nat} (x y : BitVec w) : asI32 (y.ult x) = bool (x.toNat > y.toNat) := by rw [bool_eq]; rfl
omit hL hO in
theorem cmp_sle {w : Nat} (x y : BitVec w) : asI32 (x.sle y) = bool (x.toInt ≤ y.toInt) := by rw [bool_eq]; rfl
omit hL hO in
theorem cmp_ule {w : Nat} (x y : BitVec w) : asI32 (x.ule y) = bool (x.toNat ≤ y.toNat) := by rw [bool_eq]; rfl
omit hL hO in
theorem cmp_sge {w : Nat} (x y : BitVec w) : asI32 (y.sle x) = bool (x.toInt ≥ y.toInt) := by rw [bool_eq]; rfl
omit hL hO in
theorem cmp_uge {w : Nat} (x y : BitVec w) : asI32 (y.ule x) = bool (x.toNat ≥ y.toNat) := by rw [bool_eq]; rfl

omit hL hO in
theorem Native.add_eq {w : Nat} (hw : 0 < w) (x y : BitVec w) :
    H.add x y = if H.overflowChecks ∧ ¬ (minS w ≤ x.toInt + y.toInt ∧ x.toInt + y.toInt ≤ maxS w) then none else some (x + y) :=
  checked_eq hw (BitVec.toInt_add x y)
omit hL hO in
theorem Native.sub_eq {w : Nat} (hw : 0 < w) (x y : BitVec w) :
    H.sub x y = if H.overflowChecks ∧ ¬ (minS w ≤ x.toInt - y.toInt ∧ x.toInt - y.toInt ≤ maxS w) then none else some (x - y) :=
  checked_eq hw (BitVec.toInt_sub ..)
omit hL hO in
theorem Native.mul_eq {w : Nat} (hw : 0 < w) (x y : BitVec w) :
    H.mul x y = if H.overflowChecks ∧ ¬ (minS w ≤ x.toInt * y.toInt ∧ x.toInt * y.toInt ≤ maxS w) then none else some (x * y) :=
  checked_eq hw (BitVec.toInt_mul x y)
omit hL hO in
theorem Native.shl_eq {w : Nat} (hw : (w : Int) ∣ 2 ^ w) (x y : BitVec w) :
    H.shl x y.toInt = if H.overflowChecks ∧ w ≤ y.toNat then none else some (x <<< (y.toNat % w)) := by
  simp only [Native.shl, shift_eq hw, toInt_emod hw]
omit hL hO in
theorem Native.shrS_eq {w : Nat} (hw : (w : Int) ∣ 2 ^ w) (x y : BitVec w) :
    H.shr true x y.toInt = if H.overflowChecks ∧ w ≤ y.toNat then none else some (x.sshiftRight (y.toNat % w)) := by
  simp only [Native.shr, shift_eq hw, toInt_emod hw, if_true]
omit hL hO in
theorem Native.shrU_eq {w : Nat} (x y : BitVec w) :
    H.shr false x y.toNat = if H.overflowChecks ∧ w ≤ y.toNat then none else some (x >>> (y.toNat % w)) := by
  have h1 : ¬ ((0 : Int) ≤ (y.toNat : Int) ∧ (y.toNat : Int) < w) ↔ w ≤ y.toNat := by omega
  have h2 : ((y.toNat : Int) % w).toNat = y.toNat % w := by omega
  simp only [Native.shr, h1, h2, Bool.false_eq_true, if_false]

omit hL hO in
theorem rot_amount32 (y : BitVec 32) : (y.setWidth 32).toNat % 32 = y.toNat % 32 := by simp
omit hL hO in
theorem rot_amount64 (y : BitVec 64) : (y.setWidth 32).toNat % 64 = y.toNat % 64 := by simp

omit hO in
/-- The closures of the binary operators where there is no overflow. -/
theorem binary_reified (op : BinaryOp) (hm : op.isMinMax = false) (x y : Bits op.sig.1)
    (hno : ¬ (H.overflowChecks = true ∧ op.Overflows (toVal _ x) (toVal _ y))) :
    Agree ((op.reified H x y).map (toVal _)) ((NumSpec.binary H.floats op x y).map (toVal _)) := by
  cases op
  case i32Eq => exact agree_of_eq (congrArg (fun b => some (Val.i32 b)) (cmp_eq x y))
  case i32Ne => exact agree_of_eq (congrArg (fun b => some (Val.i32 b)) (cmp_ne x y))
  case i32LtS => exact agree_of_eq (congrArg (fun b => some (Val.i32 b)) (cmp_slt x y))
  case i32LtU => exact agree_of_eq (congrArg (fun b => some (Val.i32 b)) (cmp_ult x y))
  case i32GtS => exact agree_of_eq (congrArg (fun b => some (Val.i32 b)) (cmp_sgt x y))
  case i32GtU => exact agree_of_eq (congrArg (fun b => some (Val.i32 b)) (cmp_ugt x y))
  case i32LeS => exact agree_of_eq (congrArg (fun b => some (Val.i32 b)) (cmp_sle x y))
  case i32LeU => exact agree_of_eq (congrArg (fun b => some (Val.i32 b)) (cmp_ule x y))
  case i32GeS => exact agree_of_eq (congrArg (fun b => some (Val.i32 b)) (cmp_sge x y))
  case i32GeU => exact agree_of_eq (congrArg (fun b => some (Val.i32 b)) (cmp_uge x y))
  case f32Eq => exact agree_of_eq (congrArg (fun b => some (Val.i32 b)) (bool_eq _).symm)
  case f32Ne => exact agree_of_eq (congrArg (fun b => some (Val.i32 b)) (bool_eq _).symm)
  case f32Lt => exact agree_of_eq (congrArg (fun b => some (Val.i32 b)) (bool_eq _).symm)
  case f32Gt => exact agree_of_eq (congrArg (fun b => some (Val.i32 b)) (bool_eq _).symm)
  case f32Le => exact agree_of_eq (congrArg (fun b => some (Val.i32 b)) (bool_eq _).symm)
  case f32Ge => exact agree_of_eq (congrArg (fun b => some (Val.i32 b)) (bool_eq _).symm)
  case i32Add => exact agree_of_eq (congrArg (Option.map Val.i32) (((Native.add_eq (by decide) _ _).trans (if_neg hno)).trans (congrArg some (add_eq x y).symm)))
  case i32Sub => exact agree_of_eq (congrArg (Option.map Val.i32) (((Native.sub_eq (by decide) _ _).trans (if_neg hno)).trans (congrArg some (sub_eq x y).symm)))
  case i32Mul => exact agree_of_eq (congrArg (Option.map Val.i32) (((Native.mul_eq (by decide) _ _).trans (if_neg hno)).trans (congrArg some (mul_eq x y).symm)))
  case i32DivS => exact agree_of_eq (congrArg (Option.map Val.i32) (divS_eq (by decide) x y).symm)
  case i32DivU => exact agree_of_eq (congrArg (Option.map Val.i32) (divU_eq x y).symm)
  case i32RemS => exact agree_of_eq (congrArg (Option.map Val.i32) (remS_eq x y).symm)
  case i32RemU => exact agree_of_eq (congrArg (Option.map Val.i32) (remU_eq x y).symm)
  case i32And => exact agree_of_eq (congrArg (fun b => some (Val.i32 b)) (and_eq x y).symm)
  case i32Or => exact agree_of_eq (congrArg (fun b => some (Val.i32 b)) (or_eq x y).symm)
  case i32Xor => exact agree_of_eq (congrArg (fun b => some (Val.i32 b)) (xor_eq x y).symm)
  case i32Shl => exact agree_of_eq (congrArg (Option.map Val.i32) (((Native.shl_eq (by decide) _ _).trans (if_neg hno)).trans (congrArg some (shl_eq x y).symm)))
  case i32ShrS => exact agree_of_eq (congrArg (Option.map Val.i32) (((Native.shrS_eq (by decide) _ _).trans (if_neg hno)).trans (congrArg some (shrS_eq x y).symm)))
  case i32ShrU => exact agree_of_eq (congrArg (Option.map Val.i32) (((Native.shrU_eq _ _).trans (if_neg hno)).trans (congrArg some (shrU_eq x y).symm)))
  case i32Rotl => exact agree_of_eq (congrArg (fun b => some (Val.i32 b)) (rotl_eq x y _ (rot_amount32 y)).symm)
  case i32Rotr => exact agree_of_eq (congrArg (fun b => some (Val.i32 b)) (rotr_eq x y _ (rot_amount32 y)).symm)
  case f32Copysign => exact agree_of_eq (congrArg (fun b => some (Val.f32 b)) (hL.copysign .single x y))
  case i64Eq => exact agree_of_eq (congrArg (fun b => some (Val.i32 b)) (cmp_eq x y))
  case i64Ne => exact agree_of_eq (congrArg (fun b => some (Val.i32 b)) (cmp_ne x y))
  case i64LtS => exact agree_of_eq (congrArg (fun b => some (Val.i32 b)) (cmp_slt x y))
  case i64LtU => exact agree_of_eq (congrArg (fun b => some (Val.i32 b)) (cmp_ult x y))
  case i64GtS => exact agree_of_eq (congrArg (fun b => some (Val.i32 b)) (cmp_sgt x y))
  case i64GtU => exact agree_of_eq (congrArg (fun b => some (Val.i32 b)) (cmp_ugt x y))
  case i64LeS => exact agree_of_eq (congrArg (fun b => some (Val.i32 b)) (cmp_sle x y))
  case i64LeU => exact agree_of_eq (congrArg (fun b => some (Val.i32 b)) (cmp_ule x y))
  case i64GeS => exact agree_of_eq (congrArg (fun b => some (Val.i32 b)) (cmp_sge x y))
  case i64GeU => exact agree_of_eq (congrArg (fun b => some (Val.i32 b)) (cmp_uge x y))
  case f64Eq => exact agree_of_eq (congrArg (fun b => some (Val.i32 b)) (bool_eq _).symm)
  case f64Ne => exact agree_of_eq (congrArg (fun b => some (Val.i32 b)) (bool_eq _).symm)
  case f64Lt => exact agree_of_eq (congrArg (fun b => some (Val.i32 b)) (bool_eq _).symm)
  case f64Gt => exact agree_of_eq (congrArg (fun b => some (Val.i32 b)) (bool_eq _).symm)
  case f64Le => exact agree_of_eq (congrArg (fun b => some (Val.i32 b)) (bool_eq _).symm)
  case f64Ge => exact agree_of_eq (congrArg (fun b => some (Val.i32 b)) (bool_eq _).symm)
  case i64Add => exact agree_of_eq (congrArg (Option.map Val.i64) (((Native.add_eq (by decide) _ _).trans (if_neg hno)).trans (congrArg some (add_eq x y).symm)))
  case i64Sub => exact agree_of_eq (congrArg (Option.map Val.i64) (((Native.sub_eq (by decide) _ _).trans (if_neg hno)).trans (congrArg some (sub_eq x y).symm)))
  case i64Mul => exact agree_of_eq (congrArg (Option.map Val.i64) (((Native.mul_eq (by decide) _ _).trans (if_neg hno)).trans (congrArg some (mul_eq x y).symm)))
  case i64DivS => exact agree_of_eq (congrArg (Option.map Val.i64) (divS_eq (by decide) x y).symm)
  case i64DivU => exact agree_of_eq (congrArg (Option.map Val.i64) (divU_eq x y).symm)
  case i64RemS => exact agree_of_eq (congrArg (Option.map Val.i64) (remS_eq x y).symm)
  case i64RemU => exact agree_of_eq (congrArg (Option.map Val.i64) (remU_eq x y).symm)
  case i64And => exact agree_of_eq (congrArg (fun b => some (Val.i64 b)) (and_eq x y).symm)
  case i64Or => exact agree_of_eq (congrArg (fun b => some (Val.i64 b)) (or_eq x y).symm)
  case i64Xor => exact agree_of_eq (congrArg (fun b => some (Val.i64 b)) (xor_eq x y).symm)
  case i64Shl => exact agree_of_eq (congrArg (Option.map Val.i64) (((Native.shl_eq (by decide) _ _).trans (if_neg hno)).trans (congrArg some (shl_eq x y).symm)))
  case i64ShrS => exact agree_of_eq (congrArg (Option.map Val.i64) (((Native.shrS_eq (by decide) _ _).trans (if_neg hno)).trans (congrArg some (shrS_eq x y).symm)))
  case i64ShrU => exact agree_of_eq (congrArg (Option.map Val.i64) (((Native.shrU_eq _ _).trans (if_neg hno)).trans (congrArg some (shrU_eq x y).symm)))
  case i64Rotl => exact agree_of_eq (congrArg (fun b => some (Val.i64 b)) (rotl_eq x y _ (rot_amount64 y)).symm)
  case i64Rotr => exact agree_of_eq (congrArg (fun b => some (Val.i64 b)) (rotr_eq x y _ (rot_amount64 y)).symm)
  case f64Copysign => exact agree_of_eq (congrArg (fun b => some (Val.f64 b)) (hL.copysign .double x y))
  all_goals first | exact .refl _ | exact absurd hm (by decide)

omit hL hO in
/-- The closures of the binary operators where there is overflow. -/
theorem binary_overflows (op : BinaryOp) (x y : Bits op.sig.1) (hc : H.overflowChecks = true)
    (ho : op.Overflows (toVal _ x) (toVal _ y)) : op.reified H x y = none ∧ ∃ z, NumSpec.binary H.floats op x y = some z := by
  cases op
  case i32Add => exact ⟨(Native.add_eq (by decide) _ _).trans (if_pos ⟨hc, ho⟩), _, rfl⟩
  case i32Sub => exact ⟨(Native.sub_eq (by decide) _ _).trans (if_pos ⟨hc, ho⟩), _, rfl⟩
  case i32Mul => exact ⟨(Native.mul_eq (by decide) _ _).trans (if_pos ⟨hc, ho⟩), _, rfl⟩
  case i64Add => exact ⟨(Native.add_eq (by decide) _ _).trans (if_pos ⟨hc, ho⟩), _, rfl⟩
  case i64Sub => exact ⟨(Native.sub_eq (by decide) _ _).trans (if_pos ⟨hc, ho⟩), _, rfl⟩
  case i64Mul => exact ⟨(Native.mul_eq (by decide) _ _).trans (if_pos ⟨hc, ho⟩), _, rfl⟩
  case i32Shl => exact ⟨(Native.shl_eq (by decide) _ _).trans (if_pos ⟨hc, ho⟩), _, rfl⟩
  case i32ShrS => exact ⟨(Native.shrS_eq (by decide) _ _).trans (if_pos ⟨hc, ho⟩), _, rfl⟩
  case i32ShrU => exact ⟨(Native.shrU_eq _ _).trans (if_pos ⟨hc, ho⟩), _, rfl⟩
  case i64Shl => exact ⟨(Native.shl_eq (by decide) _ _).trans (if_pos ⟨hc, ho⟩), _, rfl⟩
  case i64ShrS => exact ⟨(Native.shrS_eq (by decide) _ _).trans (if_pos ⟨hc, ho⟩), _, rfl⟩
  case i64ShrU => exact ⟨(Native.shrU_eq _ _).trans (if_pos ⟨hc, ho⟩), _, rfl⟩
  all_goals exact ho.elim

end closures

/-! ## The property -/

/-- The hypotheses of the theorems: the float primitives and `libm` of the host do what they document, and the WebAssembly arithmetic is
the one of the specification with the same rounded float arithmetic. -/
structure HostOk (H : Native) (N : Num) : Prop where
  floats : H.floats.Ok
  libm : H.libm.Ok H.floats
  wasm : N.Standard H.floats

theorem UnaryOp.applyNative_toVal (H : Native) (op : UnaryOp) (x : Bits op.sig.1) :
    op.applyNative H (toVal _ x) = (op.reified H x).map (toVal _) := by
  simp only [UnaryOp.applyNative, ofVal_toVal, Option.bind_some]

theorem BinaryOp.applyNative_toVal (H : Native) (op : BinaryOp) (x y : Bits op.sig.1) :
    op.applyNative H (toVal _ x) (toVal _ y) = (op.reified H x y).map (toVal _) := by
  simp only [BinaryOp.applyNative, ofVal_toVal, Option.bind_some]

theorem UnaryOp.apply_spec {N : Num} {O : FloatOps} (h : N.Standard O) (op : UnaryOp) (x : Bits op.sig.1) :
    Agree (op.apply N (toVal _ x)) ((NumSpec.unary O op x).map (toVal _)) := by
  rw [UnaryOp.apply_eq, if_pos (toVal_type _ x)]; exact h.unary op x

theorem BinaryOp.apply_spec {N : Num} {O : FloatOps} (h : N.Standard O) (op : BinaryOp) (x y : Bits op.sig.1) :
    Agree (op.apply N (toVal _ x) (toVal _ y)) ((NumSpec.binary O op x y).map (toVal _)) := by
  rw [BinaryOp.apply_eq, if_pos ⟨toVal_type _ x, toVal_type _ y⟩]; exact h.binary op x y

section
variable {H : Native} {N : Num} (ok : HostOk H N)
include ok

omit ok in
/-- **C79 (operands of wrong types).** Both implementations panic on an operand that is not of the operator's type. -/
theorem C79_wrong_types (H : Native) (N : Num) : (∀ (op : UnaryOp) v, v.type ≠ op.sig.1 → op.applyNative H v = none ∧ op.apply N v = none) ∧
    (∀ (op : BinaryOp) v w, ¬ (v.type = op.sig.1 ∧ w.type = op.sig.1) → op.applyNative H v w = none ∧ op.apply N v w = none) := by
  refine ⟨fun op v h => ⟨?_, ?_⟩, fun op v w h => ⟨?_, ?_⟩⟩
  · simp [UnaryOp.applyNative, ofVal_eq_none h]
  · rw [UnaryOp.apply_eq, if_neg h]
  · by_cases hv : v.type = op.sig.1
    · have hw := fun e => h ⟨hv, e⟩
      simp [BinaryOp.applyNative, ofVal_eq_none hw]
    · simp [BinaryOp.applyNative, ofVal_eq_none hv]
  · rw [BinaryOp.apply_eq, if_neg h]

/-- **C79 (unary operators).** Every unary operator but the trapping truncations and `nearest` computes the same on the developer's machine
as in WebAssembly, on every operand. Missing: the ten operators for which that is false, see `C79_truncations` and `C79_nearest`. -/
theorem C79_unary_partial (op : UnaryOp) (ht : op.truncates = false) (hn : op.isNearest = false) (v : Val) :
    Agree (op.applyNative H v) (op.apply N v) := by
  by_cases hv : v.type = op.sig.1
  · obtain ⟨x, rfl⟩ := exists_bits hv
    rw [UnaryOp.applyNative_toVal]
    exact (unary_reified ok.libm ok.floats op ht hn x).trans (UnaryOp.apply_spec ok.wasm op x).symm
  · obtain ⟨h1, h2⟩ := (C79_wrong_types H N).1 op v hv
    rw [h1, h2]; exact .trap

/-- **C79 (truncations).** A truncation agrees with the instruction exactly on the operands on which the instruction does not trap. On the others
(NaN, infinities and numbers out of range) it does not panic, but returns a number. -/
theorem C79_truncations (op : UnaryOp) (ht : op.truncates = true) (v : Val) (hv : v.type = op.sig.1) :
    (Agree (op.applyNative H v) (op.apply N v) ↔ op.apply N v ≠ none) ∧ op.applyNative H v ≠ none := by
  obtain ⟨x, rfl⟩ := exists_bits hv
  rw [UnaryOp.applyNative_toVal]
  have hs := UnaryOp.apply_spec ok.wasm op x
  have key : op.reified H x ≠ none ∧ ∀ z, NumSpec.unary H.floats op x = some z → op.reified H x = some z := by
    cases op
    case i32TruncF32S => exact ⟨nofun, fun z h => congrArg some ((castInt_trunc .single 32 (by decide) (by decide) (ok.libm.trunc .single x)).trans (truncSat_of_truncTo h))⟩
    case i32TruncF32U => exact ⟨nofun, fun z h => congrArg some ((castInt_trunc .single 32 (by decide) (by decide) (ok.libm.trunc .single x)).trans (truncSat_of_truncTo h))⟩
    case i32TruncF64S => exact ⟨nofun, fun z h => congrArg some ((castInt_trunc .double 32 (by decide) (by decide) (ok.libm.trunc .double x)).trans (truncSat_of_truncTo h))⟩
    case i32TruncF64U => exact ⟨nofun, fun z h => congrArg some ((castInt_trunc .double 32 (by decide) (by decide) (ok.libm.trunc .double x)).trans (truncSat_of_truncTo h))⟩
    case i64TruncF32S => exact ⟨nofun, fun z h => congrArg some ((castInt_trunc .single 64 (by decide) (by decide) (ok.libm.trunc .single x)).trans (truncSat_of_truncTo h))⟩
    case i64TruncF32U => exact ⟨nofun, fun z h => congrArg some ((castInt_trunc .single 64 (by decide) (by decide) (ok.libm.trunc .single x)).trans (truncSat_of_truncTo h))⟩
    case i64TruncF64S => exact ⟨nofun, fun z h => congrArg some ((castInt_trunc .double 64 (by decide) (by decide) (ok.libm.trunc .double x)).trans (truncSat_of_truncTo h))⟩
    case i64TruncF64U => exact ⟨nofun, fun z h => congrArg some ((castInt_trunc .double 64 (by decide) (by decide) (ok.libm.trunc .double x)).trans (truncSat_of_truncTo h))⟩
    all_goals exact absurd ht (by decide)
  obtain ⟨k1, k2⟩ := key
  refine ⟨⟨fun h hn => ?_, fun h => ?_⟩, by simpa using k1⟩
  · have := h.none_iff.2 hn
    exact k1 (by simpa using this)
  · cases hz : NumSpec.unary H.floats op x with
    | none => rw [hz] at hs; exact absurd (hs.none_iff.2 rfl) h
    | some z => rw [hz] at hs; rw [k2 z hz]; exact hs.symm

/-- **C79 (truncations, what is returned).** In every case, a truncation returns what the saturating truncation of the same types returns. -/
theorem C79_truncations_saturate (v : Val) :
    Agree (UnaryOp.i32TruncF32S.applyNative H v) (UnaryOp.i32TruncSatF32S.apply N v) ∧
    Agree (UnaryOp.i32TruncF32U.applyNative H v) (UnaryOp.i32TruncSatF32U.apply N v) ∧
    Agree (UnaryOp.i32TruncF64S.applyNative H v) (UnaryOp.i32TruncSatF64S.apply N v) ∧
    Agree (UnaryOp.i32TruncF64U.applyNative H v) (UnaryOp.i32TruncSatF64U.apply N v) ∧
    Agree (UnaryOp.i64TruncF32S.applyNative H v) (UnaryOp.i64TruncSatF32S.apply N v) ∧
    Agree (UnaryOp.i64TruncF32U.applyNative H v) (UnaryOp.i64TruncSatF32U.apply N v) ∧
    Agree (UnaryOp.i64TruncF64S.applyNative H v) (UnaryOp.i64TruncSatF64S.apply N v) ∧
    Agree (UnaryOp.i64TruncF64U.applyNative H v) (UnaryOp.i64TruncSatF64U.apply N v) := by
  have key : ∀ op op' : UnaryOp, (hs : op.sig = op'.sig) → (∀ x : Bits op.sig.1, ∀ y : Bits op'.sig.1, toVal _ x = toVal _ y →
      (op.reified H x).map (toVal _) = (NumSpec.unary H.floats op' y).map (toVal _)) → Agree (op.applyNative H v) (op'.apply N v) := by
    intro op op' hs h
    by_cases hv : v.type = op.sig.1
    · obtain ⟨x, rfl⟩ := exists_bits hv
      obtain ⟨y, hy⟩ := exists_bits (hv.trans (congrArg Prod.fst hs))
      rw [UnaryOp.applyNative_toVal, hy, h x y hy]; exact (UnaryOp.apply_spec ok.wasm op' y).symm
    · rw [((C79_wrong_types H N).1 op v hv).1, ((C79_wrong_types H N).1 op' v (hs ▸ hv)).2]; exact .trap
  refine ⟨key _ _ rfl fun x y he => ?_, key _ _ rfl fun x y he => ?_, key _ _ rfl fun x y he => ?_, key _ _ rfl fun x y he => ?_,
    key _ _ rfl fun x y he => ?_, key _ _ rfl fun x y he => ?_, key _ _ rfl fun x y he => ?_, key _ _ rfl fun x y he => ?_⟩
  · cases he; exact congrArg (fun b => some (Val.i32 b)) (castInt_trunc .single 32 (by decide) (by decide) (ok.libm.trunc .single x))
  · cases he; exact congrArg (fun b => some (Val.i32 b)) (castInt_trunc .single 32 (by decide) (by decide) (ok.libm.trunc .single x))
  · cases he; exact congrArg (fun b => some (Val.i32 b)) (castInt_trunc .double 32 (by decide) (by decide) (ok.libm.trunc .double x))
  · cases he; exact congrArg (fun b => some (Val.i32 b)) (castInt_trunc .double 32 (by decide) (by decide) (ok.libm.trunc .double x))
  · cases he; exact congrArg (fun b => some (Val.i64 b)) (castInt_trunc .single 64 (by decide) (by decide) (ok.libm.trunc .single x))
  · cases he; exact congrArg (fun b => some (Val.i64 b)) (castInt_trunc .single 64 (by decide) (by decide) (ok.libm.trunc .single x))
  · cases he; exact congrArg (fun b => some (Val.i64 b)) (castInt_trunc .double 64 (by decide) (by decide) (ok.libm.trunc .double x))
  · cases he; exact congrArg (fun b => some (Val.i64 b)) (castInt_trunc .double 64 (by decide) (by decide) (ok.libm.trunc .double x))

/-- **C79 (nearest).** `nearest` agrees with the instruction exactly on the operands that are not in the middle of an even integer and the next
one: 0.5, 2.5, -4.5, ... are rounded away from zero instead of to the even integer. -/
theorem C79_nearest : (∀ x : BitVec 32, Agree (UnaryOp.f32Nearest.applyNative H (.f32 x)) (UnaryOp.f32Nearest.apply N (.f32 x)) ↔
      ¬ (Fmt.single.decode x).EvenTie 149) ∧
    (∀ x : BitVec 64, Agree (UnaryOp.f64Nearest.applyNative H (.f64 x)) (UnaryOp.f64Nearest.apply N (.f64 x)) ↔
      ¬ (Fmt.double.decode x).EvenTie 1074) := by
  constructor
  · intro x
    refine (Agree.congr (UnaryOp.apply_spec ok.wasm .f32Nearest x)).trans ?_
    show Agree (some (.f32 (H.libm.round .single x))) (some (.f32 (H.floats.round .single .nearestEven x))) ↔ _
    rw [agree_some, same_f32, ok.libm.round, ok.floats.round, round_away_eq_even]
  · intro x
    refine (Agree.congr (UnaryOp.apply_spec ok.wasm .f64Nearest x)).trans ?_
    show Agree (some (.f64 (H.libm.round .double x))) (some (.f64 (H.floats.round .double .nearestEven x))) ↔ _
    rw [agree_some, same_f64, ok.libm.round, ok.floats.round, round_away_eq_even]

/-- **C79 (overflow).** With overflow checks, an operator whose operands overflow panics, although the instruction has a result. -/
theorem C79_overflow_panics (op : BinaryOp) (v w : Val) (hc : H.overflowChecks = true) (ho : op.Overflows v w) :
    op.applyNative H v w = none ∧ op.apply N v w ≠ none := by
  have ht : v.type = op.sig.1 ∧ w.type = op.sig.1 := by
    cases op <;> first | exact ho.elim | (cases v <;> cases w <;> first | exact ho.elim | exact ⟨rfl, rfl⟩)
  obtain ⟨x, rfl⟩ := exists_bits ht.1
  obtain ⟨y, rfl⟩ := exists_bits ht.2
  obtain ⟨h1, z, h2⟩ := binary_overflows op x y hc ho
  refine ⟨by rw [BinaryOp.applyNative_toVal, h1]; rfl, fun hn => ?_⟩
  have := (BinaryOp.apply_spec ok.wasm op x y).none_iff.1 hn
  rw [h2] at this; cases this

/-- **C79 (binary operators).** Every binary operator but `min` and `max` agrees with the instruction, except exactly on operands that overflow in a
build with overflow checks. Missing: `min` and `max`, see `C79_min_max`. -/
theorem C79_binary_partial (op : BinaryOp) (hm : op.isMinMax = false) (v w : Val) :
    Agree (op.applyNative H v w) (op.apply N v w) ↔ ¬ (H.overflowChecks = true ∧ op.Overflows v w) := by
  constructor
  · rintro h ⟨hc, ho⟩
    obtain ⟨h1, h2⟩ := C79_overflow_panics ok op v w hc ho
    exact h2 (h.none_iff.1 h1)
  · intro hno
    by_cases ht : v.type = op.sig.1 ∧ w.type = op.sig.1
    · obtain ⟨x, rfl⟩ := exists_bits ht.1
      obtain ⟨y, rfl⟩ := exists_bits ht.2
      rw [BinaryOp.applyNative_toVal]
      exact (binary_reified ok.libm op hm x y hno).trans (BinaryOp.apply_spec ok.wasm op x y).symm
    · obtain ⟨h1, h2⟩ := (C79_wrong_types H N).2 op v w ht
      rw [h1, h2]; exact .trap

/-- **C79 (release builds).** Without overflow checks, every binary operator but `min` and `max` agrees with the instruction on all operands. -/
theorem C79_release_partial (hr : H.overflowChecks = false) (op : BinaryOp) (hm : op.isMinMax = false) (v w : Val) :
    Agree (op.applyNative H v w) (op.apply N v w) :=
  (C79_binary_partial ok op hm v w).2 fun h => by rw [hr] at h; cases h.1

/-- **C79 (min and max).** Leaving aside zeros of opposite signs, `min` and `max` agree with the instruction exactly where both operands are
NaN or none is: the minimum of 1 and NaN is NaN for the instruction, and 1 on the developer's machine. -/
theorem C79_min_max : (∀ x y : BitVec 32, ¬ (Fmt.single.decode x).OppositeZeros (Fmt.single.decode y) →
      (Agree (BinaryOp.f32Min.applyNative H (.f32 x) (.f32 y)) (BinaryOp.f32Min.apply N (.f32 x) (.f32 y)) ↔
        (Fmt.single.decode x = .nan ↔ Fmt.single.decode y = .nan)) ∧
      (Agree (BinaryOp.f32Max.applyNative H (.f32 x) (.f32 y)) (BinaryOp.f32Max.apply N (.f32 x) (.f32 y)) ↔
        (Fmt.single.decode x = .nan ↔ Fmt.single.decode y = .nan))) ∧
    (∀ x y : BitVec 64, ¬ (Fmt.double.decode x).OppositeZeros (Fmt.double.decode y) →
      (Agree (BinaryOp.f64Min.applyNative H (.f64 x) (.f64 y)) (BinaryOp.f64Min.apply N (.f64 x) (.f64 y)) ↔
        (Fmt.double.decode x = .nan ↔ Fmt.double.decode y = .nan)) ∧
      (Agree (BinaryOp.f64Max.applyNative H (.f64 x) (.f64 y)) (BinaryOp.f64Max.apply N (.f64 x) (.f64 y)) ↔
        (Fmt.double.decode x = .nan ↔ Fmt.double.decode y = .nan))) := by
  refine ⟨fun x y hz => ⟨?_, ?_⟩, fun x y hz => ⟨?_, ?_⟩⟩
  · refine (Agree.congr (BinaryOp.apply_spec ok.wasm .f32Min x y)).trans ?_
    show Agree (some (.f32 (H.libm.fmin .single x y))) (some (.f32 (H.floats.min .single x y))) ↔ _
    rw [agree_some, same_f32, ok.floats.min, NumSpec.NumMin.eq_min (ok.libm.fmin .single x y) hz]
  · refine (Agree.congr (BinaryOp.apply_spec ok.wasm .f32Max x y)).trans ?_
    show Agree (some (.f32 (H.libm.fmax .single x y))) (some (.f32 (H.floats.max .single x y))) ↔ _
    rw [agree_some, same_f32, ok.floats.max, NumSpec.NumMax.eq_max (ok.libm.fmax .single x y) hz]
  · refine (Agree.congr (BinaryOp.apply_spec ok.wasm .f64Min x y)).trans ?_
    show Agree (some (.f64 (H.libm.min .double x y))) (some (.f64 (H.floats.min .double x y))) ↔ _
    rw [agree_some, same_f64, ok.floats.min, NumSpec.NumMin.eq_min (ok.libm.min .double x y) hz]
  · refine (Agree.congr (BinaryOp.apply_spec ok.wasm .f64Max x y)).trans ?_
    show Agree (some (.f64 (H.libm.max .double x y))) (some (.f64 (H.floats.max .double x y))) ↔ _
    rw [agree_some, same_f64, ok.floats.max, NumSpec.NumMax.eq_max (ok.libm.max .double x y) hz]

end

/-! ## The hypotheses can be met -/

/-- A NaN. -/
def aNan : (F : Fmt) → BitVec F.width
  | .single => (0x7fc00000 : BitVec 32)
  | .double => (0x7ff8000000000000 : BitVec 64)

theorem aNan_decode (F : Fmt) : F.decode (aNan F) = .nan := by cases F <;> decide +kernel

theorem exists_min (F : Fmt) (x y : BitVec F.width) : ∃ z, F.decode z = (F.decode x).min (F.decode y) := by
  unfold FVal.min
  repeat' split
  · exact ⟨_, aNan_decode F⟩
  · exact ⟨_, rfl⟩
  · exact ⟨_, rfl⟩
  · exact ⟨_, rfl⟩
  · exact ⟨_, rfl⟩

theorem exists_max (F : Fmt) (x y : BitVec F.width) : ∃ z, F.decode z = (F.decode x).max (F.decode y) := by
  unfold FVal.max
  repeat' split
  · exact ⟨_, aNan_decode F⟩
  · exact ⟨_, rfl⟩
  · exact ⟨_, rfl⟩
  · exact ⟨_, rfl⟩
  · exact ⟨_, rfl⟩

/-- Float operators as the specification asks for (with arbitrary rounded arithmetic, about which nothing is assumed). -/
noncomputable def exFloats : FloatOps where
  add _ x _ := x
  sub _ x _ := x
  mul _ x _ := x
  div _ x _ := x
  sqrt _ x := x
  ofInt _ _ := 0
  demote _ := 0
  promote _ := 0
  round F r x := Classical.choose (exists_round F r x)
  min F x y := Classical.choose (exists_min F x y)
  max F x y := Classical.choose (exists_max F x y)

theorem exFloats_ok : exFloats.Ok where
  round F r x := Classical.choose_spec (exists_round F r x)
  min F x y := Classical.choose_spec (exists_min F x y)
  max F x y := Classical.choose_spec (exists_max F x y)

/-- A minimum that ignores NaN. -/
def exMin (F : Fmt) (x y : BitVec F.width) : BitVec F.width :=
  if F.decode x = .nan then y else if F.decode y = .nan ∨ ltF F x y then x else y
@[inherit_doc exMin] def exMax (F : Fmt) (x y : BitVec F.width) : BitVec F.width :=
  if F.decode x = .nan then y else if F.decode y = .nan ∨ ltF F y x then x else y

theorem FVal.lt_irrefl (a : FVal) : a.lt a = false := by
  cases h : a.lt a with
  | false => rfl
  | true => rw [FVal.lt_asymm h] at h; cases h

theorem exMin_ok (F : Fmt) (x y : BitVec F.width) : NumMin (F.decode x) (F.decode y) (F.decode (exMin F x y)) := by
  unfold exMin ltF
  refine ⟨fun h => by rw [if_pos h], fun h => ?_, fun h1 h2 => ?_⟩
  · split
    · rename_i h'; rw [h, h']
    · rw [if_pos (.inl h)]
  · rw [if_neg h1]
    split
    · rename_i h; have h := h.resolve_left h2
      exact ⟨.inl rfl, FVal.lt_irrefl _, FVal.lt_asymm h⟩
    · rename_i h
      exact ⟨.inr rfl, by simpa using fun e => h (.inr e), FVal.lt_irrefl _⟩

theorem exMax_ok (F : Fmt) (x y : BitVec F.width) : NumMax (F.decode x) (F.decode y) (F.decode (exMax F x y)) := by
  unfold exMax ltF
  refine ⟨fun h => by rw [if_pos h], fun h => ?_, fun h1 h2 => ?_⟩
  · split
    · rename_i h'; rw [h, h']
    · rw [if_pos (.inl h)]
  · rw [if_neg h1]
    split
    · rename_i h; have h := h.resolve_left h2
      exact ⟨.inl rfl, FVal.lt_irrefl _, FVal.lt_asymm h⟩
    · rename_i h
      exact ⟨.inr rfl, by simpa using fun e => h (.inr e), FVal.lt_irrefl _⟩

/-- A `libm` as documented. -/
noncomputable def exLibm : Libm where
  fabs F x := F.abs x
  copysign F x y := F.copysign x y
  ceil F x := exFloats.round F .ceil x
  floor F x := exFloats.round F .floor x
  trunc F x := exFloats.round F .trunc x
  round F x := exFloats.round F .nearestAway x
  sqrt F x := exFloats.sqrt F x
  fmin := exMin
  fmax := exMax
  min := exMin
  max := exMax

theorem exLibm_ok : exLibm.Ok exFloats where
  fabs _ _ := rfl
  copysign _ _ _ := rfl
  ceil F x := exFloats_ok.round F _ x
  floor F x := exFloats_ok.round F _ x
  trunc F x := exFloats_ok.round F _ x
  round F x := exFloats_ok.round F _ x
  sqrt _ _ := rfl
  fmin := exMin_ok
  fmax := exMax_ok
  min := exMin_ok
  max := exMax_ok

/-- The arithmetic of the specification. -/
def standardNum (O : FloatOps) : Num where
  unary op v := (ofVal op.sig.1 v).bind fun x => (NumSpec.unary O op x).map (toVal _)
  binary op v w := (ofVal op.sig.1 v).bind fun x => (ofVal op.sig.1 w).bind fun y => (NumSpec.binary O op x y).map (toVal _)
  unary_type op v w h := by
    simp only [Option.bind_eq_some_iff, Option.map_eq_some_iff] at h
    obtain ⟨_, _, _, _, rfl⟩ := h
    exact toVal_type _ _
  binary_type op v v' w h := by
    simp only [Option.bind_eq_some_iff, Option.map_eq_some_iff] at h
    obtain ⟨_, _, _, _, _, _, rfl⟩ := h
    exact toVal_type _ _
  i32Eqz x := by
    show some (Val.i32 (bool (x.toNat == 0))) = _
    rw [← eqz_eq]; by_cases h : x = 0
    · subst h; rfl
    · rw [if_neg h, show (x == 0) = false by simpa using h]; rfl
  i32Add x y := congrArg (fun b => some (Val.i32 b)) (add_eq x y)

theorem standardNum_standard (O : FloatOps) : (standardNum O).Standard O where
  unary op x := agree_of_eq (by simp only [standardNum, ofVal_toVal, Option.bind_some])
  binary op x y := agree_of_eq (by simp only [standardNum, ofVal_toVal, Option.bind_some])

/-- A developer's machine: a debug build or a release build. -/
noncomputable def exHost (overflowChecks : Bool) : Native := { overflowChecks, floats := exFloats, libm := exLibm }

theorem exHost_ok (b : Bool) : HostOk (exHost b) (standardNum exFloats) := ⟨exFloats_ok, exLibm_ok, standardNum_standard _⟩

/-- `i32::MAX + 1` panics in a debug build, and is `i32::MIN` in WebAssembly and in a release build. -/
example : BinaryOp.i32Add.applyNative (exHost true) (.i32 0x7fffffff) (.i32 1) = none ∧
    BinaryOp.i32Add.applyNative (exHost false) (.i32 0x7fffffff) (.i32 1) = some (.i32 0x80000000) ∧
    BinaryOp.i32Add.apply (standardNum exFloats) (.i32 0x7fffffff) (.i32 1) = some (.i32 0x80000000) := by
  refine ⟨(C79_overflow_panics (exHost_ok true) .i32Add (.i32 0x7fffffff) (.i32 1) rfl (by simp only [BinaryOp.Overflows]; decide +kernel)).1, rfl, ?_⟩
  rw [BinaryOp.apply_eq, if_pos ⟨rfl, rfl⟩]; exact congrArg (fun b => some (Val.i32 b)) (add_eq 0x7fffffff 1)

/-- A shift by 33 is a shift by 1 in WebAssembly, and a panic in a debug build. -/
example : ¬ Agree (BinaryOp.i32Shl.applyNative (exHost true) (.i32 1) (.i32 33)) (BinaryOp.i32Shl.apply (standardNum exFloats) (.i32 1) (.i32 33)) :=
  fun h => (C79_binary_partial (exHost_ok true) .i32Shl rfl _ _).1 h ⟨rfl, show 32 ≤ (33 : BitVec 32).toNat by decide⟩

/-- Subtraction without overflow, and division of the least number by -1: a trap and a panic. -/
example : Agree (BinaryOp.i32Sub.applyNative (exHost true) (.i32 5) (.i32 7)) (BinaryOp.i32Sub.apply (standardNum exFloats) (.i32 5) (.i32 7)) ∧
    BinaryOp.i64DivS.applyNative (exHost false) (.i64 0x8000000000000000) (.i64 (-1)) = none ∧
    Agree (BinaryOp.i64DivS.applyNative (exHost false) (.i64 0x8000000000000000) (.i64 (-1)))
      (BinaryOp.i64DivS.apply (standardNum exFloats) (.i64 0x8000000000000000) (.i64 (-1))) :=
  ⟨(C79_binary_partial (exHost_ok true) .i32Sub rfl _ _).2 fun h => absurd h.2 (by simp only [BinaryOp.Overflows]; decide +kernel), rfl,
   C79_release_partial (exHost_ok false) rfl _ rfl _ _⟩

/-- Truncating NaN: a trap in WebAssembly, 0 on the developer's machine. -/
example : UnaryOp.i32TruncF32S.apply (standardNum exFloats) (.f32 0x7fc00000) = none ∧
    ¬ Agree (UnaryOp.i32TruncF32S.applyNative (exHost false) (.f32 0x7fc00000)) (UnaryOp.i32TruncF32S.apply (standardNum exFloats) (.f32 0x7fc00000)) := by
  have h : UnaryOp.i32TruncF32S.apply (standardNum exFloats) (.f32 0x7fc00000) = none := by
    rw [UnaryOp.apply_eq, if_pos (show (Val.f32 0x7fc00000).type = UnaryOp.i32TruncF32S.sig.1 from rfl)]
    show ((Fmt.single.decode (0x7fc00000 : BitVec 32)).truncTo 149 32 (minS 32) (maxS 32)).map Val.i32 = none
    rw [show Fmt.single.decode (0x7fc00000 : BitVec 32) = .nan by decide +kernel]; rfl
  exact ⟨h, fun ha => ((C79_truncations (exHost_ok false) .i32TruncF32S rfl _ rfl).1.1 ha) h⟩

/-- Population count, of any number. -/
example (x : BitVec 64) : Agree (UnaryOp.i64Popcnt.applyNative (exHost true) (.i64 x)) (UnaryOp.i64Popcnt.apply (standardNum exFloats) (.i64 x)) :=
  C79_unary_partial (exHost_ok true) _ rfl rfl _

/-- 2.5 is rounded to 2 in WebAssembly and to 3 on the developer's machine; 3.5 is rounded to 4 on both. -/
example : ¬ Agree (UnaryOp.f32Nearest.applyNative (exHost false) (.f32 0x40200000)) (UnaryOp.f32Nearest.apply (standardNum exFloats) (.f32 0x40200000)) ∧
    Agree (UnaryOp.f32Nearest.applyNative (exHost false) (.f32 0x40600000)) (UnaryOp.f32Nearest.apply (standardNum exFloats) (.f32 0x40600000)) := by
  constructor
  · intro h
    exact ((C79_nearest (exHost_ok false)).1 _).1 h ⟨false, 5 * 2 ^ 148, by decide +kernel, by decide +kernel, by decide +kernel⟩
  · refine ((C79_nearest (exHost_ok false)).1 _).2 ?_
    rw [show Fmt.single.decode (0x40600000 : BitVec 32) = .fin false (7 * 2 ^ 148) by decide +kernel]
    rintro ⟨s, k, he, -, h⟩
    injection he with _ he; subst he
    exact absurd h (by decide +kernel)

/-- The minimum of 1 and NaN. -/
example : ¬ Agree (BinaryOp.f32Min.applyNative (exHost false) (.f32 0x3f800000) (.f32 0x7fc00000))
    (BinaryOp.f32Min.apply (standardNum exFloats) (.f32 0x3f800000) (.f32 0x7fc00000)) := by
  have e1 : Fmt.single.decode (0x3f800000 : BitVec 32) = .fin false (2 ^ 149) := by decide +kernel
  have e2 : Fmt.single.decode (0x7fc00000 : BitVec 32) = .nan := by decide +kernel
  intro h
  have := (((C79_min_max (exHost_ok false)).1 _ _ (by rw [e1, e2]; rintro ⟨_, -, h⟩; cases h)).1.1 h).2 e2
  rw [e1] at this; cases this

end Wastrum
