import Verif.NativeLemmas
/-!
# Lemmas about floats: rounding, casts to integers, `clamp`, `min` and `max`
-/

namespace Wastrum
open NumSpec

/-- One of the two numbers that is not greater than the other, and the other one if one is NaN: what `libm::fminf` and `f64::min` promise.
Which of two zeros is returned is left open. -/
structure NumMin (a b c : FVal) : Prop where
  left : a = .nan → c = b
  right : b = .nan → c = a
  lesser : a ≠ .nan → b ≠ .nan → (c = a ∨ c = b) ∧ a.lt c = false ∧ b.lt c = false

@[inherit_doc NumMin] structure NumMax (a b c : FVal) : Prop where
  left : a = .nan → c = b
  right : b = .nan → c = a
  greater : a ≠ .nan → b ≠ .nan → (c = a ∨ c = b) ∧ c.lt a = false ∧ c.lt b = false

/-- The documentation of `libm` and of `f64::min`, `f64::max`. -/
structure Libm.Ok (L : Libm) (O : FloatOps) : Prop where
  fabs : ∀ (F : Fmt) x, L.fabs F x = F.abs x
  copysign : ∀ (F : Fmt) x y, L.copysign F x y = F.copysign x y
  ceil : ∀ (F : Fmt) x, F.decode (L.ceil F x) = (F.decode x).round F.u .ceil
  floor : ∀ (F : Fmt) x, F.decode (L.floor F x) = (F.decode x).round F.u .floor
  trunc : ∀ (F : Fmt) x, F.decode (L.trunc F x) = (F.decode x).round F.u .trunc
  /-- "Rounds half-way cases away from zero." -/
  round : ∀ (F : Fmt) x, F.decode (L.round F x) = (F.decode x).round F.u .nearestAway
  sqrt : ∀ (F : Fmt) x, F.decode (L.sqrt F x) = F.decode (O.sqrt F x)
  fmin : ∀ (F : Fmt) x y, NumMin (F.decode x) (F.decode y) (F.decode (L.fmin F x y))
  fmax : ∀ (F : Fmt) x y, NumMax (F.decode x) (F.decode y) (F.decode (L.fmax F x y))
  min : ∀ (F : Fmt) x y, NumMin (F.decode x) (F.decode y) (F.decode (L.min F x y))
  max : ∀ (F : Fmt) x y, NumMax (F.decode x) (F.decode y) (F.decode (L.max F x y))

namespace NumSpec

/-! ## Casts -/

theorem castInt_trunc (F : Fmt) (w : Nat) {lo hi : Int} (hlo : lo ≤ 0) (hhi : 0 ≤ hi) {x y : BitVec F.width}
    (h : F.decode y = (F.decode x).round F.u .trunc) : castInt F w lo hi y = (F.decode x).truncSat F.u w lo hi := by
  have hp : 0 < 2 ^ F.u := Nat.two_pow_pos _
  unfold castInt
  rw [h]
  rcases F.decode x with _ | (_ | _) | ⟨_ | _, k⟩ <;> simp only [FVal.round, FVal.truncSat, Rounding.magnitude]
  · simp
  · simp
  · rw [Nat.mul_div_cancel _ hp]; congr 1
    simp only [Bool.false_eq_true, if_false]
    have : (0 : Int) ≤ (k / 2 ^ F.u : Nat) := Int.natCast_nonneg _
    generalize ((k / 2 ^ F.u : Nat) : Int) = v at *
    split
    · omega
    · split <;> omega
  · rw [Nat.mul_div_cancel _ hp]; congr 1
    simp only [if_true]
    have : (0 : Int) ≤ (k / 2 ^ F.u : Nat) := Int.natCast_nonneg _
    generalize ((k / 2 ^ F.u : Nat) : Int) = v at *
    split
    · omega
    · split <;> omega

/-- The number `± k`. -/
def signed (neg : Bool) (k : Nat) : Int := if neg then -k else k

theorem FVal.lt_fin {a b : Bool} {j k : Nat} : (FVal.fin a j).lt (.fin b k) = decide (signed a j < signed b k) := by
  cases a <;> cases b <;> simp [FVal.lt, FVal.rank, signed]

/-- Truncating, clamping to floats that are not inside the bounds, and casting saturates. -/
theorem castInt_clamp (F : Fmt) (w : Nat) {lo hi : Int} (hlo : lo ≤ 0) (hhi : 0 ≤ hi) {x y min max : BitVec F.width}
    (h : F.decode y = (F.decode x).round F.u .trunc)
    {bl bh : Bool} {kl kh : Nat} (el : F.decode min = .fin bl kl) (eh : F.decode max = .fin bh kh)
    (ll : signed bl kl ≤ lo * 2 ^ F.u) (hh : hi * 2 ^ F.u ≤ signed bh kh)
    (cl : castInt F w lo hi min = .ofInt w lo) (ch : castInt F w lo hi max = .ofInt w hi) :
    castInt F w lo hi (clamp F min max y) = (F.decode x).truncSat F.u w lo hi := by
  have hp : (0 : Int) < 2 ^ F.u := Int.pow_pos (by decide)
  have hc := castInt_trunc F w hlo hhi h
  unfold clamp ltF
  rw [el, eh, h]
  rcases hx : F.decode x with _ | (_ | _) | ⟨b, k⟩
  · rw [hx] at hc; simp only [FVal.round]
    simpa [FVal.lt, FVal.rank] using hc
  · rw [hx] at hc; simp [FVal.round, FVal.lt, FVal.rank, ch, FVal.truncSat]
  · rw [hx] at hc; simp [FVal.round, FVal.lt, FVal.rank, cl, FVal.truncSat]
  · rw [hx] at hc; simp only [FVal.round, FVal.lt_fin, Rounding.magnitude, decide_eq_true_eq]
    have hs : signed b (k / 2 ^ F.u * 2 ^ F.u) = (signed b (k / 2 ^ F.u)) * 2 ^ F.u := by
      cases b <;> simp [signed, Int.neg_mul]
    have ht : (FVal.fin b k).truncSat F.u w lo hi =
        .ofInt w (if signed b (k / 2 ^ F.u) < lo then lo else if hi < signed b (k / 2 ^ F.u) then hi else signed b (k / 2 ^ F.u)) := by
      cases b <;> simp [FVal.truncSat, signed]
    rw [hs]
    generalize hv : signed b (k / 2 ^ F.u) = v at *
    split
    · rename_i h1
      rw [cl, ht]
      have : v * 2 ^ F.u < lo * 2 ^ F.u := Int.lt_of_lt_of_le h1 ll
      rw [if_pos (Int.lt_of_mul_lt_mul_right this (Int.le_of_lt hp))]
    · split
      · rename_i h1
        rw [ch, ht]
        have : hi * 2 ^ F.u < v * 2 ^ F.u := Int.lt_of_le_of_lt hh h1
        have := Int.lt_of_mul_lt_mul_right this (Int.le_of_lt hp)
        rw [if_neg (by omega), if_pos this]
      · exact hc

/-- A saturating truncation gives what the truncation gives, if that is defined. -/
theorem truncSat_of_truncTo {u w : Nat} {lo hi : Int} {v : FVal} {r : BitVec w} (h : v.truncTo u w lo hi = some r) :
    v.truncSat u w lo hi = r := by
  rcases v with _ | b | ⟨b, k⟩
  · simp [FVal.truncTo, FVal.toInt] at h
  · simp [FVal.truncTo, FVal.toInt] at h
  · simp only [FVal.truncTo, FVal.toInt, Option.bind_some] at h
    simp only [FVal.truncSat]
    generalize (if b then -((k / 2 ^ u : Nat) : Int) else ((k / 2 ^ u : Nat) : Int)) = i at *
    split at h
    · rename_i hc
      injection h with h
      rw [if_neg (by omega), if_neg (by omega), h]
    · cases h

/-! ## Rounding -/

/-- In the middle of an even integer and the next one. -/
def FVal.EvenTie (u : Nat) (v : FVal) : Prop := ∃ neg k, v = .fin neg k ∧ 2 * (k % 2 ^ u) = 2 ^ u ∧ k / 2 ^ u % 2 = 0

theorem round_away_eq_even (u : Nat) (v : FVal) : v.round u .nearestAway = v.round u .nearestEven ↔ ¬ v.EvenTie u := by
  rcases v with _ | b | ⟨b, k⟩
  · simp [FVal.round, FVal.EvenTie]
  · simp [FVal.round, FVal.EvenTie]
  · have hp : 0 < 2 ^ u := Nat.two_pow_pos _
    simp only [FVal.round, FVal.fin.injEq, true_and, Nat.mul_left_inj (Nat.ne_of_gt hp), Rounding.magnitude]
    constructor
    · rintro h ⟨b', k', he, h1, h2⟩
      injection he with _ he; subst he
      rw [if_neg (by omega), if_pos (.inr ⟨h1, h2⟩)] at h; omega
    · intro h
      have : ¬ (2 * (k % 2 ^ u) = 2 ^ u ∧ k / 2 ^ u % 2 = 0) := fun hc => h ⟨b, k, rfl, hc⟩
      by_cases h1 : 2 * (k % 2 ^ u) < 2 ^ u
      · rw [if_pos h1, if_pos (.inl h1)]
      · rw [if_neg h1, if_neg (by omega)]

/-! ## `min` and `max` -/

/-- Zeros of opposite signs. -/
def FVal.OppositeZeros (a b : FVal) : Prop := ∃ s, a = .fin s 0 ∧ b = .fin (!s) 0

theorem FVal.eq_of_not_lt {a b : FVal} (ha : a ≠ .nan) (hb : b ≠ .nan) (h1 : a.lt b = false) (h2 : b.lt a = false) (hz : ¬ a.OppositeZeros b) :
    a = b := by
  rcases a with _ | s | ⟨s, j⟩ <;> rcases b with _ | t | ⟨t, k⟩
  · exact absurd rfl ha
  · exact absurd rfl ha
  · exact absurd rfl ha
  · exact absurd rfl hb
  · cases s <;> cases t <;> simp_all [FVal.lt, FVal.rank]
  · cases s <;> simp [FVal.lt, FVal.rank] at h1 h2
  · exact absurd rfl hb
  · cases t <;> simp [FVal.lt, FVal.rank] at h1 h2
  · rw [FVal.lt_fin] at h1 h2
    simp only [decide_eq_false_iff_not] at h1 h2
    have he : signed s j = signed t k := by omega
    cases s <;> cases t <;> simp only [signed, Bool.false_eq_true, if_false, if_true] at he
    · simp; omega
    · exact absurd ⟨false, by simp; omega, by simp; omega⟩ hz
    · exact absurd ⟨true, by simp; omega, by simp; omega⟩ hz
    · simp; omega

theorem FVal.lt_asymm {a b : FVal} (h : a.lt b = true) : b.lt a = false := by
  rcases a with _ | s | ⟨s, j⟩ <;> rcases b with _ | t | ⟨t, k⟩
  · simp [FVal.lt, FVal.rank] at h
  · simp [FVal.lt, FVal.rank] at h
  · simp [FVal.lt, FVal.rank] at h
  · simp [FVal.lt, FVal.rank] at h
  · cases s <;> cases t <;> simp_all [FVal.lt, FVal.rank]
  · cases s <;> simp_all [FVal.lt, FVal.rank]
  · simp [FVal.lt, FVal.rank] at h
  · cases t <;> simp_all [FVal.lt, FVal.rank]
  · rw [FVal.lt_fin] at h ⊢; simp at h ⊢; omega

theorem NumMin.eq_min {a b c : FVal} (h : NumMin a b c) (hz : ¬ a.OppositeZeros b) : c = a.min b ↔ (a = .nan ↔ b = .nan) := by
  by_cases ha : a = .nan
  · subst ha
    rw [h.left rfl]; simp only [FVal.min, true_or, if_true]
    simp
  · by_cases hb : b = .nan
    · subst hb
      rw [h.right rfl]; simp only [FVal.min, or_true, if_true]
      simp
    · obtain ⟨hc, h1, h2⟩ := h.lesser ha hb
      simp only [ha, hb, iff_true, FVal.min, or_self, if_false]
      split
      · rename_i hl
        rcases hc with hc | hc
        · exact hc
        · subst hc; rw [hl] at h1; cases h1
      · split
        · rename_i hl
          rcases hc with hc | hc
          · subst hc; rw [hl] at h2; cases h2
          · exact hc
        · rename_i h3 h4
          have := FVal.eq_of_not_lt ha hb (by simpa using h3) (by simpa using h4) hz
          subst this
          rcases hc with hc | hc <;> simp [hc]

theorem NumMax.eq_max {a b c : FVal} (h : NumMax a b c) (hz : ¬ a.OppositeZeros b) : c = a.max b ↔ (a = .nan ↔ b = .nan) := by
  by_cases ha : a = .nan
  · subst ha
    rw [h.left rfl]; simp only [FVal.max, true_or, if_true]
    simp
  · by_cases hb : b = .nan
    · subst hb
      rw [h.right rfl]; simp only [FVal.max, or_true, if_true]
      simp
    · obtain ⟨hc, h1, h2⟩ := h.greater ha hb
      simp only [ha, hb, iff_true, FVal.max, or_self, if_false]
      split
      · rename_i hl
        rcases hc with hc | hc
        · subst hc; rw [hl] at h2; cases h2
        · exact hc
      · split
        · rename_i hl
          rcases hc with hc | hc
          · exact hc
          · subst hc; rw [hl] at h1; cases h1
        · rename_i h3 h4
          have := FVal.eq_of_not_lt ha hb (by simpa using h3) (by simpa using h4) hz
          subst this
          rcases hc with hc | hc <;> simp [hc]

/-! ## Such functions exist -/

theorem decodeNat_pattern {mb eb e f : Nat} (s : Bool) (hf : f < 2 ^ mb) (he : e < 2 ^ eb - 1) :
    decodeNat mb eb ((if s then 2 ^ (eb + mb) else 0) + e * 2 ^ mb + f) = .fin s (if e = 0 then f else (2 ^ mb + f) * 2 ^ (e - 1)) := by
  have h4 : 2 ^ (eb + mb) = 2 ^ eb * 2 ^ mb := Nat.pow_add ..
  have hmb := Nat.two_pow_pos mb
  have hsum : (if s then 2 ^ (eb + mb) else 0) + e * 2 ^ mb + f = ((if s then 2 ^ eb else 0) + e) * 2 ^ mb + f := by
    cases s
    · simp
    · simp [h4, Nat.add_mul]
  have hmod : ((if s then 2 ^ (eb + mb) else 0) + e * 2 ^ mb + f) % 2 ^ mb = f := by
    rw [hsum, Nat.mul_add_mod_self_right, Nat.mod_eq_of_lt hf]
  have hdiv : ((if s then 2 ^ (eb + mb) else 0) + e * 2 ^ mb + f) / 2 ^ mb % 2 ^ eb = e := by
    rw [hsum, Nat.add_comm, Nat.add_mul_div_right _ _ hmb, Nat.div_eq_of_lt hf, Nat.zero_add]
    cases s
    · simp; exact Nat.mod_eq_of_lt (by omega)
    · simp; exact Nat.mod_eq_of_lt (by omega)
  have hsign : decide (2 ^ (eb + mb) ≤ (if s then 2 ^ (eb + mb) else 0) + e * 2 ^ mb + f) = s := by
    cases s
    · simp only [Bool.false_eq_true, if_false, decide_eq_false_iff_not, Nat.zero_add, Nat.not_le, h4]
      calc e * 2 ^ mb + f < e * 2 ^ mb + 2 ^ mb := by omega
        _ = (e + 1) * 2 ^ mb := by rw [Nat.add_mul, Nat.one_mul]
        _ ≤ 2 ^ eb * 2 ^ mb := Nat.mul_le_mul_right _ (by omega)
    · simp only [if_true, decide_eq_true_eq]; omega
  unfold decodeNat
  simp only [hmod, hdiv, hsign]
  rw [if_neg (by omega)]
  split <;> rfl

/-- Small integers are floats. -/
theorem exists_integer (F : Fmt) (s : Bool) (n : Nat) (hn : n ≤ 2 ^ F.mb) : ∃ y, F.decode y = .fin s (n * 2 ^ F.u) := by
  have bias : F.u + 1 = F.mb + (2 ^ (F.eb - 1) - 1) := by cases F <;> rfl
  have small : F.mb + (2 ^ (F.eb - 1) - 1) < 2 ^ F.eb - 1 := by cases F <;> decide
  have hw : F.width = F.eb + F.mb + 1 := by cases F <;> rfl
  have make : ∀ e f, f < 2 ^ F.mb → e < 2 ^ F.eb - 1 → ∃ y, F.decode y = .fin s (if e = 0 then f else (2 ^ F.mb + f) * 2 ^ (e - 1)) := by
    intro e f hf he
    refine ⟨BitVec.ofNat _ ((if s then 2 ^ (F.eb + F.mb) else 0) + e * 2 ^ F.mb + f), ?_⟩
    have hlt : (if s then 2 ^ (F.eb + F.mb) else 0) + e * 2 ^ F.mb + f < 2 ^ F.width := by
      have h1 : e * 2 ^ F.mb + f < 2 ^ (F.eb + F.mb) := by
        rw [Nat.pow_add]
        calc e * 2 ^ F.mb + f < e * 2 ^ F.mb + 2 ^ F.mb := by omega
          _ = (e + 1) * 2 ^ F.mb := by rw [Nat.add_mul, Nat.one_mul]
          _ ≤ 2 ^ F.eb * 2 ^ F.mb := Nat.mul_le_mul_right _ (by omega)
      rw [hw, Nat.pow_succ]
      split <;> omega
    rw [Fmt.decode, BitVec.toNat_ofNat, Nat.mod_eq_of_lt hlt]
    exact decodeNat_pattern s hf he
  rcases Nat.eq_zero_or_pos n with h0 | h0
  · subst h0
    obtain ⟨y, hy⟩ := make 0 0 (Nat.two_pow_pos _) (by omega)
    exact ⟨y, by simpa using hy⟩
  · have hl1 : 2 ^ n.log2 ≤ n := Nat.log2_self_le (by omega)
    have hl2 : n < 2 ^ (n.log2 + 1) := Nat.lt_log2_self
    have hl : n.log2 ≤ F.mb := by
      rcases Nat.lt_or_ge F.mb n.log2 with h | h
      · have := Nat.pow_lt_pow_right (a := 2) (by decide) h; omega
      · exact h
    have hsplit : 2 ^ n.log2 * 2 ^ (F.mb - n.log2) = 2 ^ F.mb := by rw [← Nat.pow_add]; congr 1; omega
    have hge : 2 ^ F.mb ≤ n * 2 ^ (F.mb - n.log2) := by rw [← hsplit]; exact Nat.mul_le_mul_right _ hl1
    have hlt : n * 2 ^ (F.mb - n.log2) < 2 ^ F.mb * 2 := by
      rw [← hsplit, Nat.mul_right_comm, ← Nat.pow_succ]
      exact Nat.mul_lt_mul_of_pos_right hl2 (Nat.two_pow_pos _)
    obtain ⟨y, hy⟩ := make (n.log2 + (2 ^ (F.eb - 1) - 1)) (n * 2 ^ (F.mb - n.log2) - 2 ^ F.mb) (by omega) (by omega)
    refine ⟨y, ?_⟩
    have hb : 0 < 2 ^ (F.eb - 1) - 1 := by cases F <;> decide
    rw [hy, if_neg (by omega), Nat.add_sub_cancel' hge, Nat.mul_assoc, ← Nat.pow_add]
    congr 3; omega

/-- Rounding a float to an integer gives a float. -/
theorem exists_round (F : Fmt) (r : Rounding) (x : BitVec F.width) : ∃ y, F.decode y = (F.decode x).round F.u r := by
  rcases hx : F.decode x with _ | b | ⟨b, k⟩
  · exact ⟨x, hx⟩
  · exact ⟨x, hx⟩
  · have hp := Nat.two_pow_pos F.u
    have hmag : r.magnitude F.u b k ≤ k / 2 ^ F.u + 1 := by cases r <;> simp only [Rounding.magnitude] <;> (try split) <;> omega
    by_cases hk : k < 2 ^ F.mb * 2 ^ F.u
    · have : k / 2 ^ F.u < 2 ^ F.mb := (Nat.div_lt_iff_lt_mul hp).2 hk
      exact exists_integer F b _ (by omega)
    · have hdvd : k % 2 ^ F.u = 0 := by
        have fx := Nat.mod_lt x.toNat (Nat.two_pow_pos F.mb)
        unfold Fmt.decode decodeNat at hx
        simp only at hx
        split at hx
        · split at hx <;> cases hx
        · split at hx
          · injection hx with _ hx
            have : 2 ^ F.mb * 1 ≤ 2 ^ F.mb * 2 ^ F.u := Nat.mul_le_mul_left _ hp
            omega
          · injection hx with _ hx
            generalize x.toNat / 2 ^ F.mb % 2 ^ F.eb = e at *
            rcases Nat.lt_or_ge (e - 1) F.u with he | he
            · exfalso; apply hk; rw [← hx]
              calc (2 ^ F.mb + x.toNat % 2 ^ F.mb) * 2 ^ (e - 1) < (2 ^ F.mb * 2) * 2 ^ (e - 1) := Nat.mul_lt_mul_of_pos_right (by omega) (Nat.two_pow_pos _)
                _ = 2 ^ F.mb * 2 ^ (e - 1 + 1) := by rw [Nat.mul_assoc, Nat.pow_succ, Nat.mul_comm 2]
                _ ≤ 2 ^ F.mb * 2 ^ F.u := Nat.mul_le_mul_left _ (Nat.pow_le_pow_right (by decide) he)
            · rw [← hx]
              have : 2 ^ (e - 1) = 2 ^ (e - 1 - F.u) * 2 ^ F.u := by rw [← Nat.pow_add]; congr 1; omega
              rw [this, ← Nat.mul_assoc, Nat.mul_mod_left]
      refine ⟨x, ?_⟩
      rw [hx, FVal.round]
      have hm : r.magnitude F.u b k = k / 2 ^ F.u := by
        cases r <;> simp [Rounding.magnitude, hdvd]
      rw [hm]
      congr 1
      have := Nat.div_add_mod k (2 ^ F.u)
      rw [hdvd, Nat.add_zero, Nat.mul_comm] at this
      exact this.symm

end NumSpec
end Wastrum
