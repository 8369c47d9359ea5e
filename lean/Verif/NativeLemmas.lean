import Verif.Native
/-!
# Lemmas about the numeric operators

Rust's primitives on bit vectors compute what the WebAssembly specification says.
-/

namespace Wastrum
namespace NumSpec

variable {w : Nat}

theorem ofBits_getLsbD (f : Nat → Bool) (i : Nat) : (ofBits w f).getLsbD i = (decide (i < w) && f i) := by
  induction w with
  | zero => simp [ofBits]
  | succ w ih =>
    rw [ofBits, BitVec.getLsbD_cons, ih]
    split
    · subst i; simp
    · have : (i < w + 1) = (i < w) := by simp only [eq_iff_iff]; omega
      simp [this]

theorem add_eq (x y : BitVec w) : add x y = x + y := by
  apply BitVec.eq_of_toNat_eq; simp [add]

theorem sub_eq (x y : BitVec w) : sub x y = x - y := by
  apply BitVec.eq_of_toNat_eq
  have := y.isLt
  simp only [sub, BitVec.toNat_ofNat, BitVec.toNat_sub, Nat.mod_mod]
  congr 1; omega

theorem mul_eq (x y : BitVec w) : mul x y = x * y := by
  apply BitVec.eq_of_toNat_eq; simp [mul]

theorem toInt_eq_zero (y : BitVec w) : y.toInt = 0 ↔ y = 0 := by
  rw [← BitVec.toInt_inj]; simp

theorem toNat_eq_zero (y : BitVec w) : y.toNat = 0 ↔ y = 0 := by
  rw [← BitVec.toNat_inj]; simp

theorem divU_eq (x y : BitVec w) : divU x y = divN x y := by
  simp only [divU, divN, toNat_eq_zero]
  split
  · rfl
  · congr 1; apply BitVec.eq_of_toNat_eq
    simp only [BitVec.toNat_ofNat, BitVec.udiv_eq, BitVec.toNat_udiv]
    exact Nat.mod_eq_of_lt (Nat.lt_of_le_of_lt (Nat.div_le_self _ _) x.isLt)

theorem remU_eq (x y : BitVec w) : remU x y = remN x y := by
  simp only [remU, remN, toNat_eq_zero]
  split
  · rfl
  · congr 1; apply BitVec.eq_of_toNat_eq
    simp only [BitVec.toNat_ofNat, BitVec.umod_eq, BitVec.toNat_umod]
    exact Nat.mod_eq_of_lt (Nat.lt_of_le_of_lt (Nat.mod_le _ _) x.isLt)

theorem remS_eq (x y : BitVec w) : remS x y = wrappingRem x y := by
  simp only [remS, wrappingRem, toInt_eq_zero]
  split
  · rfl
  · rw [← BitVec.toInt_srem, BitVec.ofInt_toInt]

theorem tdiv_eq_max {a b M : Int} (hM : 0 < M) (h1 : -M ≤ a) (h2 : a < M) (h : a.tdiv b = M) : a = -M ∧ b = -1 := by
  have hn : (a.tdiv b).natAbs = a.natAbs / b.natAbs := Int.natAbs_tdiv a b
  rw [h] at hn
  have hle : a.natAbs / b.natAbs ≤ a.natAbs := Nat.div_le_self _ _
  have ha : a = -M := by omega
  subst ha
  refine ⟨rfl, ?_⟩
  have hb : b.natAbs = 1 := by
    rw [Int.natAbs_neg] at hn
    have hp : 0 < M.natAbs := by omega
    rcases Nat.lt_or_ge b.natAbs 1 with hb | hb
    · have : b.natAbs = 0 := by omega
      rw [this, Nat.div_zero] at hn; omega
    · rcases Nat.eq_or_lt_of_le hb with hb | hb
      · omega
      · have := Nat.div_lt_self hp hb; omega
  rcases Int.natAbs_eq b with hb' | hb'
  · rw [hb] at hb'; subst hb'
    simp [Int.tdiv_one] at h; omega
  · rw [hb] at hb'; exact hb'

theorem toInt_intMin' (hw : 0 < w) : (BitVec.intMin w).toInt = -(2 ^ (w - 1)) := by
  rw [BitVec.toInt_intMin_of_pos hw]

theorem divS_eq (hw : 1 < w) (x y : BitVec w) : divS x y = divI x y := by
  have hM : (0 : Int) < 2 ^ (w - 1) := Int.pow_pos (by decide)
  have h1 := BitVec.le_toInt x
  have h2 := BitVec.toInt_lt (x := x)
  have hneg : (-1 : BitVec w).toInt = -1 := by
    have : (-1 : BitVec w) = BitVec.allOnes w := by
      apply BitVec.eq_of_toNat_eq
      rw [BitVec.toNat_allOnes]
      show (-1#w).toNat = _
      have : 1 < 2 ^ w := Nat.one_lt_two_pow (by omega)
      rw [BitVec.toNat_neg, BitVec.toNat_ofNat, Nat.mod_eq_of_lt this, Nat.mod_eq_of_lt (by omega)]
    rw [this, BitVec.toInt_allOnes, if_pos (by omega)]
  simp only [divS, divI, toInt_eq_zero]
  by_cases hy : y = 0
  · simp [hy]
  · by_cases hov : x.toInt.tdiv y.toInt = 2 ^ (w - 1)
    · obtain ⟨ha, hb⟩ := tdiv_eq_max hM h1 h2 hov
      have e1 : x = BitVec.intMin w := by rw [← BitVec.toInt_inj, toInt_intMin' (by omega)]; exact ha
      have e2 : y = -1 := by rw [← BitVec.toInt_inj, hneg]; exact hb
      rw [if_neg hy, if_pos hov, if_pos (.inr ⟨e1, e2⟩)]
    · have : ¬ (y = 0 ∨ x = BitVec.intMin w ∧ y = -1) := by
        rintro (h | ⟨h, h'⟩)
        · exact hy h
        · apply hov; rw [h, h', hneg, toInt_intMin' (by omega)]
          simp
      rw [if_neg hy, if_neg hov, if_neg this]
      congr 1
      apply BitVec.eq_of_toInt_eq
      rw [BitVec.toInt_sdiv, BitVec.toInt_ofInt]

theorem and_eq (x y : BitVec w) : and x y = x &&& y := by
  apply BitVec.eq_of_getLsbD_eq; intro i hi; rw [and, ofBits_getLsbD, BitVec.getLsbD_and, decide_eq_true hi, Bool.true_and]
theorem or_eq (x y : BitVec w) : or x y = x ||| y := by
  apply BitVec.eq_of_getLsbD_eq; intro i hi; rw [or, ofBits_getLsbD, BitVec.getLsbD_or, decide_eq_true hi, Bool.true_and]
theorem xor_eq (x y : BitVec w) : xor x y = x ^^^ y := by
  apply BitVec.eq_of_getLsbD_eq; intro i hi; rw [xor, ofBits_getLsbD, BitVec.getLsbD_xor, decide_eq_true hi, Bool.true_and]

/-- The amount of a shift, of a width that divides `2 ^ w`. -/
theorem toInt_emod (hw : (w : Int) ∣ 2 ^ w) (y : BitVec w) : (y.toInt % w).toNat = y.toNat % w := by
  have : y.toInt % w = (y.toNat : Int) % w := by
    rw [BitVec.toInt_eq_toNat_cond]
    split
    · rfl
    · obtain ⟨c, hc⟩ := hw
      have : (((2 ^ w : Nat) : Int)) = w * c := by rw [← hc]; simp
      rw [this, Int.sub_mul_emod_self_left]
  rw [this]; omega

theorem shl_eq (x y : BitVec w) : shl x y = x <<< (y.toNat % w) := by
  apply BitVec.eq_of_toNat_eq; simp [shl, Nat.shiftLeft_eq]

theorem shrU_eq (x y : BitVec w) : shrU x y = x >>> (y.toNat % w) := by
  apply BitVec.eq_of_toNat_eq
  simp only [shrU, BitVec.toNat_ofNat, BitVec.toNat_ushiftRight, Nat.shiftRight_eq_div_pow]
  exact Nat.mod_eq_of_lt (Nat.lt_of_le_of_lt (Nat.div_le_self _ _) x.isLt)

theorem shrS_eq (x y : BitVec w) : shrS x y = x.sshiftRight (y.toNat % w) := by
  rw [shrS, BitVec.sshiftRight_eq, Int.shiftRight_eq_div_pow]; simp

theorem rotl_eq (x y : BitVec w) (n : Nat) (h : n % w = y.toNat % w) : rotl x y = x.rotateLeft n := by
  apply BitVec.eq_of_getLsbD_eq; intro i hi
  rw [rotl, ofBits_getLsbD, BitVec.getLsbD_rotateLeft, h]
  have hk : y.toNat % w < w := Nat.mod_lt _ (by omega)
  generalize y.toNat % w = k at *
  by_cases hik : i < k
  · simp only [hi, hik, decide_true, Bool.true_and, cond_true]
    congr 1; rw [Nat.mod_eq_of_lt (by omega)]; omega
  · simp only [hi, hik, decide_true, decide_false, Bool.true_and, cond_false]
    congr 1
    have : i + w - k = (i - k) + w := by omega
    rw [this, Nat.add_mod_right, Nat.mod_eq_of_lt (by omega)]

theorem rotr_eq (x y : BitVec w) (n : Nat) (h : n % w = y.toNat % w) : rotr x y = x.rotateRight n := by
  apply BitVec.eq_of_getLsbD_eq; intro i hi
  rw [rotr, ofBits_getLsbD, BitVec.getLsbD_rotateRight, h]
  have hk : y.toNat % w < w := Nat.mod_lt _ (by omega)
  generalize y.toNat % w = k at *
  by_cases hik : i < w - k
  · simp only [hi, hik, decide_true, Bool.true_and, cond_true]
    congr 1; rw [Nat.mod_eq_of_lt (by omega)]; omega
  · simp only [hi, hik, decide_true, decide_false, Bool.true_and, cond_false]
    congr 1
    have : i + k = (i - (w - k)) + w := by omega
    rw [this, Nat.add_mod_right, Nat.mod_eq_of_lt (by omega)]

theorem clzAuxRec_eq (x : BitVec w) (n : Nat) (hn : n < w) :
    x.clzAuxRec n = .ofNat w (w - 1 - n + (((List.range (n + 1)).reverse.map x.getLsbD).takeWhile (! ·)).length) := by
  induction n with
  | zero =>
    simp only [BitVec.clzAuxRec]
    cases h : x.getLsbD 0 <;> simp [List.range_succ, h]
    congr 1; omega
  | succ n ih =>
    simp only [BitVec.clzAuxRec]
    rw [List.range_succ]
    cases h : x.getLsbD (n + 1)
    · rw [ih (by omega)]
      simp only [Bool.false_eq_true, if_false, List.reverse_append, List.reverse_cons, List.reverse_nil, List.nil_append, List.singleton_append, List.map_cons,
        List.takeWhile_cons, h, Bool.not_false, if_true, List.length_cons]
      congr 1; omega
    · simp only [if_true, List.reverse_append, List.reverse_cons, List.reverse_nil, List.nil_append, List.singleton_append, List.map_cons,
        List.takeWhile_cons, h, Bool.not_true, Bool.false_eq_true, if_false, List.length_nil, Nat.add_zero]

theorem clz_eq (hw : 0 < w) (x : BitVec w) : clz x = x.clz := by
  rw [BitVec.clz, clzAuxRec_eq x (w - 1) (by omega), clz, bits]
  have h1 : w - 1 - (w - 1) = 0 := by omega
  have h2 : w - 1 + 1 = w := by omega
  rw [h1, h2, Nat.zero_add]

theorem bits_reverse (x : BitVec w) : bits x.reverse = (bits x).reverse := by
  apply List.ext_getElem
  · simp [bits]
  · intro i h1 h2
    simp only [bits, List.length_map, List.length_reverse, List.length_range] at h1
    simp only [bits, List.getElem_map, List.getElem_reverse, List.length_range, List.length_map, List.length_reverse, List.getElem_range, BitVec.getLsbD_reverse]
    rw [BitVec.getMsbD_eq_getLsbD]
    have : w - 1 - i < w := by omega
    simp [this]

theorem ctz_eq (hw : 0 < w) (x : BitVec w) : ctz x = x.ctz := by
  rw [BitVec.ctz, ← clz_eq hw, clz, bits_reverse]; rfl

theorem cpopNatRec_eq_count (x : BitVec w) (n acc : Nat) : x.cpopNatRec n acc = acc + ((List.range n).map x.getLsbD).count true := by
  induction n generalizing acc with
  | zero => simp
  | succ n ih =>
    rw [BitVec.cpopNatRec_succ, ih, List.range_succ]
    cases h : x.getLsbD n <;> simp [h]
    omega

theorem popcnt_eq (x : BitVec w) : popcnt x = x.cpop := by
  simp [popcnt, BitVec.cpop, bits, cpopNatRec_eq_count, List.map_reverse]

theorem wrap_eq (v : Nat) (x : BitVec w) : wrap v x = x.setWidth v := by
  apply BitVec.eq_of_toNat_eq; simp [wrap]

theorem extendU_eq (v : Nat) (x : BitVec w) : extendU v x = x.setWidth v := by
  apply BitVec.eq_of_toNat_eq; simp [extendU]

theorem extendS_eq (v : Nat) (x : BitVec w) : extendS v x = x.signExtend v := rfl

theorem bool_eq (b : Bool) : bool b = asI32 b := by cases b <;> rfl

/-! ## Values of floats -/

/-- The parts of a bit pattern. -/
theorem parts (mb eb n : Nat) (h : n < 2 ^ (eb + mb + 1)) :
    n = (if 2 ^ (eb + mb) ≤ n then 2 ^ (eb + mb) else 0) + n / 2 ^ mb % 2 ^ eb * 2 ^ mb + n % 2 ^ mb := by
  have h1 := Nat.div_add_mod n (2 ^ mb)
  have h2 := Nat.div_add_mod (n / 2 ^ mb) (2 ^ eb)
  have h3 : n / 2 ^ mb / 2 ^ eb = if 2 ^ (eb + mb) ≤ n then 1 else 0 := by
    rw [Nat.div_div_eq_div_mul, ← Nat.pow_add, Nat.add_comm mb eb]
    split
    · apply Nat.div_eq_of_lt_le
      · omega
      · rw [Nat.pow_succ] at h; omega
    · exact Nat.div_eq_of_lt (by omega)
  rw [h3] at h2
  have h4 : 2 ^ (eb + mb) = 2 ^ eb * 2 ^ mb := Nat.pow_add ..
  split
  · rename_i h5; rw [if_pos h5] at h2
    calc n = 2 ^ mb * (n / 2 ^ mb) + n % 2 ^ mb := h1.symm
      _ = 2 ^ mb * (2 ^ eb * 1 + n / 2 ^ mb % 2 ^ eb) + n % 2 ^ mb := by rw [h2]
      _ = _ := by rw [h4, Nat.mul_add, Nat.mul_one, Nat.mul_comm (2 ^ mb), Nat.mul_comm (2 ^ mb)]
  · rename_i h5; rw [if_neg h5] at h2
    calc n = 2 ^ mb * (n / 2 ^ mb) + n % 2 ^ mb := h1.symm
      _ = 2 ^ mb * (2 ^ eb * 0 + n / 2 ^ mb % 2 ^ eb) + n % 2 ^ mb := by rw [h2]
      _ = _ := by rw [Nat.mul_zero, Nat.zero_add, Nat.zero_add, Nat.mul_comm (2 ^ mb)]

/-- The magnitude determines exponent and fraction. -/
theorem magnitude_inj {mb e1 e2 f1 f2 : Nat} (h1 : f1 < 2 ^ mb) (h2 : f2 < 2 ^ mb)
    (h : (if e1 = 0 then f1 else (2 ^ mb + f1) * 2 ^ (e1 - 1)) = (if e2 = 0 then f2 else (2 ^ mb + f2) * 2 ^ (e2 - 1))) : e1 = e2 ∧ f1 = f2 := by
  have low : ∀ f e, 2 ^ mb ≤ (2 ^ mb + f) * 2 ^ e := fun f e =>
    Nat.le_trans (Nat.le_add_right _ f) (Nat.le_mul_of_pos_right _ (Nat.two_pow_pos e))
  have high : ∀ f e e' f', f < 2 ^ mb → e < e' → (2 ^ mb + f) * 2 ^ e < (2 ^ mb + f') * 2 ^ e' := by
    intro f e e' f' hf he
    calc (2 ^ mb + f) * 2 ^ e < (2 ^ mb * 2) * 2 ^ e := Nat.mul_lt_mul_of_pos_right (by omega) (Nat.two_pow_pos e)
      _ = 2 ^ mb * 2 ^ (e + 1) := by rw [Nat.mul_assoc, Nat.pow_succ, Nat.mul_comm 2]
      _ ≤ 2 ^ mb * 2 ^ e' := Nat.mul_le_mul_left _ (Nat.pow_le_pow_right (by decide) he)
      _ ≤ _ := Nat.mul_le_mul_right _ (Nat.le_add_right ..)
  split at h <;> split at h
  · omega
  · have := low f2 (e2 - 1); omega
  · have := low f1 (e1 - 1); omega
  · rcases Nat.lt_trichotomy (e1 - 1) (e2 - 1) with hl | he | hl
    · have := high f1 _ _ f2 h1 hl; omega
    · rw [he] at h
      have := Nat.eq_of_mul_eq_mul_right (Nat.two_pow_pos _) h
      omega
    · have := high f2 _ _ f1 h2 hl; omega

theorem decodeNat_inj {mb eb n m : Nat} (hn : n < 2 ^ (eb + mb + 1)) (hm : m < 2 ^ (eb + mb + 1))
    (h : decodeNat mb eb n = decodeNat mb eb m) : n = m ∨ decodeNat mb eb n = .nan := by
  have pn := parts mb eb n hn
  have pm := parts mb eb m hm
  have key : ∀ {e1 e2 f1 f2 : Nat}, (decide (2 ^ (eb + mb) ≤ n) = decide (2 ^ (eb + mb) ≤ m)) → n / 2 ^ mb % 2 ^ eb = m / 2 ^ mb % 2 ^ eb →
      n % 2 ^ mb = m % 2 ^ mb → n = m := by
    intro _ _ _ _ hs he hf
    rw [he, hf] at pn
    by_cases hc : 2 ^ (eb + mb) ≤ m
    · have hc' : 2 ^ (eb + mb) ≤ n := by simpa [hc] using hs
      rw [if_pos hc] at pm; rw [if_pos hc'] at pn; omega
    · have hc' : ¬ 2 ^ (eb + mb) ≤ n := by simpa [hc] using hs
      rw [if_neg hc] at pm; rw [if_neg hc'] at pn; omega
  have fn := Nat.mod_lt n (Nat.two_pow_pos mb)
  have fm := Nat.mod_lt m (Nat.two_pow_pos mb)
  unfold decodeNat at h ⊢
  simp only at h ⊢
  by_cases a1 : n / 2 ^ mb % 2 ^ eb = 2 ^ eb - 1
  · by_cases a2 : n % 2 ^ mb = 0
    · by_cases b1 : m / 2 ^ mb % 2 ^ eb = 2 ^ eb - 1
      · by_cases b2 : m % 2 ^ mb = 0
        · rw [if_pos a1, if_pos a2, if_pos b1, if_pos b2] at h
          injection h with h
          exact .inl (key (e1 := 0) (e2 := 0) (f1 := 0) (f2 := 0) h (by omega) (by omega))
        · rw [if_pos a1, if_pos a2, if_pos b1, if_neg b2] at h; cases h
      · rw [if_pos a1, if_pos a2, if_neg b1] at h; split at h <;> cases h
    · right; rw [if_pos a1, if_neg a2]
  · by_cases b1 : m / 2 ^ mb % 2 ^ eb = 2 ^ eb - 1
    · rw [if_neg a1, if_pos b1] at h; split at h <;> split at h <;> cases h
    · left
      rw [if_neg a1, if_neg b1] at h
      have hs : decide (2 ^ (eb + mb) ≤ n) = decide (2 ^ (eb + mb) ≤ m) := by
        split at h <;> split at h <;> injection h
      have hk : (if n / 2 ^ mb % 2 ^ eb = 0 then n % 2 ^ mb else (2 ^ mb + n % 2 ^ mb) * 2 ^ (n / 2 ^ mb % 2 ^ eb - 1)) =
          (if m / 2 ^ mb % 2 ^ eb = 0 then m % 2 ^ mb else (2 ^ mb + m % 2 ^ mb) * 2 ^ (m / 2 ^ mb % 2 ^ eb - 1)) := by
        clear pn pm key hs
        split at h <;> split at h <;> injection h with _ h <;> simp only [*, if_true, if_false]
      obtain ⟨he, hf⟩ := magnitude_inj fn fm hk
      exact key (e1 := 0) (e2 := 0) (f1 := 0) (f2 := 0) hs he hf

/-- Two floats with the same value are the same, or NaNs. -/
theorem Fmt.decode_inj (F : Fmt) {x y : BitVec F.width} (h : F.decode x = F.decode y) : x = y ∨ F.decode x = .nan := by
  have hx : x.toNat < 2 ^ (F.eb + F.mb + 1) := by cases F <;> exact x.isLt
  have hy : y.toNat < 2 ^ (F.eb + F.mb + 1) := by cases F <;> exact y.isLt
  rcases decodeNat_inj hx hy h with h | h
  · exact .inl (BitVec.eq_of_toNat_eq h)
  · exact .inr h

end NumSpec
end Wastrum
