import Verif.InterposeLemmas
import Verif.NestingThms
import Verif.PassThms
/-!
# The branch-table helper (C12)
-/

set_option linter.unusedSimpArgs false
set_option linter.unusedVariables false

namespace Wastrum

variable {W : Type}

/-- The nested form of the helper's blocks, after `ls` have been closed. -/
def helperNest (n : Nat) (ls : List Nat) : List HI :=
  ls.foldl (fun acc l => [.block ⟨[], []⟩ (acc ++ [.basic (.loc .get 0), .basic (cI32 l), .basic .ret])])
    [.block ⟨[], []⟩ [.basic (.loc .get 0), .basic (.brTable (List.range n) n)]]

theorem lower_helperNest (n : Nat) (ls : List Nat) : HI.lowerL (helperNest n ls) =
    ls.map (fun _ => LInstr.block ⟨[], []⟩) ++ [.block ⟨[], []⟩, .loc .get 0, .brTable (List.range n) n, .fin] ++
      ls.flatMap (fun l => [.loc .get 0, (cI32 l).toL, .ret, .fin]) := by
  unfold helperNest
  generalize hacc : ([.block ⟨[], []⟩ [.basic (.loc .get 0), .basic (.brTable (List.range n) n)]] : List HI) = acc
  have h0 : [LInstr.block ⟨[], []⟩, .loc .get 0, .brTable (List.range n) n, .fin] = HI.lowerL acc := by
    subst hacc; rfl
  rw [h0]
  clear h0 hacc
  induction ls generalizing acc with
  | nil => simp
  | cons l ls ih =>
    rw [List.foldl_cons, ih]
    have e : ∀ (ls : List Nat) (X : List LInstr), ls.map (fun _ => LInstr.block ⟨[], []⟩) ++ LInstr.block ⟨[], []⟩ :: X =
        LInstr.block ⟨[], []⟩ :: (ls.map (fun _ => LInstr.block ⟨[], []⟩) ++ X) := by
      intro ls X
      induction ls with
      | nil => rfl
      | cons a ls ih => simp [ih]
    simp [HI.lowerL, HI.lower, HI.lowerL_append, Basic.toL, e]

/-- The nested form of the helper. -/
def helperHI : List Nat → Nat → List HI
  | [], d => [.basic (.loc .get 0), .basic (cI32 d)]
  | [l], d => [.basic (.loc .get 0), .basic (.loc .get 0), .basic (.unary .i32Eqz),
      .ifElse ⟨[], [.i32]⟩ [.basic (cI32 l)] [.basic (cI32 d)]]
  | ls, d => helperNest ls.length ls ++ [.basic (.loc .get 0), .basic (cI32 d)]

theorem lower_helperHI (ls : List Nat) (d : Nat) : lower (helperHI ls d) = helperBody ls d := by
  rcases ls with _ | ⟨l, _ | ⟨l', ls⟩⟩
  · rfl
  · rfl
  · simp only [lower, helperHI, helperBody, HI.lowerL_append, lower_helperNest]
    simp [HI.lowerL, HI.lower, Basic.toL]

theorem denFlat_lower (E : Env W) (b : List HI) (c : Cfg W) : denFlat E (lower b) c = denL E b c := by
  simp [denFlat, C01_raise_lower]

theorem denFlat_lowerTyped (E : Env W) (b : List TI) (c : Cfg W) : denFlat E (lowerTyped b) c = denL E (TI.eraseL b) c := by
  have : lowerTyped b = lower (TI.eraseL b) := by simp [lowerTyped, lower, TI.lower_erase.2]
  rw [this, denFlat_lower]

/-- Where control is after the blocks of the first `j` labels have been closed. -/
theorem run_helperNest (E : Env W) (n : Nat) (x : BitVec 32) (locals : List RVal) (hl : locals[0]? = some (.i32 x))
    (s : Store W) (ls : List Nat) :
    denL E (helperNest n ls) ⟨[], locals, s⟩ =
      let t := tableLabel (List.range n) n x
      if t < ls.length then .ret ⟨[nI32 (ls.getD t 0), .i32 x], locals, s⟩
      else if t = ls.length then .norm ⟨[], locals, s⟩
      else .br (t - ls.length - 1) ⟨[], locals, s⟩ := by
  generalize ht : tableLabel (List.range n) n x = t
  generalize hk : ls.length = k
  induction k generalizing ls with
  | zero =>
    obtain rfl := List.length_eq_zero_iff.1 hk
    simp only [helperNest, List.foldl_nil, denL_single, denI, inBlock]
    simp only [denL, denI, step, hl, Out.bind_norm, ht, List.length_nil, Nat.le_refl, if_true, List.take_nil,
      List.drop_nil, Nat.not_lt_zero, if_false]
    rcases t with _ | t
    · simp
    · simp
  | succ k ih =>
    obtain ⟨ls, l, rfl⟩ : ∃ ls' l, ls = ls' ++ [l] := by
      rcases List.eq_nil_or_concat ls with rfl | ⟨ls', l, h⟩
      · simp at hk
      · exact ⟨ls', l, by simpa using h⟩
    have hk' : ls.length = k := by simpa using hk
    subst hk'
    replace ih := ih ls rfl
    rw [← hk]
    have : helperNest n (ls ++ [l]) =
        [.block ⟨[], []⟩ (helperNest n ls ++ [.basic (.loc .get 0), .basic (cI32 l), .basic .ret])] := by
      simp [helperNest]
    rw [this]
    simp only [denL_single, denI, inBlock, denL_append, ih, List.length_nil, Nat.le_refl, if_true, List.take_nil,
      List.drop_nil]
    by_cases h1 : t < ls.length
    · have h4 : t < ls.length + 1 := by omega
      simp [h1, h4, List.getElem?_append_left h1]
    · by_cases h2 : t = ls.length
      · subst h2
        simp [denL, denI, step, hl, cI32, nI32]
      · have h3 : ls.length < t := by omega
        simp only [h1, h2, if_false, Out.bind_br]
        obtain ⟨k, rfl⟩ : ∃ k, t = ls.length + 1 + k := ⟨t - (ls.length + 1), by omega⟩
        have e1 : ls.length + 1 + k - ls.length - 1 = k := by omega
        rw [e1]
        rcases k with _ | k
        · simp
        · have e2 : ¬ (ls.length + 1 + (k + 1) < ls.length + 1) := by omega
          simp [e2]

/-- Running the helper function. -/
theorem run_helper (E : Env W) (ls : List Nat) (d : Nat) (locals : List ValType) (x : BitVec 32) (s : Store W) :
    runBody ⟨[.i32], [.i32, .i32]⟩ locals (denFlat E (helperBody ls d)) [.i32 x] s =
      .ok [.i32 x, nI32 (tableLabel ls d x)] s := by
  unfold runBody
  rw [← lower_helperHI, denFlat_lower]
  have hl : ([RVal.i32 x] ++ locals.map ValType.zero)[0]? = some (.i32 x) := rfl
  generalize [RVal.i32 x] ++ locals.map ValType.zero = L at hl
  rcases ls with _ | ⟨l, _ | ⟨l', ls⟩⟩
  · simp [helperHI, denL, denI, step, hl, tableLabel, nI32, cI32]
  · have hE : E.num.unary .i32Eqz (.i32 x) = some (.i32 (if x = 0 then 1 else 0)) := E.num.i32Eqz x
    simp only [helperHI, denL, denI, step, hl, Out.bind_norm, hE, UnaryOp.sig, Val.type, if_true, branchOn]
    by_cases hx : x = 0
    · subst hx
      simp [inBlock, denL, denI, step, cI32, nI32, tableLabel]
    · have hx' : x.toNat ≠ 0 := fun h => hx (BitVec.eq_of_toNat_eq (by simpa using h))
      obtain ⟨k, hk⟩ : ∃ k, x.toNat = k + 1 := ⟨x.toNat - 1, by omega⟩
      have hx0 : ¬ x = 0#32 := hx
      simp [hx0, inBlock, denL, denI, step, cI32, nI32, tableLabel, hk]
  · have hh : helperHI (l :: l' :: ls) d =
        helperNest (l :: l' :: ls).length (l :: l' :: ls) ++ [.basic (.loc .get 0), .basic (cI32 d)] := rfl
    rw [hh]
    generalize l :: l' :: ls = ls
    rw [denL_append, run_helperNest E _ x L hl]
    have ht : tableLabel (List.range ls.length) ls.length x = if x.toNat < ls.length then x.toNat else ls.length := by
      unfold tableLabel
      split
      · rename_i h; simp [h]
      · rename_i h; simp [h]
    rw [ht]
    by_cases hx : x.toNat < ls.length
    · simp [hx, tableLabel]
    · have h1 : ¬ ls.length < ls.length := by omega
      have h2 : ls[x.toNat]? = none := by simp; omega
      simp [hx, h1, h2, tableLabel, denL, denI, step, hl, cI32, nI32]

/-- **C12.** The function that `reify` generates for a `br_table` with labels `ls` and default `d`, called with any
index `x`, returns `x` and the label that the `br_table` takes, in every environment, without trapping and without
changing the store. -/
theorem C12_helper_computes_label (E : Env W) (ls : List Nat) (d : Nat) (hls : ∀ l ∈ ls, l < 2 ^ 31) (hd : d < 2 ^ 31) :
    ∃ code, brTableReify ls d = .ok code ∧ ∀ (x : BitVec 32) (s : Store W),
      runBody ⟨[.i32], [.i32, .i32]⟩ code.locals (denFlat E code.body) [.i32 x] s =
        .ok [.i32 x, .i32 (BitVec.ofNat 32 (if h : x.toNat < ls.length then ls[x.toNat] else d))] s := by
  refine ⟨⟨[.i32], helperBody ls d⟩, by simp [brTableReify, brTableBody_ok hls hd], fun x s => ?_⟩
  rw [run_helper]
  simp only [tableLabel, nI32]
  by_cases h : x.toNat < ls.length
  · simp [h]
  · simp [h]

/-- The label returned fits, so the analysis sees the program's label number itself. -/
example : (∀ l ∈ [3, 0, 7], l < 2 ^ 31) ∧ (5 : Nat) < 2 ^ 31 := by decide

end Wastrum
