import Verif.Purity
import Verif.Machine
import Verif.NestingThms
/-!
# Lemmas about the purity analysis
-/

set_option linter.unusedSimpArgs false
set_option linter.unusedVariables false

namespace Wastrum

/-! ## Instructions that depend on nothing but their operands -/

/-- Instructions that touch neither globals, tables and memories nor call through a table. Direct calls are allowed:
they are as good as the called function. -/
def LInstr.Harmless : LInstr → Prop
  | .glob .. | .tableGet _ | .tableSet _ | .tableSize _ | .tableGrow _ | .tableFill _ | .tableCopy .. | .tableInit ..
  | .elemDrop _ | .load .. | .store .. | .memorySize _ | .memoryGrow _ | .memoryFill | .memoryCopy | .memoryInit _
  | .dataDrop _ | .callIndirect .. => False
  | _ => True

/-- An instruction that is harmless, and that calls only the function itself or functions that satisfy `p`. -/
def LInstr.Fine (index : Nat) (p : Nat → Prop) (x : LInstr) : Prop := x.Harmless ∧ ∀ g, x = .call g → index = g ∨ p g

theorem basicEstimate_pure (index : Nat) (all : List PurityTarget) (b : Basic) :
    basicEstimate index all b = some .pure ↔ b.toL.Fine index fun g => calleeEstimate all g = some .pure := by
  cases b <;> simp [basicEstimate, LInstr.Fine, LInstr.Harmless, Basic.toL]
  rename_i g
  by_cases h : index = g <;> simp [h]

theorem match_pure {r s : Option Estimate} :
    whenPure r s = some .pure ↔ r = some .pure ∧ s = some .pure := by
  rcases r with _ | r
  · simp [whenPure]
  · cases r <;> simp [whenPure]

theorem match_isSome {r s : Option Estimate} (hr : r.isSome) (hs : s.isSome) :
    (whenPure r s).isSome := by
  rcases r with _ | r
  · simp at hr
  · cases r <;> simp [hs, whenPure]

theorem fine_struct {index : Nat} {p : Nat → Prop} {x : LInstr} (h : x.Harmless) (hc : ∀ g, x ≠ .call g) : x.Fine index p :=
  ⟨h, fun g e => absurd e (hc g)⟩

/-- A body is judged pure exactly when all its instructions are harmless and all its callees are judged pure. -/
theorem isPure_iff (index : Nat) (all : List PurityTarget) :
    (∀ i : TI, i.isPure index all = some .pure ↔ ∀ x ∈ i.lower, x.Fine index fun g => calleeEstimate all g = some .pure) ∧
    (∀ l, TI.isPureL index all l = some .pure ↔ ∀ x ∈ TI.lowerL l, x.Fine index fun g => calleeEstimate all g = some .pure) := by
  have hb : ∀ t, (LInstr.block t).Fine index fun g => calleeEstimate all g = some .pure := fun t => fine_struct trivial (by simp)
  have hl : ∀ t, (LInstr.loop t).Fine index fun g => calleeEstimate all g = some .pure := fun t => fine_struct trivial (by simp)
  have hi : ∀ t, (LInstr.ite t).Fine index fun g => calleeEstimate all g = some .pure := fun t => fine_struct trivial (by simp)
  have he : LInstr.els.Fine index fun g => calleeEstimate all g = some .pure := fine_struct trivial (by simp)
  have hf : LInstr.fin.Fine index fun g => calleeEstimate all g = some .pure := fine_struct trivial (by simp)
  apply TI.induct
  · intro m b; simpa [TI.isPure, TI.lower] using basicEstimate_pure index all b
  · intro m t body ih
    simp [TI.isPure, TI.lower, ih, or_imp, forall_and, hb, hl, hi, he, hf]
  · intro m t body ih
    simp [TI.isPure, TI.lower, ih, or_imp, forall_and, hb, hl, hi, he, hf]
  · intro m t thn ih
    simp [TI.isPure, TI.lower, ih, or_imp, forall_and, hb, hl, hi, he, hf]
  · intro m t thn els ih1 ih2
    rw [TI.isPure, match_pure, ih1, ih2]
    simp [TI.lower, or_imp, forall_and, hb, hl, hi, he, hf]
  · simp [TI.isPureL, TI.lowerL]
  · intro i l ih1 ih2
    rw [TI.isPureL, match_pure, ih1, ih2]
    simp [TI.lowerL, or_imp, forall_and]

/-- The analysis of a body does not panic when all its callees are among the functions. -/
theorem isPure_isSome (index : Nat) (all : List PurityTarget) :
    (∀ i : TI, (∀ g, .call g ∈ i.lower → (calleeEstimate all g).isSome) → (i.isPure index all).isSome) ∧
    (∀ l, (∀ g, .call g ∈ TI.lowerL l → (calleeEstimate all g).isSome) → (TI.isPureL index all l).isSome) := by
  apply TI.induct
  · intro m b h
    cases b <;> simp [TI.isPure, basicEstimate]
    rename_i g
    split
    · rfl
    · exact h g (by simp [TI.lower, Basic.toL])
  · intro m t body ih h; exact ih fun g hg => h g (by simp [TI.lower, hg])
  · intro m t body ih h; exact ih fun g hg => h g (by simp [TI.lower, hg])
  · intro m t body ih h; exact ih fun g hg => h g (by simp [TI.lower, hg])
  · intro m t thn els ih1 ih2 h
    rw [TI.isPure]
    exact match_isSome (ih1 fun g hg => h g (by simp [TI.lower, hg])) (ih2 fun g hg => h g (by simp [TI.lower, hg]))
  · intro h; simp [TI.isPureL]
  · intro i l ih1 ih2 h
    rw [TI.isPureL]
    exact match_isSome (ih1 fun g hg => h g (by simp [TI.lowerL, hg])) (ih2 fun g hg => h g (by simp [TI.lowerL, hg]))

/-- A body is judged impure only for a harmful instruction or a callee that is judged impure. -/
theorem isPure_impure (index : Nat) (all : List PurityTarget) :
    (∀ i : TI, i.isPure index all = some .impure →
      ∃ x ∈ i.lower, ¬ x.Harmless ∨ ∃ g, x = .call g ∧ index ≠ g ∧ calleeEstimate all g = some .impure) ∧
    (∀ l, TI.isPureL index all l = some .impure →
      ∃ x ∈ TI.lowerL l, ¬ x.Harmless ∨ ∃ g, x = .call g ∧ index ≠ g ∧ calleeEstimate all g = some .impure) := by
  have split2 : ∀ {r s : Option Estimate}, whenPure r s = some .impure →
      r = some .impure ∨ s = some .impure := by
    intro r s h
    rcases r with _ | r
    · simp [whenPure] at h
    · cases r <;> simp [whenPure] at h ⊢
      exact h
  apply TI.induct
  · intro m b h
    refine ⟨b.toL, by simp [TI.lower], ?_⟩
    cases b <;> simp [TI.isPure, basicEstimate] at h <;> simp [Basic.toL, LInstr.Harmless]
    rename_i g
    by_cases hg : index = g
    · simp [hg] at h
    · simpa [hg] using h
  · intro m t body ih h; obtain ⟨x, hx, h'⟩ := ih h; exact ⟨x, by simp [TI.lower, hx], h'⟩
  · intro m t body ih h; obtain ⟨x, hx, h'⟩ := ih h; exact ⟨x, by simp [TI.lower, hx], h'⟩
  · intro m t body ih h; obtain ⟨x, hx, h'⟩ := ih h; exact ⟨x, by simp [TI.lower, hx], h'⟩
  · intro m t thn els ih1 ih2 h
    rw [TI.isPure] at h
    rcases split2 h with h | h
    · obtain ⟨x, hx, h'⟩ := ih1 h; exact ⟨x, by simp [TI.lower, hx], h'⟩
    · obtain ⟨x, hx, h'⟩ := ih2 h; exact ⟨x, by simp [TI.lower, hx], h'⟩
  · intro h; simp [TI.isPureL] at h
  · intro i l ih1 ih2 h
    rw [TI.isPureL] at h
    rcases split2 h with h | h
    · obtain ⟨x, hx, h'⟩ := ih1 h; exact ⟨x, by simp [TI.lowerL, hx], h'⟩
    · obtain ⟨x, hx, h'⟩ := ih2 h; exact ⟨x, by simp [TI.lowerL, hx], h'⟩

/-! ## Rounds -/

theorem mapOpt_eq {α β : Type} {f : α → Option β} {l : List α} {l' : List β} :
    mapOpt f l = some l' ↔ l.map f = l'.map some := by
  induction l generalizing l' with
  | nil => cases l' <;> simp [mapOpt]
  | cons x l ih =>
    rw [mapOpt]
    cases hf : f x with
    | none => cases l' <;> simp [hf]
    | some y =>
      cases l' with
      | nil => simp
      | cons y' l' =>
        simp only [Option.map_eq_some_iff, List.map_cons, hf, List.cons.injEq, Option.some.injEq, ← ih]
        constructor
        · rintro ⟨a, h, rfl, rfl⟩; exact ⟨rfl, h⟩
        · rintro ⟨rfl, h⟩; exact ⟨l', h, rfl, rfl⟩

theorem mapOpt_get {α β : Type} {f : α → Option β} {l : List α} {l' : List β} (h : mapOpt f l = some l') (i : Nat) :
    (l[i]?).bind f = l'[i]? := by
  have h1 := congrArg (fun l => l[i]?) (mapOpt_eq.mp h)
  simp only [List.getElem?_map] at h1
  cases h2 : l[i]? <;> cases h3 : l'[i]? <;> simp_all

theorem mapOpt_length {α β : Type} {f : α → Option β} {l : List α} {l' : List β} (h : mapOpt f l = some l') :
    l'.length = l.length := by
  have h1 := congrArg List.length (mapOpt_eq.mp h)
  simpa using h1.symm

theorem mapOpt_isSome {α β : Type} {f : α → Option β} {l : List α} (h : ∀ x ∈ l, (f x).isSome) : ∃ l', mapOpt f l = some l' := by
  induction l with
  | nil => exact ⟨[], rfl⟩
  | cons x l ih =>
    obtain ⟨l', hl'⟩ := ih fun y hy => h y (by simp [hy])
    obtain ⟨y, hy⟩ := Option.isSome_iff_exists.mp (h x (by simp))
    exact ⟨y :: l', by simp [mapOpt, hy, hl']⟩

/-- The functions are listed by index. -/
def Indexed (ts : List PurityTarget) : Prop := ∀ (i : Nat) t, ts[i]? = some t → t.index = i

theorem find_indexed {ts : List PurityTarget} (hts : Indexed ts) (g : Nat) : (ts.find? fun t => t.index == g) = ts[g]? := by
  have key : ∀ (k : Nat) (l : List PurityTarget), (∀ (i : Nat) t, l[i]? = some t → t.index = k + i) →
      (l.find? fun t => t.index == g) = if k ≤ g then l[g - k]? else none := by
    intro k l
    induction l generalizing k with
    | nil => intro _; simp
    | cons t l ih =>
      intro h
      have h0 := h 0 t rfl
      rw [List.find?_cons]
      by_cases hg : k = g
      · subst hg; simp [h0]
      · have h0' : (t.index == g) = false := by simp [h0, hg]
        rw [h0', ih (k + 1) fun i t ht => by rw [h (i + 1) t (by simpa using ht)]; omega]
        by_cases hk : k ≤ g
        · rw [if_pos hk, if_pos (by omega)]
          obtain ⟨j, rfl⟩ : ∃ j, g = k + 1 + j := ⟨g - (k + 1), by omega⟩
          have e1 : k + 1 + j - (k + 1) = j := by omega
          have e2 : k + 1 + j - k = j + 1 := by omega
          simp [e1, e2]
        · rw [if_neg hk, if_neg (by omega)]
  have := key 0 ts (by simpa [Indexed] using hts)
  simpa using this

theorem callee_indexed {ts : List PurityTarget} (hts : Indexed ts) (g : Nat) :
    calleeEstimate ts g = ts[g]?.map fun t => t.purity.estimate := by
  rw [calleeEstimate, find_indexed hts]

theorem revise_index {ts : List PurityTarget} {t t' : PurityTarget} (h : t.revise ts = some t') : t'.index = t.index := by
  unfold PurityTarget.revise at h
  split at h
  · cases h; rfl
  · cases h; rfl
  · split at h
    · simp at h
    all_goals cases h; rfl

theorem round_indexed {ts ts' : List PurityTarget} (hts : Indexed ts) (h : purityRound ts = some ts') : Indexed ts' := by
  intro i t' ht'
  have hg := mapOpt_get h i
  rw [ht'] at hg
  obtain ⟨t, ht, hrev⟩ := Option.bind_eq_some_iff.mp hg
  rw [revise_index hrev, hts i t ht]

/-- What a round does to each function. -/
theorem round_get {ts ts' : List PurityTarget} (h : purityRound ts = some ts') {i : Nat} {t' : PurityTarget} (ht' : ts'[i]? = some t') :
    ∃ t, ts[i]? = some t ∧ t.revise ts = some t' := by
  have hg := mapOpt_get h i
  rw [ht'] at hg
  exact Option.bind_eq_some_iff.mp hg

theorem round_get' {ts ts' : List PurityTarget} (h : purityRound ts = some ts') {i : Nat} {t : PurityTarget} (ht : ts[i]? = some t) :
    ∃ t', ts'[i]? = some t' ∧ t.revise ts = some t' := by
  have hg := mapOpt_get h i
  rw [ht] at hg
  have hl : i < ts'.length := by rw [mapOpt_length h]; exact (List.getElem?_eq_some_iff.mp ht).1
  obtain ⟨t', ht'⟩ : ∃ t', ts'[i]? = some t' := ⟨_, List.getElem?_eq_getElem hl⟩
  exact ⟨t', ht', by rw [← ht']; exact hg⟩

/-- A verdict, once given, stays. -/
theorem revise_decided {ts : List PurityTarget} {t t' : PurityTarget} (h : t.revise ts = some t') (hd : t.purity.estimate ≠ .unknown) :
    t' = t := by
  unfold PurityTarget.revise at h
  split at h
  · cases h; rfl
  · cases h; rfl
  · rename_i b hb; simp [hb, Purity.estimate] at hd

/-- A function whose estimate does not change does not change. -/
theorem revise_same {ts : List PurityTarget} {t t' : PurityTarget} (h : t.revise ts = some t') (he : t.purity.estimate = t'.purity.estimate) :
    t' = t := by
  unfold PurityTarget.revise at h
  split at h
  · cases h; rfl
  · cases h; rfl
  · rename_i b hb
    split at h
    · simp at h
    · cases h; rfl
    · cases h; simp [hb, Purity.estimate] at he
    · cases h; simp [hb, Purity.estimate] at he

/-- A round that finds nothing new changes nothing. -/
theorem round_stable {ts ts' : List PurityTarget} (h : purityRound ts = some ts')
    (he : ts.map (·.purity.estimate) = ts'.map (·.purity.estimate)) : ts' = ts := by
  apply List.ext_getElem?
  intro i
  cases ht' : ts'[i]? with
  | none =>
    have : ts'.length ≤ i := List.getElem?_eq_none_iff.mp ht'
    rw [mapOpt_length h] at this
    exact (List.getElem?_eq_none_iff.mpr this).symm
  | some t' =>
    obtain ⟨t, ht, hrev⟩ := round_get h ht'
    have h1 := congrArg (fun l => l[i]?) he
    simp [ht, ht'] at h1
    rw [ht, revise_same hrev h1]

/-- Number of functions without a verdict. -/
def openCount (ts : List PurityTarget) : Nat := ts.countP fun t => decide (t.purity.estimate = .unknown)

/-- A round that finds something decides at least one function. -/
theorem round_progress {ts ts' : List PurityTarget} (h : purityRound ts = some ts')
    (he : ts.map (·.purity.estimate) ≠ ts'.map (·.purity.estimate)) : openCount ts' < openCount ts := by
  have key : ∀ (l l' : List PurityTarget), l.map (PurityTarget.revise ts) = l'.map some →
      openCount l' ≤ openCount l ∧ (l.map (·.purity.estimate) ≠ l'.map (·.purity.estimate) → openCount l' < openCount l) := by
    intro l
    induction l with
    | nil => intro l' h; cases l' <;> simp_all [openCount]
    | cons t l ih =>
      intro l' h
      cases l' with
      | nil => simp at h
      | cons t' l' =>
        simp only [List.map_cons, List.cons.injEq] at h
        obtain ⟨ih1, ih2⟩ := ih l' h.2
        simp only [openCount, List.countP_cons, List.map_cons, ne_eq, List.cons.injEq, not_and, decide_eq_true_eq] at ih1 ih2 ⊢
        by_cases hu : t.purity.estimate = .unknown
        · by_cases hu' : t'.purity.estimate = .unknown
          · simp only [hu, hu', if_true]
            refine ⟨by omega, fun hne => ?_⟩
            have := ih2 (hne (by simp))
            omega
          · simp only [hu, hu', if_true, if_false]
            exact ⟨by omega, fun _ => by omega⟩
        · have := revise_decided h.1 hu
          subst this
          simp only [hu, if_false]
          refine ⟨by omega, fun hne => ?_⟩
          have := ih2 (hne trivial)
          omega
  exact (key ts ts' (mapOpt_eq.mp h)).2 he

/-- `k` rounds. -/
def purityRounds : Nat → List PurityTarget → Option (List PurityTarget)
  | 0, ts => some ts
  | k + 1, ts => (purityRound ts).bind (purityRounds k)

/-- Whatever rounds preserve holds when the loop stops, at a state that a further round does not change. -/
theorem loop_final {I : List PurityTarget → Prop} (hI : ∀ ts ts', I ts → purityRound ts = some ts' → I ts') {k : Nat}
    {ts out : List PurityTarget} (h0 : I ts) (h : purityLoop k ts = .ok out) :
    I out ∧ purityRound out = some out ∧ ∃ j, j ≤ k ∧ purityRounds j ts = some out := by
  induction k generalizing ts with
  | zero => simp [purityLoop] at h
  | succ k ih =>
    rw [purityLoop] at h
    split at h
    · simp at h
    · rename_i ts' hr
      split at h
      · rename_i he
        have e := round_stable hr he
        subst e
        simp only [Except.ok.injEq] at h
        subst h
        exact ⟨h0, hr, 0, by omega, rfl⟩
      · obtain ⟨h1, h2, j, h3, h4⟩ := ih (hI _ _ h0 hr) h
        exact ⟨h1, h2, j + 1, by omega, by simp [purityRounds, hr, h4]⟩

end Wastrum
