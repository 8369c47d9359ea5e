import Verif.PurityLemmas
import Verif.InstrumentThms
import Verif.TransparencyThms
/-!
# Theorems about the purity analysis (C39, C40, C41)
-/

set_option linter.unusedSimpArgs false
set_option linter.unusedVariables false

namespace Wastrum

/-! ## The call graph (specification) -/

/-- Function `i` of the module has code. -/
def HasCode (m : Module) (i : Nat) (code : List LInstr) : Prop :=
  ∃ f c, m.functions[i]? = some f ∧ f.code = .present c ∧ c.body = code

/-- Function `i` has code, all of it harmless. -/
def Clean (m : Module) (i : Nat) : Prop := ∃ code, HasCode m i code ∧ ∀ x ∈ code, x.Harmless

/-- Function `i` calls another function `j` directly. -/
def CallsOther (m : Module) (i j : Nat) : Prop := i ≠ j ∧ ∃ code, HasCode m i code ∧ .call j ∈ code

/-- Functions that are `i` or that are reached from `i` by direct calls. -/
def ReachedFrom (m : Module) (i j : Nat) : Prop := i = j ∨ Relation.TransGen (CallsOther m) i j

/-- Every direct call names a function of the module. -/
def CallsPresent (m : Module) : Prop := ∀ i code g, HasCode m i code → .call g ∈ code → g < m.functions.length

/-- Every body passes type checking and is well nested. -/
def AllRaise (C : Checker) (m : Module) : Prop :=
  ∀ i f c, m.functions[i]? = some f → f.code = .present c → ∃ b, raiseFunction C.check (C.init m f) i c.body = .ok b

theorem HasCode.unique {m : Module} {i : Nat} {a b : List LInstr} (h1 : HasCode m i a) (h2 : HasCode m i b) : a = b := by
  obtain ⟨f, c, hf, hc, rfl⟩ := h1
  obtain ⟨f', c', hf', hc', rfl⟩ := h2
  rw [hf] at hf'; cases hf'
  rw [hc] at hc'; cases hc'
  rfl

/-! ## The invariant of the loop -/

/-- What is known about the functions between rounds. -/
structure PurityInv (m : Module) (ts : List PurityTarget) : Prop where
  indexed : Indexed ts
  length : ts.length = m.functions.length
  unknown : ∀ (i : Nat) t b, ts[i]? = some t → t.purity = .unknown b → HasCode m i (lowerTyped b)
  pure : ∀ i, calleeEstimate ts i = some .pure →
    ∃ code, HasCode m i code ∧ ∀ x ∈ code, x.Fine i fun g => calleeEstimate ts g = some .pure
  acyclic : ∀ i, calleeEstimate ts i = some .pure → ¬ Relation.TransGen (CallsOther m) i i
  impure : ∀ i, calleeEstimate ts i = some .impure → ¬ Clean m i ∨ ∃ j, CallsOther m i j ∧ calleeEstimate ts j = some .impure

theorem init_inv {C : Checker} {m : Module} {ts : List PurityTarget} (h : purityInit C m = some ts) : PurityInv m ts := by
  have hget : ∀ (i : Nat) t, ts[i]? = some t → ∃ f, m.functions[i]? = some f ∧ purityStart C m i f = some t := by
    intro i t ht
    have hg := mapOpt_get h i
    rw [ht] at hg
    obtain ⟨p, hp, hs⟩ := Option.bind_eq_some_iff.mp hg
    rw [List.getElem?_zipIdx] at hp
    obtain ⟨f, hf, rfl⟩ := Option.map_eq_some_iff.mp hp
    exact ⟨f, hf, by simpa using hs⟩
  have hidx : Indexed ts := by
    intro i t ht
    obtain ⟨f, hf, hs⟩ := hget i t ht
    unfold purityStart at hs
    split at hs
    · split at hs
      · cases hs; rfl
      · simp at hs
    · cases hs; rfl
  refine ⟨hidx, by simpa using mapOpt_length h, ?_, ?_, ?_, ?_⟩
  · intro i t b ht hb
    obtain ⟨f, hf, hs⟩ := hget i t ht
    unfold purityStart at hs
    split at hs
    · rename_i c hc
      split at hs
      · rename_i body hr
        cases hs
        cases hb
        exact ⟨f, c, hf, hc, (C02_lowerTyped_raiseFunction _ _ _ _ _ hr).symm⟩
      · simp at hs
    · cases hs; simp at hb
  · intro i hi
    rw [callee_indexed hidx] at hi
    obtain ⟨t, ht, he⟩ := Option.map_eq_some_iff.mp hi
    obtain ⟨f, hf, hs⟩ := hget i t ht
    unfold purityStart at hs
    split at hs
    · split at hs
      · cases hs; simp [Purity.estimate] at he
      · simp at hs
    · cases hs; simp [Purity.estimate] at he
  · intro i hi
    rw [callee_indexed hidx] at hi
    obtain ⟨t, ht, he⟩ := Option.map_eq_some_iff.mp hi
    obtain ⟨f, hf, hs⟩ := hget i t ht
    unfold purityStart at hs
    split at hs
    · split at hs
      · cases hs; simp [Purity.estimate] at he
      · simp at hs
    · cases hs; simp [Purity.estimate] at he
  · intro i hi
    rw [callee_indexed hidx] at hi
    obtain ⟨t, ht, he⟩ := Option.map_eq_some_iff.mp hi
    obtain ⟨f, hf, hs⟩ := hget i t ht
    unfold purityStart at hs
    split at hs
    · split at hs
      · cases hs; simp [Purity.estimate] at he
      · simp at hs
    · rename_i ns name hc
      left
      rintro ⟨code, ⟨f', c, hf', hc', _⟩, _⟩
      rw [hf] at hf'; cases hf'
      rw [hc] at hc'; cases hc'

/-- What a round decides about a function, in terms of the verdicts before the round. -/
theorem round_verdict {ts ts' : List PurityTarget} (hidx : Indexed ts) (h : purityRound ts = some ts') (i : Nat) (e : Estimate) :
    calleeEstimate ts' i = some e ↔
      (∃ t, ts[i]? = some t ∧
        ((t.purity.estimate ≠ .unknown ∧ t.purity.estimate = e) ∨
         ∃ b, t.purity = .unknown b ∧ TI.isPureL i ts b = some e)) := by
  rw [callee_indexed (round_indexed hidx h)]
  constructor
  · intro he
    obtain ⟨t', ht', hpe⟩ := Option.map_eq_some_iff.mp he
    obtain ⟨t, ht, hrev⟩ := round_get h ht'
    refine ⟨t, ht, ?_⟩
    by_cases hu : t.purity.estimate = .unknown
    · right
      unfold PurityTarget.revise at hrev
      split at hrev
      · rename_i hp; simp [hp, Purity.estimate] at hu
      · rename_i hp; simp [hp, Purity.estimate] at hu
      · rename_i b hb
        refine ⟨b, hb, ?_⟩
        rw [hidx i t ht] at hrev
        split at hrev
        · simp at hrev
        · rename_i hh; cases hrev; rw [← hpe, hu]; exact hh
        · rename_i hh; cases hrev; rw [← hpe]; exact hh
        · rename_i hh; cases hrev; rw [← hpe]; exact hh
    · left
      rw [revise_decided hrev hu] at hpe
      exact ⟨hu, hpe⟩
  · rintro ⟨t, ht, hcase⟩
    obtain ⟨t', ht', hrev⟩ := round_get' h ht
    rw [ht', Option.map_some]
    rcases hcase with ⟨hu, he⟩ | ⟨b, hb, he⟩
    · rw [revise_decided hrev hu, he]
    · unfold PurityTarget.revise at hrev
      simp only [hb, hidx i t ht, he] at hrev
      cases e <;> simp at hrev <;> subst hrev <;> simp [hb, Purity.estimate]

theorem decided_stays {ts ts' : List PurityTarget} (hidx : Indexed ts) (h : purityRound ts = some ts') {i : Nat} {e : Estimate}
    (he : e ≠ .unknown) (hi : calleeEstimate ts i = some e) : calleeEstimate ts' i = some e := by
  rw [round_verdict hidx h]
  rw [callee_indexed hidx] at hi
  obtain ⟨t, ht, hpe⟩ := Option.map_eq_some_iff.mp hi
  exact ⟨t, ht, .inl ⟨by rw [hpe]; exact he, hpe⟩⟩

/-- Everything reached from a function whose callees stay within `P` lies in `P`. -/
theorem reached_closed {m : Module} {P : Nat → Prop} (hP : ∀ i j, P i → CallsOther m i j → P j) {i j : Nat}
    (h : Relation.TransGen (CallsOther m) i j) (hi : P i) : P j := by
  induction h with
  | single h => exact hP _ _ hi h
  | tail _ h ih => exact hP _ _ ih h

theorem transGen_head {α : Type} {r : α → α → Prop} {a b : α} (h : Relation.TransGen r a b) :
    r a b ∨ ∃ c, r a c ∧ Relation.TransGen r c b := by
  induction h with
  | single h => exact .inl h
  | tail _ h ih =>
    rcases ih with ih | ⟨c, hc, ih⟩
    · exact .inr ⟨_, ih, .single h⟩
    · exact .inr ⟨c, hc, .tail ih h⟩

theorem lower_mem {b : List TI} {x : LInstr} (h : x ∈ TI.lowerL b) : x ∈ lowerTyped b := List.mem_append_left _ h

theorem PurityInv.closed {m : Module} {ts : List PurityTarget} (h : PurityInv m ts) {i j : Nat}
    (hi : calleeEstimate ts i = some .pure) (hc : CallsOther m i j) : calleeEstimate ts j = some .pure := by
  obtain ⟨code, hcode, hfine⟩ := h.pure i hi
  obtain ⟨hne, code', hcode', hm⟩ := hc
  cases hcode.unique hcode'
  rcases (hfine _ hm).2 j rfl with e | e
  · exact absurd e hne
  · exact e

theorem round_inv {m : Module} {ts ts' : List PurityTarget} (hI : PurityInv m ts) (h : purityRound ts = some ts') : PurityInv m ts' := by
  have hidx := hI.indexed
  have hstay : ∀ g, calleeEstimate ts g = some .pure → calleeEstimate ts' g = some .pure :=
    fun g hg => decided_stays hidx h (by decide) hg
  have hnew : ∀ {i : Nat} {t : PurityTarget} {b : List TI}, ts[i]? = some t → t.purity = .unknown b → TI.isPureL i ts b = some .pure →
      HasCode m i (lowerTyped b) ∧ ∀ x ∈ lowerTyped b, x.Fine i fun g => calleeEstimate ts g = some .pure := by
    intro i t b ht hb hp
    refine ⟨hI.unknown i t b ht hb, ?_⟩
    intro x hx
    rcases List.mem_append.mp hx with hx | hx
    · exact (isPure_iff i ts).2 b |>.mp hp x hx
    · simp at hx; subst hx; exact fine_struct trivial (by simp)
  refine ⟨round_indexed hidx h, by rw [mapOpt_length h, hI.length], ?_, ?_, ?_, ?_⟩
  · intro i t' b ht' hb
    obtain ⟨t, ht, hrev⟩ := round_get h ht'
    have : t' = t := by
      by_cases hu : t.purity.estimate = .unknown
      · exact revise_same hrev (by rw [hu, hb]; rfl)
      · exact revise_decided hrev hu
    subst this
    exact hI.unknown i t' b ht hb
  · intro i hi
    obtain ⟨t, ht, hcase⟩ := (round_verdict hidx h i .pure).mp hi
    rcases hcase with ⟨_, he⟩ | ⟨b, hb, hp⟩
    · obtain ⟨code, hc, hf⟩ := hI.pure i (by rw [callee_indexed hidx, ht, Option.map_some, he])
      exact ⟨code, hc, fun x hx => ⟨(hf x hx).1, fun g hg => ((hf x hx).2 g hg).imp_right (hstay g)⟩⟩
    · obtain ⟨hc, hf⟩ := hnew ht hb hp
      exact ⟨_, hc, fun x hx => ⟨(hf x hx).1, fun g hg => ((hf x hx).2 g hg).imp_right (hstay g)⟩⟩
  · intro i hi
    obtain ⟨t, ht, hcase⟩ := (round_verdict hidx h i .pure).mp hi
    rcases hcase with ⟨_, he⟩ | ⟨b, hb, hp⟩
    · exact hI.acyclic i (by rw [callee_indexed hidx, ht, Option.map_some, he])
    · obtain ⟨hc, hf⟩ := hnew ht hb hp
      have hfirst : ∀ j, CallsOther m i j → calleeEstimate ts j = some .pure := by
        rintro j ⟨hne, code, hcode, hm⟩
        cases hc.unique hcode
        exact ((hf _ hm).2 j rfl).resolve_left hne
      have hself : calleeEstimate ts i ≠ some .pure := by
        rw [callee_indexed hidx, ht, Option.map_some, hb]; simp [Purity.estimate]
      intro hcyc
      rcases transGen_head hcyc with h1 | ⟨j, h1, h2⟩
      · exact hself (hfirst i h1)
      · exact hself (reached_closed (P := fun j => calleeEstimate ts j = some .pure) (fun a b ha hab => hI.closed ha hab) h2 (hfirst j h1))
  · intro i hi
    obtain ⟨t, ht, hcase⟩ := (round_verdict hidx h i .impure).mp hi
    rcases hcase with ⟨_, he⟩ | ⟨b, hb, hp⟩
    · rcases hI.impure i (by rw [callee_indexed hidx, ht, Option.map_some, he]) with hh | ⟨j, hj, hh⟩
      · exact .inl hh
      · exact .inr ⟨j, hj, decided_stays hidx h (by decide) hh⟩
    · have hc := hI.unknown i t b ht hb
      obtain ⟨x, hx, hx'⟩ := (isPure_impure i ts).2 b hp
      rcases hx' with hx' | ⟨g, rfl, hne, hg⟩
      · left
        rintro ⟨code, hcode, hall⟩
        cases hc.unique hcode
        exact hx' (hall x (lower_mem hx))
      · exact .inr ⟨g, ⟨hne, _, hc, lower_mem hx⟩, decided_stays hidx h (by decide) hg⟩

/-! ## C40 -/

theorem init_isSome {C : Checker} {m : Module} (hr : AllRaise C m) : ∃ ts, purityInit C m = some ts := by
  refine mapOpt_isSome ?_
  intro p hp
  obtain ⟨i, hi⟩ := List.mem_iff_getElem?.mp hp
  rw [List.getElem?_zipIdx] at hi
  obtain ⟨f, hf, rfl⟩ := Option.map_eq_some_iff.mp hi
  simp only [Nat.zero_add]
  unfold purityStart
  split
  · rename_i c hc
    obtain ⟨b, hb⟩ := hr i f c hf hc
    simp [hb]
  · rfl

theorem round_isSome {m : Module} {ts : List PurityTarget} (hI : PurityInv m ts) (hc : CallsPresent m) : ∃ ts', purityRound ts = some ts' := by
  refine mapOpt_isSome ?_
  intro t ht
  obtain ⟨i, hi⟩ := List.mem_iff_getElem?.mp ht
  unfold PurityTarget.revise
  split
  · rfl
  · rfl
  · rename_i b hb
    have hcode := hI.unknown i t b hi hb
    have := (isPure_isSome t.index ts).2 b (by
      intro g hg
      have := hc i _ g hcode (lower_mem hg)
      rw [callee_indexed hI.indexed, Option.isSome_map, ← hI.length] at *
      simpa using this)
    obtain ⟨e, he⟩ := Option.isSome_iff_exists.mp this
    rw [he]
    cases e <;> rfl

theorem loop_terminates {m : Module} (hc : CallsPresent m) (k : Nat) (ts : List PurityTarget) (hI : PurityInv m ts) (hk : openCount ts ≤ k) :
    ∃ out, ∀ fuel, k < fuel → purityLoop fuel ts = .ok out := by
  induction k generalizing ts with
  | zero =>
    obtain ⟨ts', hr⟩ := round_isSome hI hc
    have he : ts.map (·.purity.estimate) = ts'.map (·.purity.estimate) := by
      false_or_by_contra
      rename_i he
      have := round_progress hr he
      omega
    refine ⟨ts', fun fuel hf => ?_⟩
    obtain ⟨n, rfl⟩ : ∃ n, fuel = n + 1 := ⟨fuel - 1, by omega⟩
    simp only [purityLoop, hr]
    exact if_pos he
  | succ k ih =>
    obtain ⟨ts', hr⟩ := round_isSome hI hc
    by_cases he : ts.map (·.purity.estimate) = ts'.map (·.purity.estimate)
    · refine ⟨ts', fun fuel hf => ?_⟩
      obtain ⟨n, rfl⟩ : ∃ n, fuel = n + 1 := ⟨fuel - 1, by omega⟩
      simp only [purityLoop, hr]
      exact if_pos he
    · have := round_progress hr he
      obtain ⟨out, ho⟩ := ih ts' (round_inv hI hr) (by omega)
      refine ⟨out, fun fuel hf => ?_⟩
      obtain ⟨n, rfl⟩ : ∃ n, fuel = n + 1 := ⟨fuel - 1, by omega⟩
      simp only [purityLoop, hr]
      rw [if_neg he]
      exact ho n (by omega)

/-- **C40 (termination).** The analysis of a module whose bodies are valid and whose calls name existing functions answers
within one round more than the module has functions; more rounds make no difference. -/
theorem C40_purity_terminates (C : Checker) (m : Module) (hr : AllRaise C m) (hc : CallsPresent m) :
    ∃ answer, ∀ fuel, m.functions.length + 1 ≤ fuel → immutableFunctions C m fuel = .ok answer := by
  obtain ⟨ts, hts⟩ := init_isSome hr
  have hI := init_inv hts
  obtain ⟨out, ho⟩ := loop_terminates hc m.functions.length ts hI (by
    have := @List.countP_le_length _ (fun t : PurityTarget => decide (t.purity.estimate = .unknown)) ts
    rw [hI.length] at this; exact this)
  refine ⟨(out.filter fun t => t.purity.estimate = .pure).map (·.index), fun fuel hf => ?_⟩
  simp only [immutableFunctions, hts, ho fuel hf]

theorem rounds_indexed {ts ts' : List PurityTarget} {k : Nat} (hidx : Indexed ts) (h : purityRounds k ts = some ts') : Indexed ts' := by
  induction k generalizing ts with
  | zero => cases h; exact hidx
  | succ k ih =>
    obtain ⟨ts1, h1, h2⟩ := Option.bind_eq_some_iff.mp h
    exact ih (round_indexed hidx h1) h2

theorem rounds_stay {ts ts' : List PurityTarget} {k : Nat} (hidx : Indexed ts) (h : purityRounds k ts = some ts') {i : Nat} {e : Estimate}
    (he : e ≠ .unknown) (hi : calleeEstimate ts i = some e) : calleeEstimate ts' i = some e := by
  induction k generalizing ts with
  | zero => cases h; exact hi
  | succ k ih =>
    obtain ⟨ts1, h1, h2⟩ := Option.bind_eq_some_iff.mp h
    exact ih (round_indexed hidx h1) h2 (decided_stays hidx h1 he hi)

theorem rounds_add {ts : List PurityTarget} (j k : Nat) : purityRounds (j + k) ts = (purityRounds j ts).bind (purityRounds k) := by
  induction j generalizing ts with
  | zero => simp [purityRounds]
  | succ j ih =>
    rw [show j + 1 + k = (j + k) + 1 by omega, purityRounds, purityRounds, Option.bind_assoc]
    congr 1
    funext x
    exact ih

theorem rounds_fixed {ts : List PurityTarget} (h : purityRound ts = some ts) (k : Nat) : purityRounds k ts = some ts := by
  induction k with
  | zero => rfl
  | succ k ih => simp [purityRounds, h, ih]

/-- **C40 (fixed point).** When the analysis stops, another round would change nothing, and the verdict `pure` or `impure`
given to a function after any number of rounds is the one it has in the end. -/
theorem C40_purity_fixed_point (C : Checker) (m : Module) (ts out : List PurityTarget) (fuel : Nat)
    (hinit : purityInit C m = some ts) (hloop : purityLoop fuel ts = .ok out) :
    purityRound out = some out ∧
    ∀ k mid i e, purityRounds k ts = some mid → calleeEstimate mid i = some e → e ≠ .unknown → calleeEstimate out i = some e := by
  have hI := init_inv hinit
  obtain ⟨_, hfix, j, _, hj⟩ := loop_final (I := PurityInv m) (fun _ _ h1 h2 => round_inv h1 h2) hI hloop
  refine ⟨hfix, ?_⟩
  intro k mid i e hk hi he
  rcases Nat.le_total k j with h | h
  · obtain ⟨n, rfl⟩ : ∃ n, j = k + n := ⟨j - k, by omega⟩
    rw [rounds_add, hk] at hj
    exact rounds_stay (rounds_indexed hI.indexed hk) hj he hi
  · obtain ⟨n, rfl⟩ : ∃ n, k = j + n := ⟨k - j, by omega⟩
    rw [rounds_add, hj, Option.bind_some, rounds_fixed hfix] at hk
    cases hk
    exact hi

/-! ## C41 -/

/-- Membership in the answer. -/
theorem answer_mem {C : Checker} {m : Module} {fuel : Nat} {answer : List Nat} (h : immutableFunctions C m fuel = .ok answer) :
    ∃ out, PurityInv m out ∧ purityRound out = some out ∧ ∀ i, i ∈ answer ↔ calleeEstimate out i = some .pure := by
  unfold immutableFunctions at h
  split at h
  · simp at h
  · rename_i ts hts
    split at h
    · simp at h
    · rename_i out ho
      obtain ⟨hI, hfix, _⟩ := loop_final (I := PurityInv m) (fun _ _ h1 h2 => round_inv h1 h2) (init_inv hts) ho
      refine ⟨out, hI, hfix, fun i => ?_⟩
      cases h
      rw [callee_indexed hI.indexed]
      simp only [List.mem_map, List.mem_filter, decide_eq_true_eq, Option.map_eq_some_iff]
      constructor
      · rintro ⟨t, ⟨ht, he⟩, rfl⟩
        obtain ⟨j, hj⟩ := List.mem_iff_getElem?.mp ht
        rw [hI.indexed j t hj]
        exact ⟨t, hj, he⟩
      · rintro ⟨t, ht, he⟩
        exact ⟨t, ⟨List.mem_of_getElem? ht, he⟩, hI.indexed i t ht⟩

/-- A relation on finitely many numbers under which every member of a nonempty set has a successor in the set has a cycle. -/
theorem cycle_of_serial {r : Nat → Nat → Prop} {P : Nat → Prop} {n : Nat} (hn : ∀ i, P i → i < n) (hs : ∀ i, P i → ∃ j, r i j ∧ P j)
    {a : Nat} (ha : P a) : ∃ i, (a = i ∨ Relation.TransGen r a i) ∧ Relation.TransGen r i i := by
  -- a path of distinct members, ending in its head, cannot be extended for ever
  have key : ∀ (k : Nat) (path : List Nat) (last : Nat), path.Nodup → (∀ x ∈ path, x < n ∧ (a = x ∨ Relation.TransGen r a x) ∧ (x = last ∨ Relation.TransGen r x last)) →
      last ∈ path → P last → (a = last ∨ Relation.TransGen r a last) → n - path.length = k →
      ∃ i, (a = i ∨ Relation.TransGen r a i) ∧ Relation.TransGen r i i := by
    intro k
    induction k with
    | zero =>
      intro path last hnd hall hl hP hal hk
      obtain ⟨j, hj, hPj⟩ := hs last hP
      have htrans : ∀ x ∈ path, Relation.TransGen r x j := by
        intro x hx
        rcases (hall x hx).2.2 with rfl | h
        · exact .single hj
        · exact .tail h hj
      by_cases hm : j ∈ path
      · exact ⟨j, (hall j hm).2.1, htrans j hm⟩
      · exfalso
        have h1 : (j :: path).Nodup := List.nodup_cons.mpr ⟨hm, hnd⟩
        have h2 : (j :: path) ⊆ List.range n := by
          intro x hx
          rcases List.mem_cons.mp hx with rfl | hx
          · exact List.mem_range.mpr (hn _ hPj)
          · exact List.mem_range.mpr (hall x hx).1
        have h3 := List.Nodup.length_le_of_subset h1 h2
        simp at h3
        omega
    | succ k ih =>
      intro path last hnd hall hl hP hal hk
      obtain ⟨j, hj, hPj⟩ := hs last hP
      have htrans : ∀ x ∈ path, Relation.TransGen r x j := by
        intro x hx
        rcases (hall x hx).2.2 with rfl | h
        · exact .single hj
        · exact .tail h hj
      by_cases hm : j ∈ path
      · exact ⟨j, (hall j hm).2.1, htrans j hm⟩
      · have haj : a = j ∨ Relation.TransGen r a j := by
          rcases hal with rfl | h
          · exact .inr (.single hj)
          · exact .inr (.tail h hj)
        refine ih (j :: path) j (List.nodup_cons.mpr ⟨hm, hnd⟩) ?_ (by simp) hPj haj (by simp; omega)
        intro x hx
        rcases List.mem_cons.mp hx with rfl | hx
        · exact ⟨hn _ hPj, haj, .inl rfl⟩
        · exact ⟨(hall x hx).1, (hall x hx).2.1, .inr (htrans x hx)⟩
  exact key _ [a] a (by simp) (by simpa using hn a ha) (by simp) ha (.inl rfl) rfl

/-- **C41.** A function is reported exactly when every function it reaches by direct calls (itself included) has code without
access to globals, tables and memories and without indirect calls, and none of them takes part in a cycle of calls other than
calling itself directly. In particular mutually recursive functions are never reported. -/
theorem C41_purity_complete (C : Checker) (m : Module) (fuel : Nat) (answer : List Nat) (hc : CallsPresent m)
    (h : immutableFunctions C m fuel = .ok answer) (i : Nat) :
    i ∈ answer ↔ ∀ j, ReachedFrom m i j → Clean m j ∧ ¬ Relation.TransGen (CallsOther m) j j := by
  obtain ⟨out, hI, hfix, hmem⟩ := answer_mem h
  rw [hmem]
  have hidx := hI.indexed
  have hclean : ∀ j, calleeEstimate out j = some .pure → Clean m j ∧ ¬ Relation.TransGen (CallsOther m) j j := by
    intro j hj
    obtain ⟨code, hcode, hf⟩ := hI.pure j hj
    exact ⟨⟨code, hcode, fun x hx => (hf x hx).1⟩, hI.acyclic j hj⟩
  constructor
  · rintro hi j (rfl | hj)
    · exact hclean _ hi
    · exact hclean j (reached_closed (P := fun j => calleeEstimate out j = some .pure) (fun a b ha hab => hI.closed ha hab) hj hi)
  · intro hall
    false_or_by_contra
    rename_i hi
    -- every function that is reached and not reported calls another such function
    have hstep : ∀ a, (ReachedFrom m i a ∧ calleeEstimate out a ≠ some .pure) →
        ∃ b, CallsOther m a b ∧ (ReachedFrom m i b ∧ calleeEstimate out b ≠ some .pure) := by
      rintro a ⟨hra, hna⟩
      have hcl := (hall a hra).1
      have hnext : ∀ b, CallsOther m a b → ReachedFrom m i b := by
        intro b hb
        rcases hra with rfl | hra
        · exact .inr (.single hb)
        · exact .inr (.tail hra hb)
      obtain ⟨code, hcode, hharm⟩ := hcl
      have hlt : a < out.length := by
        rw [hI.length]
        obtain ⟨f, c, hf, _⟩ := hcode
        exact (List.getElem?_eq_some_iff.mp hf).1
      obtain ⟨t, ht⟩ : ∃ t, out[a]? = some t := ⟨_, List.getElem?_eq_getElem hlt⟩
      have hest : calleeEstimate out a = some t.purity.estimate := by rw [callee_indexed hidx, ht, Option.map_some]
      cases hp : t.purity with
      | pure => rw [hest, hp] at hna; exact absurd rfl hna
      | impure =>
        rcases hI.impure a (by rw [hest, hp]; rfl) with hbad | ⟨b, hb, hbe⟩
        · exact absurd ⟨code, hcode, hharm⟩ hbad
        · exact ⟨b, hb, hnext b hb, by rw [hbe]; decide⟩
      | unknown body =>
        have hcb := hI.unknown a t body ht hp
        have hnp : TI.isPureL a out body ≠ some .pure := by
          intro hpure
          have := (round_verdict hidx hfix a .pure).mpr ⟨t, ht, .inr ⟨body, hp, hpure⟩⟩
          exact hna this
        rw [ne_eq, (isPure_iff a out).2 body] at hnp
        obtain ⟨x, hx⟩ := Classical.not_forall.mp hnp
        obtain ⟨hxm, hxf⟩ := Classical.not_imp.mp hx
        cases hcode.unique hcb
        have hxh := hharm x (lower_mem hxm)
        have : ∃ g, x = .call g ∧ a ≠ g ∧ calleeEstimate out g ≠ some .pure := by
          false_or_by_contra
          rename_i hno
          refine hxf ⟨hxh, fun g hg => ?_⟩
          by_cases hag : a = g
          · exact .inl hag
          · right
            false_or_by_contra
            rename_i hne
            exact hno ⟨g, hg, hag, hne⟩
        obtain ⟨g, rfl, hne, hg⟩ := this
        have hcall : CallsOther m a g := ⟨hne, _, hcode, lower_mem hxm⟩
        exact ⟨g, hcall, hnext g hcall, hg⟩
    obtain ⟨b, hb, hcyc⟩ := cycle_of_serial (n := m.functions.length) (P := fun a => ReachedFrom m i a ∧ calleeEstimate out a ≠ some .pure)
      (by
        rintro a ⟨hra, _⟩
        obtain ⟨code, ⟨f, c, hf, _⟩, _⟩ := (hall a hra).1
        exact (List.getElem?_eq_some_iff.mp hf).1)
      hstep ⟨.inl rfl, hi⟩
    exact (hall b hb).2 hcyc

/-- **C41 (mutual recursion).** A function that can call itself through another function is not reported. -/
theorem C41_mutual_recursion_not_reported (C : Checker) (m : Module) (fuel : Nat) (answer : List Nat) (hc : CallsPresent m)
    (h : immutableFunctions C m fuel = .ok answer) (i j : Nat) (h1 : CallsOther m i j) (h2 : Relation.TransGen (CallsOther m) j i) :
    i ∉ answer := by
  intro hi
  exact ((C41_purity_complete C m fuel answer hc h i).mp hi i (.inl rfl)).2 (.trans (.single h1) h2)

/-! ## C39 -/

variable {W W' : Type}

/-- Two runs (from stores `s` and `s'`, in possibly different worlds) that go the same way and leave their stores alone. -/
def Out.Alike (s : Store W) (s' : Store W') : Out W → Out W' → Prop
  | .norm c, .norm c' => c.stack = c'.stack ∧ c.locals = c'.locals ∧ c.store = s ∧ c'.store = s'
  | .br l c, .br l' c' => l = l' ∧ c.stack = c'.stack ∧ c.locals = c'.locals ∧ c.store = s ∧ c'.store = s'
  | .ret c, .ret c' => c.stack = c'.stack ∧ c.locals = c'.locals ∧ c.store = s ∧ c'.store = s'
  | .trap t, .trap t' => t = s ∧ t' = s'
  | .stuck, .stuck => True
  | .fuel, .fuel => True
  | _, _ => False

/-- Two calls (from stores `s` and `s'`, in possibly different worlds) with the same outcome — the same results, or a trap in
both, or neither ends — that leave their stores alone. -/
def Res.Alike (s : Store W) (s' : Store W') : Res W → Res W' → Prop
  | .ok vs t, .ok vs' t' => vs = vs' ∧ t = s ∧ t' = s'
  | .trap t, .trap t' => t = s ∧ t' = s'
  | .stuck, .stuck => True
  | .fuel, .fuel => True
  | _, _ => False

/-- A piece of code goes the same way from any stores and leaves them alone. -/
def RunsAlike (s : Store W) (s' : Store W') (b : Cfg W → Out W) (b' : Cfg W' → Out W') : Prop :=
  ∀ st loc, (b ⟨st, loc, s⟩).Alike s s' (b' ⟨st, loc, s'⟩)

theorem Out.Alike.bind {s : Store W} {s' : Store W'} {o : Out W} {o' : Out W'} (h : o.Alike s s' o') {k : Cfg W → Out W} {k' : Cfg W' → Out W'}
    (hk : RunsAlike s s' k k') : (o.bind k).Alike s s' (o'.bind k') := by
  cases o <;> cases o' <;> simp only [Out.Alike] at h <;> try exact h.elim
  · rename_i c c'
    obtain ⟨st, loc, t⟩ := c
    obtain ⟨st', loc', t'⟩ := c'
    obtain ⟨rfl, rfl, rfl, rfl⟩ := h
    exact hk st loc
  all_goals simp_all [Out.bind, Out.Alike]

theorem RunsAlike.inBlock {s : Store W} {s' : Store W'} {b : Cfg W → Out W} {b' : Cfg W' → Out W'} (h : RunsAlike s s' b b') (t : FuncType) :
    RunsAlike s s' (inBlock t b) (inBlock t b') := by
  intro st loc
  unfold Wastrum.inBlock
  dsimp only
  split
  · have := h (st.take t.inputs.length) loc
    revert this
    generalize b _ = o
    generalize b' _ = o'
    intro h
    cases o <;> cases o' <;> simp only [Out.Alike] at h <;> try exact h.elim
    · simp [Out.Alike, h]
    · rename_i l c l' c'
      obtain ⟨rfl, h⟩ := h
      cases l with
      | zero =>
        simp only [h]
        split <;> simp [Out.Alike, h]
      | succ l => simp [Out.Alike, h]
    all_goals simp [Out.Alike, h]
  · simp [Out.Alike]

theorem RunsAlike.iterate {s : Store W} {s' : Store W'} {b : Cfg W → Out W} {b' : Cfg W' → Out W'} (h : RunsAlike s s' b b') (t : FuncType) (n : Nat) :
    RunsAlike s s' (iterate t b n) (iterate t b' n) := by
  induction n with
  | zero => intro st loc; simp [Wastrum.iterate, Out.Alike]
  | succ n ih =>
    intro st loc
    unfold Wastrum.iterate
    have := h st loc
    revert this
    generalize b _ = o
    generalize b' _ = o'
    intro h
    cases o <;> cases o' <;> simp only [Out.Alike] at h <;> try exact h.elim
    · simp [Out.Alike, h]
    · rename_i l c l' c'
      obtain ⟨st, loc, t⟩ := c
      obtain ⟨st', loc', t'⟩ := c'
      obtain ⟨rfl, rfl, rfl, rfl, rfl⟩ := h
      cases l with
      | zero =>
        dsimp only
        split
        · exact ih _ _
        · simp [Out.Alike]
      | succ l => simp [Out.Alike]
    all_goals simp [Out.Alike, h]

theorem RunsAlike.inLoop {s : Store W} {s' : Store W'} {b : Cfg W → Out W} {b' : Cfg W' → Out W'} (h : RunsAlike s s' b b') (t : FuncType) (n : Nat) :
    RunsAlike s s' (inLoop t b n) (inLoop t b' n) := by
  intro st loc
  unfold Wastrum.inLoop
  dsimp only
  split
  · have := h.iterate t n (st.take t.inputs.length) loc
    revert this
    generalize Wastrum.iterate t b n _ = o
    generalize Wastrum.iterate t b' n _ = o'
    intro h
    cases o <;> cases o' <;> simp only [Out.Alike] at h <;> try exact h.elim
    all_goals simp [Out.Alike, h]
  · simp [Out.Alike]

theorem RunsAlike.branchOn {s : Store W} {s' : Store W'} {a b : Cfg W → Out W} {a' b' : Cfg W' → Out W'} (ha : RunsAlike s s' a a') (hb : RunsAlike s s' b b') :
    RunsAlike s s' (branchOn a b) (branchOn a' b') := by
  intro st loc
  unfold Wastrum.branchOn
  dsimp only
  split
  · split
    · exact hb _ _
    · exact ha _ _
  · simp [Out.Alike]

/-- Calls of the functions in `P` go the same way. -/
def CallsAlike (P : Nat → Prop) (call : Nat → List RVal → Store W → Res W) (call' : Nat → List RVal → Store W' → Res W') : Prop :=
  ∀ g, P g → ∀ args s s', (call g args s).Alike s s' (call' g args s')

/-- Surroundings that differ only in functions outside `P`. -/
structure EnvsAlike (P : Nat → Prop) (E : Env W) (E' : Env W') : Prop where
  num : E.num = E'.num
  ftype : E.ftype = E'.ftype
  loopFuel : E.loopFuel = E'.loopFuel
  calls : CallsAlike P E.callF E'.callF

/-- Harmless instructions whose callees are in `P`. -/
def LInstr.Safe (P : Nat → Prop) (x : LInstr) : Prop := x.Harmless ∧ ∀ g, x = .call g → P g

theorem step_alike {P : Nat → Prop} {E : Env W} {E' : Env W'} (hE : EnvsAlike P E E') {b : Basic} (hb : b.toL.Safe P) (s : Store W) (s' : Store W') :
    RunsAlike s s' (step E b) (step E' b) := by
  intro st loc
  cases b
  case call g =>
    have hP := hb.2 g rfl
    simp only [step, ← hE.ftype]
    cases E.ftype g with
    | none => simp [Out.Alike]
    | some ty =>
      dsimp only
      unfold doCall
      dsimp only
      split
      · have := hE.calls g hP (st.take ty.inputs.length).reverse s s'
        revert this
        generalize E.callF g _ s = o
        generalize E'.callF g _ s' = o'
        intro h
        cases o <;> cases o' <;> simp only [Res.Alike] at h <;> try exact h.elim
        · obtain ⟨rfl, rfl, rfl⟩ := h
          dsimp only
          split <;> simp [Out.Alike]
        all_goals simp [Out.Alike, h]
      · simp [Out.Alike]
  case loc op i =>
    cases op
    · simp only [step]
      cases loc[i]? <;> simp [Out.Alike]
    · simp only [step]
      cases st with
      | nil => simp [Out.Alike]
      | cons v st => dsimp only; split <;> simp [Out.Alike]
    · simp only [step]
      cases st with
      | nil => simp [Out.Alike]
      | cons v st => dsimp only; split <;> simp [Out.Alike]
  case brIf l =>
    simp only [step]
    split
    · split <;> simp [Out.Alike]
    · simp [Out.Alike]
  case brTable ls d =>
    simp only [step]
    split <;> simp [Out.Alike]
  case refIsNull =>
    simp only [step]
    split <;> simp [Out.Alike]
  case drop =>
    simp only [step]
    split <;> simp [Out.Alike]
  case select =>
    simp only [step]
    split <;> simp [Out.Alike]
  case typedSelect =>
    simp only [step]
    split <;> simp [Out.Alike]
  case unary op =>
    simp only [step, ← hE.num]
    split
    · split
      · split <;> simp [Out.Alike]
      · simp [Out.Alike]
    · simp [Out.Alike]
  case binary op =>
    simp only [step, ← hE.num]
    split
    · split
      · split <;> simp [Out.Alike]
      · simp [Out.Alike]
    · simp [Out.Alike]
  all_goals first
    | exact hb.1.elim
    | simp [step, Out.Alike]

theorem den_alike {P : Nat → Prop} {E : Env W} {E' : Env W'} (hE : EnvsAlike P E E') (s : Store W) (s' : Store W') :
    (∀ i : HI, (∀ x ∈ i.lower, x.Safe P) → RunsAlike s s' (denI E i) (denI E' i)) ∧
    (∀ l : List HI, (∀ x ∈ HI.lowerL l, x.Safe P) → RunsAlike s s' (denL E l) (denL E' l)) := by
  apply HI.induct
  · intro b h; exact fun st loc => by simpa [denI] using step_alike hE (h b.toL (by simp [HI.lower])) s s' st loc
  · intro t body ih h st loc
    simpa [denI] using (ih fun x hx => h x (by simp [HI.lower, hx])).inBlock t st loc
  · intro t body ih h st loc
    simpa [denI, hE.loopFuel] using (ih fun x hx => h x (by simp [HI.lower, hx])).inLoop t E'.loopFuel st loc
  · intro t thn ih h st loc
    have hn : RunsAlike s s' (.norm : Cfg W → Out W) .norm := fun st loc => by simp [Out.Alike]
    simpa [denI] using ((ih fun x hx => h x (by simp [HI.lower, hx])).inBlock t).branchOn (hn.inBlock t) st loc
  · intro t thn els ih1 ih2 h st loc
    simpa [denI] using ((ih1 fun x hx => h x (by simp [HI.lower, hx])).inBlock t).branchOn
      ((ih2 fun x hx => h x (by simp [HI.lower, hx])).inBlock t) st loc
  · intro h st loc; simp [denL, Out.Alike]
  · intro i l ih1 ih2 h st loc
    simp only [denL]
    exact (ih1 (fun x hx => h x (by simp [HI.lowerL, hx])) st loc).bind (ih2 fun x hx => h x (by simp [HI.lowerL, hx]))

theorem runBody_alike {s : Store W} {s' : Store W'} {b : Cfg W → Out W} {b' : Cfg W' → Out W'} (h : RunsAlike s s' b b') (ty : FuncType)
    (locals : List ValType) (args : List RVal) : (runBody ty locals b args s).Alike s s' (runBody ty locals b' args s') := by
  unfold runBody
  have := h [] (args ++ locals.map ValType.zero)
  revert this
  generalize b _ = o
  generalize b' _ = o'
  intro h
  cases o <;> cases o' <;> simp only [Out.Alike] at h <;> try exact h.elim
  · simp only [h]
    split <;> simp [Res.Alike, h]
  · rename_i l c l' c'
    obtain ⟨rfl, h⟩ := h
    cases l with
    | zero =>
      simp only [h]
      split <;> simp [Res.Alike, h]
    | succ l => simp [Res.Alike]
  · simp only [h]
    split <;> simp [Res.Alike, h]
  all_goals simp [Res.Alike, h]

/-- Functions with code that is harmless and calls only such functions go the same way whatever the imports and stores are. -/
theorem calls_alike {m : Module} {P : Nat → Prop} (hP : ∀ i, P i → ∃ code, HasCode m i code ∧ ∀ x ∈ code, x.Safe P)
    (N : Num) (L d : Nat) (H : Imports W) (H' : Imports W') :
    CallsAlike P (callF N (machineOf H m.functions) L d) (callF N (machineOf H' m.functions) L d) := by
  induction d with
  | zero => intro g hg args s s'; simp [callF, Res.Alike]
  | succ d ih =>
    intro g hg args s s'
    obtain ⟨code, hcode, hsafe⟩ := hP g hg
    obtain ⟨f, c, hf, hc, rfl⟩ := hcode
    simp only [callF, machineOf, hf, Option.map_some, implOf, hc]
    refine runBody_alike ?_ _ _ _
    intro st loc
    unfold denFlat
    cases hr : raise c.body with
    | error e => simp [Out.Alike]
    | ok b =>
      refine (den_alike (P := P) (E := ⟨N, _, callF N (machineOf H m.functions) L d, L⟩)
        (E' := ⟨N, _, callF N (machineOf H' m.functions) L d, L⟩) ⟨rfl, ?_, rfl, ih⟩ s s').2 _ ?_ st loc
      · funext g
        cases h : m.functions[g]? <;> simp [machineOf, h]
      · intro x hx
        refine hsafe x ?_
        rw [← C02_lower_raise _ _ hr]
        exact List.mem_append_left _ hx

/-- **C39.** A reported function always gives the same results, or always traps, or never ends, for the same arguments —
whatever the imports, globals, memories, tables and the outside world are — and changes none of them. -/
theorem C39_purity_sound (C : Checker) (m : Module) (fuel : Nat) (answer : List Nat) (h : immutableFunctions C m fuel = .ok answer)
    (i : Nat) (hi : i ∈ answer) (N : Num) (L d : Nat) (H : Imports W) (H' : Imports W') (args : List RVal) (s : Store W) (s' : Store W') :
    (callF N (machineOf H m.functions) L d i args s).Alike s s' (callF N (machineOf H' m.functions) L d i args s') := by
  obtain ⟨out, hI, hfix, hmem⟩ := answer_mem h
  refine calls_alike (P := fun g => calleeEstimate out g = some .pure) ?_ N L d H H' i ((hmem i).mp hi) args s s'
  intro g hg
  obtain ⟨code, hcode, hf⟩ := hI.pure g hg
  refine ⟨code, hcode, fun x hx => ⟨(hf x hx).1, fun k hk => ?_⟩⟩
  rcases (hf x hx).2 k hk with rfl | h
  · exact hg
  · exact h

/-! ## A case that meets the hypotheses -/

/-- An import; the factorial function (which calls itself); a function that calls it; two functions that call each other;
a function that reads memory inside a block; a function that calls it in its last branch. -/
def exPurity : Module where
  functions := [
    ⟨⟨[.i32], []⟩, .imported "env" "print", []⟩,
    ⟨⟨[.i32], [.i32]⟩, .present ⟨[], [.loc .get 0, .ite ⟨[], [.i32]⟩, .loc .get 0, .loc .get 0, .const (.i32 1), .binary .i32Sub,
      .call 1, .binary .i32Mul, .els, .const (.i32 1), .fin, .fin]⟩, ["fact"]⟩,
    ⟨⟨[], [.i32]⟩, .present ⟨[], [.const (.i32 5), .call 1, .fin]⟩, ["main"]⟩,
    ⟨⟨[.i32], [.i32]⟩, .present ⟨[], [.loc .get 0, .call 4, .fin]⟩, []⟩,
    ⟨⟨[.i32], [.i32]⟩, .present ⟨[], [.loc .get 0, .call 3, .fin]⟩, []⟩,
    ⟨⟨[.i32], [.i32]⟩, .present ⟨[], [.block ⟨[], [.i32]⟩, .loc .get 0, .load .i32Load ⟨0, 2⟩, .fin, .fin]⟩, []⟩,
    ⟨⟨[.i32], [.i32]⟩, .present ⟨[], [.loc .get 0, .ite ⟨[], [.i32]⟩, .const (.i32 0), .els, .loc .get 0, .call 5, .fin, .fin]⟩, []⟩]
  tables := []
  elements := []
  memories := [⟨1, none, none, []⟩]
  globals := []
  datas := []
  start := none

theorem exPurity_answer : immutableFunctions exChecker exPurity 8 = .ok [1, 2] := by cbv

theorem exPurity_calls : CallsPresent exPurity := by
  rintro i code g ⟨f, c, hf, hc, rfl⟩ hg
  have h : ∀ f ∈ exPurity.functions, match f.code with
      | .present c => ∀ x ∈ c.body, match x with | .call g => g < 7 | _ => True
      | _ => True := by
    simp only [exPurity, List.mem_cons, List.not_mem_nil, or_false, forall_eq_or_imp, forall_eq]
    simp
  have := h f (List.mem_of_getElem? hf)
  rw [hc] at this
  exact this _ hg

theorem exPurity_raises : AllRaise exChecker exPurity := by
  have h : ∀ p ∈ exPurity.functions.zipIdx, match p.1.code with
      | .present c => ∃ b, raiseFunction exChecker.check (exChecker.init exPurity p.1) p.2 c.body = .ok b
      | _ => True := by
    simp only [exPurity, List.zipIdx, List.mem_cons, List.not_mem_nil, or_false, forall_eq_or_imp, forall_eq]
    exact ⟨trivial, ⟨_, rfl⟩, ⟨_, rfl⟩, ⟨_, rfl⟩, ⟨_, rfl⟩, ⟨_, rfl⟩, ⟨_, rfl⟩⟩
  intro i f c hf hc
  have := h (f, i) (by
    rw [List.mem_iff_getElem?]
    exact ⟨i, by simp [List.getElem?_zipIdx, hf]⟩)
  simp only [hc] at this
  exact this

-- C40: the module has seven functions, and eight rounds are enough; two are not.
example : ∃ answer, ∀ fuel, 8 ≤ fuel → immutableFunctions exChecker exPurity fuel = .ok answer :=
  C40_purity_terminates exChecker exPurity exPurity_raises exPurity_calls
example : immutableFunctions exChecker exPurity 2 = .error .fuel := by cbv
example : ∃ ts out, purityInit exChecker exPurity = some ts ∧ purityLoop 8 ts = .ok out := by
  obtain ⟨ts, hts⟩ := init_isSome exPurity_raises
  have h := exPurity_answer
  rw [immutableFunctions, hts] at h
  cases ho : purityLoop 8 ts with
  | error e => simp [ho] at h
  | ok out => exact ⟨ts, out, hts, ho⟩
-- C41: what is reported reaches only clean functions; the mutually recursive functions 3 and 4 are clean and not reported.
example : ∀ j, ReachedFrom exPurity 2 j → Clean exPurity j ∧ ¬ Relation.TransGen (CallsOther exPurity) j j :=
  (C41_purity_complete exChecker exPurity 8 _ exPurity_calls exPurity_answer 2).mp (by simp)
example : Clean exPurity 3 ∧ Relation.TransGen (CallsOther exPurity) 3 3 :=
  ⟨⟨_, ⟨_, _, rfl, rfl, rfl⟩, by simp [LInstr.Harmless]⟩,
   .tail (b := 4) (.single ⟨by decide, _, ⟨_, _, rfl, rfl, rfl⟩, by simp⟩) ⟨by decide, _, ⟨_, _, rfl, rfl, rfl⟩, by simp⟩⟩
-- C39: any two linkings of the module agree on `fact`, which really computes something.
example (N : Num) (H : Imports Nat) (H' : Imports Bool) (args : List RVal) (s : Store Nat) (s' : Store Bool) (d : Nat) :
    (callF N (machineOf H exPurity.functions) 100 d 1 args s).Alike s s' (callF N (machineOf H' exPurity.functions) 100 d 1 args s') :=
  C39_purity_sound exChecker exPurity 8 _ exPurity_answer 1 (by simp) N 100 d H H' args s s'

end Wastrum
