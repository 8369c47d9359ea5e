import Verif.PassSpec
import Verif.NestingThms
/-!
# Properties of the instrumentation passes (C05, C06, C07, C08, C16, C18)
-/

set_option linter.unusedSimpArgs false
set_option linter.unusedVariables false

namespace Wastrum

/-! ## Lemmas -/

/-- A number of the program that is turned into a constant is below `2^31`. -/
def LInstr.Small : LInstr → Prop
  | .brIf l => l < 2 ^ 31
  | .brTable l d => (∀ x ∈ l, x < 2 ^ 31) ∧ d < 2 ^ 31
  | .call f => f < 2 ^ 31
  | .callIndirect _ tbl => tbl < 2 ^ 31
  | .block t | .loop t | .ite t => t.inputs.length < 2 ^ 31 ∧ t.results.length < 2 ^ 31
  | _ => True

theorem fits_of_locs :
    (∀ i : TI, (∀ x ∈ i.locs, x.2.1 < 2 ^ 63 ∧ x.2.2.2.Small) → i.Fits) ∧
    (∀ l : List TI, (∀ x ∈ TI.locsL l, x.2.1 < 2 ^ 63 ∧ x.2.2.2.Small) → TI.FitsL l) := by
  apply TI.induct
  · intro m b h
    simp only [TI.locs, List.mem_singleton, forall_eq] at h
    rw [TI.Fits.eq_def]; dsimp only
    refine fun _ => ⟨h.1, ?_⟩
    cases b <;> first | exact h.2 | trivial
  · intro m t body ih h
    simp only [TI.locs, List.mem_cons, forall_eq_or_imp] at h
    exact ⟨fun _ => ⟨h.1.1, h.1.2⟩, ih h.2⟩
  · intro m t body ih h
    simp only [TI.locs, List.mem_cons, forall_eq_or_imp] at h
    exact ⟨fun _ => ⟨h.1.1, h.1.2⟩, ih h.2⟩
  · intro m t body ih h
    simp only [TI.locs, List.mem_cons, forall_eq_or_imp] at h
    exact ⟨fun _ => ⟨h.1.1, h.1.2⟩, ih h.2⟩
  · intro m t thn els ih1 ih2 h
    simp only [TI.locs, List.mem_cons, forall_eq_or_imp, List.mem_append] at h
    exact ⟨fun _ => ⟨h.1.1, h.1.2⟩, ih1 fun x hx => h.2 x (.inl hx), ih2 fun x hx => h.2 x (.inr hx)⟩
  · intro _; simp [TI.FitsL]
  · intro i l hi hl h
    simp only [TI.locsL, List.mem_append] at h
    exact ⟨hi fun x hx => h x (.inl hx), hl fun x hx => h x (.inr hx)⟩

/-- The bodies the tool starts from satisfy the size condition if the flat body does. -/
theorem fits_of_raise {σ : Type} {check : σ → LInstr → Option (σ × InferredTy)} {init : σ} {fidx : Nat}
    {flat : List LInstr} {body : List TI} (h : raiseFunction check init fidx flat = .ok body)
    (hlen : flat.length ≤ 2 ^ 63) (hs : ∀ i ∈ flat, i.Small) : TI.FitsL body := by
  refine fits_of_locs.2 body ?_
  rintro ⟨f, i, fl, x⟩ hx
  obtain ⟨_, _, h3⟩ := C04_location_points_to_itself check init fidx flat body h f i fl x hx
  obtain ⟨hi, he⟩ := List.getElem?_eq_some_iff.1 h3
  exact ⟨by dsimp only; omega, hs x (he ▸ List.getElem_mem hi)⟩

/-- The bodies the tool starts from contain no inserted code. -/
theorem pristine_of_raise {σ : Type} {check : σ → LInstr → Option (σ × InferredTy)} {init : σ} {fidx : Nat}
    {flat : List LInstr} {body : List TI} (h : raiseFunction check init fidx flat = .ok body) : Pristine body := by
  rintro ⟨f, i, fl, x⟩ hx
  exact (C04_location_points_to_itself check init fidx flat body h f i fl x hx).2.1

theorem stripL_append (a b : List TI) : TI.stripL (a ++ b) = TI.stripL a ++ TI.stripL b := by
  induction a with
  | nil => rfl
  | cons i a ih => simp [TI.stripL, ih]

theorem stripL_map_ins (m : Meta) (l : List Basic) : TI.stripL (l.map (ins m)) = [] := by
  induction l with
  | nil => rfl
  | cons b l ih => simp [TI.stripL, ih, ins, TI.strip, insMeta]

theorem stripL_hookCall (m : Meta) (imm) (k) : TI.stripL (hookCall m imm k) = [] := stripL_map_ins _ _

theorem stripL_hooked (σ : Sel) (m : Meta) (x) : TI.stripL (hooked σ m x) = [] := by
  unfold hooked; split
  · rfl
  · split
    · rfl
    · exact stripL_hookCall _ _ _

theorem hookReplace_delegate (b : Basic) : (hookReplace b).map (·.1) = b.delegate := by
  cases b <;> simp [hookReplace, Basic.delegate, Function.comp_def]

theorem stripL_orReplaced (σ : Sel) (m : Meta) (b : Basic) (hm : m.flag = false) :
    TI.stripL (orReplaced σ m b) = if delegated σ b then [] else [.basic b] := by
  have hd := hookReplace_delegate b
  unfold orReplaced delegated
  rw [← hd]
  cases hookReplace b with
  | none => simp [TI.stripL, TI.strip, hm]
  | some p =>
    obtain ⟨t, imm⟩ := p
    cases hσ : σ t with
    | none => simp [TI.stripL, TI.strip, hm, hσ]
    | some k => simp [stripL_hookCall, hσ]

theorem strip_expand (σ : Sel) :
    (∀ i : TI, (∀ x ∈ i.locs, x.2.2.1 = false) → ∀ n, TI.stripL (expandI σ n i) = i.undelegated σ) ∧
    (∀ l : List TI, Pristine l → ∀ n, TI.stripL (expandL σ n l) = TI.undelegatedL σ l) := by
  apply TI.induct
  · intro m b h n
    have hm : m.flag = false := by simpa [TI.locs] using h
    rw [expandI_basic _ _ _ _ hm]
    simp [stripL_append, stripL_hooked, stripL_orReplaced _ _ _ hm, TI.undelegated]
  · intro m t body ih h n
    simp only [TI.locs, List.mem_cons, forall_eq_or_imp] at h
    have := ih h.2
    rw [expandI.eq_def]
    simp [h.1, TI.stripL, TI.strip, stripL_append, stripL_hooked, this, TI.undelegated]
  · intro m t body ih h n
    simp only [TI.locs, List.mem_cons, forall_eq_or_imp] at h
    have := ih h.2
    rw [expandI.eq_def]
    simp [h.1, TI.stripL, TI.strip, stripL_append, stripL_hooked, this, TI.undelegated]
  · intro m t body ih h n
    simp only [TI.locs, List.mem_cons, forall_eq_or_imp] at h
    have := ih h.2
    rw [expandI.eq_def]
    simp only [h.1, Bool.false_eq_true, if_false]
    split <;> simp [h.1, TI.stripL, TI.strip, stripL_append, stripL_hooked, stripL_hookCall, this, TI.undelegated, insMeta]
  · intro m t thn els ih1 ih2 h n
    simp only [TI.locs, List.mem_cons, forall_eq_or_imp, List.mem_append] at h
    have e1 := ih1 fun x hx => h.2 x (.inl hx)
    have e2 := ih2 fun x hx => h.2 x (.inr hx)
    rw [expandI.eq_def]
    simp [h.1, TI.stripL, TI.strip, stripL_append, stripL_hooked, e1, e2, TI.undelegated]
  · intro _ n; rfl
  · intro i l hi hl h n
    have a1 := hi fun x hx => h x (by simp [TI.locsL, hx])
    have a2 := hl fun x hx => h x (by simp [TI.locsL, hx])
    simp [expandL, stripL_append, a1, a2, TI.undelegatedL]

theorem undelegated_eq_erase {σ : Sel} (h : ∀ b : Basic, delegated σ b = false) :
    (∀ i : TI, i.undelegated σ = [i.erase]) ∧ (∀ l : List TI, TI.undelegatedL σ l = TI.eraseL l) := by
  apply TI.induct <;> intros <;> simp_all [TI.undelegated, TI.erase, TI.undelegatedL, TI.eraseL]

theorem lowerL_append (a b : List TI) : TI.lowerL (a ++ b) = TI.lowerL a ++ TI.lowerL b := by
  induction a with
  | nil => rfl
  | cons i a ih => simp [TI.lowerL, ih]

theorem lowerL_map_ins (m : Meta) (l : List Basic) : TI.lowerL (l.map (ins m)) = l.map Basic.toL := by
  induction l with
  | nil => rfl
  | cons b l ih => simp [TI.lowerL, ih, ins, TI.lower]

theorem CallsLocated.mono {H S S' l} (h : CallsLocated H S l) (hs : ∀ k f i, S k f i → S' k f i) : CallsLocated H S' l := by
  intro pre k post e hk
  obtain ⟨p, f, i, h1, h2⟩ := h pre k post e hk
  exact ⟨p, f, i, h1, hs _ _ _ h2⟩

theorem CallsLocated.triple {H S} {f i : BitVec 64} {k : Nat} (hs : H k → S k f i) :
    CallsLocated H S [.const (.i64 f), .const (.i64 i), .call k] := by
  intro pre k' post e hk
  rcases pre with _ | ⟨a, _ | ⟨b, _ | ⟨c, pre⟩⟩⟩
  · simp at e
  · simp at e
  · simp at e
    obtain ⟨rfl, rfl, rfl, rfl⟩ := e
    exact ⟨[], f, i, rfl, hs hk⟩
  · simp at e

/-- Calls in the immediates of a hook call only go to branch-table helpers. -/
theorem located_hookCall {H S} {m : Meta} {imm : List Basic} {k : Nat}
    (hi : ∀ b ∈ imm, ∀ f, b.toL = .call f → ¬ H f)
    (hs : H k → S k (BitVec.ofNat 64 m.fidx) (BitVec.ofNat 64 m.iidx)) : CallsLocated H S (TI.lowerL (hookCall m imm k)) := by
  unfold hookCall
  rw [List.map_append, lowerL_append, lowerL_map_ins, lowerL_map_ins]
  refine CallsLocated.append ?_ (CallsLocated.triple hs)
  induction imm with
  | nil => exact .nil
  | cons b l ih => exact CallsLocated.cons (hi b (by simp)) (ih fun b' hb' => hi b' (by simp [hb']))

theorem hookBefore_imm {n m b t imm} (h : hookBefore n m b = some (t, imm)) :
    (∀ x ∈ imm, ∀ f, x.toL = .call f → ∃ l d, b = .brTable l d ∧ f = n) ∧ t ∈ headHooks m.ty b.toL := by
  cases b
  case loc op i =>
    cases op <;> simp only [hookBefore, reduceCtorEq, Option.map_eq_some_iff, Prod.mk.injEq] at h
    all_goals
      obtain ⟨a, ha, rfl, rfl⟩ := h
      simp [cI64, Basic.toL, headHooks, ha]
  case glob op i =>
    cases op <;> simp only [hookBefore, reduceCtorEq, Option.map_eq_some_iff, Prod.mk.injEq] at h
    obtain ⟨a, ha, rfl, rfl⟩ := h
    simp [cI64, Basic.toL, headHooks, ha]
  all_goals simp [hookBefore] at h
  all_goals
    obtain ⟨rfl, rfl⟩ := h
    simp [cI32, cI64, Basic.toL, headHooks]

theorem hookAfter_imm {m b t imm} (h : hookAfter m b = some (t, imm)) :
    (∀ x ∈ imm, ∀ f, x.toL ≠ .call f) ∧ t ∈ headHooks m.ty b.toL := by
  cases b
  case loc op i =>
    cases op <;> simp only [hookAfter, reduceCtorEq, Option.map_eq_some_iff, Prod.mk.injEq] at h
    all_goals
      obtain ⟨a, ha, rfl, rfl⟩ := h
      simp [cI64, Basic.toL, headHooks, ha]
  case glob op i =>
    cases op <;> simp only [hookAfter, reduceCtorEq, Option.map_eq_some_iff, Prod.mk.injEq] at h
    obtain ⟨a, ha, rfl, rfl⟩ := h
    simp [cI64, Basic.toL, headHooks, ha]
  case const v =>
    simp [hookAfter] at h
    obtain ⟨a, ha, rfl, rfl⟩ := h
    simp [Basic.toL, headHooks, ha]
  all_goals simp [hookAfter] at h
  all_goals
    obtain ⟨rfl, rfl⟩ := h
    simp [cI32, cI64, Basic.toL, headHooks]

theorem hookReplace_imm {m : Meta} {b t imm} (h : hookReplace b = some (t, imm)) :
    (∀ x ∈ imm, ∀ f, x.toL ≠ .call f) ∧ t ∈ headHooks m.ty b.toL := by
  cases b <;> simp [hookReplace] at h
  case memoryGrow i => obtain ⟨rfl, rfl⟩ := h; simp [cI64, Basic.toL, headHooks]
  all_goals
    obtain ⟨a, ha, rfl, rfl⟩ := h
    simp [Basic.toL, headHooks, ha]

/-- Where a hook index may be reported from. -/
def Triggers (σ : Sel) (sites : List (Nat × Nat × List Trap)) (k : Nat) (f i : BitVec 64) : Prop :=
  ∃ s ∈ sites, ∃ t ∈ s.2.2, σ t = some k ∧ f = BitVec.ofNat 64 s.1 ∧ i = BitVec.ofNat 64 s.2.1

theorem Triggers.mono {σ a b k f i} (h : Triggers σ a k f i) (hs : ∀ x ∈ a, x ∈ b) : Triggers σ b k f i := by
  obtain ⟨s, hm, t, ht, r⟩ := h
  exact ⟨s, hs s hm, t, ht, r⟩

theorem located_hooked {σ : Sel} {H sites} {m : Meta} {t : Trap} {imm : List Basic} {hs : List Trap}
    (hi : ∀ b ∈ imm, ∀ f, b.toL = .call f → ¬ H f) (hsite : (m.fidx, m.iidx, hs) ∈ sites) (ht : t ∈ hs) :
    CallsLocated H (Triggers σ sites) (TI.lowerL (hooked σ m (some (t, imm)))) := by
  simp only [hooked]
  cases hk : σ t with
  | none => exact .nil
  | some k => exact located_hookCall hi fun _ => ⟨_, hsite, t, ht, hk, rfl, rfl⟩

theorem located_hookedO {σ : Sel} {H sites} {m : Meta} {x : Option (Trap × List Basic)} {hs : List Trap}
    (hsite : (m.fidx, m.iidx, hs) ∈ sites)
    (hx : ∀ t imm, x = some (t, imm) → (∀ b ∈ imm, ∀ f, b.toL = .call f → ¬ H f) ∧ t ∈ hs) :
    CallsLocated H (Triggers σ sites) (TI.lowerL (hooked σ m x)) := by
  cases x with
  | none => exact .nil
  | some p =>
    obtain ⟨t, imm⟩ := p
    exact located_hooked (hx t imm rfl).1 hsite (hx t imm rfl).2

theorem located_expand (σ : Sel) (H : Nat → Prop) :
    (∀ i : TI, (∀ x ∈ i.locs, x.2.2.1 = false ∧ ∀ f, x.2.2.2 = .call f → ¬ H f) →
      ∀ n, (∀ j, j < i.tables.length → ¬ H (n + j)) →
        CallsLocated H (Triggers σ i.sites) (TI.lowerL (expandI σ n i))) ∧
    (∀ l : List TI, (∀ x ∈ TI.locsL l, x.2.2.1 = false ∧ ∀ f, x.2.2.2 = .call f → ¬ H f) →
      ∀ n, (∀ j, j < (TI.tablesL l).length → ¬ H (n + j)) →
        CallsLocated H (Triggers σ (TI.sitesL l)) (TI.lowerL (expandL σ n l))) := by
  apply TI.induct
  · intro m b h n hn
    simp only [TI.locs, List.mem_singleton, forall_eq] at h
    rw [expandI_basic _ _ _ _ h.1, lowerL_append, lowerL_append]
    have hsite : (m.fidx, m.iidx, headHooks m.ty b.toL) ∈ (TI.basic m b).sites := by simp [TI.sites]
    refine ((located_hookedO hsite ?_).append ?_).append (located_hookedO hsite ?_)
    · intro t imm e
      refine ⟨?_, (hookBefore_imm e).2⟩
      intro x hx f hf
      obtain ⟨l, d, rfl, rfl⟩ := (hookBefore_imm e).1 x hx f hf
      simpa using hn 0 (by simp [TI.tables, h.1])
    · unfold orReplaced
      split
      · simpa [TI.lowerL, TI.lower] using CallsLocated.single (S := Triggers σ _) h.2
      · rename_i t imm e
        cases hk : σ t with
        | none => simpa [TI.lowerL, TI.lower] using CallsLocated.single (S := Triggers σ _) h.2
        | some k =>
          exact located_hookCall (fun x hx f hf => absurd hf ((hookReplace_imm (m := m) e).1 x hx f))
            fun _ => ⟨_, hsite, t, (hookReplace_imm (m := m) e).2, hk, rfl, rfl⟩
    · intro t imm e
      exact ⟨fun x hx f hf => absurd hf ((hookAfter_imm e).1 x hx f), (hookAfter_imm e).2⟩
  · intro m t body ih h n hn
    simp only [TI.locs, List.mem_cons, forall_eq_or_imp] at h
    have hsite : (m.fidx, m.iidx, [.preBlock, .postBlock]) ∈ (TI.block m t body).sites := by simp [TI.sites]
    rw [expandI.eq_def]
    simp only [h.1.1, Bool.false_eq_true, if_false, TI.lowerL, TI.lower, List.append_nil, lowerL_append]
    refine .cons (by simp) (.append (.append (.append ?_ ?_) ?_) (.single (by simp)))
    · exact located_hooked (by simp [arity, cI32, Basic.toL]) hsite (by simp)
    · exact (ih h.2 n hn).mono fun k f i hh => hh.mono (by simp +contextual [TI.sites])
    · exact located_hooked (by simp) hsite (by simp)
  · intro m t body ih h n hn
    simp only [TI.locs, List.mem_cons, forall_eq_or_imp] at h
    have hsite : (m.fidx, m.iidx, [.preLoop, .postLoop]) ∈ (TI.loop m t body).sites := by simp [TI.sites]
    rw [expandI.eq_def]
    simp only [h.1.1, Bool.false_eq_true, if_false, TI.lowerL, TI.lower, List.append_nil, lowerL_append]
    refine .cons (by simp) (.append (.append (.append ?_ ?_) ?_) (.single (by simp)))
    · exact located_hooked (by simp [arity, cI32, Basic.toL]) hsite (by simp)
    · exact (ih h.2 n hn).mono fun k f i hh => hh.mono (by simp +contextual [TI.sites])
    · exact located_hooked (by simp) hsite (by simp)
  · intro m t thn ih h n hn
    simp only [TI.locs, List.mem_cons, forall_eq_or_imp] at h
    have hsite : (m.fidx, m.iidx, [.ifThenTrap, .ifThenPostTrap]) ∈ (TI.ifThen m t thn).sites := by simp [TI.sites]
    have hih : CallsLocated H (Triggers σ (TI.ifThen m t thn).sites) (TI.lowerL (expandL σ n thn)) :=
      (ih h.2 n hn).mono fun k f i hh => hh.mono (by simp +contextual [TI.sites])
    rw [expandI.eq_def]
    simp only [h.1.1, Bool.false_eq_true, if_false, lowerL_append]
    refine .append (located_hooked (by simp [arity, cI32, Basic.toL]) hsite (by simp)) ?_
    split
    · simp only [TI.lowerL, TI.lower, List.append_nil]
      exact .cons (by simp) (.append hih (.single (by simp)))
    · rename_i k hk
      have hc : CallsLocated H (Triggers σ (TI.ifThen m t thn).sites) (TI.lowerL (hookCall m [] k)) :=
        located_hookCall (by simp) fun _ => ⟨_, hsite, .ifThenPostTrap, by simp, hk, rfl, rfl⟩
      simp only [TI.lowerL, TI.lower, List.append_nil, lowerL_append]
      exact .cons (by simp) (.append (.append hih hc) (.cons (by simp) (.append hc (.single (by simp)))))
  · intro m t thn els ih1 ih2 h n hn
    simp only [TI.locs, List.mem_cons, forall_eq_or_imp, List.mem_append] at h
    have hsite : (m.fidx, m.iidx, [.ifThenElseTrap, .ifThenElsePostTrap]) ∈ (TI.ifElse m t thn els).sites := by simp [TI.sites]
    have h1 : CallsLocated H (Triggers σ (TI.ifElse m t thn els).sites) (TI.lowerL (expandL σ n thn)) :=
      (ih1 (fun x hx => h.2 x (.inl hx)) n (fun j hj => hn j (by simp [TI.tables]; omega))).mono
        fun k f i hh => hh.mono (by simp +contextual [TI.sites])
    have h2 : CallsLocated H (Triggers σ (TI.ifElse m t thn els).sites)
        (TI.lowerL (expandL σ (n + (TI.tablesL thn).length) els)) :=
      (ih2 (fun x hx => h.2 x (.inr hx)) _ (fun j hj => by
        rw [Nat.add_assoc]; exact hn _ (by simp [TI.tables]; omega))).mono
        fun k f i hh => hh.mono (by simp +contextual [TI.sites])
    have hp : CallsLocated H (Triggers σ (TI.ifElse m t thn els).sites)
        (TI.lowerL (hooked σ m (some (.ifThenElsePostTrap, [])))) :=
      located_hooked (by simp) hsite (by simp)
    rw [expandI.eq_def]
    simp only [h.1.1, Bool.false_eq_true, if_false, lowerL_append, TI.lowerL, TI.lower, List.append_nil]
    refine .append (located_hooked (by simp [arity, cI32, Basic.toL]) hsite (by simp)) ?_
    exact .cons (by simp) (.append (.append h1 hp) (.cons (by simp) (.append (.append h2 hp) (.single (by simp)))))
  · intro _ n _; exact .nil
  · intro i l hi hl h n hn
    simp only [expandL, lowerL_append]
    refine .append ?_ ?_
    · exact (hi (fun x hx => h x (by simp [TI.locsL, hx])) n (fun j hj => hn j (by simp [TI.tablesL]; omega))).mono
        fun k f i hh => hh.mono (by simp +contextual [TI.sitesL])
    · exact (hl (fun x hx => h x (by simp [TI.locsL, hx])) _ (fun j hj => by
        rw [Nat.add_assoc]; exact hn _ (by simp [TI.tablesL]; omega))).mono
        fun k f i hh => hh.mono (by simp +contextual [TI.sitesL])

/-! ## C16 -/

/-- **C16.** Running the selected passes one after another, in the order of the tool's table, is the same as
rewriting every instruction once by the combined effect of all selected hooks. The helper functions of
`br_table`s are appended in the order in which the `br_table`s occur. -/
theorem C16_passes_eq_rewrite (σ : Sel) (body : List TI) (fs : List Func) (h : TI.FitsL body) :
    runPasses (toolPasses σ) body fs = .ok (expandL σ fs.length body, fs ++ helpersFor σ body) :=
  runPasses_tool σ body fs h

/-- A body with an `if` without `else` around a call, a comparison and a `br_table`, and a selection in which
both `if` hooks, both call hooks, the branch-table hook and a delegated comparison are present. -/
def exBody : List TI :=
  [.block ⟨3, 0, .unreachable, false⟩ ⟨[], []⟩
    [.basic ⟨3, 1, .reachable ⟨[], [.i32]⟩, false⟩ (.loc .get 0),
     .basic ⟨3, 2, .unreachable, false⟩ (.unary .i32Eqz),
     .ifThen ⟨3, 3, .unreachable, false⟩ ⟨[], []⟩
       [.basic ⟨3, 4, .unreachable, false⟩ (.call 5),
        .basic ⟨3, 5, .reachable ⟨[], [.i32]⟩, false⟩ (.loc .get 0),
        .basic ⟨3, 6, .unreachable, false⟩ (.brTable [0, 1] 0)]]]

/-- The selection used with `exBody`. -/
def exSel : Sel := Sel.ofList [(.ifThenPostTrap, 101), (.ifThenTrap, 100), (.preTrapCall, 102), (.postTrapCall, 103),
  (.brTableTrap, 104), (.unaryI32ToI32, 105), (.preBlock, 106), (.localGetI32, 107)]

example : TI.FitsL exBody := by simp [exBody, TI.FitsL, TI.Fits]
example : Pristine exBody := by simp [exBody, Pristine, TI.locsL, TI.locs]
example : (toolPasses exSel).length = 8 := by decide +kernel
example : (lowerTyped exBody).length = 10 ∧ (lowerTyped (expandL exSel 200 exBody)).length = 51 := by decide +kernel

/-! ## C05 -/

/-- **C05 (no abort).** Whatever the body and the selection, the assertions that guard inserted code never fire. -/
theorem C05_assertions_never_fire (σ : Sel) (body : List TI) (fs : List Func) :
    runPasses (toolPasses σ) body fs ≠ .error .assertion :=
  (runPasses_noAssert (toolPasses σ) body fs).ne

/-- **C05 (no abort).** When the indices of the module fit their constants (always the case for real modules) the
sequence of passes runs to completion. -/
theorem C05_passes_complete {S : Type} (check : S → LInstr → Option (S × InferredTy)) (init : S) (fidx : Nat)
    (flat : List LInstr) (body : List TI) (h : raiseFunction check init fidx flat = .ok body)
    (hlen : flat.length ≤ 2 ^ 63) (hs : ∀ i ∈ flat, i.Small) (σ : Sel) (fs : List Func) :
    ∃ r, runPasses (toolPasses σ) body fs = .ok r :=
  ⟨_, runPasses_tool σ body fs (fits_of_raise h hlen hs)⟩

/-- **C05 (inserted code is inert).** No pass changes anything in code that consists of inserted instructions, at any
nesting depth; in particular hooks do not fire for the code of other hooks. -/
theorem C05_inserted_code_is_inert (k : TargetKind) (trap : Nat) (l : List TI) (fs : List Func) (h : AllInserted l) :
    k.transform trap l fs = .ok (l, fs) := by
  obtain ⟨h1, h2, h3⟩ := (allInserted_inert (.single k.trap trap)).2 l h
  rw [TargetKind.transform_ok k trap l h1, h3]
  simp [helpersFor, h2]
  split <;> simp

/-- Code inserted for `call` hooks contains a constant and a call, and is inert under every pass. -/
example : AllInserted (hookCall ⟨3, 4, .unreachable, false⟩ [cI32 5] 102) := by
  simp [AllInserted, hookCall, TI.locsL, TI.locs, ins, insMeta]

/-! ## C06 -/

/-- **C06.** In the flat code produced for a body, every call to an analysis hook is immediately preceded by the two
`i64` constants function index and instruction index of an instruction of the original body that triggers this very
hook. (`k` is a hook index; the program itself and the branch-table helpers have other indices.) -/
theorem C06_hook_calls_report_their_trigger (σ : Sel) (n : Nat) (body : List TI) (hp : Pristine body)
    (hprog : ∀ x ∈ TI.locsL body, ∀ f t, x.2.2.2 = .call f → σ t ≠ some f)
    (hhelp : ∀ j, j < (TI.tablesL body).length → ∀ t, σ t ≠ some (n + j))
    (pre post : List LInstr) (k : Nat) (t : Trap) (hk : σ t = some k)
    (hcode : lowerTyped (expandL σ n body) = pre ++ .call k :: post) :
    ∃ (pre' : List LInstr) (f i : Nat) (hooks : List Trap) (t' : Trap),
      pre = pre' ++ [.const (.i64 (BitVec.ofNat 64 f)), .const (.i64 (BitVec.ofNat 64 i))] ∧
      (f, i, hooks) ∈ TI.sitesL body ∧ t' ∈ hooks ∧ σ t' = some k := by
  have hloc := (located_expand σ (fun k => ∃ t, σ t = some k)).2 body
    (fun x hx => ⟨hp x hx, fun f hf ⟨t, ht⟩ => hprog x hx f t hf ht⟩) n (fun j hj ⟨t, ht⟩ => hhelp j hj t ht)
  obtain ⟨pre', f, i, h1, ⟨s, hs, t', ht', h2, rfl, rfl⟩⟩ :=
    (hloc.append (.single (x := .fin) (by simp))) pre k post hcode ⟨t, hk⟩
  exact ⟨pre', s.1, s.2.1, s.2.2, t', h1, hs, ht', h2⟩

example : (∀ x ∈ TI.locsL exBody, ∀ f t, x.2.2.2 = .call f → exSel t ≠ some f) ∧
    (∀ j, j < (TI.tablesL exBody).length → ∀ t, exSel t ≠ some (200 + j)) := by
  constructor
  · intro x hx f t hf
    simp [exBody, TI.locsL, TI.locs, Basic.toL] at hx
    rcases hx with rfl | rfl | rfl | rfl | rfl | rfl | rfl <;> simp at hf
    subst hf; cases t <;> decide
  · intro j hj t
    have : j = 0 := by simp [exBody, TI.tablesL, TI.tables] at hj; omega
    subst this; cases t <;> decide

/-! ## C07 -/

/-- **C07.** Deleting the inserted code from the instrumented body gives the original instructions, in order and
nesting, without exactly the delegated ones (unary, binary, load, store, memory.grow whose hook is selected). -/
theorem C07_erasing_inserted_code (σ : Sel) (n : Nat) (body : List TI) (hp : Pristine body) :
    TI.stripL (expandL σ n body) = TI.undelegatedL σ body :=
  (strip_expand σ).2 body hp n

/-- **C07.** If none of the delegating hooks is selected, the original program is recovered completely. -/
theorem C07_erasing_gives_program (σ : Sel) (n : Nat) (body : List TI) (hp : Pristine body)
    (hd : ∀ b : Basic, delegated σ b = false) : TI.stripL (expandL σ n body) = TI.eraseL body := by
  rw [C07_erasing_inserted_code σ n body hp, (undelegated_eq_erase hd).2]

example : TI.undelegatedL exSel exBody = [.block ⟨[], []⟩ [.basic (.loc .get 0), .ifThen ⟨[], []⟩
    [.basic (.call 5), .basic (.loc .get 0), .basic (.brTable [0, 1] 0)]]] := rfl

example : ∀ b : Basic, delegated (Sel.ofList [(.ifThenTrap, 1), (.ifThenPostTrap, 2), (.brTrap, 3)]) b = false := by
  intro b
  unfold delegated
  split
  · rfl
  · rename_i t ht
    have : t.grp = .simple ∨ t.grp = .memory := by
      cases b <;> simp [Basic.delegate] at ht
      · exact .inr (loadTrap_grp ht)
      · exact .inr (storeTrap_grp ht)
      · subst ht; exact .inr rfl
      · exact .inl (unaryTrap_grp ht)
      · exact .inl (binaryTrap_grp ht)
    cases t <;> simp_all [Trap.grp, Sel.ofList, Sel.empty]

/-! ## C08 (bodies) -/

/-- **C08.** With no hook selected, the sequence of passes returns the body it was given and adds no function. -/
theorem C08_nothing_selected_nothing_changes (body : List TI) (fs : List Func) :
    runPasses (toolPasses .empty) body fs = .ok (body, fs) := by
  have : toolPasses .empty = [] := by decide +kernel
  rw [this]; rfl

/-- **C08.** A hook that has no triggering instruction in the body changes nothing. -/
theorem C08_untriggered_hook_changes_nothing (k : TargetKind) (trap : Nat) (body : List TI) (fs : List Func)
    (hf : TI.FitsL body) (h : ∀ s ∈ TI.sitesL body, k.trap ∉ s.2.2) : k.transform trap body fs = .ok (body, fs) := by
  have key : (∀ i : TI, (∀ s ∈ i.sites, k.trap ∉ s.2.2) →
        (∀ n, expandI (.single k.trap trap) n i = [i]) ∧ helpersFor (.single k.trap trap) [i] = []) ∧
      (∀ l : List TI, (∀ s ∈ TI.sitesL l, k.trap ∉ s.2.2) →
        (∀ n, expandL (.single k.trap trap) n l = l) ∧ helpersFor (.single k.trap trap) l = []) := by
    have helpers_append : ∀ (σ : Sel) a b, helpersFor σ a = [] → helpersFor σ b = [] → helpersFor σ (a ++ b) = [] := by
      intro σ a b ha hb
      simp only [helpersFor] at ha hb ⊢
      cases hσ : σ .brTableTrap with
      | none => rfl
      | some k => simp_all [tablesL_append]
    apply TI.induct
    · intro m b hs
      simp only [TI.sites, List.mem_singleton, forall_eq] at hs
      constructor
      · intro n
        cases hm : m.flag
        · rw [expandI_basic _ _ _ _ hm]
          have e1 : hooked (.single k.trap trap) m (hookBefore n m b) = [] := by
            rw [hooked_single]; split
            · rfl
            · rename_i t imm e; rw [if_neg]; rintro rfl; exact hs (hookBefore_imm e).2
          have e2 : hooked (.single k.trap trap) m (hookAfter m b) = [] := by
            rw [hooked_single]; split
            · rfl
            · rename_i t imm e; rw [if_neg]; rintro rfl; exact hs (hookAfter_imm e).2
          have e3 : orReplaced (.single k.trap trap) m b = [.basic m b] := by
            rw [orReplaced_single]; split
            · rfl
            · rename_i t imm e; rw [if_neg]; rintro rfl; exact hs (hookReplace_imm e).2
          rw [e1, e2, e3]; rfl
        · exact expandI_basic_flag _ _ _ _ hm
      · simp only [helpersFor, TI.tablesL, List.append_nil]
        split
        · rfl
        · rename_i x hx
          have hb : Trap.brTableTrap = k.trap := by
            simp only [Sel.single] at hx; split at hx
            · assumption
            · simp at hx
          cases b <;> simp_all [TI.tables, headHooks, Basic.toL]
    · intro m t body ih hs
      simp only [TI.sites, List.mem_cons, forall_eq_or_imp, headHooks, List.not_mem_nil, or_false, not_or] at hs
      obtain ⟨h1, h2⟩ := ih hs.2
      refine ⟨fun n => ?_, by simpa [helpersFor, TI.tablesL, TI.tables] using h2⟩
      rw [expandI.eq_def]; dsimp only
      split <;> simp [h1, hooked_single_some, Ne.symm hs.1.1, Ne.symm hs.1.2]
    · intro m t body ih hs
      simp only [TI.sites, List.mem_cons, forall_eq_or_imp, headHooks, List.not_mem_nil, or_false, not_or] at hs
      obtain ⟨h1, h2⟩ := ih hs.2
      refine ⟨fun n => ?_, by simpa [helpersFor, TI.tablesL, TI.tables] using h2⟩
      rw [expandI.eq_def]; dsimp only
      split <;> simp [h1, hooked_single_some, Ne.symm hs.1.1, Ne.symm hs.1.2]
    · intro m t body ih hs
      simp only [TI.sites, List.mem_cons, forall_eq_or_imp, headHooks, List.not_mem_nil, or_false, not_or] at hs
      obtain ⟨h1, h2⟩ := ih hs.2
      refine ⟨fun n => ?_, by simpa [helpersFor, TI.tablesL, TI.tables] using h2⟩
      have hp : (Sel.single k.trap trap) .ifThenPostTrap = none := by simp [Sel.single, Ne.symm hs.1.2]
      rw [expandI.eq_def]; dsimp only
      rw [hp]
      split <;> simp [h1, hooked_single_some, Ne.symm hs.1.1]
    · intro m t thn els ih1 ih2 hs
      simp only [TI.sites, List.mem_cons, forall_eq_or_imp, headHooks, List.not_mem_nil, or_false, not_or, List.mem_append]
        at hs
      obtain ⟨h1, h2⟩ := ih1 fun s hs' => hs.2 s (.inl hs')
      obtain ⟨g1, g2⟩ := ih2 fun s hs' => hs.2 s (.inr hs')
      refine ⟨fun n => ?_, ?_⟩
      · rw [expandI.eq_def]; dsimp only
        split <;> simp [h1, g1, hooked_single_some, Ne.symm hs.1.1, Ne.symm hs.1.2]
      · have := helpers_append _ _ _ h2 g2
        simpa [helpersFor, TI.tablesL, TI.tables, tablesL_append] using this
    · intro _
      refine ⟨fun n => rfl, ?_⟩
      simp only [helpersFor, TI.tablesL]; split <;> rfl
    · intro i l hi hl hs
      simp only [TI.sitesL, List.mem_append] at hs
      obtain ⟨h1, h2⟩ := hi fun s hs' => hs s (.inl hs')
      obtain ⟨g1, g2⟩ := hl fun s hs' => hs s (.inr hs')
      exact ⟨fun n => by simp [expandL, h1, g1], helpers_append _ [i] l h2 g2⟩
  obtain ⟨h1, h2⟩ := key.2 body h
  rw [TargetKind.transform_ok k trap body hf, h1, h2]
  simp

example : ∀ s ∈ TI.sitesL exBody, (TargetKind.simple .binaryI32I32toI32).trap ∉ s.2.2 := by
  simp [exBody, TI.sitesL, TI.sites, headHooks, Basic.toL, TargetKind.trap, SimpleKind.trap, unaryTrap, UnaryOp.sig,
    InferredTy.reads, localTrap]

/-! ## C18 -/

/-- A pass leaves an instruction alone. -/
def LeavesAlone (k : TargetKind) (b : Basic) : Prop :=
  ∀ (m : Meta) (trap : Nat) (fs : List Func), m.flag = false → m.iidx < 2 ^ 63 →
    k.transform trap [.basic m b] fs = .ok ([.basic m b], fs)

theorem leavesAlone_iff {b : Basic} {t : Trap} {imm} (hr : hookReplace b = some (t, imm)) (p : Trap × TargetKind)
    (hp : p ∈ trapTable) : LeavesAlone p.2 b ↔ p.1 ≠ t := by
  have hfit : ∀ m : Meta, m.flag = false → m.iidx < 2 ^ 63 → TI.FitsL [.basic m b] := by
    intro m hm hi
    refine ⟨?_, trivial⟩
    cases b <;> first | (simp [hookReplace] at hr; done) | exact fun _ => ⟨hi, trivial⟩
  have htab : ∀ m : Meta, TI.tablesL [.basic m b] = [] := by
    intro m; cases b <;> first | (simp [hookReplace] at hr; done) | rfl
  have htrap := trapTable_trap p hp
  obtain ⟨q, k⟩ := p
  dsimp only at htrap ⊢
  subst htrap
  have key : ∀ (m : Meta) (trap : Nat) (fs : List Func), m.flag = false → m.iidx < 2 ^ 63 →
      k.transform trap [.basic m b] fs =
        .ok (if t = k.trap then hookCall m imm trap else [.basic m b], fs) := by
    intro m trap fs hm hi
    obtain ⟨e1, e2⟩ := @hookBefore_replace fs.length m b _ hr
    rw [TargetKind.transform_ok k trap _ (hfit m hm hi), expandL_basic, expandI_basic _ _ _ _ hm, e1, e2]
    have : helpersFor (.single k.trap trap) [.basic m b] = [] := by
      simp only [helpersFor, htab]; split <;> rfl
    rw [this, orReplaced_single, hr]
    simp
  constructor
  · intro h e
    have h1 := h ⟨0, 0, .unreachable, false⟩ 0 [] rfl (by decide)
    rw [key _ _ _ rfl (by decide), if_pos e.symm] at h1
    simp only [hookCall, Except.ok.injEq, Prod.mk.injEq, and_true] at h1
    cases imm with
    | nil => simp [ins] at h1
    | cons a imm => simp [ins] at h1
  · intro h m trap fs hm hi
    rw [key m trap fs hm hi, if_neg (fun e => h e.symm)]

/-- **C18.** Every unary operator is handled by exactly one of the tool's hooks, and that hook takes the operand (then
operator code and location) and returns the result at the operator's types. -/
theorem C18_unary (op : UnaryOp) : ∃ t : Trap, t.args = [op.sig.1, .i32, .i64, .i64] ∧ t.results = [op.sig.2] ∧
    ∀ p ∈ trapTable, ¬ LeavesAlone p.2 (.unary op) ↔ p.1 = t := by
  have h : ∃ t, unaryTrap op.sig = some t ∧ t.args = [op.sig.1, .i32, .i64, .i64] ∧ t.results = [op.sig.2] := by
    cases op <;> exact ⟨_, rfl, rfl, rfl⟩
  obtain ⟨t, ht, h1, h2⟩ := h
  refine ⟨t, h1, h2, fun p hp => ?_⟩
  rw [leavesAlone_iff (t := t) (imm := [.const (.i32 op.serialize)]) (by simp [hookReplace, ht]) p hp, Classical.not_not]

/-- **C18.** The same for binary operators. -/
theorem C18_binary (op : BinaryOp) : ∃ t : Trap, t.args = [op.sig.1, op.sig.1, .i32, .i64, .i64] ∧ t.results = [op.sig.2] ∧
    ∀ p ∈ trapTable, ¬ LeavesAlone p.2 (.binary op) ↔ p.1 = t := by
  have h : ∃ t, binaryTrap op.sig = some t ∧ t.args = [op.sig.1, op.sig.1, .i32, .i64, .i64] ∧ t.results = [op.sig.2] := by
    cases op <;> exact ⟨_, rfl, rfl, rfl⟩
  obtain ⟨t, ht, h1, h2⟩ := h
  refine ⟨t, h1, h2, fun p hp => ?_⟩
  rw [leavesAlone_iff (t := t) (imm := [.const (.i32 op.serialize)]) (by simp [hookReplace, ht]) p hp, Classical.not_not]

/-- **C18.** The same for loads: address, offset, operator code and location in, the loaded value out. -/
theorem C18_load (op : LoadOp) (ma : Memarg) : ∃ t : Trap, t.args = [.i32, .i64, .i32, .i64, .i64] ∧ t.results = [op.ty] ∧
    ∀ p ∈ trapTable, ¬ LeavesAlone p.2 (.load op ma) ↔ p.1 = t := by
  have h : ∃ t, loadTrap op.ty = some t ∧ t.args = [.i32, .i64, .i32, .i64, .i64] ∧ t.results = [op.ty] := by
    cases op <;> exact ⟨_, rfl, rfl, rfl⟩
  obtain ⟨t, ht, h1, h2⟩ := h
  refine ⟨t, h1, h2, fun p hp => ?_⟩
  rw [leavesAlone_iff (t := t) (imm := [.const (.i64 (ma.offset.setWidth 64)), .const (.i32 op.serialize)])
    (by simp [hookReplace, ht]) p hp, Classical.not_not]

/-- **C18.** The same for stores: address, value, offset, operator code and location in, nothing out. -/
theorem C18_store (op : StoreOp) (ma : Memarg) : ∃ t : Trap, t.args = [.i32, op.ty, .i64, .i32, .i64, .i64] ∧
    t.results = [] ∧ ∀ p ∈ trapTable, ¬ LeavesAlone p.2 (.store op ma) ↔ p.1 = t := by
  have h : ∃ t, storeTrap op.ty = some t ∧ t.args = [.i32, op.ty, .i64, .i32, .i64, .i64] ∧ t.results = [] := by
    cases op <;> exact ⟨_, rfl, rfl, rfl⟩
  obtain ⟨t, ht, h1, h2⟩ := h
  refine ⟨t, h1, h2, fun p hp => ?_⟩
  rw [leavesAlone_iff (t := t) (imm := [.const (.i64 (ma.offset.setWidth 64)), .const (.i32 op.serialize)])
    (by simp [hookReplace, ht]) p hp, Classical.not_not]

/-- **C18.** The same for constants. -/
theorem C18_const (v : Val) : ∃ t : Trap, t.args = [v.type, .i64, .i64] ∧ t.results = [v.type] ∧
    ∀ p ∈ trapTable, ¬ LeavesAlone p.2 (.const v) ↔ p.1 = t := by
  have h : ∃ t, constTrap v.type = some t ∧ t.args = [v.type, .i64, .i64] ∧ t.results = [v.type] := by
    cases v <;> exact ⟨_, rfl, rfl, rfl⟩
  obtain ⟨t, ht, h1, h2⟩ := h
  refine ⟨t, h1, h2, ?_⟩
  rintro ⟨q, k⟩ hp
  have htrap := trapTable_trap _ hp
  dsimp only at htrap ⊢
  subst htrap
  have key : ∀ (m : Meta) (trap : Nat) (fs : List Func), m.flag = false → m.iidx < 2 ^ 63 →
      k.transform trap [.basic m (.const v)] fs =
        .ok ([.basic m (.const v)] ++ (if t = k.trap then hookCall m [] trap else []), fs) := by
    intro m trap fs hm hi
    have hb : hookBefore fs.length m (.const v) = none := rfl
    have hfit : TI.FitsL [.basic m (.const v)] := ⟨fun _ => ⟨hi, trivial⟩, trivial⟩
    rw [TargetKind.transform_ok k trap _ hfit, expandL_basic, expandI_basic _ _ _ _ hm, hb]
    have : helpersFor (.single k.trap trap) [.basic m (.const v)] = [] := by
      simp only [helpersFor, TI.tablesL, TI.tables]; split <;> rfl
    rw [this, orReplaced_single]
    simp [hookReplace, hookAfter, ht, hooked_single_some]
  constructor
  · intro h
    apply Classical.byContradiction
    intro hne
    exact h fun m trap fs hm hi => by rw [key m trap fs hm hi, if_neg (fun e => hne e.symm)]; rfl
  · intro e h
    have h1 := h ⟨0, 0, .unreachable, false⟩ 0 [] rfl (by decide)
    rw [key _ _ _ rfl (by decide), if_pos e.symm] at h1
    simp [hookCall] at h1

example : ¬ LeavesAlone (.simple .unaryF32ToI64) (.unary .i64TruncSatF32U) ∧
    LeavesAlone (.simple .unaryF64ToI64) (.unary .i64TruncSatF32U) := by
  have hr : hookReplace (.unary .i64TruncSatF32U) =
      some (.unaryF32ToI64, [.const (.i32 (UnaryOp.serialize .i64TruncSatF32U))]) := rfl
  exact ⟨by rw [leavesAlone_iff hr (.unaryF32ToI64, _) (by decide +kernel)]; simp,
    by rw [leavesAlone_iff hr (.unaryF64ToI64, _) (by decide +kernel)]; simp⟩

end Wastrum
