import Verif.PassLemmas
/-! # The branch pass, and composition of passes -/

set_option linter.unusedSimpArgs false
set_option linter.unusedVariables false

namespace Wastrum

/-- The hook served by a target of `branch_if.rs`. -/
def BranchKind.trap : BranchKind → Trap
  | .ifThen => .ifThenTrap | .ifThenPost => .ifThenPostTrap | .ifThenElse => .ifThenElseTrap
  | .ifThenElsePost => .ifThenElsePostTrap | .br => .brTrap | .brIf => .brIfTrap | .brTable => .brTableTrap

theorem BranchKind.trap_grp (k : BranchKind) : k.trap.grp = .branch := by cases k <;> rfl

theorem brTableEntries_ok : ∀ {ls : List Nat}, (∀ x ∈ ls, x < 2 ^ 31) →
    brTableEntries ls = .ok (ls.flatMap (fun l => [.loc .get 0, (cI32 l).toL, .ret, .fin]))
  | [], _ => rfl
  | l :: ls, h => by
    rw [brTableEntries, brTableEntries_ok (fun x hx => h x (by simp [hx])), brTableEntry,
      toI32_ok (h l (by simp))]
    simp [cI32, Basic.toL]

theorem brTableBody_ok {ls : List Nat} {d : Nat} (h : ∀ x ∈ ls, x < 2 ^ 31) (hd : d < 2 ^ 31) :
    brTableBody ls d = .ok (helperBody ls d) := by
  rcases ls with _ | ⟨l, _ | ⟨l', ls⟩⟩
  · simp [brTableBody, helperBody, toI32_ok hd, cI32, Basic.toL]
  · simp [brTableBody, helperBody, toI32_ok hd, toI32_ok (h l (by simp)), cI32, Basic.toL]
  · simp only [brTableBody, helperBody, toI32_ok hd, brTableEntries_ok h, brTableForGeneration]
    simp [cI32, Basic.toL]

theorem Branch.transform_ok (k : BranchKind) (hk : k ≠ .brTable) (trap : Nat) :
    (∀ i : TI, i.Fits → ∀ n fs, Branch.transformI k trap i fs = .ok (expandI (.single k.trap trap) n i, fs)) ∧
    (∀ l : List TI, TI.FitsL l → ∀ n fs,
      Branch.transform k trap l fs = .ok (expandL (.single k.trap trap) n l, fs)) := by
  apply TI.induct
  · intro m b hf n fs
    cases hm : m.flag
    · have hi := (hf hm).1
      have hx := (hf hm).2
      by_cases hg : b.grp = .branch
      · rw [expandI_basic _ _ _ _ hm, Branch.transformI.eq_def]
        dsimp only
        cases b <;> simp only [Basic.grp, reduceCtorEq] at hg
        all_goals
          dsimp only at hx
          cases k <;> simp_all [hm, hooked_single_some, hookBefore, hookAfter, BranchKind.trap, orReplaced, constI32_ok hm,
            hookReplace, toTrapCall_ok hm hi, placeOriginal_ok hm, placeUntouched_eq, hookCall_cons, cI32, cI64,
            constI64_ok hm, u32ToI64, toI32_ok]
      · rw [expandI_other _ _ _ _ _ (by rw [k.trap_grp]; exact Ne.symm hg), Branch.transformI.eq_def]
        dsimp only
        simp only [hm, Bool.false_eq_true, if_false]
        split <;> first | rfl | (simp [Basic.grp] at hg; done)
    · rw [expandI_basic_flag _ _ _ _ hm, Branch.transformI.eq_def]
      simp [hm, placeUntouched_eq]
  · intro m t body ih hf n fs
    rw [TI.Fits.eq_def] at hf
    rw [Branch.transformI.eq_def, expandI.eq_def]
    dsimp only at hf ⊢
    cases hm : m.flag
    · cases k <;> simp [hm, ih hf.2 n, placeUntouched_eq, hooked_single_some, BranchKind.trap]
    · simp [ih hf.2 n, placeUntouched_eq]
  · intro m t body ih hf n fs
    rw [TI.Fits.eq_def] at hf
    rw [Branch.transformI.eq_def, expandI.eq_def]
    dsimp only at hf ⊢
    cases hm : m.flag
    · cases k <;> simp [hm, ih hf.2 n, placeUntouched_eq, hooked_single_some, BranchKind.trap]
    · simp [ih hf.2 n, placeUntouched_eq]
  · intro m t thn ih hf n fs
    rw [TI.Fits.eq_def] at hf
    rw [Branch.transformI.eq_def, expandI.eq_def]
    dsimp only at hf ⊢
    cases hm : m.flag
    · obtain ⟨h1, h2, h3⟩ := hf.1 hm
      cases k <;> simp [hm, ih hf.2 n, placeUntouched_eq, placeOriginal_ok hm, instrumentWith_ok hm, hooked_single_some,
        BranchKind.trap, Sel.single, ifPrologue_ok hm h1 h2 h3, toTrapCall_ok hm h1]
    · simp [ih hf.2 n, placeUntouched_eq]
  · intro m t thn els ih1 ih2 hf n fs
    rw [TI.Fits.eq_def] at hf
    rw [Branch.transformI.eq_def, expandI.eq_def]
    dsimp only at hf ⊢
    cases hm : m.flag
    · obtain ⟨h1, h2, h3⟩ := hf.1 hm
      cases k <;> simp [hm, ih1 hf.2.1 n, ih2 hf.2.2 (n + (TI.tablesL thn).length), placeUntouched_eq, placeOriginal_ok hm,
        hooked_single_some, BranchKind.trap, ifPrologue_ok hm h1 h2 h3, toTrapCall_ok hm h1]
    · simp [ih1 hf.2.1 n, ih2 hf.2.2 (n + (TI.tablesL thn).length), placeUntouched_eq]
  · intro _ n fs; simp [Branch.transform, expandL]
  · intro i l hi hl hf n fs
    rw [TI.FitsL.eq_def] at hf
    rw [Branch.transform.eq_def, expandL.eq_def]
    simp [hi hf.1 n, hl hf.2 (n + i.tables.length)]

theorem Branch.transform_brTable_ok (trap : Nat) :
    (∀ i : TI, i.Fits → ∀ fs, Branch.transformI .brTable trap i fs =
      .ok (expandI (.single .brTableTrap trap) fs.length i, fs ++ i.tables.map helperFunc)) ∧
    (∀ l : List TI, TI.FitsL l → ∀ fs, Branch.transform .brTable trap l fs =
      .ok (expandL (.single .brTableTrap trap) fs.length l, fs ++ (TI.tablesL l).map helperFunc)) := by
  apply TI.induct
  · intro m b hf fs
    cases hm : m.flag
    · have hi := (hf hm).1
      have hx := (hf hm).2
      by_cases hg : ∃ l d, b = .brTable l d
      · obtain ⟨l, d, rfl⟩ := hg
        dsimp only at hx
        rw [expandI_basic _ _ _ _ hm, Branch.transformI.eq_def]
        simp [hm, brTableReify, brTableBody_ok hx.1 hx.2, addFunction, instrumentWith_ok hm, constI32_ok hm, toI32_ok hx.2,
          toTrapCall_ok hm hi, placeOriginal_ok hm, hooked_single_some, hookBefore, hookAfter, orReplaced, hookReplace,
          hookCall_cons, cI32, TI.tables, helperFunc, ins]
      · have e : expandI (.single .brTableTrap trap) fs.length (.basic m b) = [.basic m b] := by
          by_cases hb : b.grp = .branch
          · rw [expandI_basic _ _ _ _ hm]
            cases b <;> simp only [Basic.grp, reduceCtorEq] at hb
            all_goals simp_all [hookBefore, hookAfter, hooked_single_some, orReplaced, hookReplace]
          · exact expandI_other _ _ _ _ _ (by simpa [Trap.grp] using Ne.symm hb)
        have e2 : (TI.basic m b).tables = [] := by
          cases b <;> simp_all [TI.tables]
        rw [e, e2, Branch.transformI.eq_def]
        dsimp only
        simp only [hm, Bool.false_eq_true, if_false]
        split <;> simp_all [placeUntouched_eq]
    · rw [expandI_basic_flag _ _ _ _ hm, Branch.transformI.eq_def]
      have e2 : (TI.basic m b).tables = [] := by
        cases b <;> simp_all [TI.tables]
      simp [hm, placeUntouched_eq, e2]
  · intro m t body ih hf fs
    rw [TI.Fits.eq_def] at hf
    rw [Branch.transformI.eq_def, expandI.eq_def]
    dsimp only at hf ⊢
    cases hm : m.flag <;> simp [hm, ih hf.2, placeUntouched_eq, hooked_single_some, TI.tables]
  · intro m t body ih hf fs
    rw [TI.Fits.eq_def] at hf
    rw [Branch.transformI.eq_def, expandI.eq_def]
    dsimp only at hf ⊢
    cases hm : m.flag <;> simp [hm, ih hf.2, placeUntouched_eq, hooked_single_some, TI.tables]
  · intro m t thn ih hf fs
    rw [TI.Fits.eq_def] at hf
    rw [Branch.transformI.eq_def, expandI.eq_def]
    dsimp only at hf ⊢
    cases hm : m.flag <;> simp [hm, ih hf.2, placeUntouched_eq, hooked_single_some, TI.tables, Sel.single]
  · intro m t thn els ih1 ih2 hf fs
    rw [TI.Fits.eq_def] at hf
    rw [Branch.transformI.eq_def, expandI.eq_def]
    dsimp only at hf ⊢
    cases hm : m.flag <;> simp [hm, ih1 hf.2.1, ih2 hf.2.2, placeUntouched_eq, hooked_single_some, TI.tables]
  · intro _ fs; simp [Branch.transform, expandL, TI.tablesL]
  · intro i l hi hl hf fs
    rw [TI.FitsL.eq_def] at hf
    rw [Branch.transform.eq_def, expandL.eq_def]
    simp [hi hf.1, hl hf.2, TI.tablesL]

/-- The hook served by a table row of `instrument/mod.rs`. -/
def TargetKind.trap : TargetKind → Trap
  | .blockLoop k => k.trap
  | .branch k => k.trap
  | .call k => k.trap
  | .simple k => k.trap
  | .memory k => k.trap

/-- Every pass is the rewrite for its own hook. -/
theorem TargetKind.transform_ok (k : TargetKind) (trap : Nat) (l : List TI) (hl : TI.FitsL l) (fs : List Func) :
    k.transform trap l fs = .ok (expandL (.single k.trap trap) fs.length l, fs ++ helpersFor (.single k.trap trap) l) := by
  cases k with
  | blockLoop k =>
    simp only [TargetKind.transform, (BlockLoop.transform_ok k trap).2 l hl fs.length, TargetKind.trap, ok_bind]
    cases k <;> simp [helpersFor, Sel.single, BlockLoopKind.trap]
  | call k =>
    simp only [TargetKind.transform, (Calls.transform_ok k trap).2 l hl fs.length, TargetKind.trap, ok_bind]
    cases k <;> simp [helpersFor, Sel.single, CallKind.trap]
  | simple k =>
    simp only [TargetKind.transform, (Simple.transform_ok k trap).2 l hl fs.length, TargetKind.trap, ok_bind]
    cases k <;> simp [helpersFor, Sel.single, SimpleKind.trap]
  | memory k =>
    simp only [TargetKind.transform, (Memory.transform_ok k trap).2 l hl fs.length, TargetKind.trap, ok_bind]
    cases k <;> simp [helpersFor, Sel.single, MemoryKind.trap]
  | branch k =>
    by_cases hk : k = .brTable
    · subst hk
      simp only [TargetKind.transform, (Branch.transform_brTable_ok trap).2 l hl, TargetKind.trap]
      simp [helpersFor, Sel.single, BranchKind.trap]
    · simp only [TargetKind.transform, (Branch.transform_ok k hk trap).2 l hl fs.length fs, TargetKind.trap]
      cases k <;> simp_all [helpersFor, Sel.single, BranchKind.trap]

/-! ## Composition -/

theorem expandL_append (σ : Sel) (n : Nat) (a b : List TI) :
    expandL σ n (a ++ b) = expandL σ n a ++ expandL σ (n + (TI.tablesL a).length) b := by
  induction a generalizing n with
  | nil => simp [expandL, TI.tablesL]
  | cons i a ih => simp [expandL, TI.tablesL, ih, Nat.add_assoc]

theorem tablesL_append (a b : List TI) : TI.tablesL (a ++ b) = TI.tablesL a ++ TI.tablesL b := by
  induction a with
  | nil => simp [TI.tablesL]
  | cons i a ih => simp [TI.tablesL, ih]

theorem ins_tables (m : Meta) (b : Basic) : (ins m b).tables = [] := by
  unfold ins TI.tables; split <;> simp_all [insMeta]
  next h => obtain ⟨rfl, _⟩ := h; simp

theorem tablesL_map_ins (m : Meta) (l : List Basic) : TI.tablesL (l.map (ins m)) = [] := by
  induction l with
  | nil => rfl
  | cons b l ih => simp [TI.tablesL, ins_tables, ih]

theorem tablesL_hookCall (m : Meta) (imm : List Basic) (k : Nat) : TI.tablesL (hookCall m imm k) = [] :=
  tablesL_map_ins _ _

theorem tablesL_hooked (σ : Sel) (m : Meta) (x) : TI.tablesL (hooked σ m x) = [] := by
  unfold hooked; split
  · rfl
  · split
    · rfl
    · exact tablesL_hookCall _ _ _

theorem expandL_map_ins (σ : Sel) (n : Nat) (m : Meta) (l : List Basic) :
    expandL σ n (l.map (ins m)) = l.map (ins m) := by
  induction l generalizing n with
  | nil => rfl
  | cons b l ih =>
    have : expandI σ n (ins m b) = [ins m b] := expandI_basic_flag _ _ _ _ rfl
    simp [expandL, this, ih]

theorem expandL_hookCall (σ : Sel) (n : Nat) (m : Meta) (imm : List Basic) (k : Nat) :
    expandL σ n (hookCall m imm k) = hookCall m imm k := expandL_map_ins _ _ _ _

theorem expandL_hooked (σ τ : Sel) (n : Nat) (m : Meta) (x) : expandL σ n (hooked τ m x) = hooked τ m x := by
  unfold hooked; split
  · rfl
  · split
    · rfl
    · exact expandL_hookCall _ _ _ _ _

theorem tablesL_orReplaced (σ : Sel) (m : Meta) (b : Basic) (hm : m.flag = false) :
    TI.tablesL (orReplaced σ m b) = (TI.basic m b).tables := by
  unfold orReplaced
  split
  · simp [TI.tablesL]
  · rename_i t imm e
    have : (TI.basic m b).tables = [] := by
      cases b <;> simp [hookReplace] at e <;> rfl
    split <;> simp [tablesL_hookCall, TI.tablesL, this]

/-- The rewrite neither adds, removes nor reorders the program's `br_table`s. -/
theorem tables_expand (σ : Sel) :
    (∀ i : TI, ∀ n, TI.tablesL (expandI σ n i) = i.tables) ∧
    (∀ l : List TI, ∀ n, TI.tablesL (expandL σ n l) = TI.tablesL l) := by
  apply TI.induct
  · intro m b n
    cases hm : m.flag
    · rw [expandI_basic _ _ _ _ hm]
      simp [tablesL_append, tablesL_hooked, tablesL_orReplaced _ _ _ hm]
    · rw [expandI_basic_flag _ _ _ _ hm]; simp [TI.tablesL]
  · intro m t body ih n
    rw [expandI.eq_def]; dsimp only
    split <;> simp [TI.tablesL, TI.tables, tablesL_append, tablesL_hooked, ih]
  · intro m t body ih n
    rw [expandI.eq_def]; dsimp only
    split <;> simp [TI.tablesL, TI.tables, tablesL_append, tablesL_hooked, ih]
  · intro m t thn ih n
    rw [expandI.eq_def]; dsimp only
    split
    · simp [TI.tablesL, TI.tables, ih]
    · split <;> simp [TI.tablesL, TI.tables, tablesL_append, tablesL_hooked, tablesL_hookCall, ih]
  · intro m t thn els ih1 ih2 n
    rw [expandI.eq_def]; dsimp only
    split <;> simp [TI.tablesL, TI.tables, tablesL_append, tablesL_hooked, ih1, ih2]
  · intro n; rfl
  · intro i l hi hl n
    simp [expandL, TI.tablesL, tablesL_append, hi, hl]

theorem Sel.single_self (h : Trap) (k : Nat) : Sel.single h k h = some k := by simp [Sel.single]
theorem Sel.set_self (σ : Sel) (h : Trap) (k : Nat) : σ.set h k h = some k := by simp [Sel.set]

theorem hooked_set {σ : Sel} {h : Trap} {k : Nat} (hσ : σ h = none) (m : Meta) (t : Trap) (imm : List Basic) :
    hooked (σ.set h k) m (some (t, imm)) = if t = h then hookCall m imm k else hooked σ m (some (t, imm)) := by
  by_cases e : t = h <;> simp [hooked, Sel.set, e]

theorem hooked_unsel {σ : Sel} {h : Trap} (hσ : σ h = none) (m : Meta) (imm : List Basic) :
    hooked σ m (some (h, imm)) = [] := by simp [hooked, hσ]

theorem hookBefore_indep {n n' m b} (hb : ∀ l d, b ≠ .brTable l d) : hookBefore n m b = hookBefore n' m b := by
  cases b
  case loc op i => cases op <;> rfl
  case glob op i => cases op <;> rfl
  case brTable l d => exact absurd rfl (hb l d)
  all_goals rfl

theorem hookBefore_replace {n m b x} (h : hookReplace b = some x) : hookBefore n m b = none ∧ hookAfter m b = none := by
  cases b <;> simp_all [hookReplace, hookBefore, hookAfter]

theorem hookBefore_hookAfter {n m b t imm t' imm'} (h : hookBefore n m b = some (t, imm))
    (h' : hookAfter m b = some (t', imm')) : t ≠ t' := by
  cases b
  case call => simp [hookBefore, hookAfter] at h h'; rw [← h.1, ← h'.1]; simp
  case callIndirect => simp [hookBefore, hookAfter] at h h'; rw [← h.1, ← h'.1]; simp
  case loc op i => cases op <;> simp [hookBefore, hookAfter] at h h'
  case glob op i => cases op <;> simp [hookBefore, hookAfter] at h h'
  all_goals simp [hookBefore, hookAfter] at h h'

theorem expandL_basic (σ : Sel) (n : Nat) (i : TI) : expandL σ n [i] = expandI σ n i := by
  simp [expandL]

/-- Rewriting for one more hook. -/
theorem expand_compose {σ : Sel} {h : Trap} (hσ : σ h = none) (ho : h = .ifThenTrap → σ .ifThenPostTrap = none) (k : Nat) :
    (∀ i : TI, ∀ n, expandL (.single h k) n (expandI σ n i) = expandI (σ.set h k) n i) ∧
    (∀ l : List TI, ∀ n, expandL (.single h k) n (expandL σ n l) = expandL (σ.set h k) n l) := by
  apply TI.induct
  · intro m b n
    cases hm : m.flag
    · rw [expandI_basic _ _ _ _ hm, expandI_basic _ _ _ _ hm]
      rw [expandL_append, expandL_append, expandL_hooked, expandL_hooked, tablesL_hooked]
      simp only [List.length_nil, Nat.add_zero]
      cases hr : hookReplace b with
      | none =>
        have e : ∀ τ : Sel, orReplaced τ m b = [.basic m b] := by intro τ; simp [orReplaced, hr]
        rw [e, e, expandL_basic, expandI_basic _ _ _ _ hm, e]
        cases h1 : hookBefore n m b with
        | none =>
          cases h2 : hookAfter m b with
          | none => simp
          | some p =>
            obtain ⟨t, imm⟩ := p
            by_cases ht : t = h
            · simp [hooked_single_some, hooked_set hσ, ht, hooked_unsel hσ]
            · simp [hooked_single_some, hooked_set hσ, ht]
        | some q =>
          obtain ⟨u, imm'⟩ := q
          cases h2 : hookAfter m b with
          | none =>
            by_cases ht : u = h
            · simp [hooked_single_some, hooked_set hσ, ht, hooked_unsel hσ]
            · simp [hooked_single_some, hooked_set hσ, ht]
          | some p =>
            obtain ⟨t, imm⟩ := p
            have hne := hookBefore_hookAfter h1 h2
            by_cases ht : u = h
            · have ht2 : t ≠ h := fun e => hne (ht.trans e.symm)
              simp [hooked_single_some, hooked_set hσ, ht, ht2, hooked_unsel hσ]
            · by_cases ht2 : t = h
              · simp [hooked_single_some, hooked_set hσ, ht, ht2, hooked_unsel hσ]
              · simp [hooked_single_some, hooked_set hσ, ht, ht2]
      | some p =>
        obtain ⟨t, imm⟩ := p
        obtain ⟨e1, e2⟩ := @hookBefore_replace n m b _ hr
        simp only [e1, e2, hooked_none, List.nil_append, List.append_nil]
        by_cases ht : t = h
        · subst ht
          have : orReplaced σ m b = [.basic m b] := by simp [orReplaced, hr, hσ]
          rw [this, expandL_basic, expandI_basic _ _ _ _ hm]
          simp [orReplaced, hr, Sel.single, Sel.set, e1, e2]
        · cases hs : σ t with
          | none =>
            have : orReplaced σ m b = [.basic m b] := by simp [orReplaced, hr, hs]
            rw [this, expandL_basic, expandI_basic _ _ _ _ hm]
            simp [orReplaced, hr, Sel.single, Sel.set, e1, e2, ht, hs]
          | some j =>
            have : orReplaced σ m b = hookCall m imm j := by simp [orReplaced, hr, hs]
            rw [this, expandL_hookCall]
            simp [orReplaced, hr, Sel.single, Sel.set, e1, e2, ht, hs]
    · rw [expandI_basic_flag _ _ _ _ hm, expandI_basic_flag _ _ _ _ hm, expandL_basic, expandI_basic_flag _ _ _ _ hm]
  · intro m t body ih n
    cases hm : m.flag
    · simp only [expandI.eq_def _ _ (TI.block m t body), hm, Bool.false_eq_true, if_false, expandL_basic]
      rw [expandI.eq_def]
      simp only [hm, Bool.false_eq_true, if_false]
      rw [expandL_append, expandL_append, expandL_hooked, expandL_hooked, tablesL_hooked]
      simp only [List.length_nil, Nat.add_zero, ih]
      by_cases h1 : Trap.preBlock = h
      · have h2 : Trap.postBlock ≠ h := by rw [← h1]; simp
        simp [hooked_single_some, hooked_set hσ, h1, h2, hooked_unsel hσ]
      · by_cases h2 : Trap.postBlock = h
        · simp [hooked_single_some, hooked_set hσ, h1, h2, hooked_unsel hσ]
        · simp [hooked_single_some, hooked_set hσ, h1, h2]
    · simp only [expandI.eq_def _ _ (TI.block m t body), hm, if_true, expandL_basic]
      rw [expandI.eq_def]
      simp [hm, ih]
  · intro m t body ih n
    cases hm : m.flag
    · simp only [expandI.eq_def _ _ (TI.loop m t body), hm, Bool.false_eq_true, if_false, expandL_basic]
      rw [expandI.eq_def]
      simp only [hm, Bool.false_eq_true, if_false]
      rw [expandL_append, expandL_append, expandL_hooked, expandL_hooked, tablesL_hooked]
      simp only [List.length_nil, Nat.add_zero, ih]
      by_cases h1 : Trap.preLoop = h
      · have h2 : Trap.postLoop ≠ h := by rw [← h1]; simp
        simp [hooked_single_some, hooked_set hσ, h1, h2, hooked_unsel hσ]
      · by_cases h2 : Trap.postLoop = h
        · simp [hooked_single_some, hooked_set hσ, h1, h2, hooked_unsel hσ]
        · simp [hooked_single_some, hooked_set hσ, h1, h2]
    · simp only [expandI.eq_def _ _ (TI.loop m t body), hm, if_true, expandL_basic]
      rw [expandI.eq_def]
      simp [hm, ih]
  · intro m t thn ih n
    cases hm : m.flag
    · simp only [expandI.eq_def _ _ (TI.ifThen m t thn), hm, Bool.false_eq_true, if_false]
      rw [expandL_append, expandL_hooked, tablesL_hooked]
      simp only [List.length_nil, Nat.add_zero]
      by_cases h1 : Trap.ifThenTrap = h
      · subst h1
        simp only [ho rfl, expandL_basic]
        rw [expandI.eq_def]
        simp [hm, ih, hooked_single_some, hooked_set hσ, hooked_unsel hσ, Sel.single, Sel.set, ho rfl]
      · by_cases h2 : Trap.ifThenPostTrap = h
        · subst h2
          simp only [hσ, expandL_basic]
          rw [expandI.eq_def]
          simp [hm, ih, hooked_single_some, hooked_set hσ, hooked_unsel hσ, Sel.single, Sel.set]
        · cases hp : σ .ifThenPostTrap with
          | none =>
            simp only [expandL_basic]
            rw [expandI.eq_def]
            simp [hm, ih, hooked_single_some, hooked_set hσ, Sel.single, Sel.set, h1, h2, hp]
          | some j =>
            simp only [expandL_basic]
            rw [expandI.eq_def]
            simp [insMeta, expandL_append, expandL_hookCall, ih, hooked_single_some, hooked_set hσ, Sel.single, Sel.set, h1, h2, hp]
    · simp only [expandI.eq_def _ _ (TI.ifThen m t thn), hm, if_true, expandL_basic]
      rw [expandI.eq_def]
      simp [hm, ih]
  · intro m t thn els ih1 ih2 n
    cases hm : m.flag
    · simp only [expandI.eq_def _ _ (TI.ifElse m t thn els), hm, Bool.false_eq_true, if_false]
      rw [expandL_append, expandL_hooked, tablesL_hooked, expandL_basic, expandI.eq_def]
      simp only [hm, Bool.false_eq_true, if_false]
      simp only [expandL_append, expandL_hooked, tablesL_append, tablesL_hooked, (tables_expand σ).2]
      simp only [List.length_nil, Nat.add_zero, ih1, ih2, List.append_nil]
      by_cases h1 : Trap.ifThenElseTrap = h
      · have h2 : Trap.ifThenElsePostTrap ≠ h := by rw [← h1]; simp
        simp [hooked_single_some, hooked_set hσ, h1, h2, hooked_unsel hσ]
      · by_cases h2 : Trap.ifThenElsePostTrap = h
        · simp [hooked_single_some, hooked_set hσ, h1, h2, hooked_unsel hσ]
        · simp [hooked_single_some, hooked_set hσ, h1, h2]
    · simp only [expandI.eq_def _ _ (TI.ifElse m t thn els), hm, if_true, expandL_basic]
      rw [expandI.eq_def]
      simp [hm, ih1, ih2, (tables_expand σ).2]
  · intro n; rfl
  · intro i l hi hl n
    simp only [expandL, expandL_append, hi, hl, (tables_expand σ).1]

/-! ## The whole sequence -/

theorem hookBefore_unsel_table {σ : Sel} (hσ : σ .brTableTrap = none) (n n' : Nat) (m : Meta) (b : Basic) :
    hooked σ m (hookBefore n m b) = hooked σ m (hookBefore n' m b) := by
  by_cases hb : ∃ l d, b = .brTable l d
  · obtain ⟨l, d, rfl⟩ := hb; simp [hookBefore, hooked_unsel hσ]
  · rw [hookBefore_indep (by simpa using hb)]

/-- Without the branch-table hook the helper index does not matter. -/
theorem expand_indep {σ : Sel} (hσ : σ .brTableTrap = none) :
    (∀ i : TI, ∀ n n', expandI σ n i = expandI σ n' i) ∧
    (∀ l : List TI, ∀ n n', expandL σ n l = expandL σ n' l) := by
  apply TI.induct
  · intro m b n n'
    rw [expandI.eq_def, expandI.eq_def]; dsimp only
    rw [hookBefore_unsel_table hσ n n']
  · intro m t body ih n n'
    rw [expandI.eq_def, expandI.eq_def]; dsimp only
    rw [ih n n']
  · intro m t body ih n n'
    rw [expandI.eq_def, expandI.eq_def]; dsimp only
    rw [ih n n']
  · intro m t body ih n n'
    rw [expandI.eq_def, expandI.eq_def]; dsimp only
    rw [ih n n']
  · intro m t thn els ih1 ih2 n n'
    rw [expandI.eq_def, expandI.eq_def]; dsimp only
    rw [ih1 n n', ih2 _ (n' + (TI.tablesL thn).length)]
  · intros; rfl
  · intro i l hi hl n n'
    rw [expandL.eq_def, expandL.eq_def]; dsimp only
    rw [hi n n', hl _ (n' + i.tables.length)]

theorem fits_hookCall (m : Meta) (imm : List Basic) (k : Nat) : TI.FitsL (hookCall m imm k) := by
  unfold hookCall
  generalize imm ++ _ = l
  induction l with
  | nil => simp [TI.FitsL]
  | cons b l ih => simp [TI.FitsL, ih, ins, TI.Fits, insMeta]

theorem fits_hooked (σ : Sel) (m : Meta) (x) : TI.FitsL (hooked σ m x) := by
  unfold hooked; split
  · simp [TI.FitsL]
  · split
    · simp [TI.FitsL]
    · exact fits_hookCall _ _ _

theorem fitsL_append {a b : List TI} : TI.FitsL (a ++ b) ↔ TI.FitsL a ∧ TI.FitsL b := by
  induction a with
  | nil => simp [TI.FitsL]
  | cons i a ih => simp [TI.FitsL, ih, and_assoc]

theorem fits_expand (σ : Sel) :
    (∀ i : TI, i.Fits → ∀ n, TI.FitsL (expandI σ n i)) ∧ (∀ l : List TI, TI.FitsL l → ∀ n, TI.FitsL (expandL σ n l)) := by
  apply TI.induct
  · intro m b hf n
    cases hm : m.flag
    · rw [expandI_basic _ _ _ _ hm]
      simp only [fitsL_append, fits_hooked, true_and, and_true, orReplaced]
      split
      · simpa [TI.FitsL] using hf
      · split
        · simpa [TI.FitsL] using hf
        · exact fits_hookCall _ _ _
    · rw [expandI_basic_flag _ _ _ _ hm]; simpa [TI.FitsL] using hf
  · intro m t body ih hf n
    rw [TI.Fits.eq_def] at hf
    rw [expandI.eq_def]; dsimp only at hf ⊢
    split <;> simp_all [TI.FitsL, TI.Fits, fitsL_append, fits_hooked]
  · intro m t body ih hf n
    rw [TI.Fits.eq_def] at hf
    rw [expandI.eq_def]; dsimp only at hf ⊢
    split <;> simp_all [TI.FitsL, TI.Fits, fitsL_append, fits_hooked]
  · intro m t thn ih hf n
    rw [TI.Fits.eq_def] at hf
    rw [expandI.eq_def]; dsimp only at hf ⊢
    split
    · simp_all [TI.FitsL, TI.Fits]
    · split <;> simp_all [TI.FitsL, TI.Fits, fitsL_append, fits_hooked, fits_hookCall, insMeta]
  · intro m t thn els ih1 ih2 hf n
    rw [TI.Fits.eq_def] at hf
    rw [expandI.eq_def]; dsimp only at hf ⊢
    split <;> simp_all [TI.FitsL, TI.Fits, fitsL_append, fits_hooked]
  · intro _ n; simp [expandL, TI.FitsL]
  · intro i l hi hl hf n
    rw [TI.FitsL.eq_def] at hf
    simp [expandL, fitsL_append, hi hf.1, hl hf.2]

theorem hooked_empty (m : Meta) (x) : hooked Sel.empty m x = [] := by
  unfold hooked Sel.empty; split <;> rfl

theorem orReplaced_empty (m : Meta) (b : Basic) : orReplaced Sel.empty m b = [.basic m b] := by
  unfold orReplaced Sel.empty; split <;> rfl

/-- With nothing selected nothing changes. -/
theorem expand_empty :
    (∀ i : TI, ∀ n, expandI .empty n i = [i]) ∧ (∀ l : List TI, ∀ n, expandL .empty n l = l) := by
  apply TI.induct
  · intro m b n
    rw [expandI.eq_def]; dsimp only
    split <;> simp [hooked_empty, orReplaced_empty]
  · intro m t body ih n
    rw [expandI.eq_def]; dsimp only
    split <;> simp [hooked_empty, ih]
  · intro m t body ih n
    rw [expandI.eq_def]; dsimp only
    split <;> simp [hooked_empty, ih]
  · intro m t thn ih n
    rw [expandI.eq_def]; dsimp only
    split <;> simp [hooked_empty, ih]
    simp [Sel.empty]
  · intro m t thn els ih1 ih2 n
    rw [expandI.eq_def]; dsimp only
    split <;> simp [hooked_empty, ih1, ih2]
  · intro n; rfl
  · intro i l hi hl n; simp [expandL, hi, hl]

/-- `if_then` is never after `if_then_post`. -/
def OrderOK : List Trap → Prop
  | [] => True
  | h :: r => (h = .ifThenPostTrap → Trap.ifThenTrap ∉ r) ∧ OrderOK r

/-- Select a list of hooks one after another. -/
def Sel.setAll (σ : Sel) : List (Trap × Nat) → Sel
  | [] => σ
  | (h, k) :: r => (σ.set h k).setAll r

theorem runPasses_ok (ts : List (TargetKind × Nat)) (b : List TI) (hb : TI.FitsL b) (fs : List Func) :
    ∀ σ : Sel, (ts.map (·.1.trap)).Nodup → (∀ t ∈ ts, σ t.1.trap = none) → OrderOK (ts.map (·.1.trap)) →
      (σ .ifThenPostTrap ≠ none → Trap.ifThenTrap ∉ ts.map (·.1.trap)) →
      runPasses ts (expandL σ fs.length b) (fs ++ helpersFor σ b) =
        .ok (expandL (σ.setAll (ts.map (fun p => (p.1.trap, p.2)))) fs.length b,
          fs ++ helpersFor (σ.setAll (ts.map (fun p => (p.1.trap, p.2)))) b) := by
  induction ts with
  | nil => intro σ _ _ _ _; rfl
  | cons p ts ih =>
    obtain ⟨k, trap⟩ := p
    intro σ hnd hσ ho hpost
    have hk : σ k.trap = none := hσ (k, trap) (by simp)
    rw [runPasses, TargetKind.transform_ok k trap _ ((fits_expand σ).2 b hb _)]
    simp only [ok_bind]
    have hcomp : expandL (.single k.trap trap) (fs ++ helpersFor σ b).length (expandL σ fs.length b) =
        expandL (σ.set k.trap trap) fs.length b := by
      have e : expandL (.single k.trap trap) (fs ++ helpersFor σ b).length (expandL σ fs.length b) =
          expandL (.single k.trap trap) fs.length (expandL σ fs.length b) := by
        by_cases ht : k.trap = .brTableTrap
        · rw [ht] at hk; simp [helpersFor, hk]
        · exact (expand_indep (by simpa [Sel.single] using fun h => ht h.symm)).2 _ _ _
      rw [e]
      refine (expand_compose hk ?_ trap).2 b _
      intro hh
      exact Classical.byContradiction fun hc => hpost hc (by simp [hh])
    have hhelp : fs ++ helpersFor σ b ++ helpersFor (.single k.trap trap) (expandL σ fs.length b) =
        fs ++ helpersFor (σ.set k.trap trap) b := by
      by_cases ht : k.trap = .brTableTrap
      · rw [ht] at hk ⊢; simp [helpersFor, hk, Sel.single, Sel.set, (tables_expand σ).2]
      · have ht' : Trap.brTableTrap ≠ k.trap := fun e => ht e.symm
        simp [helpersFor, Sel.single, Sel.set, ht']
    rw [hcomp, hhelp]
    simp only [List.map_cons, List.nodup_cons, List.mem_map] at hnd
    refine ih (σ.set k.trap trap) hnd.2 ?_ ho.2 ?_
    · intro t ht
      have : t.1.trap ≠ k.trap := fun e => hnd.1 ⟨t, ht, e⟩
      simp [Sel.set, this, hσ t (by simp [ht])]
    · intro hne
      by_cases hp : Trap.ifThenPostTrap = k.trap
      · exact ho.1 hp.symm
      · intro hm
        exact hpost (by simpa [Sel.set, hp] using hne) (by simp [List.map_cons]; right; simpa using hm)

end Wastrum
