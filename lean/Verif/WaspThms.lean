import Verif.Wasp
/-!
# Theorems about Wasp analyses (C35, C36, C50, C51)
-/

set_option linter.unusedSimpArgs false
set_option linter.unusedVariables false

namespace Wastrum.Wasp

/-! ## C35 -/

/-- **Specification.** What an advice observes: an entry of the interface. -/
inductive Advises : Advice → Trap → Prop
  | ifThen (c b) : Advises (.plain (.ifThen c) b) .ifThenTrap
  | ifThenElse (c b) : Advises (.plain (.ifThenElse c) b) .ifThenElseTrap
  | brIf (c l b) : Advises (.plain (.brIf c l) b) .brIfTrap
  | brTable (t d b) : Advises (.plain (.brTable t d) b) .brTableTrap
  | callPre (t b) : Advises (.plain (.call .pre t) b) .preTrapCall
  | callPost (t b) : Advises (.plain (.call .post t) b) .postTrapCall
  | callIndirectPre (t i b) : Advises (.plain (.callIndirectPre t i) b) .preTrapCallIndirect
  | callIndirectPost (t b) : Advises (.plain (.callIndirectPost t) b) .postTrapCallIndirect
  | blockPre (b) : Advises (.plain .blockPre b) .preBlock
  | blockPost (b) : Advises (.plain .blockPost b) .postBlock
  | loopPre (b) : Advises (.plain .loopPre b) .preLoop
  | loopPost (b) : Advises (.plain .loopPost b) .postLoop
  | select (c b) : Advises (.plain (.select c) b) .select

/-- **Specification.** An advice around every function application. -/
def IsGeneric (a : Advice) : Prop := ∃ m f x y b, a = .apply (.gen m f x y) b

/-- **Specification.** An advice around applications of functions of one signature. -/
def IsSpecialised (a : Advice) (args ress : List WType) : Prop :=
  ∃ m f xs ys b, a = .apply (.spe m f xs ys) b ∧ args = xs.map (·.type) ∧ ress = ys.map (·.type)

/-- **Specification.** The interface entry a join point stands for (none for the generic apply). -/
def JoinPoint.trap : JoinPoint → Option Trap
  | .generic => none
  | .blockPre => some .preBlock | .blockPost => some .postBlock | .loopPre => some .preLoop | .loopPost => some .postLoop
  | .select => some .select | .callPre => some .preTrapCall | .callPost => some .postTrapCall
  | .callIndirectPre => some .preTrapCallIndirect | .callIndirectPost => some .postTrapCallIndirect
  | .ifThen => some .ifThenTrap | .ifThenElse => some .ifThenElseTrap | .brIf => some .brIfTrap | .brTable => some .brTableTrap

theorem advises_plain (t : PlainTrap) (b : String) (u : Trap) : Advises (.plain t b) u ↔ u = t.entry.1 := by
  constructor
  · intro h; cases h <;> rfl
  · rintro rfl
    cases t with
    | call q t => cases q <;> constructor
    | _ => constructor

theorem advises_only_plain {a : Advice} {u : Trap} (h : Advises a u) : ∃ t b, a = .plain t b := by cases h <;> exact ⟨_, _, rfl⟩

theorem entry_own (t : PlainTrap) : t.entry.1 = t.entry.2 := by
  cases t with
  | call q t => cases q <;> rfl
  | _ => rfl

theorem interfaceLoop_none (r : List Advice) (i : Interface) : interfaceLoop r i = none ↔ ∃ a ∈ r, ∃ x y, IsSpecialised a x y := by
  induction r generalizing i with
  | nil => simp [interfaceLoop]
  | cons a r ih =>
    rcases a with c | ⟨s, b⟩ | ⟨t, b⟩
    · rw [interfaceLoop, ih]; simp [IsSpecialised]
    · cases s with
      | gen m f x y => rw [interfaceLoop, ih]; simp [IsSpecialised]
      | spe m f x y =>
        simp only [interfaceLoop, List.mem_cons, exists_eq_or_imp, true_iff]
        exact .inl ⟨_, _, m, f, x, y, b, rfl, rfl, rfl⟩
    · rw [interfaceLoop, ih]; simp [IsSpecialised]

theorem interfaceLoop_some (r : List Advice) (i j : Interface) (h : interfaceLoop r i = some j) :
    (∀ t, (∃ a ∈ r, Advises a t) → j.trap t = some t.export) ∧ (∀ t, (¬ ∃ a ∈ r, Advises a t) → j.trap t = i.trap t) ∧
    ((∃ a ∈ r, IsGeneric a) → j.generic = some interfaceGenericApply) ∧ ((¬ ∃ a ∈ r, IsGeneric a) → j.generic = i.generic) := by
  induction r generalizing i with
  | nil =>
    cases h
    simp
  | cons a r ih =>
    rcases a with c | ⟨s, b⟩ | ⟨t, b⟩
    · obtain ⟨h1, h2, h3, h4⟩ := ih _ h
      have n1 : ∀ t, ¬ Advises (.global c) t := by intro t h; cases h
      have n2 : ¬ IsGeneric (.global c) := by simp [IsGeneric]
      simp only [List.mem_cons, exists_eq_or_imp, n1, n2, false_or]
      exact ⟨h1, h2, h3, h4⟩
    · cases s with
      | gen m f x y =>
        obtain ⟨h1, h2, h3, h4⟩ := ih _ h
        have n1 : ∀ t, ¬ Advises (.apply (.gen m f x y) b) t := by intro t h; cases h
        have n2 : IsGeneric (.apply (.gen m f x y) b) := by simp [IsGeneric]
        simp only [List.mem_cons, exists_eq_or_imp, n1, n2, false_or, true_or, forall_const, not_true_eq_false, false_implies, and_true]
        refine ⟨h1, h2, ?_⟩
        by_cases hg : ∃ a ∈ r, IsGeneric a
        · exact h3 hg
        · exact h4 hg
      | spe m f x y => simp [interfaceLoop] at h
    · obtain ⟨h1, h2, h3, h4⟩ := ih _ h
      have n2 : ¬ IsGeneric (.plain t b) := by simp [IsGeneric]
      simp only [List.mem_cons, exists_eq_or_imp, n2, false_or, advises_plain]
      refine ⟨?_, ?_, h3, h4⟩
      · intro u hu
        by_cases hr : ∃ a ∈ r, Advises a u
        · exact h1 u hr
        · rw [h2 u hr]
          rcases hu with rfl | hu
          · simp [← entry_own]
          · exact absurd hu hr
      · intro u hu
        rw [h2 u fun h => hu (.inr h)]
        simp [show u ≠ t.entry.1 from fun e => hu (.inl e)]

/-- **C35 (interface, partial).** For a Wasp program for which an interface is made, an entry is present exactly if the program
has advice of that kind, and then with the entry's own name and signature; the generic apply entry likewise.
What is missing: programs with specialised apply advice have no interface, see `C35_specialised_panics`. -/
theorem C35_interface_exact_partial (r : List Advice) (i : Interface) (h : interface r = some i) :
    (∀ t e, i.trap t = some e ↔ e = t.export ∧ ∃ a ∈ r, Advises a t) ∧
    (∀ g, i.generic = some g ↔ g = interfaceGenericApply ∧ ∃ a ∈ r, IsGeneric a) := by
  obtain ⟨h1, h2, h3, h4⟩ := interfaceLoop_some r _ i h
  constructor
  · intro t e
    by_cases hr : ∃ a ∈ r, Advises a t
    · rw [h1 t hr]; simp [hr, eq_comm]
    · rw [h2 t hr]; simp [hr]
  · intro g
    by_cases hr : ∃ a ∈ r, IsGeneric a
    · rw [h3 hr]; simp [hr, eq_comm]
    · rw [h4 hr]; simp [hr]

/-- **C35 (violation).** Making the interface panics exactly for the programs with a specialised apply advice, although these
are accepted and have join points. -/
theorem C35_specialised_panics (r : List Advice) : interface r = none ↔ ∃ a ∈ r, ∃ x y, IsSpecialised a x y :=
  interfaceLoop_none r _

theorem joinPoint_plain (t : PlainTrap) : t.joinPoint.trap = some t.entry.1 := by
  cases t with
  | call q t => cases q <;> rfl
  | _ => rfl

theorem JoinPoint.trap_inj {p q : JoinPoint} (h : p.trap = q.trap) : p = q := by
  cases p <;> cases q <;> first | rfl | simp [JoinPoint.trap] at h

theorem joinPoints_fold (r : List Advice) (j : JoinPoints) :
    (∀ p, (r.foldl JoinPoints.includeAdvice j).flag p = true ↔
      j.flag p = true ∨ (p = .generic ∧ ∃ a ∈ r, IsGeneric a) ∨ ∃ t, p.trap = some t ∧ ∃ a ∈ r, Advises a t) ∧
    (∀ x y, (r.foldl JoinPoints.includeAdvice j).specialised x y = true ↔ j.specialised x y = true ∨ ∃ a ∈ r, IsSpecialised a x y) := by
  induction r generalizing j with
  | nil => simp
  | cons a r ih =>
    obtain ⟨h1, h2⟩ := ih (j.includeAdvice a)
    rw [List.foldl_cons]
    rcases a with c | ⟨s, b⟩ | ⟨t, b⟩
    · have n1 : ∀ t, ¬ Advises (.global c) t := by intro t h; cases h
      have n2 : ¬ IsGeneric (.global c) := by simp [IsGeneric]
      have n3 : ∀ x y, ¬ IsSpecialised (.global c) x y := by simp [IsSpecialised]
      simp only [List.mem_cons, exists_eq_or_imp, n1, n2, n3, false_or]
      exact ⟨h1, h2⟩
    · cases s with
      | gen m f x y =>
        have n1 : ∀ t, ¬ Advises (.apply (.gen m f x y) b) t := by intro t h; cases h
        have n2 : IsGeneric (.apply (.gen m f x y) b) := by simp [IsGeneric]
        have n3 : ∀ x' y', ¬ IsSpecialised (.apply (.gen m f x y) b) x' y' := by simp [IsSpecialised]
        simp only [List.mem_cons, exists_eq_or_imp, n1, n2, n3, false_or, true_or, and_true]
        refine ⟨fun p => ?_, h2⟩
        rw [h1]
        simp only [JoinPoints.includeAdvice, JoinPoints.set]
        by_cases hp : p = .generic <;> simp [hp]
      | spe m f x y =>
        have n1 : ∀ t, ¬ Advises (.apply (.spe m f x y) b) t := by intro t h; cases h
        have n2 : ¬ IsGeneric (.apply (.spe m f x y) b) := by simp [IsGeneric]
        have n3 : ∀ x' y', IsSpecialised (.apply (.spe m f x y) b) x' y' ↔ x' = x.map (·.type) ∧ y' = y.map (·.type) := by
          intro x' y'
          constructor
          · rintro ⟨_, _, _, _, _, e, h⟩; cases e; exact h
          · intro h; exact ⟨_, _, _, _, _, rfl, h⟩
        simp only [List.mem_cons, exists_eq_or_imp, n1, n2, n3, false_or]
        refine ⟨h1, fun x' y' => ?_⟩
        rw [h2]
        simp only [JoinPoints.includeAdvice]
        by_cases hp : x' = x.map (·.type) ∧ y' = y.map (·.type)
        · simp [hp]
        · simp [hp]
    · have n2 : ¬ IsGeneric (.plain t b) := by simp [IsGeneric]
      have n3 : ∀ x y, ¬ IsSpecialised (.plain t b) x y := by simp [IsSpecialised]
      simp only [List.mem_cons, exists_eq_or_imp, n2, n3, false_or, advises_plain]
      refine ⟨fun p => ?_, h2⟩
      rw [h1]
      simp only [JoinPoints.includeAdvice, JoinPoints.set]
      by_cases hp : p = t.joinPoint
      · subst hp
        simp only [if_true, true_or, true_iff]
        exact .inr (.inr ⟨_, joinPoint_plain t, .inl rfl⟩)
      · simp only [if_neg hp]
        have hne : ∀ u, p.trap = some u → ¬ u = t.entry.1 := by
          rintro u hu rfl
          exact hp (JoinPoint.trap_inj (hu.trans (joinPoint_plain t).symm))
        constructor
        · rintro (h | h | ⟨u, hu, h⟩)
          · exact .inl h
          · exact .inr (.inl h)
          · exact .inr (.inr ⟨u, hu, .inr h⟩)
        · rintro (h | h | ⟨u, hu, h | h⟩)
          · exact .inl h
          · exact .inr (.inl h)
          · exact absurd h (hne u hu)
          · exact .inr (.inr ⟨u, hu, h⟩)

/-- **C35 (join points).** The join points of a program name exactly the hooks its advice observes, and the signatures of its
specialised apply advice. -/
theorem C35_join_points_exact (r : List Advice) :
    ((joinPoints r).flag .generic = true ↔ ∃ a ∈ r, IsGeneric a) ∧
    (∀ p t, p.trap = some t → ((joinPoints r).flag p = true ↔ ∃ a ∈ r, Advises a t)) ∧
    (∀ x y, (joinPoints r).specialised x y = true ↔ ∃ a ∈ r, IsSpecialised a x y) := by
  obtain ⟨h1, h2⟩ := joinPoints_fold r ⟨fun _ => false, fun _ _ => false⟩
  refine ⟨?_, ?_, ?_⟩
  · show JoinPoints.flag (r.foldl _ _) _ = true ↔ _
    rw [h1]; simp [JoinPoint.trap]
  · intro p t ht
    show JoinPoints.flag (r.foldl _ _) _ = true ↔ _
    rw [h1]
    have : p ≠ .generic := by rintro rfl; simp [JoinPoint.trap] at ht
    simp [this, ht]
  · intro x y
    show JoinPoints.specialised (r.foldl _ _) _ _ = true ↔ _
    rw [h2]; simp

/-- **C35 (agreement).** Interface and join points agree. -/
theorem C35_interface_matches_join_points (r : List Advice) (i : Interface) (h : interface r = some i) :
    ((joinPoints r).flag .generic = true ↔ i.generic.isSome) ∧
    (∀ p t, p.trap = some t → ((joinPoints r).flag p = true ↔ (i.trap t).isSome)) ∧
    (∀ t, (i.trap t).isSome → ∃ p, JoinPoint.trap p = some t) ∧
    ∀ x y, (joinPoints r).specialised x y = false := by
  obtain ⟨a1, a2⟩ := C35_interface_exact_partial r i h
  obtain ⟨b1, b2, b3⟩ := C35_join_points_exact r
  refine ⟨?_, ?_, ?_, ?_⟩
  · rw [b1, Option.isSome_iff_exists]
    constructor
    · intro hg; exact ⟨_, (a2 _).mpr ⟨rfl, hg⟩⟩
    · rintro ⟨g, hg⟩; exact ((a2 g).mp hg).2
  · intro p t ht
    rw [b2 p t ht, Option.isSome_iff_exists]
    constructor
    · intro hg; exact ⟨_, (a1 t _).mpr ⟨rfl, hg⟩⟩
    · rintro ⟨g, hg⟩; exact ((a1 t g).mp hg).2
  · intro t ht
    obtain ⟨e, he⟩ := Option.isSome_iff_exists.mp ht
    obtain ⟨a, ha, had⟩ := ((a1 t e).mp he).2
    obtain ⟨u, b, rfl⟩ := advises_only_plain had
    rw [advises_plain] at had
    exact ⟨u.joinPoint, by rw [joinPoint_plain, had]⟩
  · intro x y
    cases hs : (joinPoints r).specialised x y with
    | false => rfl
    | true =>
      obtain ⟨a, ha, hsp⟩ := (b3 x y).mp hs
      rw [(C35_specialised_panics r).mpr ⟨a, ha, x, y, hsp⟩] at h
      simp at h

/-- **C35 (order and repetition).** Programs with the same advice, in any order and any number of times, have the same
interface and the same join points. -/
theorem C35_order_irrelevant (r r' : List Advice) (h : ∀ a, a ∈ r ↔ a ∈ r') : interface r = interface r' ∧ joinPoints r = joinPoints r' := by
  constructor
  · cases hi : interface r with
    | none =>
      have := (C35_specialised_panics r).mp hi
      simp only [h] at this
      exact ((C35_specialised_panics r').mpr this).symm
    | some i =>
      cases hi' : interface r' with
      | none =>
        have := (C35_specialised_panics r').mp hi'
        simp only [← h] at this
        rw [(C35_specialised_panics r).mpr this] at hi
        simp at hi
      | some i' =>
        obtain ⟨a1, a2⟩ := C35_interface_exact_partial r i hi
        obtain ⟨b1, b2⟩ := C35_interface_exact_partial r' i' hi'
        have e1 : i.trap = i'.trap := by
          funext t
          apply Option.ext
          intro e
          rw [a1, b1]; simp only [h]
        have e2 : i.generic = i'.generic := by
          apply Option.ext
          intro g
          rw [a2, b2]; simp only [h]
        cases i; cases i'
        cases e1; cases e2
        rfl
  · obtain ⟨a1, a2, a3⟩ := C35_join_points_exact r
    obtain ⟨b1, b2, b3⟩ := C35_join_points_exact r'
    have e1 : (joinPoints r).flag = (joinPoints r').flag := by
      funext p
      apply Bool.eq_iff_iff.mpr
      cases hp : p.trap with
      | none =>
        have : p = .generic := by cases p <;> first | rfl | simp [JoinPoint.trap] at hp
        subst this
        rw [a1, b1]; simp only [h]
      | some t => rw [a2 p t hp, b2 p t hp]; simp only [h]
    have e2 : (joinPoints r).specialised = (joinPoints r').specialised := by
      funext x y
      apply Bool.eq_iff_iff.mpr
      rw [a3, b3]; simp only [h]
    calc joinPoints r = ⟨(joinPoints r).flag, (joinPoints r).specialised⟩ := rfl
      _ = ⟨(joinPoints r').flag, (joinPoints r').specialised⟩ := by rw [e1, e2]
      _ = joinPoints r' := rfl

/-- A program with three kinds of advice, one of them twice. -/
def exWasp : List Advice :=
  [.global "let n = 0;", .plain (.brIf "cond" "label") "n++;", .apply (.gen .dynamic "f" "args" "ress") "f.apply();",
    .plain (.call .pre "g") "", .plain (.brIf "cond" "label") "n--;"]

example : ∃ i, interface exWasp = some i ∧ i.trap .brIfTrap = some Trap.brIfTrap.export ∧ i.trap .select = none ∧
    i.generic = some interfaceGenericApply := ⟨_, rfl, rfl, rfl, rfl⟩
example : (joinPoints exWasp).flag .callPre = true ∧ (joinPoints exWasp).flag .callPost = false := ⟨rfl, rfl⟩
example : interface [.apply (.spe true "f" [⟨"a", .i32⟩] [⟨"b", .f64⟩]) ""] = none := rfl

/-! ## C36 -/

/-- **Specification.** The kinds of arguments and results that match, and what they select. -/
def Kinds (a r : String) (m : GenericTarget) : Prop :=
  (a = "Args" ∧ r = "Results" ∧ m = .highLevel) ∨ (a = "DynArgs" ∧ r = "DynResults" ∧ m = .dynamic) ∨
  (a = "MutDynArgs" ∧ r = "MutDynResults" ∧ m = .mutableDynamic)

theorem three_names (f a r : String) : (((([] : List String).insert f).insert a).insert r).length = 3 ↔ [f, a, r].Nodup := by
  simp only [List.insert]
  by_cases h1 : a = f
  · by_cases h2 : r = f <;> simp [h1, h2]
  · have h1' : f ≠ a := fun e => h1 e.symm
    by_cases h2 : r = f
    · simp [h1, h2]
    · have h2' : f ≠ r := fun e => h2 e.symm
      by_cases h3 : r = a
      · simp [h1, h2, h3, h1']
      · have h3' : a ≠ r := fun e => h3 e.symm
        simp [h1, h2, h3, h1', h2', h3']

theorem applyGen_cases (f : String) (a r : TypedArg) :
    (∃ m, Kinds a.typeIdentifier r.typeIdentifier m ∧ applyGen f a r =
      if [f, a.identifier, r.identifier].Nodup then .ok (.gen m f a.identifier r.identifier)
      else .error (.nonUniqueParameters [f, a.identifier, r.identifier])) ∨
    ((∀ m, ¬ Kinds a.typeIdentifier r.typeIdentifier m) ∧
      applyGen f a r = .error (.incorrectArgsRessType a.typeIdentifier r.typeIdentifier)) := by
  by_cases k1 : a.typeIdentifier = "Args" ∧ r.typeIdentifier = "Results"
  · exact .inl ⟨.highLevel, .inl ⟨k1.1, k1.2, rfl⟩, by simp only [applyGen, if_pos k1, three_names]⟩
  · by_cases k2 : a.typeIdentifier = "DynArgs" ∧ r.typeIdentifier = "DynResults"
    · exact .inl ⟨.dynamic, .inr (.inl ⟨k2.1, k2.2, rfl⟩), by simp only [applyGen, if_neg k1, if_pos k2, three_names]⟩
    · by_cases k3 : a.typeIdentifier = "MutDynArgs" ∧ r.typeIdentifier = "MutDynResults"
      · exact .inl ⟨.mutableDynamic, .inr (.inr ⟨k3.1, k3.2, rfl⟩), by simp only [applyGen, if_neg k1, if_neg k2, if_pos k3, three_names]⟩
      · refine .inr ⟨?_, by simp only [applyGen, if_neg k1, if_neg k2, if_neg k3]⟩
        rintro m (h | h | h)
        · exact k1 ⟨h.1, h.2.1⟩
        · exact k2 ⟨h.1, h.2.1⟩
        · exact k3 ⟨h.1, h.2.1⟩

theorem Kinds.unique {a r : String} {m m' : GenericTarget} (h : Kinds a r m) (h' : Kinds a r m') : m = m' := by
  rcases h with ⟨rfl, rfl, rfl⟩ | ⟨rfl, rfl, rfl⟩ | ⟨rfl, rfl, rfl⟩ <;>
    (rcases h' with ⟨h1, h2, h3⟩ | ⟨h1, h2, h3⟩ | ⟨h1, h2, h3⟩ <;> first | exact h3.symm | simp at h1)

/-- **C36 (generic form).** A generic apply advice is accepted exactly if the kinds of its arguments and results match and its
three names are pairwise different; it then keeps its names, in order. -/
theorem C36_generic_accepted_iff (f : String) (a r : TypedArg) (s : ApplySig) :
    applySig (.gen f a r) = .ok s ↔
      [f, a.identifier, r.identifier].Nodup ∧
      ∃ m, Kinds a.typeIdentifier r.typeIdentifier m ∧ s = .gen m f a.identifier r.identifier := by
  rw [applySig]
  rcases applyGen_cases f a r with ⟨m, hm, e⟩ | ⟨hm, e⟩
  · rw [e]
    by_cases hn : [f, a.identifier, r.identifier].Nodup
    · rw [if_pos hn]
      constructor
      · intro h; injection h with h; exact ⟨hn, m, hm, h.symm⟩
      · rintro ⟨_, m', hm', rfl⟩; rw [hm.unique hm']
    · rw [if_neg hn]
      simp only [reduceCtorEq, false_iff]
      exact fun h => hn h.1
  · rw [e]
    simp only [reduceCtorEq, false_iff]
    rintro ⟨_, m, h, _⟩
    exact hm m h

/-- **C36 (generic form, errors).** Otherwise the error names the two kinds if these do not match, else the three names. -/
theorem C36_generic_errors (f : String) (a r : TypedArg) (e : WError) (h : applySig (.gen f a r) = .error e) :
    ((∀ m, ¬ Kinds a.typeIdentifier r.typeIdentifier m) ∧ e = .incorrectArgsRessType a.typeIdentifier r.typeIdentifier) ∨
    ((∃ m, Kinds a.typeIdentifier r.typeIdentifier m) ∧ ¬ [f, a.identifier, r.identifier].Nodup ∧
      e = .nonUniqueParameters [f, a.identifier, r.identifier]) := by
  rw [applySig] at h
  rcases applyGen_cases f a r with ⟨m, hm, e'⟩ | ⟨hm, e'⟩
  · rw [e'] at h
    split at h
    · simp at h
    · rename_i hn
      injection h with h
      exact .inr ⟨⟨m, hm⟩, hn, h.symm⟩
  · rw [e'] at h
    injection h with h
    exact .inl ⟨hm, h.symm⟩

/-- **Specification.** The type a type name of a typed parameter stands for. -/
def Names : String → WType → Prop := fun s t => (s = "I32" ∧ t = .i32) ∨ (s = "F32" ∧ t = .f32) ∨ (s = "I64" ∧ t = .i64) ∨ (s = "F64" ∧ t = .f64)

/-- **Specification.** The accepted parameters are the given ones: same order, names and types. -/
def Accepted (l : List TypedArg) (ps : List WParam) : Prop :=
  l.length = ps.length ∧ ∀ (k : Nat) a p, l[k]? = some a → ps[k]? = some p → p.identifier = a.identifier ∧ Names a.typeIdentifier p.type

/-- **Specification.** A list of typed parameters that is fine by itself. -/
def Fine (l : List TypedArg) : Prop := (∀ a ∈ l, ∃ t, Names a.typeIdentifier t) ∧ (l.map (·.identifier)).Nodup

/-- **Specification.** The error names the first parameter of the list that is not fine: its type if that is not supported,
otherwise its name, which an earlier parameter has. -/
def FirstOffence (l : List TypedArg) (e : WError) : Prop :=
  ∃ pre a post, l = pre ++ a :: post ∧ Fine pre ∧
    (((¬ ∃ t, Names a.typeIdentifier t) ∧ e = .unsupportedIdentifierType a.typeIdentifier) ∨
     ((∃ t, Names a.typeIdentifier t) ∧ a.identifier ∈ pre.map (·.identifier) ∧ e = .duplicateParameter a.identifier))

theorem wtype_names (s : String) (t : WType) : wtype? s = some t ↔ Names s t := by
  unfold wtype? Names
  split <;> simp_all [eq_comm]

theorem wtype_none (s : String) : wtype? s = none ↔ ¬ ∃ t, Names s t := by
  constructor
  · rintro h ⟨t, ht⟩
    rw [← wtype_names, h] at ht
    simp at ht
  · intro h
    cases hw : wtype? s with
    | none => rfl
    | some t => exact absurd ⟨t, (wtype_names s t).mp hw⟩ h

/-- What has been read so far. -/
structure Read (pre : List TypedArg) (seen : List String) (out : List WParam) : Prop where
  fine : Fine pre
  accepted : Accepted pre out
  seen : ∀ x, x ∈ seen ↔ x ∈ pre.map (·.identifier)

theorem paramsLoop_spec (l pre : List TypedArg) (seen : List String) (out : List WParam) (h : Read pre seen out) :
    (∀ ps, paramsLoop l seen out = .ok ps → Fine (pre ++ l) ∧ Accepted (pre ++ l) ps) ∧
    (∀ e, paramsLoop l seen out = .error e → FirstOffence (pre ++ l) e) := by
  induction l generalizing pre seen out with
  | nil =>
    constructor
    · intro ps hp
      cases hp
      rw [List.append_nil]
      exact ⟨h.fine, h.accepted⟩
    · intro e he; simp [paramsLoop] at he
  | cons a l ih =>
    rw [paramsLoop]
    cases hw : wtype? a.typeIdentifier with
    | none =>
      constructor
      · intro ps hp; simp at hp
      · intro e he
        injection he with he
        exact ⟨pre, a, l, rfl, h.fine, .inl ⟨(wtype_none _).mp hw, he.symm⟩⟩
    | some t =>
      have ht := (wtype_names _ _).mp hw
      simp only
      by_cases hm : a.identifier ∈ seen
      · simp only [if_pos hm]
        constructor
        · intro ps hp; simp at hp
        · intro e he
          injection he with he
          exact ⟨pre, a, l, rfl, h.fine, .inr ⟨⟨t, ht⟩, (h.seen _).mp hm, he.symm⟩⟩
      · simp only [if_neg hm]
        have hnew : Read (pre ++ [a]) (seen.insert a.identifier) (out ++ [⟨a.identifier, t⟩]) := by
          refine ⟨⟨?_, ?_⟩, ⟨?_, ?_⟩, ?_⟩
          · intro b hb
            rcases List.mem_append.mp hb with hb | hb
            · exact h.fine.1 b hb
            · rw [List.mem_singleton.mp hb]; exact ⟨t, ht⟩
          · rw [List.map_append, List.nodup_append]
            refine ⟨h.fine.2, by simp, ?_⟩
            intro x hx y hy
            simp only [List.map_cons, List.map_nil, List.mem_singleton] at hy
            subst hy
            rintro rfl
            exact hm ((h.seen _).mpr hx)
          · simp [h.accepted.1]
          · intro k b p hb hp
            by_cases hk : k < pre.length
            · rw [List.getElem?_append_left hk] at hb
              rw [List.getElem?_append_left (by rw [← h.accepted.1]; exact hk)] at hp
              exact h.accepted.2 k b p hb hp
            · rw [List.getElem?_append_right (by omega)] at hb
              rw [List.getElem?_append_right (by rw [← h.accepted.1]; omega), ← h.accepted.1] at hp
              cases hkk : k - pre.length with
              | zero =>
                rw [hkk] at hb hp
                simp at hb hp
                subst hb; subst hp
                exact ⟨rfl, ht⟩
              | succ n => rw [hkk] at hb; simp at hb
          · intro x
            rw [List.mem_insert_iff, h.seen]
            simp [or_comm]
        have := ih (pre ++ [a]) _ _ hnew
        rw [List.append_assoc] at this
        exact this

theorem params_ok {l : List TypedArg} {ps : List WParam} (h : params l = .ok ps) : Fine l ∧ Accepted l ps :=
  (paramsLoop_spec l [] [] [] ⟨⟨by simp, by simp⟩, ⟨rfl, by simp⟩, by simp⟩).1 ps h

theorem params_error {l : List TypedArg} {e : WError} (h : params l = .error e) : FirstOffence l e :=
  (paramsLoop_spec l [] [] [] ⟨⟨by simp, by simp⟩, ⟨rfl, by simp⟩, by simp⟩).2 e h

theorem firstOffence_not_fine {l : List TypedArg} {e : WError} (h : FirstOffence l e) : ¬ Fine l := by
  obtain ⟨pre, a, post, rfl, _, h⟩ := h
  intro hf
  rcases h with ⟨h, _⟩ | ⟨_, h, _⟩
  · exact h (hf.1 a (by simp))
  · have := hf.2
    rw [List.map_append, List.nodup_append] at this
    exact this.2.2 _ h _ (by simp) rfl

theorem params_fine {l : List TypedArg} (h : Fine l) : ∃ ps, params l = .ok ps := by
  cases hp : params l with
  | ok ps => exact ⟨ps, rfl⟩
  | error e => exact absurd h (firstOffence_not_fine (params_error hp))

theorem accepted_names {l : List TypedArg} {ps : List WParam} (h : Accepted l ps) : ps.map (·.identifier) = l.map (·.identifier) := by
  apply List.ext_getElem?
  intro k
  rw [List.getElem?_map, List.getElem?_map]
  by_cases hk : k < l.length
  · have hk' : k < ps.length := by rw [← h.1]; exact hk
    rw [List.getElem?_eq_getElem hk, List.getElem?_eq_getElem hk']
    simp [(h.2 k _ _ (List.getElem?_eq_getElem hk) (List.getElem?_eq_getElem hk')).1]
  · have hk' : ¬ k < ps.length := by rw [← h.1]; exact hk
    rw [List.getElem?_eq_none (l := ps) (by omega), List.getElem?_eq_none (l := l) (by omega)]; rfl

theorem distinctLoop_spec (l : List WParam) (seen pre : List String) (hs : ∀ x, x ∈ seen ↔ x ∈ pre) (hn : pre.Nodup) :
    (distinctLoop l seen = .ok () ↔ (pre ++ l.map (·.identifier)).Nodup) ∧
    (∀ e, distinctLoop l seen = .error e → ∃ l1 p l2, l = l1 ++ p :: l2 ∧ (pre ++ l1.map (·.identifier)).Nodup ∧
      p.identifier ∈ pre ++ l1.map (·.identifier) ∧ e = .duplicateArgsRessParameter p.identifier) := by
  induction l generalizing seen pre with
  | nil => simp [distinctLoop, hn]
  | cons p l ih =>
    rw [distinctLoop]
    by_cases hm : p.identifier ∈ seen
    · simp only [if_pos hm]
      constructor
      · constructor
        · intro h; simp at h
        · intro h
          exfalso
          rw [List.nodup_append] at h
          exact h.2.2 _ ((hs _).mp hm) p.identifier (by simp) rfl
      · intro e he
        injection he with he
        exact ⟨[], p, l, rfl, by simpa using hn, by simpa using (hs _).mp hm, he.symm⟩
    · simp only [if_neg hm]
      have hp : p.identifier ∉ pre := fun h => hm ((hs _).mpr h)
      obtain ⟨h1, h2⟩ := ih (seen.insert p.identifier) (pre ++ [p.identifier]) (by
        intro x; rw [List.mem_insert_iff, hs]; simp [or_comm]) (by
        rw [List.nodup_append]
        refine ⟨hn, by simp, ?_⟩
        intro x hx y hy
        simp only [List.mem_singleton] at hy
        subst hy
        rintro rfl
        exact hp hx)
      constructor
      · rw [h1]; simp
      · intro e he
        obtain ⟨l1, q, l2, rfl, ha, hb, hc⟩ := h2 e he
        exact ⟨p :: l1, q, l2, rfl, by simpa using ha, by simpa using hb, hc⟩

/-- **C36 (typed form).** A typed apply advice (with at least one argument, as the grammar demands) is accepted exactly if every
parameter has a supported type and the names of its arguments and results are pairwise different; it then keeps the
parameters, in order, with their names and types, and the name of the function. -/
theorem C36_typed_accepted_iff_partial (mu : Bool) (f : String) (as rs : List TypedArg) (has : as ≠ []) (s : ApplySig) :
    applySig (if mu then .speInter f as rs else .speIntro f as rs) = .ok s ↔
      ((∀ a ∈ as ++ rs, ∃ t, Names a.typeIdentifier t) ∧ ((as ++ rs).map (·.identifier)).Nodup) ∧
      ∃ xs ys, s = .spe (!mu) f xs ys ∧ Accepted as xs ∧ Accepted rs ys := by
  have e : applySig (if mu then .speInter f as rs else .speIntro f as rs) = applySpe (!mu) f as rs := by cases mu <;> rfl
  rw [e]
  constructor
  · intro h
    unfold applySpe at h
    split at h
    · simp at h
    · rename_i xs hx
      split at h
      · simp at h
      · rename_i ys hy
        split at h
        · simp at h
        · rename_i hd
          injection h with h
          obtain ⟨fx, ax⟩ := params_ok hx
          obtain ⟨fy, ay⟩ := params_ok hy
          refine ⟨⟨?_, ?_⟩, xs, ys, h.symm, ax, ay⟩
          · intro a ha
            rcases List.mem_append.mp ha with ha | ha
            · exact fx.1 a ha
            · exact fy.1 a ha
          · rw [List.map_append, ← accepted_names ax, ← accepted_names ay, ← List.map_append]
            have hxs : xs ≠ [] := by
              rintro rfl
              have := ax.1
              exact has (List.eq_nil_of_length_eq_zero this)
            unfold distinctArguments at hd
            rw [if_neg hxs] at hd
            simpa using ((distinctLoop_spec (xs ++ ys) [] [] (by simp) (by simp)).1).mp hd
  · rintro ⟨⟨ht, hn⟩, xs, ys, rfl, ax, ay⟩
    have fx : Fine as := ⟨fun a ha => ht a (by simp [ha]), by
      rw [List.map_append, List.nodup_append] at hn; exact hn.1⟩
    have fy : Fine rs := ⟨fun a ha => ht a (by simp [ha]), by
      rw [List.map_append, List.nodup_append] at hn; exact hn.2.1⟩
    have uniq : ∀ {l : List TypedArg} {ps qs : List WParam}, Accepted l ps → Accepted l qs → ps = qs := by
      intro l ps qs hp hq
      apply List.ext_getElem?
      intro k
      by_cases hk : k < l.length
      · have hk1 : k < ps.length := by rw [← hp.1]; exact hk
        have hk2 : k < qs.length := by rw [← hq.1]; exact hk
        rw [List.getElem?_eq_getElem hk1, List.getElem?_eq_getElem hk2]
        obtain ⟨a1, a2⟩ := hp.2 k _ _ (List.getElem?_eq_getElem hk) (List.getElem?_eq_getElem hk1)
        obtain ⟨b1, b2⟩ := hq.2 k _ _ (List.getElem?_eq_getElem hk) (List.getElem?_eq_getElem hk2)
        have : (ps[k]).type = (qs[k]).type := by
          rw [← wtype_names] at a2 b2
          exact Option.some.inj (a2.symm.trans b2)
        congr 1
        revert a1 b1 this
        generalize ps[k] = p
        generalize qs[k] = q
        cases p; cases q
        simp_all
      · rw [List.getElem?_eq_none (by rw [← hp.1]; omega), List.getElem?_eq_none (by rw [← hq.1]; omega)]
    obtain ⟨xs', hx⟩ := params_fine fx
    obtain ⟨ys', hy⟩ := params_fine fy
    obtain rfl := uniq ax (params_ok hx).2
    obtain rfl := uniq ay (params_ok hy).2
    have hxs : xs ≠ [] := by
      rintro rfl
      exact has (List.eq_nil_of_length_eq_zero ax.1)
    have hd : distinctArguments xs ys = .ok () := by
      unfold distinctArguments
      rw [if_neg hxs]
      apply ((distinctLoop_spec (xs ++ ys) [] [] (by simp) (by simp)).1).mpr
      rw [List.map_append, accepted_names ax, accepted_names ay, ← List.map_append]
      exact hn
    simp [applySpe, hx, hy, hd]

/-- **C36 (typed form, errors).** Otherwise the error names the first offending parameter among the arguments, else the first
one among the results taken by themselves, else the first result that has the name of an argument. -/
theorem C36_typed_errors (mu : Bool) (f : String) (as rs : List TypedArg) (has : as ≠ []) (e : WError)
    (h : applySig (if mu then .speInter f as rs else .speIntro f as rs) = .error e) :
    FirstOffence as e ∨ (Fine as ∧ FirstOffence rs e) ∨
    (Fine as ∧ Fine rs ∧ ∃ pre a post, rs = pre ++ a :: post ∧ (as.map (·.identifier) ++ pre.map (·.identifier)).Nodup ∧
      a.identifier ∈ as.map (·.identifier) ∧ e = .duplicateArgsRessParameter a.identifier) := by
  have e' : applySig (if mu then .speInter f as rs else .speIntro f as rs) = applySpe (!mu) f as rs := by cases mu <;> rfl
  rw [e'] at h
  unfold applySpe at h
  split at h
  · rename_i e1 hx
    injection h with h
    exact .inl (h ▸ params_error hx)
  · rename_i xs hx
    obtain ⟨fx, ax⟩ := params_ok hx
    split at h
    · rename_i e1 hy
      injection h with h
      exact .inr (.inl ⟨fx, h ▸ params_error hy⟩)
    · rename_i ys hy
      obtain ⟨fy, ay⟩ := params_ok hy
      split at h
      · rename_i e1 hd
        injection h with h
        subst h
        refine .inr (.inr ⟨fx, fy, ?_⟩)
        have hxs : xs ≠ [] := by
          rintro rfl
          exact has (List.eq_nil_of_length_eq_zero ax.1)
        unfold distinctArguments at hd
        rw [if_neg hxs] at hd
        obtain ⟨l1, p, l2, hl, hn, hp, he⟩ := (distinctLoop_spec (xs ++ ys) [] [] (by simp) (by simp)).2 _ hd
        simp only [List.nil_append] at hn hp
        -- the offending parameter is a result
        by_cases hlen : l1.length < xs.length
        · exfalso
          have hxn : (xs.map (·.identifier)).Nodup := by rw [accepted_names ax]; exact fx.2
          have hsplit : ∃ t, xs = l1 ++ p :: t := by
            have h1 := congrArg (List.take (l1.length + 1)) hl
            rw [List.take_append_of_le_length (by omega)] at h1
            refine ⟨xs.drop (l1.length + 1), ?_⟩
            have h2 : List.take (l1.length + 1) (l1 ++ p :: l2) = l1 ++ [p] := by
              rw [List.take_append, List.take_of_length_le (by omega)]; simp
            rw [h2] at h1
            calc xs = xs.take (l1.length + 1) ++ xs.drop (l1.length + 1) := (List.take_append_drop _ _).symm
              _ = _ := by rw [h1]; simp
          obtain ⟨t, rfl⟩ := hsplit
          rw [List.map_append, List.nodup_append] at hxn
          exact hxn.2.2 _ hp p.identifier (by simp) rfl
        · obtain ⟨q, hq⟩ : ∃ q, l1 = xs ++ q ∧ ys = q ++ p :: l2 := by
            have h1 := congrArg (List.take xs.length) hl
            rw [List.take_left, List.take_append_of_le_length (by omega)] at h1
            have h2 := congrArg (List.drop xs.length) hl
            rw [List.drop_left, List.drop_append_of_le_length (by omega)] at h2
            refine ⟨l1.drop xs.length, ?_, h2⟩
            calc l1 = l1.take xs.length ++ l1.drop xs.length := (List.take_append_drop _ _).symm
              _ = _ := by rw [← h1]
          obtain ⟨rfl, hys⟩ := hq
          have hpos : ∃ pre a post, rs = pre ++ a :: post ∧ pre.map (·.identifier) = q.map (·.identifier) ∧ a.identifier = p.identifier := by
            have hnm := accepted_names ay
            rw [hys] at hnm
            have hl : q.length < rs.length := by
              have := ay.1; rw [hys] at this; simp at this; omega
            refine ⟨rs.take q.length, rs[q.length], rs.drop (q.length + 1), ?_, ?_, ?_⟩
            · rw [List.getElem_cons_drop, List.take_append_drop]
            · rw [List.map_take, ← hnm]; simp
            · have := congrArg (·[q.length]?) hnm
              simp only [List.map_append, List.map_cons, List.getElem?_map] at this
              rw [List.getElem?_append_right (by simp)] at this
              simp [List.getElem?_eq_getElem hl] at this
              exact this.symm
          obtain ⟨pre, a, post, h1, h2, h3⟩ := hpos
          refine ⟨pre, a, post, h1, ?_, ?_, by rw [he, h3]⟩
          · rw [h2, ← accepted_names ax]; simpa using hn
          · rw [h3, ← accepted_names ax]
            rw [List.map_append] at hp
            rcases List.mem_append.mp hp with hp | hp
            · exact hp
            · exfalso
              have hyn : (ys.map (·.identifier)).Nodup := by rw [accepted_names ay]; exact fy.2
              rw [hys, List.map_append, List.nodup_append] at hyn
              exact hyn.2.2 _ hp p.identifier (by simp) rfl
      · simp at h

/-- **C36 (violation: mutability).** The form with `Mut` gives a signature marked as not mutable, the form without gives one
marked as mutable, whenever they are accepted. -/
theorem C36_mutability_inverted (f : String) (as rs : List TypedArg) (mu : Bool) (g : String) (xs ys : List WParam) :
    (applySig (.speInter f as rs) = .ok (.spe mu g xs ys) → mu = false) ∧
    (applySig (.speIntro f as rs) = .ok (.spe mu g xs ys) → mu = true) := by
  constructor <;>
  · intro h
    rw [applySig, applySpe] at h
    split at h
    · simp at h
    · split at h
      · simp at h
      · split at h
        · simp at h
        · simp at h; exact h.1

/-- **C36 (violation: function name).** A typed apply advice whose function has the name of one of its arguments is accepted. -/
theorem C36_function_name_unchecked : ∃ (f : String) (as rs : List TypedArg) (s : ApplySig),
    f ∈ (as ++ rs).map (·.identifier) ∧ applySig (.speIntro f as rs) = .ok s :=
  ⟨"a", [⟨"a", "I32"⟩], [⟨"b", "I32"⟩], .spe true "a" [⟨"a", .i32⟩] [⟨"b", .i32⟩], by decide, by rfl⟩

/-- **C36 (violation: order of errors).** The reported parameter need not be the first one that is wrong: here the first
result repeats the argument's name, but the type of the second result is reported. -/
theorem C36_later_offence_first : applySig (.speIntro "f" [⟨"a", "I32"⟩] [⟨"a", "I32"⟩, ⟨"b", "X1"⟩]) =
    .error (.unsupportedIdentifierType "X1") := by rfl

-- Accepted advice of both forms.
example : applySig (.gen "f" ⟨"args", "DynArgs"⟩ ⟨"ress", "DynResults"⟩) = .ok (.gen .dynamic "f" "args" "ress") := by rfl
example : applySig (.speInter "f" [⟨"a", "I32"⟩, ⟨"b", "F32"⟩] [⟨"c", "I64"⟩]) =
    .ok (.spe false "f" [⟨"a", .i32⟩, ⟨"b", .f32⟩] [⟨"c", .i64⟩]) := by rfl
-- Rejected ones.
example : applySig (.gen "f" ⟨"args", "DynArgs"⟩ ⟨"ress", "Results"⟩) = .error (.incorrectArgsRessType "DynArgs" "Results") := by rfl
example : applySig (.speIntro "f" [⟨"a", "I32"⟩, ⟨"b", "F32"⟩] [⟨"c", "I64"⟩, ⟨"a", "I64"⟩]) =
    .error (.duplicateArgsRessParameter "a") := by rfl

/-- **C36 (programs).** A program is accepted exactly if each of its advice is, and keeps them in order; otherwise its error is
that of the first advice that is not accepted. -/
theorem C36_program (l : List PestAdvice) :
    (∀ r, root l = .ok r ↔ l.length = r.length ∧ ∀ (k : Nat) p a, l[k]? = some p → r[k]? = some a → advice p = .ok a) ∧
    (∀ e, root l = .error e → ∃ pre p post, l = pre ++ p :: post ∧ advice p = .error e ∧ ∀ q ∈ pre, ∃ a, advice q = .ok a) := by
  induction l with
  | nil =>
    constructor
    · intro r
      cases r <;> simp [root]
    · intro e h; simp [root] at h
  | cons p l ih =>
    rw [root]
    cases hp : advice p with
    | error e =>
      simp only
      constructor
      · intro r
        simp only [reduceCtorEq, false_iff, not_and]
        intro hl
        cases r with
        | nil => simp at hl
        | cons a r =>
          intro h
          have := h 0 p a rfl rfl
          rw [hp] at this
          simp at this
      · intro e' h
        injection h with h
        subst h
        exact ⟨[], p, l, rfl, hp, by simp⟩
    | ok a =>
      simp only
      cases hr : root l with
      | error e =>
        simp only
        constructor
        · intro r
          simp only [reduceCtorEq, false_iff, not_and]
          intro hl h
          cases r with
          | nil => simp at hl
          | cons b r =>
            have := (ih.1 r).mpr ⟨by simpa using hl, fun k q c h1 h2 => h (k + 1) q c (by simpa using h1) (by simpa using h2)⟩
            rw [hr] at this
            simp at this
        · intro e' h
          injection h with h
          subst h
          obtain ⟨pre, q, post, rfl, h1, h2⟩ := ih.2 e hr
          refine ⟨p :: pre, q, post, rfl, h1, ?_⟩
          intro x hx
          rcases List.mem_cons.mp hx with rfl | hx
          · exact ⟨a, hp⟩
          · exact h2 x hx
      | ok t =>
        simp only
        constructor
        · intro r
          constructor
          · intro h
            injection h with h
            subst h
            obtain ⟨h1, h2⟩ := (ih.1 t).mp hr
            refine ⟨by simp [h1], ?_⟩
            intro k q c hq hc
            cases k with
            | zero => simp at hq hc; subst hq; subst hc; exact hp
            | succ k => exact h2 k q c (by simpa using hq) (by simpa using hc)
          · rintro ⟨hl, h⟩
            cases r with
            | nil => simp at hl
            | cons b r =>
              have h0 := h 0 p b rfl rfl
              rw [hp] at h0
              injection h0 with h0
              have := (ih.1 r).mpr ⟨by simpa using hl, fun k q c h1 h2 => h (k + 1) q c (by simpa using h1) (by simpa using h2)⟩
              rw [hr] at this
              injection this with this
              rw [h0, this]
        · intro e h; simp at h

/-! ## C50 -/

/-- The value type an AssemblyScript type is compiled to. -/
def WType.val : WType → ValType
  | .i32 => .i32 | .f32 => .f32 | .i64 => .i64 | .f64 => .f64

/-- **Specification.** The generated function is what the interface entry declares: same name, parameter and result types. -/
def ASExport.Implements (x : ASExport) (e : WasmExport) : Prop :=
  x.name = e.name ∧ x.params.map (fun p => p.2.val) = e.args ∧ x.result.toList.map WType.val = e.results

theorem plain_implements (t : PlainTrap) (b : String) : (t.export b).Implements t.entry.1.export := by
  cases t with
  | call q t => cases q <;> exact ⟨rfl, rfl, rfl⟩
  | _ => exact ⟨rfl, rfl, rfl⟩

theorem generic_implements (f a r b : String) : (genericExport f a r b).Implements interfaceGenericApply.1 := ⟨rfl, rfl, rfl⟩

theorem mem_program_func (r : List Advice) (x : ASExport) :
    .func x ∈ program r ↔ ∃ a ∈ r, a.piece = .func x := by
  simp only [program, List.mem_append, List.mem_map]
  constructor
  · rintro (((h | h) | h) | h)
    · split at h <;> simp at h
    · split at h <;> simp at h
    · split at h <;> simp at h
    · exact h
  · exact .inr

/-- **C50 (hooks are implemented).** Every entry of a Wasp program's interface is implemented by a function of the generated
AssemblyScript program, with the declared name and signature; conversely every generated function implements an entry. -/
theorem C50_generated_hooks_match (r : List Advice) (i : Interface) (h : interface r = some i) :
    (∀ t e, i.trap t = some e → ∃ x, .func x ∈ program r ∧ x.Implements e) ∧
    (∀ g, i.generic = some g → ∃ x, .func x ∈ program r ∧ x.Implements g.1) ∧
    (∀ x, .func x ∈ program r → (∃ t e, i.trap t = some e ∧ x.Implements e) ∨ ∃ g, i.generic = some g ∧ x.Implements g.1) := by
  obtain ⟨a1, a2⟩ := C35_interface_exact_partial r i h
  refine ⟨?_, ?_, ?_⟩
  · intro t e he
    obtain ⟨rfl, a, ha, had⟩ := (a1 t e).mp he
    obtain ⟨u, b, rfl⟩ := advises_only_plain had
    rw [advises_plain] at had
    exact ⟨u.export b, (mem_program_func r _).mpr ⟨_, ha, rfl⟩, had ▸ plain_implements u b⟩
  · intro g hg
    obtain ⟨rfl, a, ha, m, f, x, y, b, rfl⟩ := (a2 g).mp hg
    exact ⟨_, (mem_program_func r _).mpr ⟨_, ha, rfl⟩, generic_implements f x y b⟩
  · intro x hx
    obtain ⟨a, ha, hp⟩ := (mem_program_func r x).mp hx
    rcases a with c | ⟨s, b⟩ | ⟨t, b⟩
    · simp [Advice.piece] at hp
    · cases s with
      | gen m f y z =>
        simp only [Advice.piece, ASPiece.func.injEq] at hp
        subst hp
        exact .inr ⟨_, (a2 _).mpr ⟨rfl, _, ha, m, f, y, z, b, rfl⟩, generic_implements f y z b⟩
      | spe m f y z => simp [Advice.piece] at hp
    · simp only [Advice.piece, ASPiece.func.injEq] at hp
      subst hp
      exact .inl ⟨t.entry.1, _, (a1 _ _).mpr ⟨rfl, _, ha, (advises_plain _ _ _).mpr rfl⟩, plain_implements t b⟩

/-- **C50 (classes are declared).** Every class from which a generated function makes a variable is declared by a library that
the program includes, and no library is included twice. -/
theorem C50_classes_declared (r : List Advice) :
    (∀ x, .func x ∈ program r → ∀ v ∈ x.vars, ∃ l, .lib l ∈ program r ∧ v.2.1 ∈ l.classes) ∧
    ∀ l, (program r).count (.lib l) ≤ 1 := by
  constructor
  · intro x hx v hv
    obtain ⟨a, ha, hp⟩ := (mem_program_func r x).mp hx
    rcases a with c | ⟨s, b⟩ | ⟨t, b⟩
    · simp [Advice.piece] at hp
    · cases s with
      | gen m f y z =>
        simp only [Advice.piece, ASPiece.func.injEq] at hp
        subst hp
        refine ⟨.genericApply, ?_, ?_⟩
        · have : instrumentsGenericApply r = true := List.any_eq_true.mpr ⟨_, ha, rfl⟩
          simp [program, this]
        · simp only [genericExport, List.mem_cons, List.not_mem_nil, or_false] at hv
          rcases hv with rfl | rfl | rfl | rfl <;> simp [ASLib.classes]
      | spe m f y z => simp [Advice.piece] at hp
    · simp only [Advice.piece, ASPiece.func.injEq] at hp
      subst hp
      have hif : (match t with | .ifThen _ | .ifThenElse _ | .brIf .. | .brTable .. | .select _ => true | _ => false) = true →
          .lib .ifs ∈ program r := by
        intro h
        have : instrumentsIf r = true := List.any_eq_true.mpr ⟨_, ha, by cases t <;> simp_all⟩
        simp [program, this]
      have hcall : (match t with | .call .. | .callIndirectPre .. | .callIndirectPost _ => true | _ => false) = true →
          .lib .call ∈ program r := by
        intro h
        have : instrumentsCall r = true := List.any_eq_true.mpr ⟨_, ha, by cases t <;> simp_all⟩
        simp [program, this]
      cases t with
      | ifThen c => exact ⟨.ifs, hif rfl, by simp [PlainTrap.export] at hv; subst hv; simp [ASLib.classes]⟩
      | ifThenElse c => exact ⟨.ifs, hif rfl, by simp [PlainTrap.export] at hv; subst hv; simp [ASLib.classes]⟩
      | brIf c l => exact ⟨.ifs, hif rfl, by simp [PlainTrap.export] at hv; rcases hv with rfl | rfl <;> simp [ASLib.classes]⟩
      | brTable t d => exact ⟨.ifs, hif rfl, by simp [PlainTrap.export] at hv; rcases hv with rfl | rfl <;> simp [ASLib.classes]⟩
      | select c => exact ⟨.ifs, hif rfl, by simp [PlainTrap.export] at hv; subst hv; simp [ASLib.classes]⟩
      | call q t => exact ⟨.call, hcall rfl, by simp [PlainTrap.export] at hv; subst hv; simp [ASLib.classes]⟩
      | callIndirectPre t i => exact ⟨.call, hcall rfl, by simp [PlainTrap.export] at hv; rcases hv with rfl | rfl <;> simp [ASLib.classes]⟩
      | callIndirectPost t => exact ⟨.call, hcall rfl, by simp [PlainTrap.export] at hv; subst hv; simp [ASLib.classes]⟩
      | blockPre => simp [PlainTrap.export] at hv
      | blockPost => simp [PlainTrap.export] at hv
      | loopPre => simp [PlainTrap.export] at hv
      | loopPost => simp [PlainTrap.export] at hv
  · intro l
    have hz : (r.map Advice.piece).count (.lib l) = 0 := by
      rw [List.count_eq_zero]
      intro h
      obtain ⟨a, _, ha⟩ := List.mem_map.mp h
      rcases a with c | ⟨s, b⟩ | ⟨t, b⟩
      · simp [Advice.piece] at ha
      · cases s <;> simp [Advice.piece] at ha
      · simp [Advice.piece] at ha
    simp only [program, List.count_append, hz]
    cases l <;> (split <;> split <;> split <;> simp [List.count_cons])

/-- **C50 (names exported once, partial).** If no two advice are of the same kind, the names of the generated functions are
pairwise different. What is missing: programs with two advice of the same kind are accepted, and export the same name twice, see
`C50_repeated_advice_clashes`. -/
theorem C50_export_names_distinct_partial (r : List Advice)
    (hg : ∀ (k l : Nat) a b, r[k]? = some a → r[l]? = some b → IsGeneric a → IsGeneric b → k = l)
    (ht : ∀ (k l : Nat) a b t, r[k]? = some a → r[l]? = some b → Advises a t → Advises b t → k = l)
    (k l : Nat) (x y : ASExport) (hk : (program r)[k]? = some (.func x)) (hl : (program r)[l]? = some (.func y))
    (hn : x.name = y.name) : k = l := by
  have hpos : ∃ n, ∀ (k : Nat) x, (program r)[k]? = some (.func x) → n ≤ k ∧ ∃ a, r[k - n]? = some a ∧ a.piece = .func x := by
    let pre := (if instrumentsGenericApply r then [ASPiece.lib .genericApply] else []) ++ (if instrumentsIf r then [ASPiece.lib .ifs] else []) ++
      (if instrumentsCall r then [ASPiece.lib .call] else [])
    have hpre : ∀ p ∈ pre, ∃ l, p = .lib l := by
      intro p hp
      simp only [pre, List.mem_append] at hp
      rcases hp with (h | h) | h <;> (split at h <;> simp at h; exact ⟨_, h⟩)
    refine ⟨pre.length, ?_⟩
    intro k x hk
    have hk : (pre ++ r.map Advice.piece)[k]? = some (.func x) := hk
    by_cases hlt : k < pre.length
    · rw [List.getElem?_append_left hlt] at hk
      obtain ⟨l, hl⟩ := hpre _ (List.mem_of_getElem? hk)
      simp at hl
    · rw [List.getElem?_append_right (by omega), List.getElem?_map] at hk
      cases ha : r[k - pre.length]? with
      | none => rw [ha] at hk; simp at hk
      | some a =>
        rw [ha] at hk
        exact ⟨by omega, a, rfl, by simpa using hk⟩
  obtain ⟨n, hpos⟩ := hpos
  obtain ⟨hk1, a, hka, hpa⟩ := hpos k x hk
  obtain ⟨hl1, b, hlb, hpb⟩ := hpos l y hl
  have key : k - n = l - n := by
    have tname : ∀ t u : PlainTrap, t.entry.1.exportName = u.entry.1.exportName → t.entry.1 = u.entry.1 := by
      intro t u
      rcases t with ⟨_ | _, _⟩ | _ | _ | _ | _ | _ | _ | _ | _ | _ | _ | _ <;>
        rcases u with ⟨_ | _, _⟩ | _ | _ | _ | _ | _ | _ | _ | _ | _ | _ | _ <;>
        simp [PlainTrap.entry, Trap.exportName]
    have gname : ∀ t : PlainTrap, t.entry.1.exportName ≠ "generic_apply" := by
      intro t
      rcases t with ⟨_ | _, _⟩ | _ | _ | _ | _ | _ | _ | _ | _ | _ | _ | _ <;> simp [PlainTrap.entry, Trap.exportName]
    rcases a with c | ⟨s, ba⟩ | ⟨t, ba⟩
    · simp [Advice.piece] at hpa
    · cases s with
      | gen m f p q =>
        simp only [Advice.piece, ASPiece.func.injEq] at hpa
        subst hpa
        rcases b with c | ⟨s, bb⟩ | ⟨u, bb⟩
        · simp [Advice.piece] at hpb
        · cases s with
          | gen m' f' p' q' => exact hg _ _ _ _ hka hlb ⟨_, _, _, _, _, rfl⟩ ⟨_, _, _, _, _, rfl⟩
          | spe => simp [Advice.piece] at hpb
        · simp only [Advice.piece, ASPiece.func.injEq] at hpb
          subst hpb
          rw [(plain_implements u bb).1] at hn
          exact absurd hn.symm (gname u)
      | spe => simp [Advice.piece] at hpa
    · simp only [Advice.piece, ASPiece.func.injEq] at hpa
      subst hpa
      rw [(plain_implements t ba).1] at hn
      rcases b with c | ⟨s, bb⟩ | ⟨u, bb⟩
      · simp [Advice.piece] at hpb
      · cases s with
        | gen m' f' p' q' =>
          simp only [Advice.piece, ASPiece.func.injEq] at hpb
          subst hpb
          exact absurd hn (gname t)
        | spe => simp [Advice.piece] at hpb
      · simp only [Advice.piece, ASPiece.func.injEq] at hpb
        subst hpb
        rw [(plain_implements u bb).1] at hn
        have := tname t u hn
        exact ht _ _ _ _ t.entry.1 hka hlb ((advises_plain _ _ _).mpr rfl) ((advises_plain _ _ _).mpr this)
  omega

/-- **C50 (violation).** A program with the same kind of advice twice is accepted, but the generated program exports the same
name twice. -/
theorem C50_repeated_advice_clashes (t : PlainTrap) (b b' : String) :
    root [.plain t b, .plain t b'] = .ok [.plain t b, .plain t b'] ∧
    ∃ pre, program [.plain t b, .plain t b'] = pre ++ [.func (t.export b), .func (t.export b')] ∧ (t.export b).name = (t.export b').name := by
  refine ⟨rfl, _, rfl, ?_⟩
  rw [(plain_implements t b).1, (plain_implements t b').1]

example : .func ((PlainTrap.call .pre "g").export "") ∈ program exWasp ∧ ((PlainTrap.call .pre "g").export "").name = "specialized_call_pre" := by
  constructor
  · simp [program, exWasp, Advice.piece]
  · rfl

/-! ## C51 -/

/-- **Specification.** An identifier of the grammar: `identifier = @{ ASCII_ALPHA+ }`, `wasp.pest` 22. -/
def Ident (s : String) : Prop := s ≠ "" ∧ ∀ c ∈ s.toList, c.isAlpha = true

theorem not_ident_underscore {s : String} (h : '_' ∈ s.toList) : ¬ Ident s := by
  intro hi
  have := hi.2 _ h
  revert this
  decide

/-- **Specification.** The names an advice other than apply gives its parameters. -/
def PlainTrap.names : PlainTrap → List String
  | .call _ t => [t]
  | .select c => [c]
  | .callIndirectPre t i => [t, i]
  | .callIndirectPost t => [t]
  | .ifThen c => [c]
  | .ifThenElse c => [c]
  | .brIf c l => [c, l]
  | .brTable t d => [t, d]
  | _ => []

/-- **C51 (hygiene, partial).** The variables of the functions generated for advice other than apply are the advice's parameters;
if they are identifiers of the grammar, none of them has the name of a fixed parameter, except `arity` — which no advice with
parameters has. What is missing: apply advice, see `C51_apply_captures`; equal names, see `C51_equal_names_accepted`. -/
theorem C51_hook_names_fresh_partial (t : PlainTrap) (b : String) (h : ∀ s ∈ t.names, Ident s) :
    (t.export b).vars.map (·.1) = t.names ∧ ∀ v ∈ (t.export b).vars, v.1 ∉ (t.export b).params.map (·.1) := by
  have hv : (t.export b).vars.map (·.1) = t.names := by cases t <;> rfl
  refine ⟨hv, ?_⟩
  intro v hm hp
  have hn : v.1 ∈ t.names := by rw [← hv]; exact List.mem_map_of_mem hm
  have hi := h _ hn
  have hall : t.names ≠ [] → ∀ s ∈ (t.export b).params.map (·.1), '_' ∈ s.toList := by
    intro hne
    cases t with
    | blockPre => simp [PlainTrap.names] at hne
    | blockPost => simp [PlainTrap.names] at hne
    | loopPre => simp [PlainTrap.names] at hne
    | loopPost => simp [PlainTrap.names] at hne
    | _ => simp only [PlainTrap.export, List.map_cons, List.map_nil]; decide +kernel
  exact not_ident_underscore (hall (by rintro e; rw [e] at hn; simp at hn) _ hp) hi

/-- **C51 (violation: capture).** A generic apply advice may name its function `sigv`: it is accepted, and the generated function
declares a variable with the name of a fixed parameter that a later variable is made from. -/
theorem C51_apply_captures : ∃ (f a r : TypedArg) (s : ApplySig),
    Ident f.identifier ∧ Ident a.identifier ∧ Ident r.identifier ∧ applySig (.gen f.identifier a r) = .ok s ∧
    f.identifier ∈ (genericExport f.identifier a.identifier r.identifier "").params.map (·.1) ∧
    ∃ v ∈ (genericExport f.identifier a.identifier r.identifier "").vars, v.1 ≠ f.identifier ∧ f.identifier ∈ v.2.2 :=
  ⟨⟨"sigv", ""⟩, ⟨"args", "Args"⟩, ⟨"ress", "Results"⟩, .gen .highLevel "sigv" "args" "ress",
    ⟨by decide, by decide⟩, ⟨by decide, by decide⟩, ⟨by decide, by decide⟩, rfl, by decide,
    ("argsResults", "MutDynArgsResults", ["argc", "resc", "sigv", "sigtypv"]), by decide, by decide, by decide⟩

/-- **C51 (violation: equal names).** An advice other than apply with the same name for both of its parameters is accepted, and
the generated function declares two variables of that name. -/
theorem C51_equal_names_accepted (n b : String) :
    root [.plain (.brIf n n) b] = .ok [.plain (.brIf n n) b] ∧ ¬ (((PlainTrap.brIf n n).export b).vars.map (·.1)).Nodup :=
  ⟨rfl, by simp [PlainTrap.export]⟩

/-- **Specification.** Which argument of the hook each parameter of an advice stands for (counted from 0, in the order the instrumented
program passes them): the condition, index or callee comes first; then the label of a `br_if`, the table of an indirect call; the
default of a `br_table` comes after its effective label. -/
def PlainTrap.sources : PlainTrap → List Nat
  | .call _ _ => [0]
  | .select _ => [0]
  | .callIndirectPre _ _ => [1, 0]
  | .callIndirectPost _ => [0]
  | .ifThen _ => [0]
  | .ifThenElse _ => [0]
  | .brIf _ _ => [0, 1]
  | .brTable _ _ => [0, 2]
  | _ => []

/-- The arguments of the generated function a variable is made from. -/
def ASExport.madeFrom (e : ASExport) (v : String × String × List String) : List (Option Nat) :=
  v.2.2.map fun x => e.params.findIdx? fun p => p.1 == x

/-- **C50 (arguments).** Each parameter of an advice is made from exactly the argument it stands for. -/
theorem C50_parameters_are_the_arguments (t : PlainTrap) (b : String) :
    (t.export b).vars.map (t.export b).madeFrom = t.sources.map fun i => [some i] := by
  cases t <;> first | rfl | (rename_i q _; cases q <;> rfl)

/-- **C50 (arguments of apply).** The function of a generic apply advice is made from the function's and the copy's index and the pointer to its values,
the arguments and results from the two counts and the two pointers. -/
theorem C50_apply_parameters_are_the_arguments (f a r b : String) :
    (genericExport f a r b).vars.map (genericExport f a r b).madeFrom =
      [[some 0, some 1, some 4], [some 2, some 3, some 4, some 5], [none], [none]] ∧
    ((genericExport f a r b).vars.drop 2).map (·.2.2) = [["argsResults"], ["argsResults"]] ∧
    (genericExport f a r b).vars[1]?.map (·.1) = some "argsResults" :=
  ⟨rfl, rfl, rfl⟩

example : ∀ s ∈ (PlainTrap.brIf "cond" "label").names, Ident s := by
  intro s hs
  simp only [PlainTrap.names, List.mem_cons, List.not_mem_nil, or_false] at hs
  rcases hs with rfl | rfl <;> exact ⟨by decide, by decide⟩

end Wastrum.Wasp
