import Verif.Machine
/-!
# Properties of the instrumented module (C08, C09, C32, C33, C43)

`instrument C ord ord' iface ts m` is the model of the tool's `instrument`; `C` is the type checker, `ord` and
`ord'` are the iteration orders of the two hash sets (arbitrary permutations).
-/

set_option linter.unusedSimpArgs false
set_option linter.unusedVariables false

namespace Wastrum

/-- The interface gives every hook the signature the tool documents for it (all interfaces built by the tool's own
front ends do: `Trap.export`). -/
def Interface.Standard (iface : Interface) : Prop := ∀ t e, iface.trap t = some e → e.args = t.args ∧ e.results = t.results

/-- One successful run of the tool: for some iteration orders. -/
def Instruments (C : Checker) (iface : Interface) (ts : Option (List Nat)) (m : Module) (r : Instrumented) : Prop :=
  ∃ ord ord' : List Nat → List Nat, (∀ l, (ord l).Perm l) ∧ (∀ l, (ord' l).Perm l) ∧ instrument C ord ord' iface ts m = .ok r

/-! ## A program to try the theorems on -/

/-- A checker that accepts everything and infers nothing. -/
def exChecker : Checker := ⟨Unit, fun _ _ => (), fun _ _ => some ((), .unreachable)⟩

/-- Two functions that use an import, a function with a reference type, a memory and a table. -/
def exModule : Module where
  functions := [
    ⟨⟨[.i32], []⟩, .imported "env" "print", []⟩,
    ⟨⟨[.i32, .i32], [.i32]⟩, .present ⟨[.i64], [.loc .get 0, .ite ⟨[], [.i32]⟩, .loc .get 1, .els, .const (.i32 7), .call 2, .fin, .fin]⟩, ["main"]⟩,
    ⟨⟨[.i32], [.i32]⟩, .present ⟨[], [.loc .get 0, .call 0, .loc .get 0, .loc .get 0, .binary .i32Mul, .fin]⟩, []⟩,
    ⟨⟨[.ref .funcRef], []⟩, .present ⟨[], [.fin]⟩, ["f"]⟩]
  tables := [⟨2, none, none, .funcRef, ["t"]⟩]
  elements := []
  memories := [⟨1, none, none, []⟩]
  globals := []
  datas := []
  start := none

/-- An analysis that uses four hooks. -/
def exIface : Interface where
  generic := none
  trap t := if t = .ifThenElseTrap ∨ t = .preTrapCall ∨ t = .postTrapCall ∨ t = .binaryI32I32ToI32 then some t.export else none

/-- The same analysis, intercepting function application as well. -/
def exIfaceApply : Interface := { exIface with generic := some interfaceGenericApply }

theorem exModule_small : SmallModule exModule where
  functions := by decide
  arity := by decide
  length := by
    simp only [exModule, List.mem_cons, List.not_mem_nil, or_false, forall_eq_or_imp, forall_eq]
    simp
  body := by
    simp only [exModule, List.mem_cons, List.not_mem_nil, or_false, forall_eq_or_imp, forall_eq]
    simp [LInstr.Small]

example : exIface.Standard := by
  intro t e h
  simp only [exIface] at h
  split at h
  · simp only [Option.some.injEq] at h; subst h; exact ⟨rfl, rfl⟩
  · simp at h

theorem instruments_of_ok {C iface ts m} (h : m.memories.length ≤ 1) (hs : SmallModule m)
    (hb : ∀ i ∈ bodyTargets m ts, ∃ b, raiseTarget C m i = .ok b) : ∃ r, Instruments C iface ts m r := by
  obtain ⟨r, hr⟩ := (instrument_ok_iff (ord := id) (ord' := id) (iface := iface) (fun _ => .rfl) (fun _ => .rfl) hs).2 ⟨h, hb⟩
  exact ⟨r, id, id, fun _ => .rfl, fun _ => .rfl, hr⟩

theorem exModule_raises : ∀ i ∈ bodyTargets exModule none, ∃ b, raiseTarget exChecker exModule i = .ok b := by
  have h : bodyTargets exModule none = [1, 2] := by decide +kernel
  rw [h]
  intro i hi
  simp only [List.mem_cons, List.not_mem_nil, or_false] at hi
  rcases hi with rfl | rfl
  · exact ⟨_, rfl⟩
  · exact ⟨_, rfl⟩

example : ∃ r, Instruments exChecker exIface none exModule r := instruments_of_ok (by decide) exModule_small exModule_raises
example : ∃ r, Instruments exChecker exIfaceApply none exModule r := instruments_of_ok (by decide) exModule_small exModule_raises
-- Both targets really change.
example : ((instrument exChecker id id exIface none exModule).toOption.map fun r =>
    (r.module.functions.length, r.module.functions.map fun f => match f.code with
      | .present c => c.body.length | .imported _ _ => 0)) =
    some (33, [0, 21, 17, 1, 0, 0, 0, 0] ++ List.replicate 14 5 ++ List.replicate 9 6 ++ [3, 2]) := by decide +kernel

/-! ## C32 -/

/-- A type that mentions no reference type. -/
def FuncType.RefFree (t : FuncType) : Prop := ∀ v ∈ t.inputs ++ t.results, ∀ r, v ≠ .ref r

theorem usesReferenceTypes_false {f : Func} : usesReferenceTypes f = false ↔ f.type.RefFree := by
  unfold usesReferenceTypes FuncType.RefFree
  simp only [Bool.or_eq_false_iff, List.any_eq_false, List.mem_append]
  constructor
  · rintro ⟨h1, h2⟩ v hv r rfl
    rcases hv with hv | hv
    · exact h1 _ hv rfl
    · exact h2 _ hv rfl
  · intro h
    refine ⟨fun v hv => ?_, fun v hv => ?_⟩
    · cases v <;> simp [ValType.isRef]
      exact h _ (.inl hv) _ rfl
    · cases v <;> simp [ValType.isRef]
      exact h _ (.inr hv) _ rfl

/-- **C32 (apply).** The functions whose application is intercepted are the functions of the module (imports included)
whose type mentions no reference type and which are in the list, if there is one. -/
theorem C32_apply_targets (m : Module) (ts : Option (List Nat)) (i : Nat) :
    i ∈ applyTargets m ts ↔ ∃ f, m.functions[i]? = some f ∧ f.type.RefFree ∧ ∀ l, ts = some l → i ∈ l := by
  rw [mem_applyTargets]
  constructor
  · rintro ⟨f, h1, h2, h3⟩
    refine ⟨f, h1, usesReferenceTypes_false.1 h2, ?_⟩
    rintro l rfl
    simpa [listed] using h3
  · rintro ⟨f, h1, h2, h3⟩
    refine ⟨f, h1, usesReferenceTypes_false.2 h2, ?_⟩
    cases ts with
    | none => rfl
    | some l => simpa [listed] using h3 l rfl

/-- **C32 (bodies).** The functions whose bodies are instrumented are those among them that have a body. -/
theorem C32_body_targets (m : Module) (ts : Option (List Nat)) (i : Nat) :
    i ∈ bodyTargets m ts ↔ i ∈ applyTargets m ts ∧ ∃ f c, m.functions[i]? = some f ∧ f.code = .present c := by
  rw [mem_bodyTargets, mem_applyTargets]
  constructor
  · rintro ⟨f, h1, h2, h3, h4⟩
    refine ⟨⟨f, h1, h3, h4⟩, f, ?_⟩
    cases hc : f.code with
    | imported ns name => simp [Func.hasCode, hc] at h2
    | present c => exact ⟨c, h1, rfl⟩
  · rintro ⟨⟨f, h1, h3, h4⟩, f', c, h1', hc⟩
    rw [h1] at h1'; cases h1'
    exact ⟨f, h1, by simp [Func.hasCode, hc], h3, h4⟩

/-- **C32.** Each target is processed once, and order and repetition in the list do not matter. -/
theorem C32_order_and_repetition (C : Checker) (ord ord' : List Nat → List Nat) (iface : Interface) (m : Module) (l l' : List Nat)
    (h : ∀ i, i ∈ l ↔ i ∈ l') :
    (applyTargets m (some l)).Nodup ∧ (bodyTargets m (some l)).Nodup ∧
    instrument C ord ord' iface (some l) m = instrument C ord ord' iface (some l') m := by
  have e : listed (some l) = listed (some l') := by
    funext i
    rw [Bool.eq_iff_iff]
    simp [listed, h]
  refine ⟨applyTargets_nodup _ _, bodyTargets_nodup _ _, ?_⟩
  simp only [instrument, applyTargets, bodyTargets, e]

-- the function with a reference type and the import are left out / included as stated
example : applyTargets exModule none = [0, 1, 2] ∧ bodyTargets exModule none = [1, 2] ∧
    bodyTargets exModule (some [3, 2, 2, 9]) = [2] := by decide +kernel

/-! ## C43, C08 -/

theorem drop_get {α : Type} {l : List α} {n j : Nat} {r : List α} (h : l.drop n = r) : l[n + j]? = r[j]? := by
  rw [← h, List.getElem?_drop]

/-- **C43.** The functions of the program keep their index, type and exports; tables and element segments are only
appended; memories, globals, data segments and the start function are unchanged. -/
theorem C43_indices_stay_valid {C iface ts m r} (hs : SmallModule m) (h : Instruments C iface ts m r) :
    (∀ (i : Nat) f, m.functions[i]? = some f → ∃ f', r.module.functions[i]? = some f' ∧ f'.type = f.type ∧ f'.exports = f.exports) ∧
    (∃ tables, r.module.tables = m.tables ++ tables) ∧ (∃ elems, r.module.elements = m.elements ++ elems) ∧
    r.module.memories = m.memories ∧ r.module.globals = m.globals ∧ r.module.datas = m.datas ∧ r.module.start = m.start := by
  obtain ⟨ord, ord', ho, ho', h⟩ := h
  obtain ⟨_, _, fs, base, hd, hn, hg⟩ := instrument_desc ho ho' hs h
  have hown : ∀ (i : Nat) f, m.functions[i]? = some f → ∃ f', fs[i]? = some f' ∧ f'.type = f.type ∧ f'.exports = f.exports := by
    intro i f hf
    have := hd.own i (List.getElem?_eq_some_iff.1 hf).1
    rw [hf] at this
    refine ⟨_, this, ?_⟩
    dsimp only
    split
    · exact ⟨withBody_type _ _, withBody_exports _ _⟩
    · exact ⟨rfl, rfl⟩
  have app : ∀ {i : Nat} {f : Func} {a b : List Func}, a[i]? = some f → (a ++ b)[i]? = some f := by
    intro i f a b hf
    rw [List.getElem?_append_left (List.getElem?_eq_some_iff.1 hf).1, hf]
  cases hgen : iface.generic with
  | none =>
    obtain ⟨_, e⟩ := hn hgen
    rw [e]
    refine ⟨fun i f hf => ?_, ⟨[], by simp⟩, ⟨[], by simp⟩, rfl, rfl, rfl, rfl⟩
    obtain ⟨f', h1, h2⟩ := hown i f hf
    exact ⟨f', app h1, h2⟩
  | some p =>
    obtain ⟨m2, sigs, hooks, copy, ha, _, e⟩ := hg p.1 p.2 hgen
    rw [e]
    refine ⟨fun i f hf => ?_, ⟨_, ha.tables⟩, ⟨_, ha.elements⟩, ha.memories, ha.globals, ha.datas, ha.start⟩
    obtain ⟨f', h1, h2, h3⟩ := hown i f hf
    by_cases hi : i ∈ ord' (applyTargets m ts)
    · obtain ⟨j, hj⟩ := List.getElem?_of_mem hi
      obtain ⟨_, ht, _⟩ := ha.target j i f' hj h1
      exact ⟨_, app ht, h2, h3⟩
    · exact ⟨f', app (ha.untouched i f' hi h1), h2, h3⟩

/-- **C43 (exports).** Every export of an original function still leads to it, and the start function is the same. -/
theorem C43_exports_stay {C iface ts m r} (hs : SmallModule m) (h : Instruments C iface ts m r) (name : String) (i : Nat) (f : Func)
    (hf : m.functions[i]? = some f) (hn : name ∈ f.exports) : ∃ f', r.module.functions[i]? = some f' ∧ name ∈ f'.exports := by
  obtain ⟨f', h1, _, h2⟩ := (C43_indices_stay_valid hs h).1 i f hf
  exact ⟨f', h1, by rw [h2]; exact hn⟩

example : exModule.functions[1]?.map (·.exports) = some ["main"] := by decide

/-- **C08.** A function that is not a target keeps its code; with apply hooks, not being a target of apply is what matters,
without them it is enough not to be a target of the instruction hooks. -/
theorem C08_untargeted_function_unchanged {C iface ts m r} (hs : SmallModule m) (h : Instruments C iface ts m r) (i : Nat)
    (hi : i < m.functions.length)
    (ht : i ∉ applyTargets m ts ∨ iface.generic = none ∧ i ∉ bodyTargets m ts) :
    r.module.functions[i]? = m.functions[i]? := by
  obtain ⟨ord, ord', ho, ho', h⟩ := h
  obtain ⟨_, _, fs, base, hd, hn, hg⟩ := instrument_desc ho ho' hs h
  have hib : i ∉ bodyTargets m ts := by
    rcases ht with ht | ht
    · exact fun hb => ht (bodyTargets_subset hb)
    · exact ht.2
  have hb : i ∉ ord (bodyTargets m ts) := fun hb => hib ((ho _).mem_iff.1 hb)
  have hown := hd.own i hi
  obtain ⟨f, hf⟩ : ∃ f, m.functions[i]? = some f := ⟨_, List.getElem?_eq_getElem hi⟩
  rw [hf] at hown ⊢
  simp only [hb, if_false, Option.map_some] at hown
  have app : ∀ {a b : List Func}, a[i]? = some f → (a ++ b)[i]? = some f := by
    intro a b hf
    rw [List.getElem?_append_left (List.getElem?_eq_some_iff.1 hf).1, hf]
  cases hgen : iface.generic with
  | none =>
    obtain ⟨_, e⟩ := hn hgen
    rw [e]; exact app hown
  | some p =>
    obtain ⟨m2, sigs, hooks, copy, ha, _, e⟩ := hg p.1 p.2 hgen
    rw [e]
    refine app (ha.untouched i f ?_ hown)
    have : i ∉ applyTargets m ts := by
      rcases ht with ht | ht
      · exact ht
      · rw [hgen] at ht; simp at ht
    exact fun hb => this ((ho' _).mem_iff.1 hb)

theorem expandL_empty (σ : Sel) (hσ : ∀ t, σ t = none) (n : Nat) (b : List TI) (h : TI.FitsL b) : expandL σ n b = b ∧ helpersFor σ b = [] := by
  have e : σ = .empty := by funext t; simp [hσ, Sel.empty]
  subst e
  refine ⟨?_, by simp [helpersFor, Sel.empty]⟩
  have h1 := C08_nothing_selected_nothing_changes b (List.replicate n (helperFunc ([], 0)))
  rw [C16_passes_eq_rewrite _ _ _ h, List.length_replicate] at h1
  simp only [Except.ok.injEq, Prod.mk.injEq] at h1
  exact h1.1

/-- **C08.** With no hook selected, every function of the program keeps its code exactly, whatever the targets; all that
is added are the exported base memory functions. -/
theorem C08_nothing_selected {C iface ts m r} (hs : SmallModule m) (h : Instruments C iface ts m r)
    (hg : iface.generic = none) (ht : ∀ t, iface.trap t = none) :
    r.module = { m with functions := m.functions ++ memoryFunctions m.memories.isEmpty } ∧ r.librarySignatures = none := by
  obtain ⟨ord, ord', ho, ho', h⟩ := h
  obtain ⟨_, hB, fs, base, hd, hn, _⟩ := instrument_desc ho ho' hs h
  obtain ⟨e1, e2⟩ := hn hg
  refine ⟨?_, e1⟩
  have hσ : ∀ t, hookSel iface m.functions.length t = none := fun t => hookSel_none_iff.2 (ht t)
  have hsel : iface.selected = [] := by simp [Interface.selected, ht]
  have hadd : fs.drop m.functions.length = [] := by
    rw [hd.added]
    simp only [hookImports, hsel, List.filterMap_nil, List.nil_append, List.flatMap_eq_nil_iff]
    intro i _
    exact (expandL_empty _ hσ 0 _ (bodyOf_fits hs i)).2
  have hfs : fs = m.functions := by
    apply List.ext_getElem?
    intro i
    by_cases hi : i < m.functions.length
    · rw [hd.own i hi]
      obtain ⟨f, hf⟩ : ∃ f, m.functions[i]? = some f := ⟨_, List.getElem?_eq_getElem hi⟩
      rw [hf, Option.map_some]
      split
      · rename_i hit
        have hit := (ho _).mem_iff.1 hit
        obtain ⟨f', c, hf', hc, hr⟩ := raiseTarget_present (hB i hit)
        rw [hf] at hf'; cases hf'
        rw [(expandL_empty _ hσ _ _ (bodyOf_fits hs i)).1, C02_lowerTyped_raiseFunction _ _ _ _ _ hr]
        simp only [Func.withBody, hc, Option.some.injEq]
        rw [← hc]
      · rfl
    · have hl : fs.length ≤ m.functions.length := by simpa using hadd
      rw [List.getElem?_eq_none (by omega), List.getElem?_eq_none (by omega)]
  rw [e2, hfs]

example : ∃ r, Instruments exChecker ⟨none, fun _ => none⟩ none exModule r :=
  instruments_of_ok (by decide) exModule_small exModule_raises
example : 3 < exModule.functions.length ∧ 3 ∉ applyTargets exModule none := by decide +kernel

/-! ## C33 -/

/-- **C33 (names).** Different hooks have different names, also different from that of the apply hook. -/
theorem C33_hook_names_distinct :
    (∀ t t' : Trap, t.export.name = t'.export.name → t = t') ∧ ∀ t : Trap, t.export.name ≠ interfaceGenericApply.1.name := by
  have h : (trapTable.map fun p => p.1.export.name).Nodup := by decide +kernel
  have h2 : ∀ n ∈ trapTable.map (fun p => p.1.export.name), n ≠ interfaceGenericApply.1.name := by decide +kernel
  constructor
  · intro t t' e
    obtain ⟨k, hk⟩ := trapTable_complete t
    obtain ⟨k', hk'⟩ := trapTable_complete t'
    have key : ∀ {l : List (Trap × TargetKind)}, (l.map fun p => p.1.export.name).Nodup → (t, k) ∈ l → (t', k') ∈ l → t = t' := by
      intro l
      induction l with
      | nil => simp
      | cons p l ih =>
        intro hn h1 h2
        simp only [List.map_cons, List.nodup_cons] at hn
        rcases List.mem_cons.1 h1 with g1 | g1 <;> rcases List.mem_cons.1 h2 with g2 | g2
        · rw [← g2] at g1; exact (Prod.mk.inj g1).1
        · subst g1
          exact absurd (List.mem_map.2 ⟨_, g2, e.symm⟩) hn.1
        · subst g2
          exact absurd (List.mem_map.2 ⟨_, g1, e⟩) hn.1
        · exact ih hn.2 g1 g2
    exact key h hk hk'
  · intro t
    obtain ⟨k, hk⟩ := trapTable_complete t
    exact h2 _ (List.mem_map.2 ⟨_, hk, rfl⟩)

/-- Where a function of a module with intercepted applications comes from. -/
theorem ApplyDesc.cases {order ga cb m r sigs hooks copy} (h : ApplyDesc order ga cb m r sigs hooks copy)
    (ho : ∀ i ∈ order, i < m.functions.length) {k : Nat} {f : Func} (hf : r.functions[k]? = some f) :
    (k < m.functions.length ∧ k ∉ order ∧ m.functions[k]? = some f) ∨
    (∃ (j : Nat) (g : Func), order[j]? = some k ∧ m.functions[k]? = some g ∧ f = trampolineFunc g (hooks g.type) m.functions.length j k) ∨
    (k = m.functions.length ∧ f = genericApplyImport ga) ∨
    (m.functions.length < k ∧ ∃ ty name, f = stackImport ty name ∧ ∃ t ∈ sigs, f ∈ stackImports t) ∨
    (∃ (j i : Nat) (g : Func), order[j]? = some i ∧ m.functions[i]? = some g ∧ k = copy + 2 * j ∧ f = { g with exports := [] }) ∨
    (∃ (j i : Nat) (g : Func), order[j]? = some i ∧ m.functions[i]? = some g ∧ k = copy + 2 * j + 1 ∧ f = applyFunc (hooks g.type) (copy + 2 * j)) ∨
    (k = copy + 2 * order.length ∧ f = callBaseFunc cb m.tables.length) := by
  have hk : k < r.functions.length := (List.getElem?_eq_some_iff.1 hf).1
  have h1 := h.length
  have h2 := h.copy_eq
  by_cases c1 : k < m.functions.length
  · obtain ⟨g, hg⟩ : ∃ g, m.functions[k]? = some g := ⟨_, List.getElem?_eq_getElem c1⟩
    by_cases c2 : k ∈ order
    · right; left
      obtain ⟨j, hj⟩ := List.getElem?_of_mem c2
      obtain ⟨_, ht, _⟩ := h.target j k g hj hg
      rw [hf] at ht
      exact ⟨j, g, hj, hg, Option.some.inj ht⟩
    · left
      have := h.untouched k g c2 hg
      rw [hf] at this
      exact ⟨c1, c2, by rw [hg, ← this]⟩
  · by_cases c3 : k = m.functions.length
    · right; right; left
      subst c3
      have := h.generic
      rw [hf] at this
      exact ⟨rfl, Option.some.inj this⟩
    · by_cases c4 : k < copy
      · right; right; right; left
        refine ⟨by omega, ?_⟩
        obtain ⟨g, hg⟩ : ∃ g, (sigs.flatMap stackImports)[k - (m.functions.length + 1)]? = some g :=
          ⟨_, List.getElem?_eq_getElem (by omega)⟩
        have := h.imports _ g hg
        rw [show m.functions.length + 1 + (k - (m.functions.length + 1)) = k by omega, hf] at this
        cases this
        obtain ⟨t, htm, ht⟩ := List.mem_flatMap.1 (List.mem_of_getElem? hg)
        have ht0 := ht
        simp only [stackImports, List.mem_append, List.mem_cons, List.not_mem_nil, or_false, List.mem_mapIdx] at ht
        rcases ht with (((((rfl | rfl | rfl | rfl) | ⟨i, _, rfl⟩) | ⟨i, _, rfl⟩) | ⟨i, _, rfl⟩) | ⟨i, _, rfl⟩) | rfl <;> exact ⟨_, _, rfl, t, htm, ht0⟩
      · right; right; right; right
        by_cases c5 : k = copy + 2 * order.length
        · right; right
          subst c5
          have := h.callBase
          rw [hf] at this
          exact ⟨rfl, Option.some.inj this⟩
        · have hj : (k - copy) / 2 < order.length := by omega
          obtain ⟨i, hi⟩ : ∃ i, order[(k - copy) / 2]? = some i := ⟨_, List.getElem?_eq_getElem hj⟩
          obtain ⟨g, hg⟩ : ∃ g, m.functions[i]? = some g := ⟨_, List.getElem?_eq_getElem (ho i (List.mem_of_getElem? hi))⟩
          obtain ⟨_, _, t1, t2⟩ := h.target _ i g hi hg
          by_cases c6 : (k - copy) % 2 = 0
          · left
            rw [show copy + 2 * ((k - copy) / 2) = k by omega, hf] at t1
            exact ⟨_, i, g, hi, hg, by omega, Option.some.inj t1⟩
          · right; left
            rw [show copy + 2 * ((k - copy) / 2) + 1 = k by omega, hf] at t2
            exact ⟨_, i, g, hi, hg, by omega, Option.some.inj t2⟩

theorem memoryFunctions_present {b : Bool} {f : Func} (h : f ∈ memoryFunctions b) : ∃ c, f.code = .present c := by
  simp only [memoryFunctions, List.mem_append, List.mem_map, List.mem_cons, List.not_mem_nil, or_false] at h
  rcases h with (⟨e, _, rfl⟩ | ⟨e, _, rfl⟩) | rfl | rfl <;> exact ⟨_, rfl⟩

theorem helpersFor_present {σ : Sel} {b : List TI} {f : Func} (h : f ∈ helpersFor σ b) : ∃ p, f = helperFunc p := by
  simp only [helpersFor] at h
  split at h
  · simp at h
  · obtain ⟨p, _, rfl⟩ := List.mem_map.1 h
    exact ⟨p, rfl⟩

theorem hookSel_eq {iface : Interface} {n k : Nat} {t : Trap} (h : hookSel iface n t = some k) :
    ∃ e, iface.trap t = some e ∧ k = n + iface.selected.idxOf t := by
  simp only [hookSel] at h
  split at h
  · rename_i hs
    obtain ⟨e, he⟩ := Option.isSome_iff_exists.1 hs
    exact ⟨e, he, by simpa using h.symm⟩
  · simp at h

/-- The functions of the result of the instruction hooks that are imported from the analysis. -/
theorem BodiesDesc.analysis_import {C iface targets m fs base} (hd : BodiesDesc C iface targets m fs base) {k : Nat} {f : Func} {name : String}
    (hk : m.functions.length ≤ k) (hf : fs[k]? = some f) (hc : f.code = .imported analysisModule name) :
    ∃ t e, iface.trap t = some e ∧ f = hookImport e ∧ hookSel iface m.functions.length t = some k := by
  have h1 := drop_get (j := k - m.functions.length) hd.added
  rw [show m.functions.length + (k - m.functions.length) = k by omega, hf] at h1
  by_cases c : k - m.functions.length < (hookImports iface).length
  · rw [List.getElem?_append_left c] at h1
    rw [hookImports_length] at c
    obtain ⟨t, ht⟩ : ∃ t, iface.selected[k - m.functions.length]? = some t := ⟨_, List.getElem?_eq_getElem c⟩
    have hidx : iface.selected.idxOf t = k - m.functions.length := by
      have := List.getElem?_eq_some_iff.1 ht
      obtain ⟨h3, h4⟩ := this
      rw [← h4]
      exact (selected_nodup iface).idxOf_getElem _ _
    obtain ⟨e, he⟩ := Option.isSome_iff_exists.1 (mem_selected.1 (List.mem_of_getElem? ht))
    have h5 := hookImports_get he
    rw [hidx, ← h1] at h5
    refine ⟨t, e, he, Option.some.inj h5, ?_⟩
    simp only [hookSel, he, Option.isSome_some, if_true, hidx, Option.some.injEq]
    omega
  · rw [List.getElem?_append_right (by omega)] at h1
    obtain ⟨i, _, hi⟩ := List.mem_flatMap.1 (List.mem_of_getElem? h1.symm)
    obtain ⟨p, rfl⟩ := helpersFor_present hi
    simp [helperFunc] at hc

theorem BodiesDesc.hook {C iface targets m fs base} (hd : BodiesDesc C iface targets m fs base) {t : Trap} {e : WasmExport}
    (h : iface.trap t = some e) : ∃ k, hookSel iface m.functions.length t = some k ∧ m.functions.length ≤ k ∧ fs[k]? = some (hookImport e) := by
  refine ⟨m.functions.length + iface.selected.idxOf t, by simp [hookSel, h], by omega, ?_⟩
  rw [drop_get hd.added]
  have := hookImports_get h
  rw [List.getElem?_append_left (List.getElem?_eq_some_iff.1 this).1, this]

theorem analysis_ne_stack : stackModule ≠ analysisModule := by decide

/-- Every hook ends up where `hookSel` says. -/
theorem hook_installed {C iface ts m r} (hs : SmallModule m) (h : Instruments C iface ts m r) {t : Trap} {e : WasmExport} (he : iface.trap t = some e) :
    ∃ k, hookSel iface m.functions.length t = some k ∧ m.functions.length ≤ k ∧ r.module.functions[k]? = some (hookImport e) := by
  obtain ⟨ord, ord', ho, ho', h⟩ := h
  obtain ⟨_, _, fs, base, hd, hn, hg⟩ := instrument_desc ho ho' hs h
  have app : ∀ {k : Nat} {f : Func} {a b : List Func}, a[k]? = some f → (a ++ b)[k]? = some f := by
    intro k f a b hf
    rw [List.getElem?_append_left (List.getElem?_eq_some_iff.1 hf).1, hf]
  obtain ⟨k, h1, h2, h3⟩ := hd.hook he
  refine ⟨k, h1, h2, ?_⟩
  cases hgen : iface.generic with
  | none => rw [(hn hgen).2]; exact app h3
  | some p =>
    obtain ⟨m2, sigs, hooks, copy, ha, _, e⟩ := hg p.1 p.2 hgen
    rw [e]
    refine app (ha.untouched k _ ?_ h3)
    intro hk
    obtain ⟨f, hf, _⟩ := mem_applyTargets.1 ((ho' _).mem_iff.1 hk)
    have := (List.getElem?_eq_some_iff.1 hf).1
    omega

/-- **C33 (all provided).** Every hook the analysis provides is imported, under the declared name and type. -/
theorem C33_every_hook_imported {C iface ts m r} (hs : SmallModule m) (h : Instruments C iface ts m r) :
    (∀ t e, iface.trap t = some e → (⟨⟨e.args, e.results⟩, .imported "WASTRUMENTATION_ANALYSIS" e.name, []⟩ : Func) ∈ r.module.functions) ∧
    (∀ ge cb, iface.generic = some (ge, cb) →
      (⟨⟨ge.args, ge.results⟩, .imported "WASTRUMENTATION_ANALYSIS" ge.name, []⟩ : Func) ∈ r.module.functions) := by
  constructor
  · intro t e he
    obtain ⟨k, _, _, hk⟩ := hook_installed hs h he
    exact List.mem_of_getElem? hk
  · intro ge cb hgen
    obtain ⟨ord, ord', ho, ho', h⟩ := h
    obtain ⟨_, _, fs, base, hd, hn, hg⟩ := instrument_desc ho ho' hs h
    obtain ⟨m2, sigs, hooks, copy, ha, _, e⟩ := hg ge cb hgen
    rw [e]
    exact List.mem_append_left _ (List.mem_of_getElem? ha.generic)

/-- Which functions of the result are imported from the analysis. -/
theorem analysis_imports {C iface ts m r} (hs : SmallModule m) (h : Instruments C iface ts m r)
    (hns : ∀ f ∈ m.functions, ∀ name, f.code ≠ .imported analysisModule name) :
    ∃ g, ∀ (k : Nat) f name, r.module.functions[k]? = some f → f.code = .imported analysisModule name →
      (∃ t e, iface.trap t = some e ∧ f = hookImport e ∧ hookSel iface m.functions.length t = some k) ∨
      (∃ ge cb, iface.generic = some (ge, cb) ∧ f = genericApplyImport ge ∧ k = g) := by
  obtain ⟨ord, ord', ho, ho', h⟩ := h
  obtain ⟨_, _, fs, base, hd, hn, hg⟩ := instrument_desc ho ho' hs h
  have hfs : ∀ (k : Nat) f name, fs[k]? = some f → f.code = .imported analysisModule name →
      ∃ t e, iface.trap t = some e ∧ f = hookImport e ∧ hookSel iface m.functions.length t = some k := by
    intro k f name hf hc
    by_cases hk : k < m.functions.length
    · exfalso
      have h1 := hd.own k hk
      obtain ⟨f0, hf0⟩ : ∃ f, m.functions[k]? = some f := ⟨_, List.getElem?_eq_getElem hk⟩
      rw [hf0, hf, Option.map_some] at h1
      have hm := hns f0 (List.mem_of_getElem? hf0) name
      simp only [Option.some.injEq] at h1
      split at h1
      · subst h1
        unfold Func.withBody at hc
        split at hc
        · simp at hc
        · exact hm hc
      · subst h1; exact hm hc
    · exact hd.analysis_import (by omega) hf hc
  cases hgen : iface.generic with
  | none =>
    refine ⟨0, fun k f name hf hc => .inl ?_⟩
    rw [(hn hgen).2] at hf
    by_cases hk : k < fs.length
    · exact hfs k f name (by rw [← hf, List.getElem?_append_left hk]) hc
    · rw [List.getElem?_append_right (by omega)] at hf
      obtain ⟨c, hp⟩ := memoryFunctions_present (List.mem_of_getElem? hf)
      rw [hc] at hp; simp at hp
  | some p =>
    obtain ⟨m2, sigs, hooks, copy, ha, _, e⟩ := hg p.1 p.2 hgen
    refine ⟨fs.length, fun k f name hf hc => ?_⟩
    have hol : ∀ i ∈ ord' (applyTargets m ts), i < fs.length := by
      intro i hi
      obtain ⟨g, hg, _⟩ := mem_applyTargets.1 ((ho' _).mem_iff.1 hi)
      have := (List.getElem?_eq_some_iff.1 hg).1
      have := hd.length
      omega
    rw [e] at hf
    by_cases hk : k < m2.functions.length
    · rw [List.getElem?_append_left hk] at hf
      rcases ha.cases hol hf with q | q | q | q | q | q | q
      · exact .inl (hfs k f name q.2.2 hc)
      · obtain ⟨j, g, _, _, rfl⟩ := q; simp [trampolineFunc] at hc
      · exact .inr ⟨p.1, p.2, rfl, q.2, q.1⟩
      · obtain ⟨_, ty, nm, rfl, _⟩ := q
        simp only [stackImport, FuncCode.imported.injEq] at hc
        exact absurd hc.1 analysis_ne_stack
      · exfalso
        obtain ⟨j, i, g, hj, hg, _, rfl⟩ := q
        obtain ⟨t, e, _, _, hsel⟩ := hfs i g name hg hc
        obtain ⟨e, _, hi⟩ := hookSel_eq hsel
        obtain ⟨f', hf', _⟩ := mem_applyTargets.1 ((ho' _).mem_iff.1 (List.mem_of_getElem? hj))
        have := (List.getElem?_eq_some_iff.1 hf').1
        omega
      · obtain ⟨j, i, g, _, _, _, rfl⟩ := q; simp [applyFunc] at hc
      · obtain ⟨_, rfl⟩ := q; simp [callBaseFunc] at hc
    · rw [List.getElem?_append_right (by omega)] at hf
      obtain ⟨c, hp⟩ := memoryFunctions_present (List.mem_of_getElem? hf)
      rw [hc] at hp; simp at hp

/-- **C33 (nothing else).** If the program itself imports nothing from the analysis namespace, everything imported from
there is a hook the analysis provides, under its declared name and type. -/
theorem C33_only_hooks_imported {C iface ts m r} (hs : SmallModule m) (h : Instruments C iface ts m r)
    (hns : ∀ f ∈ m.functions, ∀ name, f.code ≠ .imported "WASTRUMENTATION_ANALYSIS" name)
    (f : Func) (name : String) (hf : f ∈ r.module.functions) (hc : f.code = .imported "WASTRUMENTATION_ANALYSIS" name) :
    ∃ e, ((∃ t, iface.trap t = some e) ∨ ∃ cb, iface.generic = some (e, cb)) ∧
      f = ⟨⟨e.args, e.results⟩, .imported "WASTRUMENTATION_ANALYSIS" e.name, []⟩ := by
  obtain ⟨g, hg⟩ := analysis_imports hs h hns
  obtain ⟨k, hk⟩ := List.getElem?_of_mem hf
  rcases hg k f name hk hc with ⟨t, e, he, rfl, _⟩ | ⟨ge, cb, he, rfl, _⟩
  · exact ⟨e, .inl ⟨t, he⟩, rfl⟩
  · exact ⟨ge, .inr ⟨cb, he⟩, rfl⟩

/-- **C33 (once).** Each name is imported from the analysis at most once, if the interface uses the tool's names. -/
theorem C33_imported_once {C iface ts m r} (hs : SmallModule m) (h : Instruments C iface ts m r)
    (hi : ∀ t e, iface.trap t = some e → e = t.export) (hge : ∀ ge cb, iface.generic = some (ge, cb) → ge = interfaceGenericApply.1)
    (hns : ∀ f ∈ m.functions, ∀ name, f.code ≠ .imported "WASTRUMENTATION_ANALYSIS" name)
    (k k' : Nat) (f f' : Func) (name : String) (hf : r.module.functions[k]? = some f) (hf' : r.module.functions[k']? = some f')
    (hc : f.code = .imported "WASTRUMENTATION_ANALYSIS" name) (hc' : f'.code = .imported "WASTRUMENTATION_ANALYSIS" name) : k = k' := by
  obtain ⟨g, hg⟩ := analysis_imports hs h hns
  rcases hg k f name hf hc with ⟨t, e, he, rfl, h1⟩ | ⟨ge, cb, he, rfl, h1⟩ <;>
    rcases hg k' f' name hf' hc' with ⟨t', e', he', rfl, h1'⟩ | ⟨ge', cb', he', rfl, h1'⟩
  · simp only [hookImport, FuncCode.imported.injEq] at hc hc'
    rw [hi t e he] at hc; rw [hi t' e' he'] at hc'
    have := C33_hook_names_distinct.1 t t' (by rw [hc.2, hc'.2])
    subst this
    rw [h1] at h1'; exact Option.some.inj h1'
  · simp only [hookImport, genericApplyImport, FuncCode.imported.injEq] at hc hc'
    rw [hi t e he] at hc; rw [hge ge' cb' he'] at hc'
    exact absurd (by rw [hc.2, hc'.2]) (C33_hook_names_distinct.2 t)
  · simp only [hookImport, genericApplyImport, FuncCode.imported.injEq] at hc hc'
    rw [hi t' e' he'] at hc'; rw [hge ge cb he] at hc
    exact absurd (by rw [hc.2, hc'.2]) (C33_hook_names_distinct.2 t')
  · rw [h1, h1']

example : (∀ t e, exIfaceApply.trap t = some e → e = t.export) ∧ (∀ ge cb, exIfaceApply.generic = some (ge, cb) → ge = interfaceGenericApply.1) ∧
    ∀ f ∈ exModule.functions, ∀ name, f.code ≠ .imported "WASTRUMENTATION_ANALYSIS" name := by
  refine ⟨?_, ?_, ?_⟩
  · intro t e h
    simp only [exIfaceApply, exIface] at h
    split at h
    · exact (Option.some.inj h).symm
    · simp at h
  · intro ge cb h
    simp only [exIfaceApply, Option.some.injEq] at h
    rw [h]
  · simp only [exModule, List.mem_cons, List.not_mem_nil, or_false, forall_eq_or_imp, forall_eq]
    simp

/-! ## C09 -/

variable {W : Type}

theorem BodiesDesc.interposes {C iface targets m fs base} (hd : BodiesDesc C iface targets m fs base) (hst : iface.Standard)
    (hB : ∀ i ∈ targets, raiseTarget C m i = .ok (bodyOf C m i)) {gs : List Func} {J : Nat → Option (List TI)}
    (hfn : ∀ (k : Nat) f, m.functions.length ≤ k → fs[k]? = some f → gs[k]? = some f)
    (hJ : ∀ k b, J k = some b → ∃ i f, i ∈ targets ∧ b = bodyOf C m i ∧ gs[k]? = some f ∧
      ∃ f0, fs[i]? = some f0 ∧ f.code = f0.code) :
    Interposes gs (hookSel iface m.functions.length) J where
  hooks := by
    intro t k hk
    obtain ⟨e, he, _⟩ := hookSel_eq hk
    obtain ⟨k', h1, h2, h3⟩ := hd.hook he
    rw [hk] at h1; cases h1
    refine ⟨_, hfn k _ h2 h3, ?_⟩
    obtain ⟨h4, h5⟩ := hst t e he
    simp [hookImport, h4, h5]
  bodies := by
    intro k b hb
    obtain ⟨i, f, hi, rfl, hf, f0, hf0, hcode⟩ := hJ k b hb
    obtain ⟨g, c, hg, hc, hr⟩ := raiseTarget_present (hB i hi)
    have h1 := hd.own i (List.getElem?_eq_some_iff.1 hg).1
    rw [hg, hf0] at h1
    simp only [hi, if_true, Option.map_some, Option.some.injEq, Func.withBody, hc] at h1
    subst h1
    refine ⟨bodyOf_pristine C m i, f, ⟨c.locals, _⟩, base i, hf, hcode, rfl, ?_⟩
    intro hbt j p hp
    obtain ⟨h2, h3⟩ := hd.helpers i hi
    refine hfn _ _ (by omega) (h3 j _ ?_)
    simp only [helpersFor]
    split
    · rename_i he; exact absurd he hbt
    · rw [List.getElem?_map, hp]; rfl

/-- **C09.** For every program, every set of hooks and target functions, every implementation `H` of all imports (in
particular of the analysis, arbitrary and stateful), every function `f`, arguments and state: calling `f` in the
instrumented module gives what calling `f` gives in the original program when its target functions run with the analysis
interposed. -/
theorem C09_instrumented_is_interposed {C iface ts m r} (hs : SmallModule m) (hst : iface.Standard) (hg : iface.generic = none)
    (h : Instruments C iface ts m r) (N : Num) (H : Imports W) (L d f : Nat) (args : List RVal) (s : Store W) :
    callF N (machineOf H r.module.functions) L d f args s =
      callF N (underAnalysis C m (bodyTargets m ts) H (hookSel iface m.functions.length)
        (r.module.functions.drop m.functions.length)) L d f args s := by
  obtain ⟨ord, ord', ho, ho', h⟩ := h
  obtain ⟨_, hB, fs, base, hd, hn, _⟩ := instrument_desc ho ho' hs h
  obtain ⟨_, e⟩ := hn hg
  let J : Nat → Option (List TI) := fun i => if i ∈ bodyTargets m ts then some (bodyOf C m i) else none
  have app : ∀ {k : Nat} {f : Func}, fs[k]? = some f → r.module.functions[k]? = some f := by
    intro k f hf
    rw [e]; dsimp only
    rw [List.getElem?_append_left (List.getElem?_eq_some_iff.1 hf).1, hf]
  have hlen : m.functions.length ≤ fs.length := by have := hd.length; omega
  have hI : Interposes r.module.functions (hookSel iface m.functions.length) J := by
    refine hd.interposes hst (fun i hi => hB i ((ho _).mem_iff.1 hi)) (fun k f _ hf => app hf) ?_
    intro k b hb
    simp only [J] at hb
    split at hb
    · rename_i hk
      obtain ⟨g, hg, _⟩ := mem_bodyTargets.1 hk
      have hlt := (List.getElem?_eq_some_iff.1 hg).1
      have h1 : fs[k]? = some fs[k] := List.getElem?_eq_getElem (by omega)
      exact ⟨k, _, (ho _).mem_iff.2 hk, (Option.some.inj hb).symm, app h1, _, h1, rfl⟩
    · simp at hb
  rw [callF_interposed hI]
  congr 1
  funext i
  simp only [interposed, underAnalysis]
  by_cases hi : i < m.functions.length
  · obtain ⟨g, hg⟩ : ∃ g, m.functions[i]? = some g := ⟨_, List.getElem?_eq_getElem hi⟩
    have h1 := hd.own i hi
    rw [hg, Option.map_some] at h1
    have h2 := app h1
    by_cases hit : i ∈ bodyTargets m ts
    · obtain ⟨g', hg', hcode, _⟩ := mem_bodyTargets.1 hit
      rw [hg] at hg'; cases hg'
      cases hc : g.code with
      | imported ns name => simp [Func.hasCode, hc] at hcode
      | present c =>
        simp only [(ho _).mem_iff.2 hit, if_true, Func.withBody, hc] at h2
        simp [J, hit, machineOf, h2, implOf, hg, hc]
    · have hit' : i ∉ ord (bodyTargets m ts) := fun hm => hit ((ho _).mem_iff.1 hm)
      simp only [hit', if_false] at h2
      cases hc : g.code <;> simp [J, hit, machineOf, h2, implOf, hg, hc]
  · have hJ : J i = none := by
      simp only [J]
      split
      · rename_i hm
        obtain ⟨g, hg, _⟩ := mem_bodyTargets.1 hm
        exact absurd (List.getElem?_eq_some_iff.1 hg).1 hi
      · rfl
    rw [hJ, List.getElem?_eq_none (by omega)]
    simp only [machineOf, List.getElem?_drop]
    rw [show m.functions.length + (i - m.functions.length) = i by omega]

/-- **C09 (what the hooks are).** In that execution, asking hook `t` calls the function the embedder supplies under the
hook's name, and hooks that are not provided are never asked. -/
theorem C09_hooks_are_the_analysis {C iface ts m r} (hs : SmallModule m) (h : Instruments C iface ts m r) (H : Imports W) (t : Trap) :
    (∀ e, iface.trap t = some e → ∃ k, hookSel iface m.functions.length t = some k ∧ m.functions.length ≤ k ∧
      machineOf H r.module.functions k = some (⟨e.args, e.results⟩, .host (H "WASTRUMENTATION_ANALYSIS" e.name))) ∧
    (iface.trap t = none → hookSel iface m.functions.length t = none) := by
  refine ⟨fun e he => ?_, fun hn => hookSel_none_iff.2 hn⟩
  obtain ⟨k, h1, h2, h3⟩ := hook_installed hs h he
  exact ⟨k, h1, h2, by simp [machineOf, h3, implOf, hookImport, analysisModule]⟩

/-- **C09 (with intercepted applications).** When applications are intercepted as well, the bodies of the program live in
copies, one per target; each copy behaves as the original body with the analysis interposed. (What the functions of the
program do instead is C23-C27.) -/
theorem C09_copies_are_interposed {C iface ts m r} (hs : SmallModule m) (hst : iface.Standard) (ge : WasmExport) (cb : WasmImport)
    (hg : iface.generic = some (ge, cb)) (h : Instruments C iface ts m r) :
    ∃ copyOf : Nat → Nat,
      (∀ i ∈ applyTargets m ts, m.functions.length ≤ copyOf i ∧
        (∀ f, m.functions[i]? = some f → r.module.functions[copyOf i]?.map (·.type) = some f.type) ∧
        ∀ i' ∈ applyTargets m ts, copyOf i = copyOf i' → i = i') ∧
      ∀ (N : Num) (H : Imports W) (L d : Nat), callF N (machineOf H r.module.functions) L d =
        callF N (interposed (hookSel iface m.functions.length)
          (fun k => ((bodyTargets m ts).find? fun i => copyOf i = k).map (bodyOf C m)) (machineOf H r.module.functions)) L d := by
  obtain ⟨ord, ord', ho, ho', h⟩ := h
  obtain ⟨_, hB, fs, base, hd, _, hg'⟩ := instrument_desc ho ho' hs h
  obtain ⟨m2, sigs, hooks, copy, ha, _, e⟩ := hg' ge cb hg
  have app : ∀ {k : Nat} {f : Func}, m2.functions[k]? = some f → r.module.functions[k]? = some f := by
    intro k f hf
    rw [e]; dsimp only
    rw [List.getElem?_append_left (List.getElem?_eq_some_iff.1 hf).1, hf]
  have hlen : m.functions.length ≤ fs.length := by have := hd.length; omega
  have hcge : fs.length < copy := ha.copy_ge
  have hpos : ∀ i ∈ applyTargets m ts, (ord' (applyTargets m ts))[(ord' (applyTargets m ts)).idxOf i]? = some i := by
    intro i hi
    have := (ho' _).mem_iff.2 hi
    rw [List.getElem?_eq_getElem (List.idxOf_lt_length_of_mem this)]
    simp
  have hfs : ∀ i ∈ applyTargets m ts, ∃ f f0, m.functions[i]? = some f ∧ fs[i]? = some f0 ∧ f0.type = f.type := by
    intro i hi
    obtain ⟨f, hf, _⟩ := mem_applyTargets.1 hi
    have h1 := hd.own i (List.getElem?_eq_some_iff.1 hf).1
    rw [hf, Option.map_some] at h1
    refine ⟨f, _, hf, h1, ?_⟩
    split
    · exact withBody_type _ _
    · rfl
  refine ⟨fun i => copy + 2 * (ord' (applyTargets m ts)).idxOf i, ?_, ?_⟩
  · intro i hi
    refine ⟨by dsimp only; omega, ?_, ?_⟩
    · intro f hf
      obtain ⟨f', f0, hf', h0, ht⟩ := hfs i hi
      rw [hf] at hf'; cases hf'
      obtain ⟨_, _, t1, _⟩ := ha.target _ i f0 (hpos i hi) h0
      rw [app t1]
      simp [ht]
    · intro i' hi' heq
      dsimp only at heq
      have h1 := hpos i hi
      rw [show (ord' (applyTargets m ts)).idxOf i = (ord' (applyTargets m ts)).idxOf i' by omega, hpos i' hi'] at h1
      exact (Option.some.inj h1).symm
  · intro N H L d
    refine callF_interposed ?_ N H L d
    refine hd.interposes hst (fun i hi => hB i ((ho _).mem_iff.1 hi)) ?_ ?_
    · intro k f hk hf
      refine app (ha.untouched k f ?_ hf)
      intro hm
      obtain ⟨g, hg, _⟩ := mem_applyTargets.1 ((ho' _).mem_iff.1 hm)
      have := (List.getElem?_eq_some_iff.1 hg).1
      omega
    · intro k b hb
      simp only [Option.map_eq_some_iff] at hb
      obtain ⟨i, hi, rfl⟩ := hb
      have hm := List.mem_of_find?_eq_some hi
      have hk := List.find?_some hi
      simp only [decide_eq_true_eq] at hk
      have hma := bodyTargets_subset hm
      obtain ⟨f', f0, hf', h0, ht⟩ := hfs i hma
      obtain ⟨_, _, t1, _⟩ := ha.target _ i f0 (hpos i hma) h0
      rw [hk] at t1
      exact ⟨i, _, (ho _).mem_iff.2 hm, rfl, app t1, f0, h0, rfl⟩

example : exIfaceApply.Standard ∧ exIfaceApply.generic = some (interfaceGenericApply.1, interfaceGenericApply.2) := by
  refine ⟨?_, rfl⟩
  intro t e h
  simp only [exIfaceApply, exIface] at h
  split at h
  · simp only [Option.some.injEq] at h; subst h; exact ⟨rfl, rfl⟩
  · simp at h

end Wastrum
