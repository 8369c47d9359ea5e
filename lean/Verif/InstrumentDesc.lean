import Verif.ApplyLemmas
/-!
# Complete description of the instrumented module (lemmas)
-/

set_option linter.unusedSimpArgs false
set_option linter.unusedVariables false

namespace Wastrum

/-- The function `call_base`. -/
def callBaseFunc (cb : WasmImport) (table : Nat) : Func :=
  ⟨⟨cb.args, cb.results⟩, .present ⟨[], callBaseBody table⟩, [cb.name]⟩

/-- The import of the analysis' `generic_apply`. -/
def genericApplyImport (ga : WasmExport) : Func := ⟨⟨ga.args, ga.results⟩, .imported analysisModule ga.name, []⟩

/-- What function application does to a module `m`, functions being processed in the order `order`. -/
structure ApplyDesc (order : List Nat) (ga : WasmExport) (cb : WasmImport) (m r : Module) (sigs : List FuncType)
    (hooks : FuncType → StackHooks) (copy : Nat) : Prop where
  memories : r.memories = m.memories
  globals : r.globals = m.globals
  datas : r.datas = m.datas
  start : r.start = m.start
  tables : r.tables = m.tables ++ [⟨order.length, some order.length, none, .funcRef, []⟩]
  elements : r.elements = m.elements ++
    [⟨.funcRef, (List.range order.length).map fun j => [.refFunc (copy + 2 * j + 1), .fin],
      .active m.tables.length [.const (.i32 0), .fin]⟩]
  copy_ge : m.functions.length < copy
  copy_eq : copy = m.functions.length + 1 + (sigs.flatMap stackImports).length
  length : r.functions.length = copy + 2 * order.length + 1
  untouched : ∀ i f, i ∉ order → m.functions[i]? = some f → r.functions[i]? = some f
  generic : r.functions[m.functions.length]? = some (genericApplyImport ga)
  imports : ∀ (j : Nat) f, (sigs.flatMap stackImports)[j]? = some f → r.functions[m.functions.length + 1 + j]? = some f
  callBase : r.functions[copy + 2 * order.length]? = some (callBaseFunc cb m.tables.length)
  sigs_nodup : sigs.Nodup
  sigs_iff : ∀ t, t ∈ sigs ↔ ∃ i ∈ order, ∃ f, m.functions[i]? = some f ∧ f.type = t
  target : ∀ (j i : Nat) f, order[j]? = some i → m.functions[i]? = some f →
    Linked m.functions.length r.functions f.type (hooks f.type) ∧
    r.functions[i]? = some (trampolineFunc f (hooks f.type) m.functions.length j i) ∧
    r.functions[copy + 2 * j]? = some { f with exports := [] } ∧
    r.functions[copy + 2 * j + 1]? = some (applyFunc (hooks f.type) (copy + 2 * j))

theorem modify_append_last {α : Type} (l : List α) (a : α) (g : α → α) : (l ++ [a]).modify l.length g = l ++ [g a] := by
  induction l with
  | nil => rfl
  | cons x l ih => simp [ih]

theorem instrumentApply_spec (order : List Nat) (ga : WasmExport) (cb : WasmImport) (m : Module) (hn : order.Nodup)
    (ho : ∀ i ∈ order, i < 2 ^ 31 ∧ ∃ f, m.functions[i]? = some f ∧
      f.type.inputs.length < 2 ^ 31 ∧ f.type.results.length < 2 ^ 31) (hlen : order.length ≤ 2 ^ 31) :
    ∃ r sigs hooks copy, instrumentApply order ga cb m = .ok (r, sigs) ∧ ApplyDesc order ga cb m r sigs hooks copy := by
  let fs0 := m.functions ++ [genericApplyImport ga]
  have hlt : ∀ i ∈ order, i < m.functions.length := by
    intro i hi
    obtain ⟨_, f, hf, _⟩ := ho i hi
    exact (List.getElem?_eq_some_iff.1 hf).1
  obtain ⟨links, new, h1, h2, h3, h4, h5, h6, _⟩ := linkAll_spec order m.functions.length [] fs0 (by simp [fs0])
    (fun i hi => by have := hlt i hi; simp [fs0]; omega) (by simp) (by simp)
  simp only [List.map_nil, List.nil_append] at h2
  have hlook : ∀ t ∈ new, ∃ h, links.lookup t = some h := by
    intro t ht
    cases hl : links.lookup t with
    | some h => exact ⟨h, rfl⟩
    | none =>
      rw [List.lookup_eq_none_iff] at hl
      rw [← h2] at ht
      obtain ⟨p, hp, e⟩ := List.mem_map.1 ht
      have := hl p hp
      simp [e] at this
  let fs1 := fs0 ++ new.flatMap stackImports
  have hfs : ∀ i < m.functions.length, fs1[i]? = m.functions[i]? := by
    intro i hi
    simp only [fs1, fs0]
    rw [List.append_assoc, List.getElem?_append_left hi]
  have hfs0 : ∀ i < m.functions.length, fs0[i]? = m.functions[i]? := by
    intro i hi
    simp only [fs0]
    rw [List.getElem?_append_left hi]
  obtain ⟨fs', a1, a2, a3, a4⟩ := applyAll_spec links m.functions.length order [] fs1 hn (by
    intro i hi
    obtain ⟨hi31, f, hf, hin, hres⟩ := ho i hi
    refine ⟨hi31, f, by rw [hfs i (hlt i hi)]; exact hf, ?_, hin, hres⟩
    have := h5 i hi f (by rw [hfs0 i (hlt i hi)]; exact hf)
    rw [h2] at this
    exact hlook _ this) (by simpa using hlen)
  simp only [List.nil_append, List.length_nil, Nat.zero_add] at a1 a4
  let hooks : FuncType → StackHooks := fun t => (links.lookup t).getD ⟨0, 0, 0, 0, [], [], [], [], 0⟩
  let cbf : Func := ⟨cb.funcType, .present ⟨[], callBaseBody m.tables.length⟩, []⟩
  have hfin : (fs' ++ [cbf]).modify fs'.length (fun f => { f with exports := f.exports ++ [cb.name] }) =
      fs' ++ [callBaseFunc cb m.tables.length] := by
    rw [modify_append_last]
    rfl
  let R : Module := { m with
      tables := m.tables ++ [⟨order.length, some order.length, none, .funcRef, []⟩]
      elements := m.elements ++
        [⟨.funcRef, (List.range order.length).map (fun j => [.refFunc (fs1.length + 2 * j + 1), .fin]),
          .active m.tables.length [.const (.i32 0), .fin]⟩]
      functions := fs' ++ [callBaseFunc cb m.tables.length] }
  refine ⟨R, new, hooks, fs1.length, ?_, ?_⟩
  · unfold instrumentApply
    simp only [addFunctionImport]
    have e0 : m.functions ++ [(⟨ga.funcType, .imported analysisModule ga.name, []⟩ : Func)] = fs0 := rfl
    rw [e0, h1]
    simp only [addFunction]
    rw [a1]
    simp only [List.length_map, List.length_range]
    have e1 : (fs' ++ [(⟨cb.funcType, .present ⟨[], callBaseBody m.tables.length⟩, []⟩ : Func)]) = fs' ++ [cbf] := rfl
    rw [e1, hfin, h2]
    simp only [List.map_map, R]
    rfl
  · have hl1 : fs1.length = m.functions.length + 1 + (new.flatMap stackImports).length := by simp [fs1, fs0]; omega
    have hRl : ∀ (i : Nat) f, fs'[i]? = some f → R.functions[i]? = some f := by
      intro i f hf
      simp only [R]
      rw [List.getElem?_append_left (List.getElem?_eq_some_iff.1 hf).1]; exact hf
    have hnot : ∀ k, m.functions.length ≤ k → k ∉ order := fun k hk hm => by have := hlt k hm; omega
    refine ⟨rfl, rfl, rfl, rfl, rfl, rfl, by omega, hl1, ?_, ?_, ?_, ?_, ?_, ?_, ?_, ?_⟩
    · simp [R, a2]
    · intro i f hi hf
      refine hRl _ _ (a3 i f hi ?_)
      rw [hfs i (List.getElem?_eq_some_iff.1 hf).1]; exact hf
    · refine hRl _ _ (a3 _ _ (hnot _ (by omega)) ?_)
      simp [fs1, fs0]
    · intro j f hf
      refine hRl _ _ (a3 _ _ (hnot _ (by omega)) ?_)
      simp only [fs1]
      rw [List.getElem?_append_right (by simp [fs0])]
      simpa [fs0] using hf
    · simp only [R]
      rw [List.getElem?_append_right (by omega), a2]
      simp
    · rw [h2] at h3; exact h3
    · intro t
      constructor
      · intro ht
        obtain ⟨i, hi, f, hf, e⟩ := h4 t ht
        exact ⟨i, hi, f, by rw [← hfs0 i (hlt i hi)]; exact hf, e⟩
      · rintro ⟨i, hi, f, hf, rfl⟩
        have := h5 i hi f (by rw [hfs0 i (hlt i hi)]; exact hf)
        rwa [h2] at this
    · intro j i f hj hf
      have hi : i ∈ order := List.mem_of_getElem? hj
      have hm : f.type ∈ new := by
        have := h5 i hi f (by rw [hfs0 i (hlt i hi)]; exact hf)
        rwa [h2] at this
      obtain ⟨h, hh⟩ := hlook _ hm
      have hhk : hooks f.type = h := by simp [hooks, hh]
      obtain ⟨b1, b2, b3⟩ := a4 j i f h hj (by rw [hfs i (hlt i hi)]; exact hf) hh
      rw [hhk]
      refine ⟨?_, hRl _ _ b1, hRl _ _ b2, hRl _ _ b3⟩
      refine (h6 _ _ hh).mono ?_
      intro k ty name hk
      exact ⟨hk.1, hRl _ _ (a3 k _ (hnot k hk.1) hk.2)⟩

/-! ## Targets -/

theorem mem_applyTargets {m : Module} {ts : Option (List Nat)} {i : Nat} :
    i ∈ applyTargets m ts ↔ ∃ f, m.functions[i]? = some f ∧ usesReferenceTypes f = false ∧ listed ts i = true := by
  simp only [applyTargets, List.mem_filter, List.mem_map, Prod.exists, List.mem_zipIdx_iff_getElem?]
  constructor
  · rintro ⟨⟨f, k, ⟨h1, h2⟩, rfl⟩, h3⟩
    exact ⟨f, h1, by simpa using h2, h3⟩
  · rintro ⟨f, h1, h2, h3⟩
    exact ⟨⟨f, i, ⟨h1, by simpa using h2⟩, rfl⟩, h3⟩

theorem mem_bodyTargets {m : Module} {ts : Option (List Nat)} {i : Nat} :
    i ∈ bodyTargets m ts ↔ ∃ f, m.functions[i]? = some f ∧ f.hasCode = true ∧ usesReferenceTypes f = false ∧ listed ts i = true := by
  simp only [bodyTargets, List.mem_filter, List.mem_map, Prod.exists, List.mem_zipIdx_iff_getElem?]
  constructor
  · rintro ⟨⟨f, k, ⟨⟨h1, h4⟩, h2⟩, rfl⟩, h3⟩
    exact ⟨f, h1, h4, by simpa using h2, h3⟩
  · rintro ⟨f, h1, h4, h2, h3⟩
    exact ⟨⟨f, i, ⟨⟨h1, h4⟩, by simpa using h2⟩, rfl⟩, h3⟩

theorem zipIdx_map_snd_nodup {α : Type} (l : List α) (p : α × Nat → Bool) : ((l.zipIdx.filter p).map (·.2)).Nodup := by
  have h : (l.zipIdx.map (·.2)).Nodup := by rw [List.zipIdx_map_snd]; exact List.nodup_range'
  exact h.sublist (List.Sublist.map _ List.filter_sublist)

theorem applyTargets_nodup (m : Module) (ts) : (applyTargets m ts).Nodup :=
  (zipIdx_map_snd_nodup _ _).filter _

theorem bodyTargets_nodup (m : Module) (ts) : (bodyTargets m ts).Nodup := by
  unfold bodyTargets
  rw [List.filter_filter]
  exact (zipIdx_map_snd_nodup _ _).filter _

theorem bodyTargets_subset {m : Module} {ts : Option (List Nat)} {i : Nat} (h : i ∈ bodyTargets m ts) : i ∈ applyTargets m ts := by
  obtain ⟨f, h1, _, h3, h4⟩ := mem_bodyTargets.1 h
  exact mem_applyTargets.2 ⟨f, h1, h3, h4⟩

/-! ## The whole -/

/-- Numbers that have to be turned into constants fit. True of every module that exists: indices, arities and labels are
far below `2^31`. -/
structure SmallModule (m : Module) : Prop where
  functions : m.functions.length < 2 ^ 31
  arity : ∀ f ∈ m.functions, f.type.inputs.length < 2 ^ 31 ∧ f.type.results.length < 2 ^ 31
  length : ∀ f ∈ m.functions, ∀ c, f.code = .present c → c.body.length ≤ 2 ^ 63
  body : ∀ f ∈ m.functions, ∀ c, f.code = .present c → ∀ i ∈ c.body, i.Small

/-- The nested body of a function of the program (empty if it has none or is ill-formed). -/
def bodyOf (C : Checker) (m : Module) (i : Nat) : List TI :=
  match raiseTarget C m i with
  | .ok b => b
  | .error _ => []

theorem bodyOf_fits {C : Checker} {m : Module} (hs : SmallModule m) (i : Nat) : TI.FitsL (bodyOf C m i) := by
  unfold bodyOf
  split
  · rename_i b hb
    obtain ⟨f, c, hf, hc, hr⟩ := raiseTarget_present hb
    have hm := List.mem_of_getElem? hf
    exact fits_of_raise hr (hs.length f hm c hc) (hs.body f hm c hc)
  · simp [TI.FitsL]

theorem bodyOf_pristine (C : Checker) (m : Module) (i : Nat) : Pristine (bodyOf C m i) := by
  unfold bodyOf
  split
  · rename_i b hb
    obtain ⟨f, c, hf, hc, hr⟩ := raiseTarget_present hb
    exact pristine_of_raise hr
  · simp [Pristine, TI.locsL]

/-- What the instruction-level hooks do to the list of functions. `targets` is the set of target functions (in any order). -/
structure BodiesDesc (C : Checker) (iface : Interface) (targets : List Nat) (m : Module) (fs : List Func) (base : Nat → Nat) : Prop where
  own : ∀ i < m.functions.length, fs[i]? = m.functions[i]?.map fun f =>
    if i ∈ targets then f.withBody (lowerTyped (expandL (hookSel iface m.functions.length) (base i) (bodyOf C m i))) else f
  added : fs.drop m.functions.length = hookImports iface ++
    targets.flatMap (fun i => helpersFor (hookSel iface m.functions.length) (bodyOf C m i))
  length : m.functions.length + (hookImports iface).length ≤ fs.length
  helpers : ∀ i ∈ targets, m.functions.length ≤ base i ∧
    ∀ (j : Nat) g, (helpersFor (hookSel iface m.functions.length) (bodyOf C m i))[j]? = some g → fs[base i + j]? = some g

theorem instrumentBodies_desc {C : Checker} {iface : Interface} {order : List Nat} {m : Module} {fs : List Func} (hn : order.Nodup)
    (hs : SmallModule m) (h : instrumentBodies C iface order m = .ok fs) :
    (∀ i ∈ order, raiseTarget C m i = .ok (bodyOf C m i)) ∧ ∃ base, BodiesDesc C iface order m fs base := by
  have hB : ∀ i ∈ order, raiseTarget C m i = .ok (bodyOf C m i) := by
    unfold instrumentBodies at h
    split at h
    · simp at h
    · rename_i bodies hb
      obtain ⟨h1, h2⟩ := raiseTargets_ok hb
      intro i hi
      obtain ⟨j, hj⟩ := List.getElem?_of_mem hi
      obtain ⟨b, _, hb⟩ := h2 j i hj
      simp [bodyOf, hb]
  refine ⟨hB, ?_⟩
  obtain ⟨fs', base, h1, h2, h3, h4, h5⟩ := instrumentBodies_eq C iface order m (bodyOf C m) hn hB fun i _ => bodyOf_fits hs i
  rw [h] at h1; cases h1
  exact ⟨base, h3, h4, by omega, h5⟩

/-- Success and shape of the result, for all iteration orders. -/
theorem instrument_desc' {C : Checker} {ord ord' : List Nat → List Nat} {iface : Interface} {ts : Option (List Nat)} {m : Module}
    {r : Instrumented} (ho : ∀ l, (ord l).Perm l) (ho' : ∀ l, (ord' l).Perm l) (hs : SmallModule m)
    (h : instrument C ord ord' iface ts m = .ok r) :
    m.memories.length ≤ 1 ∧ (∀ i ∈ bodyTargets m ts, raiseTarget C m i = .ok (bodyOf C m i)) ∧
    ∃ fs base, instrumentBodies C iface (ord (bodyTargets m ts)) m = .ok fs ∧ BodiesDesc C iface (ord (bodyTargets m ts)) m fs base ∧
      (iface.generic = none → r.librarySignatures = none ∧
        r.module = { m with functions := fs ++ memoryFunctions m.memories.isEmpty }) ∧
      (∀ ge cb, iface.generic = some (ge, cb) → ∃ m2 sigs hooks copy,
        ApplyDesc (ord' (applyTargets m ts)) ge cb { m with functions := fs } m2 sigs hooks copy ∧
        r.librarySignatures = some sigs ∧
        r.module = { m2 with functions := m2.functions ++ memoryFunctions m.memories.isEmpty }) := by
  have hnod : (ord (bodyTargets m ts)).Nodup := (ho _).nodup_iff.2 (bodyTargets_nodup m ts)
  have hnod' : (ord' (applyTargets m ts)).Nodup := (ho' _).nodup_iff.2 (applyTargets_nodup m ts)
  unfold instrument at h
  cases hb : instrumentBodies C iface (ord (bodyTargets m ts)) m with
  | error e => simp [hb, bind, Except.bind] at h
  | ok fs =>
    obtain ⟨hB, base, hd⟩ := instrumentBodies_desc hnod hs hb
    simp only [hb, bind, Except.bind] at h
    have hB' : ∀ i ∈ bodyTargets m ts, raiseTarget C m i = .ok (bodyOf C m i) := fun i hi => hB i ((ho _).mem_iff.2 hi)
    cases hg : iface.generic with
    | none =>
      simp only [hg, injectMemory_eq] at h
      by_cases hmem : m.memories.length ≤ 1
      · simp only [hmem, if_true, pure, Except.pure, Except.ok.injEq] at h
        subst h
        exact ⟨hmem, hB', fs, base, rfl, hd, fun _ => ⟨rfl, rfl⟩, by simp⟩
      · simp [hmem] at h
    | some p =>
      obtain ⟨ge, cb⟩ := p
      obtain ⟨m2, sigs, hooks, copy, ha, had⟩ := instrumentApply_spec (ord' (applyTargets m ts)) ge cb { m with functions := fs } hnod' (by
        intro i hi
        have hi := (ho' _).mem_iff.1 hi
        obtain ⟨f, hf, _, _⟩ := mem_applyTargets.1 hi
        have hlt := (List.getElem?_eq_some_iff.1 hf).1
        have hsz := hs.functions
        refine ⟨by omega, ?_⟩
        have := hd.own i hlt
        rw [hf] at this
        refine ⟨_, this, ?_⟩
        have har := hs.arity f (List.mem_of_getElem? hf)
        split
        · rw [withBody_type]; exact har
        · exact har) (by
        have h1 : (ord' (applyTargets m ts)).length = (applyTargets m ts).length := (ho' _).length_eq
        have h2 : (applyTargets m ts).length ≤ m.functions.length := by
          unfold applyTargets
          refine Nat.le_trans (List.length_filter_le _ _) ?_
          rw [List.length_map]
          exact Nat.le_trans (List.length_filter_le _ _) (by simp)
        have := hs.functions
        omega)
      simp only [hg, ha, injectMemory_eq] at h
      have hmm : m2.memories = m.memories := had.memories
      by_cases hmem : m.memories.length ≤ 1
      · have hmem2 : m2.memories.length ≤ 1 := by rw [hmm]; exact hmem
        simp only [hmem2, if_true, pure, Except.pure, Except.ok.injEq] at h
        subst h
        refine ⟨hmem, hB', fs, base, rfl, hd, by simp, ?_⟩
        intro ge' cb' e
        simp only [Option.some.injEq, Prod.mk.injEq] at e
        obtain ⟨rfl, rfl⟩ := e
        exact ⟨m2, sigs, hooks, copy, had, rfl, by rw [hmm]⟩
      · have hmem2 : ¬ m2.memories.length ≤ 1 := by rw [hmm]; exact hmem
        simp [hmem2] at h

theorem instrument_desc {C : Checker} {ord ord' : List Nat → List Nat} {iface : Interface} {ts : Option (List Nat)} {m : Module}
    {r : Instrumented} (ho : ∀ l, (ord l).Perm l) (ho' : ∀ l, (ord' l).Perm l) (hs : SmallModule m)
    (h : instrument C ord ord' iface ts m = .ok r) :
    m.memories.length ≤ 1 ∧ (∀ i ∈ bodyTargets m ts, raiseTarget C m i = .ok (bodyOf C m i)) ∧
    ∃ fs base, BodiesDesc C iface (ord (bodyTargets m ts)) m fs base ∧
      (iface.generic = none → r.librarySignatures = none ∧
        r.module = { m with functions := fs ++ memoryFunctions m.memories.isEmpty }) ∧
      (∀ ge cb, iface.generic = some (ge, cb) → ∃ m2 sigs hooks copy,
        ApplyDesc (ord' (applyTargets m ts)) ge cb { m with functions := fs } m2 sigs hooks copy ∧
        r.librarySignatures = some sigs ∧
        r.module = { m2 with functions := m2.functions ++ memoryFunctions m.memories.isEmpty }) := by
  obtain ⟨h1, h2, fs, base, _, h3⟩ := instrument_desc' ho ho' hs h
  exact ⟨h1, h2, fs, base, h3⟩

theorem raiseTargets_error {C : Checker} {m : Module} : ∀ {order : List Nat}, (∃ i ∈ order, ∀ b, raiseTarget C m i ≠ .ok b) →
    ∃ e, raiseTargets C m order = .error e := by
  intro order
  induction order with
  | nil => simp
  | cons i is ih =>
    rintro ⟨k, hk, hb⟩
    simp only [raiseTargets]
    cases h : raiseTarget C m i with
    | error e => exact ⟨e, rfl⟩
    | ok b =>
      rcases List.mem_cons.1 hk with rfl | hk
      · exact absurd h (hb b)
      · obtain ⟨e, he⟩ := ih ⟨k, hk, hb⟩
        exact ⟨e, by simp [he]⟩

/-- Instrumentation succeeds exactly if every target body nests and type-checks and there is at most one memory. -/
theorem instrument_ok_iff {C : Checker} {ord ord' : List Nat → List Nat} {iface : Interface} {ts : Option (List Nat)} {m : Module}
    (ho : ∀ l, (ord l).Perm l) (ho' : ∀ l, (ord' l).Perm l) (hs : SmallModule m) :
    (∃ r, instrument C ord ord' iface ts m = .ok r) ↔
      m.memories.length ≤ 1 ∧ ∀ i ∈ bodyTargets m ts, ∃ b, raiseTarget C m i = .ok b := by
  constructor
  · rintro ⟨r, hr⟩
    obtain ⟨h1, h2, _⟩ := instrument_desc ho ho' hs hr
    exact ⟨h1, fun i hi => ⟨_, h2 i hi⟩⟩
  · rintro ⟨hmem, hB⟩
    have hnod : (ord (bodyTargets m ts)).Nodup := (ho _).nodup_iff.2 (bodyTargets_nodup m ts)
    have hnod' : (ord' (applyTargets m ts)).Nodup := (ho' _).nodup_iff.2 (applyTargets_nodup m ts)
    have hB' : ∀ i ∈ ord (bodyTargets m ts), raiseTarget C m i = .ok (bodyOf C m i) := by
      intro i hi
      obtain ⟨b, hb⟩ := hB i ((ho _).mem_iff.1 hi)
      simp [bodyOf, hb]
    obtain ⟨fs, base, h1, h2, h3, h4, h5⟩ := instrumentBodies_eq C iface _ m (bodyOf C m) hnod hB' fun i _ => bodyOf_fits hs i
    unfold instrument
    simp only [h1, bind, Except.bind]
    cases hg : iface.generic with
    | none => simp [injectMemory_eq, hmem, pure, Except.pure]
    | some p =>
      obtain ⟨ge, cb⟩ := p
      obtain ⟨m2, sigs, hooks, copy, ha, had⟩ := instrumentApply_spec (ord' (applyTargets m ts)) ge cb { m with functions := fs } hnod' (by
        intro i hi
        have hi := (ho' _).mem_iff.1 hi
        obtain ⟨f, hf, _, _⟩ := mem_applyTargets.1 hi
        have hlt := (List.getElem?_eq_some_iff.1 hf).1
        have hsz := hs.functions
        refine ⟨by omega, ?_⟩
        have := h3 i hlt
        rw [hf] at this
        refine ⟨_, this, ?_⟩
        have har := hs.arity f (List.mem_of_getElem? hf)
        split
        · rw [withBody_type]; exact har
        · exact har) (by
        have h1 : (ord' (applyTargets m ts)).length = (applyTargets m ts).length := (ho' _).length_eq
        have h2 : (applyTargets m ts).length ≤ m.functions.length := by
          unfold applyTargets
          refine Nat.le_trans (List.length_filter_le _ _) ?_
          rw [List.length_map]
          exact Nat.le_trans (List.length_filter_le _ _) (by simp)
        have := hs.functions
        omega)
      have hmm : m2.memories.length ≤ 1 := by rw [had.memories]; exact hmem
      simp only [ha, injectMemory_eq, hmm, if_true, pure, Except.pure]
      exact ⟨_, rfl⟩

end Wastrum
