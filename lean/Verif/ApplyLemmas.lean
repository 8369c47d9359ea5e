import Verif.InstrumentLemmas
/-!
# What `instrumentApply` and `injectMemory` produce (lemmas)
-/

set_option linter.unusedSimpArgs false
set_option linter.unusedVariables false

namespace Wastrum

/-! ## Stack library imports -/

/-- An import from the stack library. -/
def stackImport (t : FuncType) (name : String) : Func := ⟨t, .imported stackModule name, []⟩

/-- Function `f` is in `fs` at index `k`, which is at least `lo`. -/
def At (lo : Nat) (fs : List Func) (k : Nat) (f : Func) : Prop := lo ≤ k ∧ fs[k]? = some f

/-- The hooks `h` for signature `t` are imports of the right name and type in `fs`, at indices from `lo` on. -/
structure Linked (lo : Nat) (fs : List Func) (t : FuncType) (h : StackHooks) : Prop where
  allocateValues : At lo fs (h.allocateValues) (stackImport ⟨t.inputs, [.i32]⟩ (allocateValuesName t))
  freeValues : At lo fs (h.freeValues) (stackImport ⟨[.i32], []⟩ (freeValuesName t))
  allocateTypes : At lo fs (h.allocateTypes) (stackImport ⟨[], [.i32]⟩ (allocateTypesName t))
  freeTypes : At lo fs (h.freeTypes) (stackImport ⟨[.i32], []⟩ (freeTypesName t))
  argLoadLen : h.argLoad.length = t.inputs.length
  argLoad : ∀ i v k, t.inputs[i]? = some v → h.argLoad[i]? = some k →
    At lo fs (k) (stackImport ⟨[.i32], [v]⟩ (loadName t .arg i))
  retLoadLen : h.retLoad.length = t.results.length
  retLoad : ∀ i v k, t.results[i]? = some v → h.retLoad[i]? = some k →
    At lo fs (k) (stackImport ⟨[.i32], [v]⟩ (loadName t .ret i))
  argStoreLen : h.argStore.length = t.inputs.length
  argStore : ∀ i v k, t.inputs[i]? = some v → h.argStore[i]? = some k →
    At lo fs (k) (stackImport ⟨[.i32, v], []⟩ (storeName t .arg i))
  retStoreLen : h.retStore.length = t.results.length
  retStore : ∀ i v k, t.results[i]? = some v → h.retStore[i]? = some k →
    At lo fs (k) (stackImport ⟨[.i32, v], []⟩ (storeName t .ret i))
  retStoreAll : At lo fs (h.retStoreAll) (stackImport ⟨.i32 :: t.results, []⟩ (storeRetsName t))

/-- `Linked` only depends on the imports named. -/
theorem Linked.mono {lo : Nat} {fs fs' : List Func} {t h} (hl : Linked lo fs t h)
    (hm : ∀ (k : Nat) ty name, At lo fs k (stackImport ty name) → At lo fs' k (stackImport ty name)) : Linked lo fs' t h where
  allocateValues := hm _ _ _ hl.allocateValues
  freeValues := hm _ _ _ hl.freeValues
  allocateTypes := hm _ _ _ hl.allocateTypes
  freeTypes := hm _ _ _ hl.freeTypes
  argLoadLen := hl.argLoadLen
  argLoad i v k h1 h2 := hm _ _ _ (hl.argLoad i v k h1 h2)
  retLoadLen := hl.retLoadLen
  retLoad i v k h1 h2 := hm _ _ _ (hl.retLoad i v k h1 h2)
  argStoreLen := hl.argStoreLen
  argStore i v k h1 h2 := hm _ _ _ (hl.argStore i v k h1 h2)
  retStoreLen := hl.retStoreLen
  retStore i v k h1 h2 := hm _ _ _ (hl.retStore i v k h1 h2)
  retStoreAll := hm _ _ _ hl.retStoreAll

/-- The imports for one signature, in order. -/
def stackImports (t : FuncType) : List Func :=
  [stackImport ⟨t.inputs, [.i32]⟩ (allocateValuesName t), stackImport ⟨[.i32], []⟩ (freeValuesName t),
   stackImport ⟨[], [.i32]⟩ (allocateTypesName t), stackImport ⟨[.i32], []⟩ (freeTypesName t)] ++
  t.inputs.mapIdx (fun i v => stackImport ⟨[.i32], [v]⟩ (loadName t .arg i)) ++
  t.results.mapIdx (fun i v => stackImport ⟨[.i32], [v]⟩ (loadName t .ret i)) ++
  t.inputs.mapIdx (fun i v => stackImport ⟨[.i32, v], []⟩ (storeName t .arg i)) ++
  t.results.mapIdx (fun i v => stackImport ⟨[.i32, v], []⟩ (storeName t .ret i)) ++
  [stackImport ⟨.i32 :: t.results, []⟩ (storeRetsName t)]

theorem addImports_eq (mk : Nat → ValType → FuncType × String) : ∀ (ts : List ValType) (k : Nat) (fs : List Func),
    addImports mk k ts fs = ((List.range ts.length).map (fs.length + ·),
      fs ++ ts.mapIdx (fun i v => stackImport (mk (k + i) v).1 (mk (k + i) v).2)) := by
  intro ts
  induction ts with
  | nil => intro k fs; simp [addImports]
  | cons t ts ih =>
    intro k fs
    simp only [addImports, addFunctionImport, ih, List.length_cons, List.length_append, List.length_nil,
      List.range_succ_eq_map, List.map_cons, Nat.add_zero, List.map_map, List.mapIdx_cons, List.append_assoc, List.singleton_append]
    refine Prod.ext ?_ ?_
    · simp [Function.comp_def]
      intro a _; omega
    · simp [stackImport, Function.comp_def, Nat.add_comm, Nat.add_left_comm, Nat.add_assoc]

theorem get_range_map {n m i k : Nat} (h : ((List.range m).map (n + ·))[i]? = some k) : i < m ∧ k = n + i := by
  rw [List.getElem?_map] at h
  by_cases hi : i < m
  · simp [hi] at h; exact ⟨hi, h.symm⟩
  · simp [List.getElem?_range, hi] at h

theorem linkStackHooks_spec (t : FuncType) (fs : List Func) :
    ∃ h, linkStackHooks t fs = (h, fs ++ stackImports t) ∧ Linked fs.length (fs ++ stackImports t) t h := by
  unfold linkStackHooks
  simp only [addFunctionImport, addImports_eq, Nat.zero_add]
  refine ⟨_, Prod.ext rfl ?_, ?_⟩
  · simp [stackImports, stackImport]
  · have e : ∀ (j : Nat) g, (stackImports t)[j]? = some g → At fs.length (fs ++ stackImports t) (fs.length + j) g := by
      intro j g hg
      refine ⟨by omega, ?_⟩
      rw [List.getElem?_append_right (by omega)]
      simpa using hg
    constructor
    · exact e 0 _ (by simp [stackImports])
    · simpa using e 1 _ (by simp [stackImports])
    · simpa using e 2 _ (by simp [stackImports])
    · simpa using e 3 _ (by simp [stackImports])
    · simp
    · intro i v k hv hk
      obtain ⟨hi, rfl⟩ := get_range_map hk
      have := e (4 + i) (stackImport ⟨[.i32], [v]⟩ (loadName t .arg i)) (by
        simp only [stackImports, List.append_assoc]
        rw [List.getElem?_append_right (by simp)]
        rw [List.getElem?_append_left (by simp; omega)]
        simp [hv])
      simpa [Nat.add_assoc] using this
    · simp
    · intro i v k hv hk
      obtain ⟨hi, rfl⟩ := get_range_map hk
      have := e (4 + t.inputs.length + i) (stackImport ⟨[.i32], [v]⟩ (loadName t .ret i)) (by
        simp only [stackImports, List.append_assoc]
        rw [List.getElem?_append_right (by simp; omega), List.getElem?_append_right (by simp; omega)]
        rw [List.getElem?_append_left (by simp; omega)]
        simp only [List.length_cons, List.length_nil, List.length_mapIdx]
        rw [show 4 + t.inputs.length + i - (0 + 1 + 1 + 1 + 1) - t.inputs.length = i by omega]
        simp [hv])
      simpa [Nat.add_comm, Nat.add_left_comm, Nat.add_assoc] using this
    · simp
    · intro i v k hv hk
      obtain ⟨hi, rfl⟩ := get_range_map hk
      have := e (4 + t.inputs.length + t.results.length + i) (stackImport ⟨[.i32, v], []⟩ (storeName t .arg i)) (by
        simp only [stackImports, List.append_assoc]
        rw [List.getElem?_append_right (by simp; omega), List.getElem?_append_right (by simp; omega),
          List.getElem?_append_right (by simp; omega)]
        rw [List.getElem?_append_left (by simp; omega)]
        simp only [List.length_cons, List.length_nil, List.length_mapIdx]
        rw [show 4 + t.inputs.length + t.results.length + i - (0 + 1 + 1 + 1 + 1) - t.inputs.length - t.results.length = i by omega]
        simp [hv])
      simpa [Nat.add_comm, Nat.add_left_comm, Nat.add_assoc] using this
    · simp
    · intro i v k hv hk
      obtain ⟨hi, rfl⟩ := get_range_map hk
      have := e (4 + t.inputs.length + t.results.length + t.inputs.length + i) (stackImport ⟨[.i32, v], []⟩ (storeName t .ret i)) (by
        simp only [stackImports, List.append_assoc]
        rw [List.getElem?_append_right (by simp; omega), List.getElem?_append_right (by simp; omega),
          List.getElem?_append_right (by simp; omega), List.getElem?_append_right (by simp; omega)]
        rw [List.getElem?_append_left (by simp; omega)]
        simp only [List.length_cons, List.length_nil, List.length_mapIdx]
        rw [show 4 + t.inputs.length + t.results.length + t.inputs.length + i - (0 + 1 + 1 + 1 + 1) - t.inputs.length -
          t.results.length - t.inputs.length = i by omega]
        simp [hv])
      simpa [Nat.add_comm, Nat.add_left_comm, Nat.add_assoc] using this
    · have := e (4 + t.inputs.length + t.results.length + t.inputs.length + t.results.length)
        (stackImport ⟨.i32 :: t.results, []⟩ (storeRetsName t)) (by
        simp only [stackImports, List.append_assoc]
        rw [List.getElem?_append_right (by simp; omega), List.getElem?_append_right (by simp; omega),
          List.getElem?_append_right (by simp; omega), List.getElem?_append_right (by simp; omega),
          List.getElem?_append_right (by simp; omega)]
        simp only [List.length_cons, List.length_nil, List.length_mapIdx]
        rw [show 4 + t.inputs.length + t.results.length + t.inputs.length + t.results.length - (0 + 1 + 1 + 1 + 1) - t.inputs.length -
          t.results.length - t.inputs.length - t.results.length = 0 by omega]
        rfl)
      simpa [Nat.add_comm, Nat.add_left_comm, Nat.add_assoc] using this

theorem Linked.append {lo : Nat} {fs : List Func} {t h} (hl : Linked lo fs t h) (r : List Func) : Linked lo (fs ++ r) t h :=
  hl.mono fun k ty name hk => by
    refine ⟨hk.1, ?_⟩
    rw [List.getElem?_append_left (List.getElem?_eq_some_iff.1 hk.2).1]; exact hk.2

theorem Linked.lower {lo lo' : Nat} {fs : List Func} {t h} (hl : Linked lo fs t h) (hlo : lo' ≤ lo) : Linked lo' fs t h where
  allocateValues := ⟨Nat.le_trans hlo hl.allocateValues.1, hl.allocateValues.2⟩
  freeValues := ⟨Nat.le_trans hlo hl.freeValues.1, hl.freeValues.2⟩
  allocateTypes := ⟨Nat.le_trans hlo hl.allocateTypes.1, hl.allocateTypes.2⟩
  freeTypes := ⟨Nat.le_trans hlo hl.freeTypes.1, hl.freeTypes.2⟩
  retStoreAll := ⟨Nat.le_trans hlo hl.retStoreAll.1, hl.retStoreAll.2⟩
  argLoadLen := hl.argLoadLen
  argLoad i v k h1 h2 := ⟨Nat.le_trans hlo (hl.argLoad i v k h1 h2).1, (hl.argLoad i v k h1 h2).2⟩
  retLoadLen := hl.retLoadLen
  retLoad i v k h1 h2 := ⟨Nat.le_trans hlo (hl.retLoad i v k h1 h2).1, (hl.retLoad i v k h1 h2).2⟩
  argStoreLen := hl.argStoreLen
  argStore i v k h1 h2 := ⟨Nat.le_trans hlo (hl.argStore i v k h1 h2).1, (hl.argStore i v k h1 h2).2⟩
  retStoreLen := hl.retStoreLen
  retStore i v k h1 h2 := ⟨Nat.le_trans hlo (hl.retStore i v k h1 h2).1, (hl.retStore i v k h1 h2).2⟩

theorem lookup_append_none {α β : Type} [BEq α] (a : α) (l r : List (α × β)) (h : l.lookup a = none) :
    (l ++ r).lookup a = r.lookup a := by
  induction l with
  | nil => rfl
  | cons p l ih =>
    obtain ⟨x, y⟩ := p
    simp only [List.cons_append, List.lookup_cons] at h ⊢
    cases hx : a == x
    · rw [hx] at h; exact ih h
    · simp [hx] at h

theorem lookup_append_some {α β : Type} [BEq α] (a : α) (l r : List (α × β)) {b} (h : l.lookup a = some b) :
    (l ++ r).lookup a = some b := by
  induction l with
  | nil => simp at h
  | cons p l ih =>
    obtain ⟨x, y⟩ := p
    simp only [List.cons_append, List.lookup_cons] at h ⊢
    cases hx : a == x
    · rw [hx] at h; exact ih h
    · simpa [hx] using h

theorem mem_of_lookup {α β : Type} [BEq α] [LawfulBEq α] {a : α} {l : List (α × β)} {b} (h : l.lookup a = some b) : (a, b) ∈ l := by
  induction l with
  | nil => simp at h
  | cons p l ih =>
    obtain ⟨x, y⟩ := p
    simp only [List.lookup_cons] at h
    cases hx : a == x
    · rw [hx] at h; exact List.mem_cons_of_mem _ (ih h)
    · simp [hx] at h; have hx' := eq_of_beq hx; subst h; subst hx'; simp

/-- The links made for a list of functions: every signature that occurs gets correct links, exactly once, and the only
change to the module is the added imports. -/
theorem linkAll_spec : ∀ (order : List Nat) (lo : Nat) (acc : List (FuncType × StackHooks)) (fs : List Func), lo ≤ fs.length →
    (∀ i ∈ order, i < fs.length) → (acc.map (·.1)).Nodup → (∀ t h, acc.lookup t = some h → Linked lo fs t h) →
    ∃ links new, linkAll order acc fs = some (links, fs ++ new.flatMap stackImports) ∧
      links.map (·.1) = acc.map (·.1) ++ new ∧ (links.map (·.1)).Nodup ∧
      (∀ t, t ∈ new → ∃ i ∈ order, ∃ f, fs[i]? = some f ∧ f.type = t) ∧
      (∀ i ∈ order, ∀ f, fs[i]? = some f → f.type ∈ links.map (·.1)) ∧
      (∀ t h, links.lookup t = some h → Linked lo (fs ++ new.flatMap stackImports) t h) ∧
      (∀ t h, acc.lookup t = some h → links.lookup t = some h) := by
  intro order
  induction order with
  | nil =>
    intro lo acc fs _ _ hn hl
    exact ⟨acc, [], by simp [linkAll], by simp, hn, by simp, by simp, by simpa using hl, fun _ _ h => h⟩
  | cons i is ih =>
    intro lo acc fs hlo hi hn hl
    simp only [List.mem_cons, forall_eq_or_imp] at hi
    have hfi : fs[i]? = some fs[i] := List.getElem?_eq_getElem hi.1
    cases hlk : acc.lookup fs[i].type with
    | some h0 =>
      obtain ⟨links, new, h1, h2, h3, h4, h5, h6, h7⟩ := ih lo acc fs hlo hi.2 hn hl
      refine ⟨links, new, by simp [linkAll, hfi, hlk, h1], h2, h3, ?_, ?_, h6, h7⟩
      · intro t ht
        obtain ⟨j, hj, f, hf, e⟩ := h4 t ht
        exact ⟨j, by simp [hj], f, hf, e⟩
      · intro j hj f hf
        rcases List.mem_cons.1 hj with rfl | hj
        · rw [hfi] at hf; cases hf
          have := h7 _ _ hlk
          exact List.mem_map.2 ⟨_, mem_of_lookup this, rfl⟩
        · exact h5 j hj f hf
    | none =>
      obtain ⟨h, hh1, hh2⟩ := linkStackHooks_spec fs[i].type fs
      have hni : fs[i].type ∉ acc.map (·.1) := by
        rw [List.lookup_eq_none_iff] at hlk
        intro hm
        obtain ⟨p, hp, e⟩ := List.mem_map.1 hm
        have := hlk p hp
        simp [e] at this
      obtain ⟨links, new, h1, h2, h3, h4, h5, h6, h7⟩ := ih lo (acc ++ [(fs[i].type, h)]) (fs ++ stackImports fs[i].type) (by simp; omega)
        (fun j hj => by have := hi.2 j hj; simp; omega)
        (by
          rw [List.map_append, List.nodup_append]
          refine ⟨hn, by simp, ?_⟩
          intro a ha b hb e
          simp only [List.map_cons, List.map_nil, List.mem_singleton] at hb
          subst hb; subst e
          exact hni ha)
        (by
          intro t h' ht
          cases hlt : acc.lookup t with
          | some h'' =>
            rw [lookup_append_some _ _ _ hlt] at ht
            cases ht
            exact (hl _ _ hlt).append _
          | none =>
            rw [lookup_append_none _ _ _ hlt, List.lookup_cons] at ht
            cases hx : t == fs[i].type
            · simp [hx] at ht
            · simp [hx] at ht; have hx' := eq_of_beq hx; subst ht; rw [hx']; exact hh2.lower hlo)
      refine ⟨links, fs[i].type :: new, ?_, ?_, h3, ?_, ?_, ?_, ?_⟩
      · simp only [linkAll, hfi, hlk, hh1, h1]
        simp [List.append_assoc]
      · rw [h2]; simp
      · intro t ht
        rcases List.mem_cons.1 ht with rfl | ht
        · exact ⟨i, by simp, _, hfi, rfl⟩
        · obtain ⟨j, hj, f, hf, e⟩ := h4 t ht
          have := hi.2 j hj
          rw [List.getElem?_append_left this] at hf
          exact ⟨j, by simp [hj], f, hf, e⟩
      · intro j hj f hf
        rcases List.mem_cons.1 hj with rfl | hj
        · rw [hfi] at hf; cases hf
          rw [h2]; simp
        · exact h5 j hj f (by rw [List.getElem?_append_left (hi.2 j hj)]; exact hf)
      · intro t h' ht
        have := h6 t h' ht
        simpa [List.append_assoc] using this
      · intro t h' ht
        exact h7 _ _ (lookup_append_some _ _ _ ht)

/-! ## The loop over the functions -/

/-- The function an instrumented function becomes. -/
def trampolineFunc (f : Func) (h : StackHooks) (ga tableIndex i : Nat) : Func :=
  { f with code := .present ⟨[.i32, .i32], applyTrampoline f.type h ga (BitVec.ofNat 32 tableIndex) (BitVec.ofNat 32 i)
    (BitVec.ofNat 32 f.type.inputs.length) (BitVec.ofNat 32 f.type.results.length) (codePresent f)⟩ }

/-- The apply function for the copy of a function at index `un`. -/
def applyFunc (h : StackHooks) (un : Nat) : Func := ⟨⟨[.i32], []⟩, .present ⟨[.i32], baseApplyBody h un⟩, []⟩

theorem addUninstrumented_eq (f : Func) (fs : List Func) : addUninstrumented f fs = (fs.length, fs ++ [{ f with exports := [] }]) := by
  obtain ⟨ty, code, ex⟩ := f
  unfold addUninstrumented
  cases code <;> rfl

theorem applyAll_spec (links : List (FuncType × StackHooks)) (ga : Nat) : ∀ (order : List Nat) (funs : List Nat) (fs : List Func),
    order.Nodup → (∀ i ∈ order, i < 2 ^ 31 ∧ ∃ f, fs[i]? = some f ∧ (∃ h, links.lookup f.type = some h) ∧
      f.type.inputs.length < 2 ^ 31 ∧ f.type.results.length < 2 ^ 31) → funs.length + order.length ≤ 2 ^ 31 →
    ∃ fs', applyAll links ga order funs fs = .ok (funs ++ (List.range order.length).map (fun j => fs.length + 2 * j + 1), fs') ∧
      fs'.length = fs.length + 2 * order.length ∧
      (∀ i f, i ∉ order → fs[i]? = some f → fs'[i]? = some f) ∧
      (∀ (j i : Nat) f h, order[j]? = some i → fs[i]? = some f → links.lookup f.type = some h →
        fs'[i]? = some (trampolineFunc f h ga (funs.length + j) i) ∧
        fs'[fs.length + 2 * j]? = some { f with exports := [] } ∧
        fs'[fs.length + 2 * j + 1]? = some (applyFunc h (fs.length + 2 * j))) := by
  intro order
  induction order with
  | nil => intro funs fs _ _ _; exact ⟨fs, by simp [applyAll], by simp, fun i f _ h => h, by simp⟩
  | cons i is ih =>
    intro funs fs hn hi hlen
    simp only [List.nodup_cons] at hn
    simp only [List.mem_cons, forall_eq_or_imp] at hi
    obtain ⟨⟨hi31, f, hf, ⟨h, hh⟩, hin, hres⟩, hrest⟩ := hi
    have hilt := (List.getElem?_eq_some_iff.1 hf).1
    simp only [List.length_cons] at hlen
    -- the state after one round
    let fs1 := ((fs ++ [{ f with exports := [] }]) ++ [applyFunc h fs.length]).set i (trampolineFunc f h ga funs.length i)
    have hone : applyOne links ga i funs fs = .ok (funs ++ [fs.length + 1], fs1) := by
      have a1 : appI32 f.type.inputs.length = .ok (BitVec.ofNat 32 f.type.inputs.length) := by simp [appI32, hin]
      have a2 : appI32 f.type.results.length = .ok (BitVec.ofNat 32 f.type.results.length) := by simp [appI32, hres]
      have a3 : appI32 funs.length = .ok (BitVec.ofNat 32 funs.length) := by simp [appI32]; omega
      have a4 : appI32 i = .ok (BitVec.ofNat 32 i) := by simp [appI32, hi31]
      simp only [applyOne, hf, hh, addUninstrumented_eq, addFunction, a1, a2, a3, a4]
      simp [fs1, applyFunc, trampolineFunc]
    have hfs1len : fs1.length = fs.length + 2 := by simp [fs1]
    have hget : ∀ (k : Nat) g, k ≠ i → fs[k]? = some g → fs1[k]? = some g := by
      intro k g hk hg
      have := (List.getElem?_eq_some_iff.1 hg).1
      simp only [fs1]
      rw [List.getElem?_set_ne (Ne.symm hk), List.append_assoc, List.getElem?_append_left this]
      exact hg
    obtain ⟨fs', h1, h2, h3, h4⟩ := ih (funs ++ [fs.length + 1]) fs1 hn.2 (by
      intro k hk
      obtain ⟨hk31, g, hg, hgl⟩ := hrest k hk
      exact ⟨hk31, g, hget k g (fun e => hn.1 (e ▸ hk)) hg, hgl⟩) (by simp; omega)
    refine ⟨fs', ?_, ?_, ?_, ?_⟩
    · simp only [applyAll, hone, h1, hfs1len]
      simp only [List.length_cons, List.range_succ_eq_map, List.map_cons, List.map_map, List.append_assoc, List.singleton_append,
        Nat.mul_zero, Nat.add_zero]
      congr 4
      apply List.map_congr_left
      intro a _
      simp only [Function.comp_apply, Nat.succ_eq_add_one]
      omega
    · rw [h2, hfs1len]; simp; omega
    · intro k g hk hg
      simp only [List.mem_cons, not_or] at hk
      exact h3 k g hk.2 (hget k g hk.1 hg)
    · intro j k g hg' hj hg hgl
      cases j with
      | zero =>
        simp only [List.getElem?_cons_zero, Option.some.injEq] at hj
        subst hj
        rw [hf] at hg; cases hg
        rw [hh] at hgl; cases hgl
        have e1 : fs1[i]? = some (trampolineFunc f h ga funs.length i) := by
          simp only [fs1]; rw [List.getElem?_set_self (by simp; omega)]
        have e2 : fs1[fs.length]? = some { f with exports := [] } := by
          simp only [fs1]; rw [List.getElem?_set_ne (by omega)]; simp
        have e3 : fs1[fs.length + 1]? = some (applyFunc h fs.length) := by
          simp only [fs1]; rw [List.getElem?_set_ne (by omega)]; simp
        have hnot : ∀ k, fs.length ≤ k → k ∉ is := by
          intro k hk hm
          obtain ⟨_, g, hg, _⟩ := hrest k hm
          have := (List.getElem?_eq_some_iff.1 hg).1
          omega
        exact ⟨by simpa using h3 i _ hn.1 e1, by simpa using h3 _ _ (hnot _ (by omega)) e2,
          by simpa using h3 _ _ (hnot _ (by omega)) e3⟩
      | succ j =>
        simp only [List.getElem?_cons_succ] at hj
        have hk : k ∈ is := List.mem_of_getElem? hj
        have hki : k ≠ i := fun e => hn.1 (e ▸ hk)
        obtain ⟨a, b, c⟩ := h4 j k g hg' hj (hget k g hki hg) hgl
        rw [hfs1len] at b c
        rw [show (funs ++ [fs.length + 1]).length + j = funs.length + (j + 1) by simp; omega] at a
        rw [show fs.length + 2 + 2 * j = fs.length + 2 * (j + 1) by omega] at b c
        exact ⟨a, b, c⟩

/-! ## Memory functions -/

/-- The functions added by the four injections. -/
def memoryFunctions (noMemory : Bool) : List Func :=
  loadExports.map (fun e => ⟨⟨[.i32, .i32], [e.2.2]⟩, .present ⟨[], baseLoadBody noMemory e.2.1 e.2.2⟩, [e.1]⟩) ++
  storeExports.map (fun e => ⟨⟨[.i32, e.2.2, .i32], []⟩, .present ⟨[], baseStoreBody noMemory e.2.1⟩, [e.1]⟩) ++
  [⟨⟨[.i32, .i32], [.i32]⟩, .present ⟨[], baseGrowBody noMemory⟩, ["instrumented_memory_grow"]⟩,
   ⟨⟨[.i32], [.i32]⟩, .present ⟨[], baseSizeBody noMemory⟩, ["instrumented_memory_size"]⟩]

theorem foldl_addExported {α : Type} (t : α → FuncType) (b : α → List LInstr) (n : α → String) : ∀ (l : List α) (fs : List Func),
    l.foldl (fun fs e => addExported (t e) (b e) (n e) fs) fs = fs ++ l.map fun e => ⟨t e, .present ⟨[], b e⟩, [n e]⟩ := by
  intro l
  induction l with
  | nil => simp
  | cons a l ih => intro fs; rw [List.foldl_cons, ih]; simp [addExported]

theorem injectMemory_eq (m : Module) : injectMemory m =
    if m.memories.length ≤ 1 then .ok { m with functions := m.functions ++ memoryFunctions m.memories.isEmpty }
    else .error .memoryAssert := by
  unfold injectMemory injectMemoryLoads
  by_cases h : m.memories.length ≤ 1
  · simp only [h, if_true]
    simp only [bind, Except.bind, injectMemoryStores, h, if_true, injectMemoryGrow, injectMemorySize, foldl_addExported]
    simp [memoryFunctions, addExported]
  · simp [h, bind, Except.bind]

end Wastrum
