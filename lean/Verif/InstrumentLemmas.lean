import Verif.Instrument
import Verif.PassThms
/-!
# What `instrumentBodies` produces (lemmas)
-/

set_option linter.unusedSimpArgs false
set_option linter.unusedVariables false

namespace Wastrum

/-! ## Vocabulary -/

/-- The selected hooks, in the order of the tool's table. -/
def Interface.selected (iface : Interface) : List Trap := (trapTable.map (·.1)).filter fun t => (iface.trap t).isSome

/-- Where the hooks of an interface end up in a module with `n` functions. -/
def hookSel (iface : Interface) (n : Nat) : Sel := fun t =>
  if (iface.trap t).isSome then some (n + iface.selected.idxOf t) else none

/-- The import of a hook. -/
def hookImport (e : WasmExport) : Func := ⟨⟨e.args, e.results⟩, .imported analysisModule e.name, []⟩

/-- The imports of the selected hooks. -/
def hookImports (iface : Interface) : List Func := iface.selected.filterMap fun t => (iface.trap t).map hookImport

/-- A function with another body (if it has one). -/
def Func.withBody (f : Func) (body : List LInstr) : Func :=
  match f.code with
  | .present c => { f with code := .present ⟨c.locals, body⟩ }
  | .imported _ _ => f

/-- The simultaneous rewrite of several bodies: the helpers of one precede those of the next. -/
def expandAll (σ : Sel) : Nat → List (List TI) → List (List TI)
  | _, [] => []
  | n, b :: bs => expandL σ n b :: expandAll σ (n + (helpersFor σ b).length) bs

/-! ## Installing hooks -/

theorem idxOf_cons_ne' {α : Type} [DecidableEq α] {a b : α} {l : List α} (h : b ≠ a) : (b :: l).idxOf a = l.idxOf a + 1 := by
  have hb : (b == a) = false := by simpa using h
  simp [List.idxOf_cons, hb]

theorem filterMap_congr' {α β : Type} {f g : α → Option β} : ∀ {l : List α}, (∀ x ∈ l, f x = g x) → l.filterMap f = l.filterMap g := by
  intro l
  induction l with
  | nil => simp
  | cons a l ih =>
    intro h
    simp only [List.mem_cons, forall_eq_or_imp] at h
    simp [List.filterMap_cons, h.1, ih h.2]

theorem installHooks_eq (iface : Interface) : ∀ (r : List (Trap × TargetKind)) (fs : List Func), (r.map (·.1)).Nodup →
    installHooks iface r fs =
      (r.filterMap (fun p => if (iface.trap p.1).isSome then
          some (p.2, fs.length + ((r.map (·.1)).filter fun t => (iface.trap t).isSome).idxOf p.1) else none),
       fs ++ ((r.map (·.1)).filter fun t => (iface.trap t).isSome).filterMap fun t => (iface.trap t).map hookImport) := by
  intro r
  induction r with
  | nil => intro fs _; simp [installHooks]
  | cons p r ih =>
    intro fs hn
    obtain ⟨t, k⟩ := p
    simp only [List.map_cons, List.nodup_cons] at hn
    cases ht : iface.trap t with
    | none =>
      simp only [installHooks, ht]
      rw [ih fs hn.2]
      simp [ht]
    | some e =>
      simp only [installHooks, ht, installHook, addFunctionImport]
      rw [ih _ hn.2]
      simp only [List.map_cons, ht, Option.isSome_some, List.filter_cons, if_true, List.filterMap_cons, List.idxOf_cons_self,
        Prod.mk.injEq, List.cons.injEq, true_and, Nat.add_zero, Option.map_some]
      constructor
      · apply filterMap_congr'
        rintro ⟨t', k'⟩ hp
        have hne : t ≠ t' := by
          rintro rfl
          exact hn.1 (List.mem_map.2 ⟨_, hp, rfl⟩)
        simp only [List.length_append, List.length_singleton]
        split
        · rw [idxOf_cons_ne' hne]; simp; omega
        · rfl
      · simp [hookImport, WasmExport.funcType, List.append_assoc]

theorem installHooks_tool (iface : Interface) (fs : List Func) :
    installHooks iface trapTable fs = (toolPasses (hookSel iface fs.length), fs ++ hookImports iface) := by
  rw [installHooks_eq iface trapTable fs trapTable_nodup]
  congr 1
  unfold toolPasses
  apply filterMap_congr'
  rintro ⟨t, k⟩ _
  simp only [hookSel, Interface.selected]
  split <;> rfl

theorem selected_nodup (iface : Interface) : iface.selected.Nodup := trapTable_nodup.filter _

theorem mem_selected {iface : Interface} {t : Trap} : t ∈ iface.selected ↔ (iface.trap t).isSome := by
  simp only [Interface.selected, List.mem_filter, List.mem_map]
  constructor
  · exact fun h => h.2
  · intro h
    obtain ⟨k, hk⟩ := trapTable_complete t
    exact ⟨⟨_, hk, rfl⟩, h⟩

theorem hookImports_length (iface : Interface) : (hookImports iface).length = iface.selected.length := by
  unfold hookImports
  rw [List.length_filterMap_eq_countP, List.countP_eq_length]
  intro t ht
  have := mem_selected.1 ht
  obtain ⟨e, he⟩ := Option.isSome_iff_exists.1 this
  simp [he]

theorem hookImports_eq_map (iface : Interface) : ∀ l : List Trap, (∀ t ∈ l, (iface.trap t).isSome) →
    l.filterMap (fun t => (iface.trap t).map hookImport) = l.map fun t => hookImport ((iface.trap t).getD ⟨"", [], []⟩) := by
  intro l
  induction l with
  | nil => simp
  | cons a l ih =>
    intro h
    simp only [List.mem_cons, forall_eq_or_imp] at h
    obtain ⟨e, he⟩ := Option.isSome_iff_exists.1 h.1
    simp [he, ih h.2]

theorem hookImports_get {iface : Interface} {t : Trap} {e : WasmExport} (h : iface.trap t = some e) :
    (hookImports iface)[iface.selected.idxOf t]? = some (hookImport e) := by
  unfold hookImports
  rw [hookImports_eq_map iface _ fun t ht => mem_selected.1 ht]
  have hm : t ∈ iface.selected := mem_selected.2 (by simp [h])
  rw [List.getElem?_map, List.getElem?_eq_getElem (List.idxOf_lt_length_of_mem hm)]
  simp [h]

theorem hookSel_none_iff {iface : Interface} {n : Nat} {t : Trap} : hookSel iface n t = none ↔ iface.trap t = none := by
  simp only [hookSel]
  cases h : iface.trap t <;> simp [h]

/-! ## Rewriting all bodies -/

theorem transformAll_eq (σ : Sel) : ∀ (bs : List (List TI)) (fs : List Func), (∀ b ∈ bs, TI.FitsL b) →
    transformAll (toolPasses σ) bs fs = .ok (expandAll σ fs.length bs, fs ++ bs.flatMap (helpersFor σ)) := by
  intro bs
  induction bs with
  | nil => intro fs _; simp [transformAll, expandAll]
  | cons b bs ih =>
    intro fs h
    simp only [List.mem_cons, forall_eq_or_imp] at h
    simp only [transformAll, runPasses_tool σ b fs h.1, ih _ h.2, List.length_append, expandAll, List.flatMap_cons,
      List.append_assoc]

theorem expandAll_length (σ : Sel) : ∀ (n : Nat) (bs : List (List TI)), (expandAll σ n bs).length = bs.length := by
  intro n bs
  induction bs generalizing n with
  | nil => rfl
  | cons b bs ih => simp [expandAll, ih]

/-- Where the helpers of the `j`-th body start. -/
def helperBase (σ : Sel) (n : Nat) (bs : List (List TI)) (j : Nat) : Nat :=
  n + ((bs.take j).flatMap (helpersFor σ)).length

theorem expandAll_get (σ : Sel) : ∀ (n : Nat) (bs : List (List TI)) (j : Nat),
    (expandAll σ n bs)[j]? = bs[j]?.map (expandL σ (helperBase σ n bs j)) := by
  intro n bs
  induction bs generalizing n with
  | nil => intro j; simp [expandAll]
  | cons b bs ih =>
    intro j
    cases j with
    | zero => simp [expandAll, helperBase]
    | succ j =>
      simp only [expandAll, List.getElem?_cons_succ, ih]
      simp [helperBase, Nat.add_assoc]

theorem flatMap_get {α β : Type} (f : α → List β) : ∀ (l : List α) (j : Nat) (a : α), l[j]? = some a → ∀ k x, (f a)[k]? = some x →
    (l.flatMap f)[((l.take j).flatMap f).length + k]? = some x := by
  intro l
  induction l with
  | nil => intro j a h; simp at h
  | cons b l ih =>
    intro j a h k x hx
    cases j with
    | zero =>
      simp only [List.getElem?_cons_zero, Option.some.injEq] at h
      subst h
      simp only [List.take_zero, List.flatMap_nil, List.length_nil, Nat.zero_add, List.flatMap_cons]
      exact List.getElem?_append_left (List.getElem?_eq_some_iff.1 hx).1 |>.trans hx
    | succ j =>
      simp only [List.getElem?_cons_succ] at h
      simp only [List.take_succ_cons, List.flatMap_cons, List.length_append, Nat.add_assoc]
      rw [List.getElem?_append_right (by omega)]
      rw [show (f b).length + (((l.take j).flatMap f).length + k) - (f b).length = ((l.take j).flatMap f).length + k by omega]
      exact ih j a h k x hx

/-! ## Writing back -/

theorem withBody_type (f : Func) (b) : (f.withBody b).type = f.type := by unfold Func.withBody; split <;> rfl
theorem withBody_exports (f : Func) (b) : (f.withBody b).exports = f.exports := by unfold Func.withBody; split <;> rfl
theorem withBody_hasCode (f : Func) (b) : (f.withBody b).hasCode = f.hasCode := by
  unfold Func.withBody Func.hasCode; cases h : f.code <;> simp [h]

theorem writeBack_eq : ∀ (ps : List (Nat × List TI)) (fs : List Func), (ps.map (·.1)).Nodup →
    (∀ p ∈ ps, ∃ f, fs[p.1]? = some f ∧ f.hasCode) →
    ∃ fs', writeBack ps fs = .ok fs' ∧ fs'.length = fs.length ∧
      ∀ i, fs'[i]? = fs[i]?.map fun f => match ps.lookup i with
        | some b => f.withBody (lowerTyped b)
        | none => f := by
  intro ps
  induction ps with
  | nil => intro fs _ _; exact ⟨fs, rfl, rfl, fun i => by simp⟩
  | cons p ps ih =>
    intro fs hn hp
    obtain ⟨i, b⟩ := p
    simp only [List.map_cons, List.nodup_cons] at hn
    obtain ⟨f, hf, hc⟩ := hp (i, b) (by simp)
    dsimp only at hf
    obtain ⟨c, hcode⟩ : ∃ c, f.code = .present c := by
      unfold Func.hasCode at hc; cases h : f.code <;> simp_all
    have hne : ∀ q ∈ ps, q.1 ≠ i := fun q hq e => hn.1 (List.mem_map.2 ⟨q, hq, e⟩)
    obtain ⟨fs', h1, h2, h3⟩ := ih (fs.set i { f with code := .present ⟨c.locals, lowerTyped b⟩ }) hn.2 (by
      intro q hq
      obtain ⟨g, hg, hgc⟩ := hp q (by simp [hq])
      refine ⟨g, ?_, hgc⟩
      rw [List.getElem?_set_ne (Ne.symm (hne q hq))]; exact hg)
    refine ⟨fs', by simp only [writeBack, hf, hcode, h1], by simpa using h2, fun j => ?_⟩
    rw [h3 j]
    by_cases hj : j = i
    · subst hj
      have hl : ps.lookup j = none := by
        rw [List.lookup_eq_none_iff]
        intro q hq
        simpa using (hne q hq).symm
      have hlt := (List.getElem?_eq_some_iff.1 hf).1
      rw [List.getElem?_set_self hlt, hf]
      simp [hl, List.lookup_cons, Func.withBody, hcode]
    · have hb : (j == i) = false := by simpa using hj
      rw [List.getElem?_set_ne (Ne.symm hj)]
      simp [List.lookup_cons, hb]

theorem raiseTargets_ok {C : Checker} {m : Module} : ∀ {order : List Nat} {bs : List (List TI)},
    raiseTargets C m order = .ok bs → bs.length = order.length ∧ ∀ (j i : Nat), order[j]? = some i → ∃ b, bs[j]? = some b ∧ raiseTarget C m i = .ok b := by
  intro order
  induction order with
  | nil => intro bs h; simp only [raiseTargets, Except.ok.injEq] at h; subst h; simp
  | cons i is ih =>
    intro bs h
    simp only [raiseTargets] at h
    cases hb : raiseTarget C m i with
    | error e => simp [hb] at h
    | ok b =>
      simp only [hb] at h
      cases hbs : raiseTargets C m is with
      | error e => simp [hbs] at h
      | ok bs' =>
        simp only [hbs, Except.ok.injEq] at h
        subst h
        obtain ⟨h1, h2⟩ := ih hbs
        refine ⟨by simp [h1], fun j k hj => ?_⟩
        cases j with
        | zero => simp only [List.getElem?_cons_zero, Option.some.injEq] at hj; subst hj; exact ⟨b, rfl, hb⟩
        | succ j => exact h2 j k (by simpa using hj)

theorem raiseTargets_of {C : Checker} {m : Module} {B : Nat → List TI} : ∀ {order : List Nat},
    (∀ i ∈ order, raiseTarget C m i = .ok (B i)) → raiseTargets C m order = .ok (order.map B) := by
  intro order
  induction order with
  | nil => intro _; rfl
  | cons i is ih =>
    intro h
    simp only [List.mem_cons, forall_eq_or_imp] at h
    simp [raiseTargets, h.1, ih h.2]

theorem raiseTarget_present {C : Checker} {m : Module} {i : Nat} {b : List TI} (h : raiseTarget C m i = .ok b) :
    ∃ f c, m.functions[i]? = some f ∧ f.code = .present c ∧ raiseFunction C.check (C.init m f) i c.body = .ok b := by
  unfold raiseTarget at h
  split at h
  · simp at h
  · rename_i f hf
    split at h
    · simp at h
    · rename_i c hc
      split at h
      · rename_i b' hb; simp only [Except.ok.injEq] at h; subst h; exact ⟨f, c, hf, hc, hb⟩
      · simp at h
      · simp at h

/-- Everything the instruction-level stage produces, for any iteration order. `B i` is the nested body of target `i`. -/
theorem instrumentBodies_eq (C : Checker) (iface : Interface) (order : List Nat) (m : Module) (B : Nat → List TI)
    (hn : order.Nodup) (hB : ∀ i ∈ order, raiseTarget C m i = .ok (B i)) (hf : ∀ i ∈ order, TI.FitsL (B i)) :
    ∃ (fs : List Func) (base : Nat → Nat), instrumentBodies C iface order m = .ok fs ∧
      fs.length = m.functions.length + (hookImports iface).length +
        (order.flatMap fun i => helpersFor (hookSel iface m.functions.length) (B i)).length ∧
      (∀ i < m.functions.length, fs[i]? = m.functions[i]?.map fun f =>
        if i ∈ order then f.withBody (lowerTyped (expandL (hookSel iface m.functions.length) (base i) (B i))) else f) ∧
      fs.drop m.functions.length = hookImports iface ++
        order.flatMap (fun i => helpersFor (hookSel iface m.functions.length) (B i)) ∧
      (∀ i ∈ order, m.functions.length ≤ base i ∧ ∀ j g, (helpersFor (hookSel iface m.functions.length) (B i))[j]? = some g →
        fs[base i + j]? = some g) := by
  generalize hσ : hookSel iface m.functions.length = σ
  generalize hhi : hookImports iface = HI
  let n := m.functions.length
  let n0 := n + HI.length
  have hbodies := raiseTargets_of hB
  have hT := transformAll_eq σ (order.map B) (m.functions ++ HI) (by
    intro b hb; obtain ⟨i, hi, rfl⟩ := List.mem_map.1 hb; exact hf i hi)
  have hlen0 : (m.functions ++ HI).length = n0 := by simp [n0, n]
  rw [hlen0] at hT
  have hlook : ∀ i, (order.zip (expandAll σ n0 (order.map B))).lookup i =
      if i ∈ order then some (expandL σ (helperBase σ n0 (order.map B) (order.idxOf i)) (B i)) else none := by
    have gen : ∀ (order : List Nat) (es : List (List TI)), order.length = es.length → ∀ i,
        (order.zip es).lookup i = if i ∈ order then es[order.idxOf i]? else none := by
      intro order
      induction order with
      | nil => intro es _ i; simp
      | cons a l ih =>
        intro es he i
        cases es with
        | nil => simp at he
        | cons e es =>
          simp only [List.zip_cons_cons, List.lookup_cons]
          by_cases hia : i = a
          · subst hia; simp
          · have hb : (i == a) = false := by simpa using hia
            rw [hb, ih es (by simpa using he) i]
            simp only [List.mem_cons, hia, false_or]
            rw [idxOf_cons_ne' (Ne.symm hia)]
            simp
    intro i
    rw [gen _ _ (by simp [expandAll_length])]
    split
    · rename_i hi
      rw [expandAll_get, List.getElem?_map, List.getElem?_eq_getElem (List.idxOf_lt_length_of_mem hi)]
      simp
    · rfl
  obtain ⟨fs, h1, h2, h3⟩ := writeBack_eq (order.zip (expandAll σ n0 (order.map B)))
    ((m.functions ++ HI) ++ (order.map B).flatMap (helpersFor σ)) (by
      rw [List.map_fst_zip (by simp [expandAll_length])]; exact hn) (by
      intro p hp
      have hi : p.1 ∈ order := by
        have := List.mem_map_of_mem (f := Prod.fst) hp
        rwa [List.map_fst_zip (by simp [expandAll_length])] at this
      obtain ⟨f, c, hfi, hc, _⟩ := raiseTarget_present (hB _ hi)
      have hlt := (List.getElem?_eq_some_iff.1 hfi).1
      refine ⟨f, ?_, by simp [Func.hasCode, hc]⟩
      rw [List.getElem?_append_left (by simp; omega), List.getElem?_append_left hlt]; exact hfi)
  have hfm : (order.map B).flatMap (helpersFor σ) = order.flatMap (fun i => helpersFor σ (B i)) := by
    simp [List.flatMap_map]
  have hout : ∀ i, n ≤ i → fs[i]? = ((m.functions ++ HI) ++ order.flatMap (fun i => helpersFor σ (B i)))[i]? := by
    intro i hi
    rw [h3 i, hlook i]
    have : i ∉ order := by
      intro hmem
      obtain ⟨f, c, hfi, _⟩ := raiseTarget_present (hB _ hmem)
      have := (List.getElem?_eq_some_iff.1 hfi).1
      omega
    simp [this, hfm]
  refine ⟨fs, fun i => helperBase σ n0 (order.map B) (order.idxOf i), ?_, ?_, ?_, ?_, ?_⟩
  · unfold instrumentBodies
    rw [hbodies]
    simp only [installHooks_tool, hσ, hhi, hT, h1]
  · rw [h2, hfm]; simp [n]; omega
  · intro i hi
    rw [h3 i, hlook i, List.append_assoc, List.getElem?_append_left hi]
    congr 1
    funext f
    split
    · rename_i b hb
      split at hb
      · rename_i hmem; simp only [Option.some.injEq] at hb; subst hb; simp [hmem]
      · simp at hb
    · rename_i hb
      split at hb
      · simp at hb
      · rename_i hmem; simp [hmem]
  · apply List.ext_getElem?
    intro i
    rw [List.getElem?_drop, hout _ (by omega), List.append_assoc, List.getElem?_append_right (by simp [n])]
    simp [n]
  · intro i hi
    refine ⟨by simp [helperBase, n0, n]; omega, fun j g hg => ?_⟩
    rw [hout _ (by simp [helperBase, n0]; omega)]
    rw [List.getElem?_append_right (by simp [helperBase, n0, n]; omega)]
    have hq := flatMap_get (helpersFor σ) (order.map B) (order.idxOf i) (B i) (by
      rw [List.getElem?_map, List.getElem?_eq_getElem (List.idxOf_lt_length_of_mem hi)]; simp) j g hg
    rw [← hfm]
    rw [← hq]
    congr 1
    simp only [helperBase, hlen0, n0]
    omega

end Wastrum
