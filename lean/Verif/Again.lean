import Verif.ShippedForward
import Verif.ValidityThms
/-!
# The tool run again, and analyses that do the same (C92)

The tool walks through sets of functions whose order Rust leaves open (it differs from run to run). Here: what of its output that touches, and
that it makes no difference to what the instrumented program does. The main theorem is about any two outputs for the same
program *and* any two analyses that give related answers.
-/

set_option linter.unusedSimpArgs false
set_option linter.unusedVariables false

namespace Wastrum

variable {W W' : Type}

/-! ## Vocabulary -/

/-- Imported. (Vocabulary of the statement, not code.) -/
def Func.isImport (f : Func) : Bool := match f.code with
  | .imported _ _ => true
  | .present _ => false

/-- The functions of an instrumented program that anybody but the code the tool inserts can get hold of: those of the program itself, imported ones
and exported ones. (What is left are the helper functions made for `br_table`.) (Vocabulary of the statement, not code.) -/
def Instrumented.reachable (m : Module) (r : Instrumented) (i : Nat) : Option FuncType :=
  r.module.functions[i]?.bind fun f => if i < m.functions.length ∨ f.isImport = true ∨ f.exports ≠ [] then some f.type else none

/-- What programs and embedders may refer to. (Vocabulary of the statement, not code.) -/
def Instrumented.surface (m : Module) (r : Instrumented) : Ctx := { m.ctx with ftype := r.reachable m }

/-- The same state of the program in another outside world. (Vocabulary of the statement, not code.) -/
def Store.inWorld (s : Store W) (w : W') : Store W' := ⟨s.globals, s.mems, s.tables, s.datas, s.elems, w⟩

/-- Two embedders: each function that the instrumented program imports (the program's own imports and the analysis' hooks), given the same
arguments and the same state of the program in related worlds, gives the same results and the same state in related worlds --- provided
the functions of the program that it calls back do. (Vocabulary of the statement, not code.) -/
def EmbeddersAgree (m : Module) (r : Instrumented) (Q : W → W' → Prop) (H : Imports W) (H' : Imports W') : Prop :=
  ∀ f ∈ r.module.functions, ∀ ns name, f.code = .imported ns name →
    HostsAgree (agreeing (r.surface m) Q false false) (r.surface m) f.type (H ns name) (H' ns name)

/-- The same result in related worlds. (Vocabulary of the statement, not code.) -/
def SameResult (Q : W → W' → Prop) (o : Res W) (o' : Res W') : Prop :=
  (∃ vs s w, o = .ok vs s ∧ Q s.world w ∧ o' = .ok vs (s.inWorld w)) ∨
  (∃ s w, o = .trap s ∧ Q s.world w ∧ o' = .trap (s.inWorld w)) ∨ (o = .fuel ∧ o' = .fuel)

/-! ## Questions to two analyses -/

section
variable {Γ : Ctx} {R : Rel W W'} {σ : Sel} {E : Env W} {E' : Env W'}

theorem hook_call_sim (hE : R.Envs Γ E E') {t : Trap} {h : Nat} (hh : Γ.ftype h = some ⟨t.args, t.results⟩) {m : Meta} {ins a : List ValType} {info : List RVal} {c : Cfg W} {c' : Cfg W'}
    (hargs : t.args = ins ++ info.map RVal.type ++ [.i64, .i64]) (hinfo : ∀ v ∈ info, v.OK Γ) (hσ : σ t = some h) (hc : R.Cfgs Γ (ins.reverse ++ a) c c') :
    R.Outs Γ (t.results.reverse ++ a) (ask E σ m t ins.length info c) (ask E' σ m t ins.length info c') := by
  have hsp := hc.stackOK.split
  simp only [List.length_reverse] at hsp
  have hty : ValsOK Γ (shown m ins.length info c) t.args := by
    rw [hargs]
    have h1 := hsp.1.reverse
    rw [List.reverse_reverse] at h1
    refine (h1.append ⟨rfl, hinfo⟩).append ⟨rfl, ?_⟩
    intro v hv
    rcases List.mem_cons.1 hv with rfl | hv
    · exact .num _
    · rcases List.mem_cons.1 hv with rfl | hv
      · exact .num _
      · cases hv
  unfold ask
  rw [hσ]
  dsimp only
  rw [hc.stack]
  change R.Outs Γ _ (if (shown m ins.length info c).map RVal.type = t.args then _ else _) (if (shown m ins.length info c).map RVal.type = t.args then _ else _)
  rw [if_pos hty.1, if_pos hty.1]
  have := hE.callF h _ _ c.store c'.store hh hty hc.store
  change R.Outs Γ _ (match E.callF h (shown m ins.length info c) c.store with
    | .ok vs s => if vs.map RVal.type = t.results then Out.norm { c with stack := vs.reverse ++ c.stack.drop ins.length, store := s } else .stuck
    | .trap s => .trap s
    | .stuck => .stuck
    | .fuel => .fuel) (match E'.callF h (shown m ins.length info c) c'.store with
    | .ok vs s => if vs.map RVal.type = t.results then Out.norm { c' with stack := vs.reverse ++ c.stack.drop ins.length, store := s } else .stuck
    | .trap s => .trap s
    | .stuck => .stuck
    | .fuel => .fuel)
  generalize E.callF h _ _ = o at this ⊢
  generalize E'.callF h _ _ = o' at this ⊢
  cases this with
  | @ok vs s s' hv hs =>
    dsimp only
    rw [if_pos hv.1, if_pos hv.1]
    exact .norm ⟨rfl, hc.locals, hs, hv.reverse.append hsp.2, hc.localsOK⟩
  | trap hs => exact .trap hs
  | fuel => exact .fuel
  | fuelL h => exact .fuelL h
  | fuelR h => exact .fuelR h
  | trapL h => exact .trapL h
  | trapT h => exact .trapT h
  | trapR h => exact .trapR h

/-- Two executions, both with an analysis interposed, stay in step if the functions called do. -/
theorem interposed_body_agrees {T X} {Q : W → W' → Prop} (hS : R.S = SameState Γ T X Q) (hE : R.Envs Γ E E')
    (hσ : ∀ t h, σ t = some h → Γ.ftype h = some ⟨t.args, t.results⟩) {b : List TI} {ty : FuncType} {locals : List ValType}
    (ht : TTyL (Γ.body ty locals) b [] ty.results.reverse) {c c'} (hc : R.Cfgs (Γ.body ty locals) [] c c') :
    R.Outs (Γ.body ty locals) ty.results.reverse (hdenL E σ b c) (hdenL E' σ b c') := by
  rw [← (gden_hooking E σ).2, ← (gden_hooking E' σ).2, hE.loopFuel]
  refine (sim (Γ₀ := Γ.body ty locals) (B := fun _ => True) ?_ ?_).2 _ (fun _ _ => trivial) _ ⟨_, rfl⟩ _ _ ht c c' hc
  · intro Γ' hΓ m b a e c c' _ hb hc
    have hm := (Ctx.SameModule.body Γ ty locals).sameBut hΓ
    simp only [hooking]
    rw [perform_eq, perform_eq]
    cases hd : delegation b with
    | none => exact step_sim (hS.trans (SameState.congr hm)) (hE.congr hm) hb hc
    | some p =>
      obtain ⟨t, k, info⟩ := p
      dsimp only
      cases hσt : σ t with
      | none =>
        simp only [Option.isSome_none, Bool.false_eq_true, if_false]
        exact step_sim (hS.trans (SameState.congr hm)) (hE.congr hm) hb hc
      | some h =>
        simp only [Option.isSome_some, if_true]
        obtain ⟨ins, r, rfl, rfl, rfl, hargs, _⟩ := step_frame E (c := c) hd hb hc.stackOK
        refine hook_call_sim (hE.congr hm) (by rw [hm.ftype]; exact hσ t h hσt) hargs ?_ hσt hc
        cases b <;> simp only [delegation, Option.map_eq_some_iff, Option.some.injEq, reduceCtorEq, Prod.mk.injEq] at hd
        all_goals first | obtain ⟨_, _, _, _, rfl⟩ := hd | obtain ⟨_, _, rfl⟩ := hd
        all_goals intro v hv; simp only [List.mem_cons, List.not_mem_nil, or_false] at hv
        all_goals first | (rcases hv with rfl | rfl <;> exact .num _) | (subst hv; exact .num _)
  · intro Γ' hΓ m t ins info a c c' hq hc
    have hm := (Ctx.SameModule.body Γ ty locals).sameBut hΓ
    simp only [hooking]
    cases hσt : σ t with
    | none =>
      have e1 : ask E σ m t ins.length info c = .norm c := by unfold ask; rw [hσt]
      have e2 : ask E' σ m t ins.length info c' = .norm c' := by unfold ask; rw [hσt]
      rw [e1, e2]
      exact .norm hc
    | some h =>
      have := hook_call_sim (m := m) (hE.congr hm) (by rw [hm.ftype]; exact hσ t h hσt) hq.args ?_ hσt hc
      · rw [hq.results] at this; exact this
      · intro v hv f hf
        subst hf
        exfalso
        have hmem : ValType.ref .funcRef ∈ t.args := by
          rw [hq.args]
          exact List.mem_append_left _ (List.mem_append_right _ (List.mem_map.2 ⟨_, hv, rfl⟩))
        revert hmem
        cases t <;> simp [Trap.args]
end

/-! ## How the output is laid out -/

theorem mem_hookImports_import {iface : Interface} {f : Func} (hf : f ∈ hookImports iface) : ∃ e, f = hookImport e := by
  simp only [hookImports, List.mem_filterMap, Option.map_eq_some_iff] at hf
  obtain ⟨_, _, e, _, rfl⟩ := hf
  exact ⟨e, rfl⟩

theorem memoryFunctions_exported {noMem : Bool} : ∀ f ∈ memoryFunctions noMem, f.exports ≠ [] ∧ ∃ c, f.code = .present c := by
  intro f hf
  simp only [memoryFunctions, List.mem_append, List.mem_map, List.mem_cons, List.not_mem_nil, or_false] at hf
  rcases hf with (⟨e, he, rfl⟩ | ⟨e, he, rfl⟩) | rfl | rfl <;> exact ⟨by simp, _, rfl⟩

/-- How many helpers the tool makes. (Vocabulary of the proofs, not code.) -/
def helperCount (C : Checker) (iface : Interface) (ts : Option (List Nat)) (m : Module) : Nat :=
  ((bodyTargets m ts).map fun i => (helpersFor (hookSel iface m.functions.length) (bodyOf C m i)).length).sum

theorem laid_out {C iface ts m r} (hs : SmallModule m) (hg : iface.generic = none) (h : Instruments C iface ts m r) :
    r.librarySignatures = none ∧ ∃ own helpers, r.module = { m with functions := own ++ (hookImports iface ++ (helpers ++ memoryFunctions m.memories.isEmpty)) } ∧
      own.length = m.functions.length ∧
      (∀ (i : Nat) g, m.functions[i]? = some g → ∃ f, own[i]? = some f ∧ f.type = g.type ∧ f.exports = g.exports ∧ (g.isImport = true → f = g)) ∧
      helpers.length = helperCount C iface ts m ∧ ∀ f ∈ helpers, f.exports = [] ∧ f.isImport = false := by
  obtain ⟨ord, ord', ho, ho', h⟩ := h
  obtain ⟨_, hB, fs, base, hd, hn, _⟩ := instrument_desc ho ho' hs h
  obtain ⟨e1, e2⟩ := hn hg
  have hlen := hd.length
  refine ⟨e1, fs.take m.functions.length, (ord (bodyTargets m ts)).flatMap (fun i => helpersFor (hookSel iface m.functions.length) (bodyOf C m i)), ?_, ?_, ?_, ?_, ?_⟩
  · rw [e2, ← List.append_assoc, ← List.append_assoc, List.append_assoc _ (hookImports iface), ← hd.added, List.take_append_drop]
  · rw [List.length_take]; omega
  · intro i g hi
    have hlt := (List.getElem?_eq_some_iff.1 hi).1
    have h1 := hd.own i hlt
    rw [hi, Option.map_some] at h1
    refine ⟨_, by rw [List.getElem?_take_of_lt hlt]; exact h1, ?_⟩
    split
    · unfold Func.withBody
      cases hc : g.code with
      | imported _ _ => exact ⟨rfl, rfl, fun _ => rfl⟩
      | present c => exact ⟨rfl, rfl, fun h => by simp [Func.isImport, hc] at h⟩
    · exact ⟨rfl, rfl, fun _ => rfl⟩
  · rw [List.length_flatMap]
    exact ((ho (bodyTargets m ts)).map _).sum_nat
  · intro f hf
    simp only [List.mem_flatMap] at hf
    obtain ⟨i, _, hf⟩ := hf
    unfold helpersFor at hf
    split at hf
    · cases hf
    · simp only [List.mem_map] at hf
      obtain ⟨p, _, rfl⟩ := hf
      exact ⟨rfl, rfl⟩

theorem reachable_iff {C iface ts m r} (hs : SmallModule m) (hg : iface.generic = none) (h : Instruments C iface ts m r) (i : Nat) (ty : FuncType) :
    r.reachable m i = some ty ↔ (∃ g, m.functions[i]? = some g ∧ g.type = ty) ∨
      (∃ j f, i = m.functions.length + j ∧ (hookImports iface)[j]? = some f ∧ f.type = ty) ∨
      (∃ j f, i = m.functions.length + ((hookImports iface).length + (helperCount C iface ts m + j)) ∧ (memoryFunctions m.memories.isEmpty)[j]? = some f ∧ f.type = ty) := by
  obtain ⟨_, own, helpers, e, hl, ho, hk, hh⟩ := laid_out hs hg h
  unfold Instrumented.reachable
  rw [e]
  dsimp only
  by_cases h1 : i < m.functions.length
  · have hgi : m.functions[i]? = some m.functions[i] := List.getElem?_eq_getElem h1
    obtain ⟨f, hf, ht, _⟩ := ho i _ hgi
    rw [List.getElem?_append_left (by omega), hf, Option.bind_some, if_pos (Or.inl h1), ht]
    constructor
    · intro h; left; exact ⟨_, hgi, Option.some.inj h⟩
    · rintro (⟨g, h2, rfl⟩ | ⟨j, f, h2, _⟩ | ⟨j, f, h2, _⟩)
      · rw [hgi] at h2; cases h2; rfl
      · omega
      · omega
  · rw [List.getElem?_append_right (by omega), hl]
    have hno : m.functions[i]? = none := List.getElem?_eq_none (by omega)
    obtain ⟨j, rfl⟩ : ∃ j, i = m.functions.length + j := ⟨i - m.functions.length, by omega⟩
    rw [Nat.add_sub_cancel_left]
    by_cases h2 : j < (hookImports iface).length
    · have hj := List.getElem?_eq_getElem h2
      obtain ⟨e', he'⟩ := mem_hookImports_import (List.mem_of_getElem? hj)
      rw [List.getElem?_append_left h2, hj, Option.bind_some, if_pos (Or.inr (Or.inl (by rw [he']; rfl)))]
      constructor
      · intro h; right; left; exact ⟨j, _, rfl, hj, Option.some.inj h⟩
      · rintro (⟨g, h2, rfl⟩ | ⟨j', f, h2, h3, rfl⟩ | ⟨j', f, h3, _⟩)
        · rw [hno] at h2; cases h2
        · have : j' = j := by omega
          subst this; rw [hj] at h3; cases h3; rfl
        · omega
    · rw [List.getElem?_append_right (by omega)]
      by_cases h3 : j - (hookImports iface).length < helpers.length
      · have hj := List.getElem?_eq_getElem h3
        obtain ⟨h4, h5⟩ := hh _ (List.mem_of_getElem? hj)
        rw [List.getElem?_append_left h3, hj, Option.bind_some, if_neg (by rw [h4, h5]; simp)]
        constructor
        · intro h; cases h
        · rintro (⟨g, h2, rfl⟩ | ⟨j', f, h6, h7, rfl⟩ | ⟨j', f, h6, _⟩)
          · rw [hno] at h2; cases h2
          · have := (List.getElem?_eq_some_iff.1 h7).1; omega
          · omega
      · rw [List.getElem?_append_right (by omega), hk]
        constructor
        · intro h
          simp only [Option.bind_eq_some_iff] at h
          obtain ⟨f, hf, h⟩ := h
          right; right
          refine ⟨_, f, by omega, hf, ?_⟩
          split at h
          · exact Option.some.inj h
          · cases h
        · rintro (⟨g, h2, rfl⟩ | ⟨j', f, h6, h7, rfl⟩ | ⟨j', f, h6, h7, rfl⟩)
          · rw [hno] at h2; cases h2
          · have := (List.getElem?_eq_some_iff.1 h7).1; omega
          · rw [show j - (hookImports iface).length - helperCount C iface ts m = j' by omega, h7, Option.bind_some,
              if_pos (Or.inr (Or.inr (memoryFunctions_exported f (List.mem_of_getElem? h7)).1))]

theorem reachable_same {C iface ts m r r'} (hs : SmallModule m) (hg : iface.generic = none) (h : Instruments C iface ts m r) (h' : Instruments C iface ts m r') :
    r'.reachable m = r.reachable m := by
  funext i
  apply Option.ext
  intro ty
  rw [reachable_iff hs hg h, reachable_iff hs hg h']

theorem surface_le {C iface ts m r} (hs : SmallModule m) (hg : iface.generic = none) (h : Instruments C iface ts m r) : m.ctx.Le (r.surface m) := by
  refine ⟨?_, fun _ _ h => h, fun _ _ h => h, rfl, rfl, rfl, rfl, rfl, rfl⟩
  intro f ty hf
  simp only [Module.ctx, Option.map_eq_some_iff] at hf
  exact (reachable_iff hs hg h f ty).2 (.inl hf)

theorem own_import {C iface ts m r} (hs : SmallModule m) (hg : iface.generic = none) (h : Instruments C iface ts m r) {i : Nat} {g : Func}
    (hi : m.functions[i]? = some g) : ∀ f, r.module.functions[i]? = some f → f.isImport = g.isImport := by
  intro f hf
  obtain ⟨ord, ord', ho, ho', h⟩ := h
  obtain ⟨_, hB, fs, base, hd, hn, _⟩ := instrument_desc ho ho' hs h
  have hlt := (List.getElem?_eq_some_iff.1 hi).1
  have hlen := hd.length
  rw [(hn hg).2] at hf
  dsimp only at hf
  rw [List.getElem?_append_left (by omega), hd.own i hlt, hi, Option.map_some, Option.some.injEq] at hf
  subst hf
  split
  · unfold Func.withBody
    cases hc : g.code <;> simp [Func.isImport, hc]
  · rfl

theorem imports_among {C iface ts m r} (hs : SmallModule m) (hg : iface.generic = none) (h : Instruments C iface ts m r) (f : Func) :
    (f ∈ r.module.functions ∧ f.isImport = true) ↔ (f ∈ m.functions ∧ f.isImport = true) ∨ f ∈ hookImports iface := by
  obtain ⟨_, own, helpers, e, hl, ho, _, hh⟩ := laid_out hs hg h
  rw [e]
  dsimp only
  constructor
  · rintro ⟨hf, hi⟩
    rcases List.mem_append.1 hf with hf | hf
    · left
      obtain ⟨i, hi'⟩ := List.getElem?_of_mem hf
      have hlt := (List.getElem?_eq_some_iff.1 hi').1
      have hgi : m.functions[i]? = some m.functions[i] := List.getElem?_eq_getElem (by omega)
      obtain ⟨f', h1, h2, h3, h4⟩ := ho i _ hgi
      rw [hi'] at h1; cases h1
      have := own_import hs hg h hgi
      rw [e] at this
      dsimp only at this
      rw [List.getElem?_append_left hlt] at this
      have hgm := (this f hi').symm.trans hi
      rw [h4 hgm]
      exact ⟨List.mem_of_getElem? hgi, hgm⟩
    · rcases List.mem_append.1 hf with hf | hf
      · exact .inr hf
      · rcases List.mem_append.1 hf with hf | hf
        · rw [(hh f hf).2] at hi; cases hi
        · obtain ⟨_, c, hc⟩ := memoryFunctions_exported f hf
          simp [Func.isImport, hc] at hi
  · rintro (⟨hf, hi⟩ | hf)
    · obtain ⟨i, hi'⟩ := List.getElem?_of_mem hf
      obtain ⟨f', h1, _, _, h4⟩ := ho i _ hi'
      rw [h4 hi] at h1
      exact ⟨List.mem_append_left _ (List.mem_of_getElem? h1), hi⟩
    · obtain ⟨e', rfl⟩ := mem_hookImports_import hf
      exact ⟨List.mem_append_right _ (List.mem_append_left _ hf), rfl⟩

/-! ## The theorems -/

/-- The general form: both programs agree, call by call. -/
theorem outputs_agree {C iface ts m r r'} (hs : SmallModule m) (hst : iface.Standard) (hg : iface.generic = none)
    (h : Instruments C iface ts m r) (h' : Instruments C iface ts m r') (hv : ValidModule m)
    (hB : ∀ i ∈ bodyTargets m ts, ∀ f, m.functions[i]? = some f → WellAnnotated m f (bodyOf C m i))
    {Q : W → W' → Prop} {N : Num} {L : Nat} {H : Imports W} {H' : Imports W'} (hI : EmbeddersAgree m r Q H H') (d : Nat) :
    CallsAgree (agreeing (r.surface m) Q false false) (r.surface m) (callF N (machineOf H r.module.functions) L d) (callF N (machineOf H' r'.module.functions) L d) := by
  have e : callF N (machineOf H r.module.functions) L d = callF N (underAnalysis C m (bodyTargets m ts) H
      (hookSel iface m.functions.length) (r.module.functions.drop m.functions.length)) L d := by
    funext f args s; exact C09_instrumented_is_interposed hs hst hg h N H L d f args s
  have e' : callF N (machineOf H' r'.module.functions) L d = callF N (underAnalysis C m (bodyTargets m ts) H'
      (hookSel iface m.functions.length) (r'.module.functions.drop m.functions.length)) L d := by
    funext f args s; exact C09_instrumented_is_interposed hs hst hg h' N H' L d f args s
  rw [e, e']
  have hle := surface_le hs hg h
  have hσ : ∀ t k, hookSel iface m.functions.length t = some k → (r.surface m).ftype k = some ⟨t.args, t.results⟩ := by
    intro t k hk
    cases he : iface.trap t with
    | none => rw [hookSel_none_iff.2 he] at hk; cases hk
    | some x =>
      obtain ⟨k', h1, h2, h3⟩ := hook_installed hs h he
      rw [hk] at h1; cases h1
      obtain ⟨h4, h5⟩ := hst t x he
      change r.reachable m k = _
      simp only [Instrumented.reachable, h3, Option.bind_some]
      rw [if_pos (Or.inr (Or.inl (show (hookImport x).isImport = true from rfl))), ← h4, ← h5]; rfl
  refine calls_agree (k := 0) (P := fun _ _ => True) (.inr rfl) (fun _ => trivial) ?_ d
  intro f ty hf
  rcases (reachable_iff hs hg h f ty).1 hf with ⟨g, hgf, rfl⟩ | ⟨j, g, rfl, hj, rfl⟩ | ⟨j, g, rfl, hj, rfl⟩
  · have hm := List.mem_of_getElem? hgf
    cases hc : g.code with
    | imported ns name =>
      exact ⟨.host (H ns name), .host (H' ns name), by simp only [underAnalysis, hgf, hc], by simp only [underAnalysis, hgf, hc],
        .host (hI g ((imports_among hs hg h g).2 (.inl ⟨hm, by simp [Func.isImport, hc]⟩)).1 ns name hc)⟩
    | present c =>
      refine ⟨.code c.locals fun E => if f ∈ bodyTargets m ts then hdenL E (hookSel iface m.functions.length) (bodyOf C m f) else denFlat E c.body,
        .code c.locals fun E => if f ∈ bodyTargets m ts then hdenL E (hookSel iface m.functions.length) (bodyOf C m f) else denFlat E c.body,
        by simp only [underAnalysis, hgf, hc], by simp only [underAnalysis, hgf, hc], .code ?_⟩
      intro E E' hE _ cfg cfg' hcc
      by_cases hi : f ∈ bodyTargets m ts
      · rw [if_pos hi, if_pos hi]
        exact interposed_body_agrees rfl hE hσ ((hB f hi g hgf c hc).mono (hle.body _ _)) hcc
      · rw [if_neg hi, if_neg hi]
        exact plain_body_agrees rfl hE ((hv.functions g hm c hc).mono hle) hcc
  · have hno : m.functions[m.functions.length + j]? = none := List.getElem?_eq_none (by omega)
    have hlt := (List.getElem?_eq_some_iff.1 hj).1
    have key : ∀ {r''}, Instruments C iface ts m r'' → (r''.module.functions.drop m.functions.length)[j]? = some g := by
      intro r'' h''
      obtain ⟨_, own, helpers, e, hl, _⟩ := laid_out hs hg h''
      rw [e]; dsimp only
      rw [List.drop_append_of_le_length (by omega), List.drop_of_length_le (by omega), List.nil_append, List.getElem?_append_left hlt, hj]
    obtain ⟨x, rfl⟩ := mem_hookImports_import (List.mem_of_getElem? hj)
    refine ⟨.host (H analysisModule x.name), .host (H' analysisModule x.name), ?_, ?_,
      .host (hI _ ((imports_among hs hg h _).2 (.inr (List.mem_of_getElem? hj))).1 _ _ rfl)⟩
    · simp only [underAnalysis, hno, machineOf, Nat.add_sub_cancel_left, key h, Option.map_some]; rfl
    · simp only [underAnalysis, hno, machineOf, Nat.add_sub_cancel_left, key h', Option.map_some]; rfl
  · have hno : m.functions[m.functions.length + ((hookImports iface).length + (helperCount C iface ts m + j))]? = none := List.getElem?_eq_none (by omega)
    have key : ∀ {r''}, Instruments C iface ts m r'' →
        (r''.module.functions.drop m.functions.length)[(hookImports iface).length + (helperCount C iface ts m + j)]? = some g := by
      intro r'' h''
      obtain ⟨_, own, helpers, e, hl, _, hk, _⟩ := laid_out hs hg h''
      rw [e]; dsimp only
      rw [List.drop_append_of_le_length (by omega), List.drop_of_length_le (by omega), List.nil_append, List.getElem?_append_right (by omega),
        Nat.add_sub_cancel_left, List.getElem?_append_right (by omega), hk, Nat.add_sub_cancel_left, hj]
    obtain ⟨_, c, hc⟩ := memoryFunctions_exported g (List.mem_of_getElem? hj)
    refine ⟨.code c.locals fun E => denFlat E c.body, .code c.locals fun E => denFlat E c.body, ?_, ?_, .code ?_⟩
    · simp only [underAnalysis, hno, machineOf, Nat.add_sub_cancel_left, key h, Option.map_some, implOf, hc]
    · simp only [underAnalysis, hno, machineOf, Nat.add_sub_cancel_left, key h', Option.map_some, implOf, hc]
    · intro E E' hE _ cfg cfg' hcc
      refine plain_body_agrees rfl hE (valid_baseFunctions ?_ g (List.mem_of_getElem? hj) c hc) hcc
      intro hne
      change 0 < m.memories.length
      cases hml : m.memories with
      | nil => rw [hml] at hne; cases hne
      | cons => simp

/-- **C92.** Two outputs of the tool for the same program and advice, running with two embedders that do the same as long as the program's state is the
same: every call of a function that can be reached from outside gives the same results, the same trap or the same lack of an answer within the same bounds, and leaves
the program in the same state, in related worlds. Replacing an analysis by one that gives the same answers (a faster one, say), or running the tool again, changes nothing else. -/
theorem C92_equivalent_analyses_interchangeable {C iface ts m r r'} (hs : SmallModule m) (hst : iface.Standard) (hg : iface.generic = none)
    (h : Instruments C iface ts m r) (h' : Instruments C iface ts m r') (hv : ValidModule m)
    (hB : ∀ i ∈ bodyTargets m ts, ∀ f, m.functions[i]? = some f → WellAnnotated m f (bodyOf C m i))
    {Q : W → W' → Prop} {N : Num} {H : Imports W} {H' : Imports W'} (hI : EmbeddersAgree m r Q H H')
    {f : Nat} {ty : FuncType} {args : List RVal} {s : Store W} {w : W'} (hf : r.reachable m f = some ty) (hargs : ValsOK (r.surface m) args ty.inputs)
    (hok : StoreOK (r.surface m) s) (hQ : Q s.world w) (L d : Nat) :
    SameResult Q (callF N (machineOf H r.module.functions) L d f args s) (callF N (machineOf H' r'.module.functions) L d f args (s.inWorld w)) := by
  have ext : ∀ (s : Store W) (w : W'), s.extend [] [] w = s.inWorld w := by
    intro s w; simp [Store.extend, Store.inWorld]
  have key := outputs_agree hs hst hg h h' hv hB hI (N := N) (L := L) d f ty args s (s.inWorld w) hf hargs ⟨hok, w, hQ, (ext s w).symm⟩
  generalize callF N (machineOf H r.module.functions) L d f args s = o at key ⊢
  generalize callF N (machineOf H' r'.module.functions) L d f args (s.inWorld w) = o' at key ⊢
  cases key with
  | ok hv hs => obtain ⟨_, w1, h1, rfl⟩ := hs; exact .inl ⟨_, _, w1, rfl, h1, by rw [ext]⟩
  | trap hs => obtain ⟨_, w1, h1, rfl⟩ := hs; exact .inr (.inl ⟨_, w1, rfl, h1, by rw [ext]⟩)
  | fuel => exact .inr (.inr ⟨rfl, rfl⟩)
  | fuelL h => cases h
  | fuelR h => cases h
  | trapL h => cases h
  | trapT h => cases h
  | trapR h => cases h

/-- **C92.** Running the tool again: its iteration orders make no difference to what the instrumented program does. -/
theorem C92_order_does_not_matter {C iface ts m r r'} (hs : SmallModule m) (hst : iface.Standard) (hg : iface.generic = none)
    (h : Instruments C iface ts m r) (h' : Instruments C iface ts m r') (hv : ValidModule m)
    (hB : ∀ i ∈ bodyTargets m ts, ∀ f, m.functions[i]? = some f → WellAnnotated m f (bodyOf C m i))
    {N : Num} {H : Imports W} (hI : EmbeddersAgree m r Eq H H)
    {f : Nat} {ty : FuncType} {args : List RVal} {s : Store W} (hf : r.reachable m f = some ty) (hargs : ValsOK (r.surface m) args ty.inputs)
    (hok : StoreOK (r.surface m) s) (L d : Nat) :
    callF N (machineOf H r'.module.functions) L d f args s = callF N (machineOf H r.module.functions) L d f args s := by
  rcases C92_equivalent_analyses_interchangeable hs hst hg h h' hv hB hI hf hargs hok rfl L d with ⟨vs, s1, w, e1, rfl, e2⟩ | ⟨s1, w, e1, rfl, e2⟩ | ⟨e1, e2⟩
  · rw [e1]; exact e2
  · rw [e1]; exact e2
  · rw [e1]; exact e2

theorem functions_exports {C iface ts m r} (hs : SmallModule m) (hg : iface.generic = none) (h : Instruments C iface ts m r) :
    r.module.functions.map (·.exports) = m.functions.map (·.exports) ++ ((hookImports iface).map (·.exports) ++
      (List.replicate (helperCount C iface ts m) [] ++ (memoryFunctions m.memories.isEmpty).map (·.exports))) := by
  obtain ⟨_, own, helpers, e, hl, ho, hk, hh⟩ := laid_out hs hg h
  rw [e]
  dsimp only
  rw [List.map_append, List.map_append, List.map_append]
  congr 1
  · apply List.ext_getElem?
    intro i
    rw [List.getElem?_map, List.getElem?_map]
    by_cases hi : i < m.functions.length
    · have hgi : m.functions[i]? = some m.functions[i] := List.getElem?_eq_getElem hi
      obtain ⟨f, h1, _, h2, _⟩ := ho i _ hgi
      rw [h1, hgi, Option.map_some, Option.map_some, h2]
    · rw [List.getElem?_eq_none (by omega), List.getElem?_eq_none (by omega)]
  · congr 2
    exact List.eq_replicate_iff.2 ⟨by rw [List.length_map, hk], fun b hb => by
      obtain ⟨f, hf, rfl⟩ := List.mem_map.1 hb
      exact (hh f hf).1⟩

/-- **C92.** From outside, two outputs of the tool look the same: everything but the functions is equal; there are as many functions, they are exported under the same names,
the ones that can be reached have the same types, and the imports are the same. -/
theorem C92_same_from_outside {C iface ts m r r'} (hs : SmallModule m) (hg : iface.generic = none)
    (h : Instruments C iface ts m r) (h' : Instruments C iface ts m r') :
    r'.librarySignatures = r.librarySignatures ∧ r'.module = { r.module with functions := r'.module.functions } ∧
    r'.module.functions.length = r.module.functions.length ∧
    (∀ i : Nat, (r'.module.functions[i]?).map (·.exports) = (r.module.functions[i]?).map (·.exports)) ∧
    r'.reachable m = r.reachable m ∧
    (∀ f : Func, f.isImport = true → (f ∈ r'.module.functions ↔ f ∈ r.module.functions)) := by
  have hex := (functions_exports hs hg h').trans (functions_exports hs hg h).symm
  refine ⟨?_, ?_, ?_, ?_, reachable_same hs hg h h', ?_⟩
  · rw [(laid_out hs hg h).1, (laid_out hs hg h').1]
  · obtain ⟨_, own, helpers, e, _⟩ := laid_out hs hg h
    obtain ⟨_, own', helpers', e', _⟩ := laid_out hs hg h'
    rw [e, e']
  · simpa using congrArg List.length hex
  · intro i
    rw [← List.getElem?_map, ← List.getElem?_map, hex]
  · intro f hf
    have h1 := imports_among hs hg h f
    have h2 := imports_among hs hg h' f
    simp only [hf, and_true] at h1 h2
    exact h2.trans h1.symm

theorem expand_anywhere {σ : Sel} (hσ : σ .brTableTrap = none) :
    (∀ (i : TI) n n', expandI σ n i = expandI σ n' i) ∧ ∀ (l : List TI) n n', expandL σ n l = expandL σ n' l := by
  apply TI.induct
  · intro m b n n'
    have e : hooked σ m (hookBefore n m b) = hooked σ m (hookBefore n' m b) := by
      cases b <;> first | rfl | (rename_i k _; cases k <;> rfl) | (simp only [hookBefore, hooked, hσ])
    simp only [expandI, e]
  · intro m t body ih n n'; simp only [expandI, ih n n']
  · intro m t body ih n n'; simp only [expandI, ih n n']
  · intro m t body ih n n'; simp only [expandI, ih n n']
  · intro m t thn els ih1 ih2 n n'
    simp only [expandI, ih1 n n', ih2 (n + (TI.tablesL thn).length) (n' + (TI.tablesL thn).length)]
  · intro n n'; rfl
  · intro i is ih1 ih2 n n'
    simp only [expandL, ih1 n n', ih2 (n + i.tables.length) (n' + i.tables.length)]

/-- **C92.** With an analysis that has no advice on `br_table` (nor on function application), the output is determined by the input. -/
theorem C92_same_module {C iface ts m r r'} (hs : SmallModule m) (hg : iface.generic = none) (hb : iface.trap .brTableTrap = none)
    (h : Instruments C iface ts m r) (h' : Instruments C iface ts m r') : r' = r := by
  have hσ : hookSel iface m.functions.length .brTableTrap = none := hookSel_none_iff.2 hb
  obtain ⟨ord, ord', ho, ho', h⟩ := h
  obtain ⟨ord1, ord1', ho1, ho1', h'⟩ := h'
  obtain ⟨_, _, fs, base, hd, hn, _⟩ := instrument_desc ho ho' hs h
  obtain ⟨_, _, fs', base', hd', hn', _⟩ := instrument_desc ho1 ho1' hs h'
  obtain ⟨e1, e2⟩ := hn hg
  obtain ⟨e1', e2'⟩ := hn' hg
  have hfs : fs' = fs := by
    apply List.ext_getElem?
    intro i
    by_cases hi : i < m.functions.length
    · rw [hd.own i hi, hd'.own i hi]
      congr 1
      funext f
      simp only [(ho _).mem_iff, (ho1 _).mem_iff, (expand_anywhere hσ).2 (bodyOf C m i) (base' i) (base i)]
    · obtain ⟨j, rfl⟩ : ∃ j, i = m.functions.length + j := ⟨i - m.functions.length, by omega⟩
      have hnil : ∀ l : List Nat, l.flatMap (fun i => helpersFor (hookSel iface m.functions.length) (bodyOf C m i)) = [] := by
        intro l
        simp [helpersFor, hσ]
      rw [drop_get hd.added, drop_get hd'.added, hnil, hnil]
  obtain ⟨m1, l1⟩ := r
  obtain ⟨m1', l1'⟩ := r'
  dsimp only at e1 e2 e1' e2'
  rw [e1, e2, e1', e2', hfs]

/-! ## Where the order does show -/

/-- The code of a function. (Vocabulary of the statement, not code.) -/
def Instrumented.bodyAt (r : Instrumented) (i : Nat) : List LInstr :=
  match r.module.functions[i]? with
  | some ⟨_, .present c, _⟩ => c.body
  | _ => []

theorem ok_with {ε α : Type} {x : Except ε α} {p : α → Bool} (h : (match x with | .ok r => p r | .error _ => false) = true) : ∃ r, x = .ok r ∧ p r = true := by
  cases x with
  | ok r => exact ⟨r, rfl, h⟩
  | error => cases h

theorem exIface_regular : exIface.Standard := by
  intro t e he
  simp only [exIface] at he
  split at he <;> cases he
  exact ⟨rfl, rfl⟩

/-- Two functions with a `br_table` each. -/
def exBothTables : Module where
  functions := [
    ⟨⟨[.i32], []⟩, .present ⟨[], [.loc .get 0, .brTable [0] 0, .fin]⟩, []⟩,
    ⟨⟨[.i32], []⟩, .present ⟨[], [.loc .get 0, .brTable [] 0, .fin]⟩, []⟩]
  tables := []
  elements := []
  memories := []
  globals := []
  datas := []
  start := none

/-- An analysis with advice on `br_table`. -/
def exTableIface : Interface := ⟨none, fun t => if t = .brTableTrap then some t.export else none⟩

/-- **C92.** With advice on `br_table` the output is not determined by the input: the helper functions are numbered in the order in which the tool happens
to visit the functions, and the code refers to them by number. (By `C92_order_does_not_matter` this is all.) -/
theorem C92_helper_numbers_vary : ∃ C iface m r r', Instruments C iface none m r ∧ Instruments C iface none m r' ∧ iface.Standard ∧ iface.generic = none ∧
    LInstr.call 3 ∈ r.bodyAt 0 ∧ LInstr.call 4 ∉ r.bodyAt 0 ∧ LInstr.call 4 ∈ r'.bodyAt 0 ∧ LInstr.call 3 ∉ r'.bodyAt 0 := by
  obtain ⟨r, hr, h⟩ := ok_with (x := instrument exChecker id id exTableIface none exBothTables)
    (p := fun r => decide (LInstr.call 3 ∈ r.bodyAt 0 ∧ LInstr.call 4 ∉ r.bodyAt 0)) (by decide +kernel)
  obtain ⟨r', hr', h'⟩ := ok_with (x := instrument exChecker List.reverse id exTableIface none exBothTables)
    (p := fun r => decide (LInstr.call 4 ∈ r.bodyAt 0 ∧ LInstr.call 3 ∉ r.bodyAt 0)) (by decide +kernel)
  have h := of_decide_eq_true h
  have h' := of_decide_eq_true h'
  refine ⟨exChecker, exTableIface, exBothTables, r, r', ⟨id, id, fun _ => .rfl, fun _ => .rfl, hr⟩,
    ⟨List.reverse, id, List.reverse_perm, fun _ => .rfl, hr'⟩, ?_, rfl, h.1, h.2, h'.1, h'.2⟩
  intro t e he
  simp only [exTableIface] at he
  split at he
  · cases he; exact ⟨rfl, rfl⟩
  · cases he

/-- **C92.** With advice on function application the order shows in what the analysis is told: the number that names a function to `apply`
is the function's place in the order in which the tool happens to visit the functions (here 0 in one run and 2 in another, for the same import). -/
theorem C92_apply_numbers_vary : ∃ C iface m r r', Instruments C iface none m r ∧ Instruments C iface none m r' ∧ iface.Standard ∧ iface.StandardApply ∧
    (r.bodyAt 0)[5]? = some (.const (.i32 0)) ∧ (r'.bodyAt 0)[5]? = some (.const (.i32 2)) := by
  obtain ⟨r, hr, h⟩ := ok_with (x := instrument exChecker id id exIfaceApply none exModule)
    (p := fun r => decide ((r.bodyAt 0)[5]? = some (LInstr.const (.i32 0)))) (by decide +kernel)
  obtain ⟨r', hr', h'⟩ := ok_with (x := instrument exChecker id List.reverse exIfaceApply none exModule)
    (p := fun r => decide ((r.bodyAt 0)[5]? = some (LInstr.const (.i32 2)))) (by decide +kernel)
  refine ⟨exChecker, exIfaceApply, exModule, r, r', ⟨id, id, fun _ => .rfl, fun _ => .rfl, hr⟩,
    ⟨id, List.reverse, fun _ => .rfl, List.reverse_perm, hr'⟩, exIface_regular, ?_, of_decide_eq_true h, of_decide_eq_true h'⟩
  intro ge cb h
  cases h
  refine ⟨rfl, rfl, rfl, rfl, ?_⟩
  decide

/-! ## Two analyses that do the same -/

/-- An analysis that answers zero to everything and counts. -/
def exTally : Imports (List RVal × Nat) := fun ns name call args s =>
  if ns = "WASTRUMENTATION_ANALYSIS" then
    match [Trap.ifThenElseTrap, .preTrapCall, .postTrapCall, .binaryI32I32ToI32].find? fun t => t.exportName == name with
    | some t => .ok (t.results.map ValType.zero) { s with world := (s.world.1, s.world.2 + 1) }
    | none => .stuck
  else exImports.beside Nat ns name call args s

/-- An analysis that answers zero to everything and keeps a log. -/
def exTallyList : Imports (List RVal × Log) := fun ns name call args s =>
  if ns = "WASTRUMENTATION_ANALYSIS" then
    match [Trap.ifThenElseTrap, .preTrapCall, .postTrapCall, .binaryI32I32ToI32].find? fun t => t.exportName == name with
    | some t => .ok (t.results.map ValType.zero) { s with world := (s.world.1, s.world.2 ++ [(t, args)]) }
    | none => .stuck
  else exImports.beside Log ns name call args s

theorem exTally_listing {r} (hr : Instruments exTypedChecker exIface none exModule r) :
    EmbeddersAgree exModule r (fun (p : List RVal × Nat) (q : List RVal × Log) => p.1 = q.1 ∧ p.2 = q.2.length) exTally exTallyList := by
  intro f hf ns name hc call call' _ args s s' ha hS
  obtain ⟨hok, w, ⟨hw1, hw2⟩, rfl⟩ := hS
  have hi := (imports_among exModule_small rfl hr f).1 ⟨hf, by simp [Func.isImport, hc]⟩
  rcases hi with ⟨hf, _⟩ | hf
  · simp only [exModule, List.mem_cons, List.not_mem_nil, or_false] at hf
    rcases hf with rfl | rfl | rfl | rfl <;> cases hc
    refine .ok .nil ⟨hok.world rfl rfl rfl rfl rfl, (s.world.1 ++ args, w.2), ⟨rfl, hw2⟩, ?_⟩
    obtain ⟨w1, w2⟩ := w
    cases hw1
    simp only [Store.extend, List.append_nil]
    rfl
  · simp only [hookImports, List.mem_filterMap, Option.map_eq_some_iff] at hf
    obtain ⟨t, _, e, he, rfl⟩ := hf
    simp only [exIface] at he
    split at he
    · rename_i ht
      cases he
      cases hc
      have e1 : exTally analysisModule t.export.name call args s = .ok (t.results.map ValType.zero) { s with world := (s.world.1, s.world.2 + 1) } := by
        rcases ht with rfl | rfl | rfl | rfl <;> rfl
      have e2 : exTallyList analysisModule t.export.name call' args (s.extend [] [] w) = .ok (t.results.map ValType.zero) ({ s with world := (s.world.1, s.world.2 + 1) }.extend [] [] (w.1, w.2 ++ [(t, args)])) := by
        rcases ht with rfl | rfl | rfl | rfl <;> rfl
      rw [e1, e2]
      refine .ok (zeros_ok _) ⟨hok.world rfl rfl rfl rfl rfl, (w.1, w.2 ++ [(t, args)]), ⟨hw1, ?_⟩, rfl⟩
      simp [hw2]
    · cases he

theorem exSurface_ok {A : Type} (r : Instrumented) (a : A) : StoreOK (r.surface exModule) (exStore.withAnalysis a) where
  globals := .nil
  mems := rfl
  tables := rfl
  tableElems := by
    intro t ht _ f hf
    simp only [Store.withAnalysis, exStore, List.mem_cons, List.not_mem_nil, or_false] at ht
    subst ht
    simp at hf
  datas := rfl
  elems := rfl
  elemElems := by intro e he; cases he
  pages := by
    intro x hx
    simp only [Store.withAnalysis, exStore, List.mem_cons, List.not_mem_nil, or_false] at hx
    subst hx
    exact ⟨by decide, by decide⟩

/-- Counting, `main(0, 5)` returns 0 (not 49) and prints 7; six questions are asked. -/
theorem exModule_counted {r} (hr : Instruments exTypedChecker exIface none exModule r) : ∃ s,
    callF exNum (machineOf exTally r.module.functions) 10 10 1 [.i32 0, .i32 5] (exStore.withAnalysis 0) = .ok [.i32 0] s ∧ s.world = ([.i32 7], 6) := by
  obtain ⟨r0, h0, h⟩ := ok_with (x := instrument exTypedChecker id id exIface none exModule)
    (p := fun r => match callF exNum (machineOf exTally r.module.functions) 10 10 1 [.i32 0, .i32 5] (exStore.withAnalysis 0) with
      | .ok vs s => decide (vs = [.i32 0] ∧ s.world = ([.i32 7], 6))
      | _ => false) (by decide +kernel)
  have e := C92_same_module exModule_small rfl (by decide) hr ⟨id, id, fun _ => .rfl, fun _ => .rfl, h0⟩
  subst e
  split at h
  · rename_i vs s hc
    obtain ⟨rfl, hw⟩ := of_decide_eq_true h
    exact ⟨s, hc, hw⟩
  · cases h

-- C92: all hypotheses of `C92_equivalent_analyses_interchangeable` hold of these two, for all outputs of the tool. The other analysis lists what has been counted:
-- with it, `main(0, 5)` returns 0 and prints 7 as well, and the list has six entries.
example {r r'} (hr : Instruments exTypedChecker exIface none exModule r) (hr' : Instruments exTypedChecker exIface none exModule r') : ∃ s,
    callF exNum (machineOf exTallyList r'.module.functions) 10 10 1 [.i32 0, .i32 5] (exStore.withAnalysis []) = .ok [.i32 0] s ∧
      s.world.1 = [.i32 7] ∧ s.world.2.length = 6 := by
  have hm : r.reachable exModule 1 = some ⟨[.i32, .i32], [.i32]⟩ := (reachable_iff exModule_small rfl hr 1 _).2 (.inl ⟨_, rfl, rfl⟩)
  obtain ⟨s0, e0, hw0⟩ := exModule_counted hr
  rcases C92_equivalent_analyses_interchangeable exModule_small exIface_regular rfl hr hr' exModule_valid exModule_annotated (N := exNum) (exTally_listing hr) hm
    (args := [.i32 0, .i32 5]) (ValsOK.nil.cons rfl (by simp [RVal.OK]) |>.cons rfl (by simp [RVal.OK])) (exSurface_ok r 0) (w := ([], [])) ⟨rfl, rfl⟩ 10 10
    with ⟨vs, s1, w, e1, ⟨h1, h2⟩, e2⟩ | ⟨s1, w, e1, _⟩ | ⟨e1, _⟩
  · rw [e0] at e1
    cases e1
    rw [hw0] at h1 h2
    exact ⟨_, e2, h1.symm, h2.symm⟩
  · rw [e0] at e1; cases e1
  · rw [e0] at e1; cases e1

/-! ## Two orders -/

theorem exBothTables_small : SmallModule exBothTables where
  functions := by decide
  arity := by decide
  length := by
    simp only [exBothTables, List.mem_cons, List.not_mem_nil, or_false, forall_eq_or_imp, forall_eq]
    simp
  body := by
    simp only [exBothTables, List.mem_cons, List.not_mem_nil, or_false, forall_eq_or_imp, forall_eq]
    simp [LInstr.Small]

theorem exTableIface_regular : exTableIface.Standard := by
  intro t e he
  simp only [exTableIface] at he
  split at he <;> cases he
  exact ⟨rfl, rfl⟩

theorem exBothTables_valid : ValidModule exBothTables where
  functions := by
    intro f hf c hc
    simp only [exBothTables, List.mem_cons, List.not_mem_nil, or_false] at hf
    rcases hf with rfl | rfl
    · simp only [FuncCode.present.injEq] at hc; subst hc
      refine .straight (bs := [.loc .get 0, .brTable [0] 0]) rfl (.cons (.basic ⟨.i32, rfl, [], rfl, rfl⟩) (.ofBasic ?_))
      intro l hl
      simp only [List.mem_cons, List.not_mem_nil, or_false, or_self] at hl
      subst hl
      exact ⟨[], rfl, [], rfl⟩
    · simp only [FuncCode.present.injEq] at hc; subst hc
      refine .straight (bs := [.loc .get 0, .brTable [] 0]) rfl (.cons (.basic ⟨.i32, rfl, [], rfl, rfl⟩) (.ofBasic ?_))
      intro l hl
      simp only [List.mem_cons, List.not_mem_nil, or_false] at hl
      subst hl
      exact ⟨[], rfl, [], rfl⟩
  elements := by simp [exBothTables]
  start := by simp [exBothTables]
  exports := by decide

theorem exBothTables_annotated : ∀ i ∈ bodyTargets exBothTables none, ∀ f, exBothTables.functions[i]? = some f → WellAnnotated exBothTables f (bodyOf exChecker exBothTables i) := by
  have h : bodyTargets exBothTables none = [0, 1] := by decide +kernel
  rw [h]
  intro i hi f hf c hc
  simp only [List.mem_cons, List.not_mem_nil, or_false] at hi
  rcases hi with rfl | rfl
  · cases hf; cases hc
    have e : bodyOf exChecker exBothTables 0 = [.basic ⟨0, 0, .unreachable, false⟩ (.loc .get 0), .basic ⟨0, 1, .unreachable, false⟩ (.brTable [0] 0)] := rfl
    rw [e]
    refine .cons (.basic ⟨.i32, rfl, [], rfl, rfl⟩ (by intro t ht; cases ht)) (.cons (.basic ?_ trivial) .nil)
    intro l hl
    simp only [List.mem_cons, List.not_mem_nil, or_false, or_self] at hl
    subst hl
    exact ⟨[], rfl, [], rfl⟩
  · cases hf; cases hc
    have e : bodyOf exChecker exBothTables 1 = [.basic ⟨1, 0, .unreachable, false⟩ (.loc .get 0), .basic ⟨1, 1, .unreachable, false⟩ (.brTable [] 0)] := rfl
    rw [e]
    refine .cons (.basic ⟨.i32, rfl, [], rfl, rfl⟩ (by intro t ht; cases ht)) (.cons (.basic ?_ trivial) .nil)
    intro l hl
    simp only [List.mem_cons, List.not_mem_nil, or_false] at hl
    subst hl
    exact ⟨[], rfl, [], rfl⟩

/-- An analysis that lists the tables it is told of and answers that the first entry is to be taken. -/
def exTableLog : Imports (List (List RVal)) := fun _ _ _ args s => .ok [.i32 0] { s with world := s.world ++ [args] }

theorem exTableLog_agrees {r} (hr : Instruments exChecker exTableIface none exBothTables r) : EmbeddersAgree exBothTables r Eq exTableLog exTableLog := by
  intro f hf ns name hc call call' _ args s s' ha hS
  obtain ⟨hok, w, hw, rfl⟩ := hS
  rcases (imports_among exBothTables_small rfl hr f).1 ⟨hf, by simp [Func.isImport, hc]⟩ with ⟨hf, _⟩ | hf
  · simp only [exBothTables, List.mem_cons, List.not_mem_nil, or_false] at hf
    rcases hf with rfl | rfl <;> cases hc
  · simp only [hookImports, List.mem_filterMap, Option.map_eq_some_iff] at hf
    obtain ⟨t, _, e, he, rfl⟩ := hf
    simp only [exTableIface] at he
    split at he <;> cases he
    rename_i ht
    subst ht
    exact .ok (ValsOK.nil.cons rfl (by simp [RVal.OK])) ⟨hok.world rfl rfl rfl rfl rfl, w ++ [args], by rw [hw], rfl⟩

-- C92: all hypotheses of `C92_order_does_not_matter` hold of the program with two `br_table`s, whose outputs do differ (`C92_helper_numbers_vary`): all of them give the same,
-- including what is listed.
example {r r'} (hr : Instruments exChecker exTableIface none exBothTables r) (hr' : Instruments exChecker exTableIface none exBothTables r') (x : BitVec 32) (L d : Nat) :
    callF exNum (machineOf exTableLog r'.module.functions) L d 0 [.i32 x] ⟨[], [], [], [], [], []⟩ =
      callF exNum (machineOf exTableLog r.module.functions) L d 0 [.i32 x] ⟨[], [], [], [], [], []⟩ :=
  C92_order_does_not_matter exBothTables_small exTableIface_regular rfl hr hr' exBothTables_valid exBothTables_annotated (exTableLog_agrees hr)
    ((reachable_iff exBothTables_small rfl hr 0 _).2 (.inl ⟨_, rfl, rfl⟩)) (ValsOK.nil.cons rfl (by simp [RVal.OK]))
    ⟨.nil, rfl, rfl, (by intro t ht; cases ht), rfl, rfl, (by intro e he; cases he), (by intro x hx; cases hx)⟩ L d

-- ... and that is not nothing: called with 1, the table is listed.
example : ∃ r, Instruments exChecker exTableIface none exBothTables r ∧ ∃ s, callF exNum (machineOf exTableLog r.module.functions) 5 5 0 [.i32 1] ⟨[], [], [], [], [], []⟩ = .ok [] s ∧
    s.world = [[.i32 1, .i32 0, .i32 0, .i64 0, .i64 1]] := by
  obtain ⟨r0, h0, h⟩ := ok_with (x := instrument exChecker id id exTableIface none exBothTables)
    (p := fun r => match callF exNum (machineOf exTableLog r.module.functions) 5 5 0 [.i32 1] ⟨[], [], [], [], [], []⟩ with
      | .ok vs s => decide (vs = [] ∧ s.world = [[.i32 1, .i32 0, .i32 0, .i64 0, .i64 1]])
      | _ => false) (by decide +kernel)
  refine ⟨r0, ⟨id, id, fun _ => .rfl, fun _ => .rfl, h0⟩, ?_⟩
  split at h
  · rename_i vs s hc
    obtain ⟨rfl, hw⟩ := of_decide_eq_true h
    exact ⟨s, hc, hw⟩
  · cases h

-- C92: ... and all outputs look the same from outside: five functions and the accessors, in the same places.
example {r r'} (hr : Instruments exChecker exTableIface none exBothTables r) (hr' : Instruments exChecker exTableIface none exBothTables r') :
    r'.module.functions.length = r.module.functions.length ∧ r'.reachable exBothTables = r.reachable exBothTables :=
  ⟨(C92_same_from_outside exBothTables_small rfl hr hr').2.2.1, (C92_same_from_outside exBothTables_small rfl hr hr').2.2.2.2.1⟩

end Wastrum
