import Verif.TransparencyThms
import Verif.Trace
/-!
# Executions that stop where a rule says so (supporting definitions and lemmas for C67 and C70)

`noting` (Forward.lean) executes a program and notes every question. Here a rule `u` may also refuse: execution then stops, by a trap or
(with `cut`) by running out of bounds.
-/

set_option linter.unusedSimpArgs false
set_option linter.unusedVariables false

namespace Wastrum

variable {W W' : Type} {Γ : Ctx}

/-- Stop. -/
def Out.stop (cut : Bool) (s : Store W) : Out W := if cut then .fuel else .trap s
/-- Stop. -/
def Res.stop (cut : Bool) (s : Store W) : Res W := if cut then .fuel else .trap s

/-- A rule: what a question does to the world, or that it is refused. -/
abbrev Rule (W : Type) := Trap → List RVal → Store W → Option W

/-- Plain execution in which every question is put to the rule `u` first. -/
def judging (cut : Bool) (E : Env W) (u : Rule W) : Asker W where
  ask m t k info c := match u t (shown m k info c) c.store with
    | some w => .norm { c with store := { c.store with world := w } }
    | none => .stop cut c.store
  perf m b c := match delegation b with
    | some (t, k, info) => match u t (shown m k info c) c.store with
      | some w => step E b { c with store := { c.store with world := w } }
      | none => .stop cut c.store
    | none => step E b c

/-- The original program running with every executed instruction of a target put to the rule `u` first. -/
def judged (cut : Bool) (C : Checker) (m : Module) (targets : List Nat) (H : Imports W) (u : Rule W) : Machine W := fun i =>
  m.functions[i]?.map fun f => (f.type, match f.code with
    | .imported ns name => .host (H ns name)
    | .present c => .code c.locals fun E => if i ∈ targets then gdenL (judging cut E u) E.loopFuel (bodyOf C m i) else denFlat E c.body)

/-- The analysis' hooks act as the rule `u` says. -/
structure Rel.Judges (R : Rel W W') (cut : Bool) (Γ : Ctx) (B : Basic → Prop) (σ : Sel) (u : Rule W) (E : Env W) (E' : Env W') : Prop where
  unselected : ∀ t, σ t = none → ∀ args s s', R.S s s' → (cut = true ∧ R.fl = true ∧ u t args s = none) ∨ ∃ w, u t args s = some w ∧ R.S { s with world := w } s'
  observing : ∀ t h, σ t = some h → t.Observes → t.args.take t.results.length = t.results → ∀ args s s', args.map RVal.type = t.args → R.S s s' →
    R.Ress Γ t.results (match u t args s with | some w => .ok (args.take t.results.length) { s with world := w } | none => .stop cut s) (E'.callF h args s')
  delegated : ∀ b t k info h, delegation b = some (t, k, info) → σ t = some h → B b → Γ.HasMem b → ∀ ops loc s s', ops.length = k → loc.length = 2 →
    (ops ++ info ++ loc).map RVal.type = t.args → R.S s s' →
    R.Ress Γ t.results (match u t (ops ++ info ++ loc) s with | some w => execInstr E b ops { s with world := w } | none => .stop cut s) (E'.callF h (ops ++ info ++ loc) s')

theorem Rel.Judges.congr {R : Rel W W'} {cut : Bool} {Γ Γ' : Ctx} (h : Γ.SameModule Γ') {B σ u} {E : Env W} {E' : Env W'} (hE : R.Judges cut Γ B σ u E E') :
    R.Judges cut Γ' B σ u E E' :=
  ⟨hE.unselected, fun t k hk ho hp args s s' ha hs => (hE.observing t k hk ho hp args s s' ha hs).congr h,
   fun b t k info h' hd hσ hB hm ops loc s s' h1 h2 h3 h4 =>
    (hE.delegated b t k info h' hd hσ hB (Ctx.HasMem.congr h.mems hm) ops loc s s' h1 h2 h3 h4).congr h⟩

/-- What stops a question stops the execution. -/
theorem Rel.Ress.stopped {R : Rel W W'} {cut : Bool} {ts : List ValType} {s : Store W} {o : Res W'} (h : R.Ress Γ ts (.stop cut s) o) (ts' : List ValType) :
    (∃ s', o = .trap s' ∧ R.Outs Γ ts' (.stop cut s) (.trap s')) ∨ (o = .fuel ∧ R.Outs Γ ts' (.stop cut s) .fuel) ∨ ∀ o', R.Outs Γ ts' (.stop cut s) o' := by
  unfold Res.stop at h
  unfold Out.stop
  cases cut with
  | true =>
    simp only [if_true] at h ⊢
    rcases h with - | - | - | h | h | - | - | h
    · exact .inr (.inl ⟨rfl, .fuel⟩)
    · exact .inr (.inr fun _ => .fuelL h)
    · exact .inr (.inl ⟨rfl, .fuelR h⟩)
    · exact .inl ⟨_, rfl, .trapR h⟩
  | false =>
    simp only [Bool.false_eq_true, if_false] at h ⊢
    rcases h with - | h | - | - | h | h | h | h
    · exact .inl ⟨_, rfl, .trap h⟩
    · exact .inr (.inl ⟨rfl, .fuelR h⟩)
    · exact .inr (.inr fun _ => .trapL h)
    · exact .inl ⟨_, rfl, .trapT h⟩
    · exact .inl ⟨_, rfl, .trapR h⟩

/-- Questions keep the executions in step. -/
theorem judged_ask_sim {R : Rel W W'} {cut : Bool} {σ : Sel} {u} {B} {E : Env W} {E' : Env W'} (hH : R.Judges cut Γ B σ u E E') {m t ins info a c c'}
    (hq : Question t ins info) (hc : R.Cfgs Γ (ins.reverse ++ a) c c') :
    R.Outs Γ (ins.reverse ++ a) ((judging cut E u).ask m t ins.length info c) (ask E' σ m t ins.length info c') := by
  simp only [judging]
  unfold ask
  cases hσ : σ t with
  | none =>
    dsimp only
    rcases hH.unselected t hσ (shown m ins.length info c) _ _ hc.store with ⟨h1, h2, h3⟩ | ⟨w, h1, h2⟩
    · rw [h3]; subst h1; exact .fuelL h2
    · rw [h1]; exact .norm ⟨hc.stack, hc.locals, h2, hc.stackOK, hc.localsOK⟩
  | some h =>
    dsimp only
    have hsp := hc.stackOK.split
    simp only [List.length_reverse] at hsp
    have hsh : (c'.stack.take ins.length).reverse ++ info ++ [nI64 m.fidx, nI64 m.iidx] = shown m ins.length info c := by
      rw [hc.stack]; rfl
    rw [hsh]
    have hty : (shown m ins.length info c).map RVal.type = t.args := by
      rw [hq.args]
      have := hsp.1.reverse.1
      rw [List.reverse_reverse] at this
      simp only [shown, List.map_append, this]
      rfl
    rw [if_pos hty]
    have := hH.observing t h hσ hq.observes (by rw [hq.args, hq.results, List.append_assoc]; simp) _ _ _ hty hc.store
    have hlen : (c.stack.take ins.length).reverse.length = ins.length := by
      have := hsp.1.reverse.length; simpa using this
    have htk : (shown m ins.length info c).take t.results.length = (c.stack.take ins.length).reverse := by
      rw [hq.results, shown, List.append_assoc, List.take_append_of_le_length (by omega), List.take_of_length_le (by omega)]
    rw [htk] at this
    cases hu : u t (shown m ins.length info c) c.store with
    | none =>
      rw [hu] at this
      rcases this.stopped (ins.reverse ++ a) with ⟨s', e, h⟩ | ⟨e, h⟩ | h
      · rw [e]; exact h
      · rw [e]; exact h
      · exact h _
    | some w =>
      rw [hu] at this
      dsimp only at this ⊢
      generalize E'.callF h _ _ = o at this ⊢
      cases this with
      | @ok vs s s' hv hs =>
        dsimp only
        rw [if_pos hv.1]
        refine .norm ⟨?_, hc.locals, hs, hc.stackOK, hc.localsOK⟩
        dsimp only
        rw [List.reverse_reverse, hc.stack, List.take_append_drop]
      | fuelR h => exact .fuelR h
      | trapR h => exact .trapR h

/-- Operations performed by the analysis keep the executions in step. -/
theorem judged_perform_sim {R : Rel W W'} {cut : Bool} {T X} {Q : W → W' → Prop} (hS : R.S = SameState Γ T X Q) {σ : Sel} {u} {B} {E : Env W} {E' : Env W'}
    (hE : R.Envs Γ E E') (hH : R.Judges cut Γ B σ u E E') {m b a e c c'} (hB : B b) (ht : BTyped Γ b a e) (hc : R.Cfgs Γ a c c') :
    R.Outs Γ e ((judging cut E u).perf m b c) (perform E' σ m b c') := by
  rw [perform_eq]
  simp only [judging]
  cases hd : delegation b with
  | none => exact step_sim hS hE ht hc
  | some p =>
    obtain ⟨t, k, info⟩ := p
    dsimp only
    cases hσ : σ t with
    | none =>
      simp only [Option.isSome_none, Bool.false_eq_true, if_false]
      rcases hH.unselected t hσ (shown m k info c) _ _ hc.store with ⟨h1, h2, h3⟩ | ⟨w, h1, h2⟩
      · rw [h3]; subst h1; exact .fuelL h2
      · rw [h1]; exact step_sim hS hE ht ⟨hc.stack, hc.locals, h2, hc.stackOK, hc.localsOK⟩
    | some h =>
      simp only [Option.isSome_some, if_true]
      obtain ⟨ins, r, rfl, rfl, rfl, hargs, -⟩ := step_frame E (c := c) hd ht hc.stackOK
      have hsp := hc.stackOK.split
      simp only [List.length_reverse] at hsp
      unfold ask
      rw [hσ]
      dsimp only
      rw [hc.stack]
      change R.Outs Γ _ _ (if (shown m ins.length info c).map RVal.type = t.args then _ else _)
      have hty : (shown m ins.length info c).map RVal.type = t.args := by
        rw [hargs]
        have := hsp.1.reverse.1
        rw [List.reverse_reverse] at this
        simp only [shown, List.map_append, this]
        rfl
      rw [if_pos hty]
      have := hH.delegated b t _ info h hd hσ hB (.of_typed ht) (c.stack.take ins.length).reverse [nI64 m.fidx, nI64 m.iidx] c.store c'.store
        (by simpa using hsp.1.reverse.length) rfl hty hc.store
      change R.Ress Γ _ (match u t (shown m ins.length info c) c.store with | some w => _ | none => _) (E'.callF h (shown m ins.length info c) c'.store) at this
      change R.Outs Γ _ _ (match E'.callF h (shown m ins.length info c) c'.store with
        | .ok vs s => if vs.map RVal.type = t.results then Out.norm { c' with stack := vs.reverse ++ c.stack.drop ins.length, store := s } else .stuck
        | .trap s => .trap s
        | .stuck => .stuck
        | .fuel => .fuel)
      cases hu : u t (shown m ins.length info c) c.store with
      | none =>
        rw [hu] at this
        rcases this.stopped (t.results.reverse ++ r) with ⟨s', e, h⟩ | ⟨e, h⟩ | h
        · rw [e]; exact h
        · rw [e]; exact h
        · exact h _
      | some w =>
        rw [hu] at this
        dsimp only at this ⊢
        obtain ⟨ins', r', e1, e2, e3, -, hstep⟩ := step_frame E (c := { c with store := { c.store with world := w } }) hd ht hc.stackOK
        rw [hstep]
        dsimp only
        generalize execInstr E b _ _ = o at this ⊢
        generalize E'.callF h _ _ = o' at this ⊢
        cases this with
        | @ok vs s s' hv hs =>
          dsimp only
          rw [if_pos hv.1]
          exact .norm ⟨rfl, hc.locals, hs, hv.reverse.append hsp.2, hc.localsOK⟩
        | trap hs => exact .trap hs
        | fuel => exact .fuel
        | fuelL h => exact .fuelL h
        | fuelR h => exact .fuelR h
        | trapL h => exact .trapL h
        | trapT h => exact .trapT h
        | trapR h => exact .trapR h

/-- Code executed under a rule on one side, with the analysis interposed on the other. -/
theorem judged_body_agrees {R : Rel W W'} {cut : Bool} {T X} {Q : W → W' → Prop} (hS : R.S = SameState Γ T X Q) {B σ u} {E : Env W} {E' : Env W'}
    (hE : R.Envs Γ E E') (hH : R.Judges cut Γ B σ u E E') {b : List TI} (hB : OnlyCode B (TI.lowerL b)) {ty : FuncType} {locals : List ValType}
    (ht : TTyL (Γ.body ty locals) b [] ty.results.reverse) {c c'} (hc : R.Cfgs (Γ.body ty locals) [] c c') :
    R.Outs (Γ.body ty locals) ty.results.reverse (gdenL (judging cut E u) E.loopFuel b c) (hdenL E' σ b c') := by
  rw [← (gden_hooking E' σ).2, hE.loopFuel]
  refine (sim (Γ₀ := Γ.body ty locals) (B := B) ?_ ?_).2 _ hB _ ⟨_, rfl⟩ _ _ ht c c' hc
  · intro Γ' hΓ m b a e c c' hB hb hc
    have hm := (Ctx.SameModule.body Γ ty locals).sameBut hΓ
    exact judged_perform_sim (hS.trans (SameState.congr hm)) (hE.congr hm) (hH.congr hm) hB hb hc
  · intro Γ' hΓ m t ins info a c c' hq hc
    have hm := (Ctx.SameModule.body Γ ty locals).sameBut hΓ
    exact judged_ask_sim (hH.congr hm) hq hc

/-- The judged original and the instrumented program agree. -/
theorem judged_agrees {C iface ts m r} (hs : SmallModule m) (hst : iface.Standard) (hg : iface.generic = none)
    (h : Instruments C iface ts m r) (hv : ValidModule m)
    (hB : ∀ i ∈ bodyTargets m ts, ∀ f, m.functions[i]? = some f → WellAnnotated m f (bodyOf C m i))
    {B : Basic → Prop} (hO : ∀ i ∈ bodyTargets m ts, ∀ f c, m.functions[i]? = some f → f.code = .present c → OnlyCode B c.body)
    {R : Rel W W'} {cut : Bool} {Q : W → W' → Prop} (hS : R.S = SameState m.ctx [] [] Q) {k : Nat} (hk : R.fl = true ∨ k = 0) {N : Num} {L : Nat}
    {H : Imports W} {H' : Imports W'} {u : Rule W}
    (hhost : ∀ f ∈ m.functions, ∀ ns name, f.code = .imported ns name → HostsAgree R m.ctx f.type (H ns name) (H' ns name))
    (hhook : ∀ d, R.Judges cut m.ctx B (hookSel iface m.functions.length) u (envAt N (judged cut C m (bodyTargets m ts) H u) L d)
      (envAt N (underAnalysis C m (bodyTargets m ts) H' (hookSel iface m.functions.length) (r.module.functions.drop m.functions.length)) L (d + k)))
    (d : Nat) : CallsAgree R m.ctx (callF N (judged cut C m (bodyTargets m ts) H u) L d) (callF N (machineOf H' r.module.functions) L (d + k)) := by
  have e : callF N (machineOf H' r.module.functions) L (d + k) = callF N (underAnalysis C m (bodyTargets m ts) H'
      (hookSel iface m.functions.length) (r.module.functions.drop m.functions.length)) L (d + k) := by
    funext f args s; exact C09_instrumented_is_interposed hs hst hg h N H' L (d + k) f args s
  rw [e]
  refine calls_agree (P := fun E E' => R.Judges cut m.ctx B (hookSel iface m.functions.length) u E E') hk hhook ?_ d
  intro f ty hf
  simp only [Module.ctx, Option.map_eq_some_iff] at hf
  obtain ⟨g, hg, rfl⟩ := hf
  have hm := List.mem_of_getElem? hg
  cases hc : g.code with
  | imported ns name =>
    exact ⟨.host (H ns name), .host (H' ns name), by simp only [judged, hg, Option.map_some, hc], by simp only [underAnalysis, hg, hc],
      .host (hhost g hm ns name hc)⟩
  | present c =>
    refine ⟨.code c.locals fun E => if f ∈ bodyTargets m ts then gdenL (judging cut E u) E.loopFuel (bodyOf C m f) else denFlat E c.body,
      .code c.locals fun E => if f ∈ bodyTargets m ts then hdenL E (hookSel iface m.functions.length) (bodyOf C m f) else denFlat E c.body,
      by simp only [judged, hg, Option.map_some, hc], by simp only [underAnalysis, hg, hc], .code ?_⟩
    intro E E' hE hH cfg cfg' hcc
    by_cases hi : f ∈ bodyTargets m ts
    · rw [if_pos hi, if_pos hi]
      refine judged_body_agrees hS hE hH ((hO f hi g c hg hc).mono ?_) (hB f hi g hg c hc) hcc
      intro i hm
      obtain ⟨b, hb⟩ := instruments_raises hs h f hi
      have e : bodyOf C m f = b := by simp [bodyOf, hb]
      obtain ⟨f', c', hf', hc', hr⟩ := raiseTarget_present hb
      rw [hg] at hf'; cases hf'
      rw [hc] at hc'; cases hc'
      rw [e] at hm
      have := C02_lowerTyped_raiseFunction _ _ _ _ _ hr
      rw [← this]
      exact List.mem_append_left _ hm
    · rw [if_neg hi, if_neg hi]
      exact plain_body_agrees hS hE (hv.functions g hm c hc) hcc

end Wastrum
