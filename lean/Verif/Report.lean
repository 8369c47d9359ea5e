import Verif.Watch
/-!
# Analyses that also look at results (supporting definitions and lemmas for C90)

The log of `traced` (C11) has the operands of the operations a program performs but not their results. Some analyses look at the results too: the
logging analysis (`wastrumentation-instr-lib/tests/analyses/rust/logging/src/lib.rs`) prints the value that was loaded.
-/

set_option linter.unusedSimpArgs false
set_option linter.unusedVariables false

namespace Wastrum

variable {W W' A : Type} {Γ : Ctx}

/-! ## The program with its operands and results reported -/

/-- What can be said about an execution: the program is at the place a hook exists for, with what the hook is shown; or it has performed an operation there,
with these results. -/
inductive Report where
  | asked (t : Trap) (args : List RVal)
  | done (t : Trap) (args results : List RVal)
  deriving DecidableEq, Repr

/-- The hook for the place a report is about. -/
def Report.trap : Report → Trap
  | .asked t _ | .done t _ _ => t

abbrev Account := List Report

/-- Append a report. -/
def Store.report (s : Store (W × Account)) (r : Report) : Store (W × Account) := { s with world := (s.world.1, s.world.2 ++ [r]) }

/-- Report the results of an operation. -/
def Res.report (r : Res (W × Account)) (t : Trap) (args : List RVal) : Res (W × Account) :=
  match r with
  | .ok vs s => .ok vs (s.report (.done t args vs))
  | o => o

/-- Plain execution with every question reported, and every operation that could be delegated before and after. -/
def reporting (E : Env (W × Account)) : Asker (W × Account) where
  ask m t k info c := .norm { c with store := c.store.report (.asked t (shown m k info c)) }
  perf m b c := match delegation b with
    | some (t, k, info) => (step E b { c with store := c.store.report (.asked t (shown m k info c)) }).bind fun c1 =>
        .norm { c1 with store := c1.store.report (.done t (shown m k info c) (c1.stack.take t.results.length).reverse) }
    | none => step E b c

/-- The original program running with every executed instruction of a target reported. -/
def reported (C : Checker) (m : Module) (targets : List Nat) (H : Imports (W × Account)) : Machine (W × Account) := fun i =>
  m.functions[i]?.map fun f => (f.type, match f.code with
    | .imported ns name => .host (H ns name)
    | .present c => .code c.locals fun E => if i ∈ targets then gdenL (reporting E) E.loopFuel (bodyOf C m i) else denFlat E c.body)

/-! ## Simulation -/

/-- The analysis' hooks return what they are shown and perform what they are handed, in step with the reports. -/
structure Rel.Reporting (R : Rel (W × Account) W') (Γ : Ctx) (B : Basic → Prop) (σ : Sel) (E : Env (W × Account)) (E' : Env W') : Prop where
  unselected : ∀ r : Report, σ r.trap = none → ∀ s s', R.S s s' → R.S (s.report r) s'
  observing : ∀ t h, σ t = some h → t.Observes → t.args.take t.results.length = t.results → ∀ args s s', args.map RVal.type = t.args → R.S s s' →
    R.Ress Γ t.results (.ok (args.take t.results.length) (s.report (.asked t args))) (E'.callF h args s')
  delegated : ∀ b t k info h, delegation b = some (t, k, info) → σ t = some h → B b → Γ.HasMem b → ∀ ops loc s s', ops.length = k → loc.length = 2 →
    (ops ++ info ++ loc).map RVal.type = t.args → R.S s s' →
    R.Ress Γ t.results ((execInstr E b ops (s.report (.asked t (ops ++ info ++ loc)))).report t (ops ++ info ++ loc)) (E'.callF h (ops ++ info ++ loc) s')

theorem Rel.Reporting.congr {R : Rel (W × Account) W'} {Γ Γ' : Ctx} (h : Γ.SameModule Γ') {B σ} {E : Env (W × Account)} {E' : Env W'}
    (hE : R.Reporting Γ B σ E E') : R.Reporting Γ' B σ E E' :=
  ⟨hE.unselected, fun t k hk ho hp args s s' ha hs => (hE.observing t k hk ho hp args s s' ha hs).congr h,
   fun b t k info h' hd hσ hB hm ops loc s s' h1 h2 h3 h4 => (hE.delegated b t k info h' hd hσ hB (Ctx.HasMem.congr h.mems hm) ops loc s s' h1 h2 h3 h4).congr h⟩

theorem Rel.Cfgs.reported {R : Rel (W × Account) W'} {ts c c' r} (h : R.Cfgs Γ ts c c')
    (hs : R.S (c.store.report r) c'.store) : R.Cfgs Γ ts { c with store := c.store.report r } c' :=
  ⟨h.stack, h.locals, hs, h.stackOK, h.localsOK⟩

/-- What a hook is shown has its types. -/
theorem shown_typed {ins : List ValType} {a} {c : Cfg W} (m : Meta) {t : Trap} {info : List RVal} (hc : ValsOK Γ c.stack (ins.reverse ++ a))
    (hargs : t.args = ins ++ info.map RVal.type ++ [.i64, .i64]) :
    (shown m ins.length info c).map RVal.type = t.args ∧ (c.stack.take ins.length).reverse.length = ins.length := by
  have hsp := hc.split
  simp only [List.length_reverse] at hsp
  refine ⟨?_, by simpa using hsp.1.reverse.length⟩
  rw [hargs]
  have := hsp.1.reverse.1
  rw [List.reverse_reverse] at this
  simp only [shown, List.map_append, this]
  rfl

theorem report_ask_sim {R : Rel (W × Account) W'} {σ : Sel} {B} {E : Env (W × Account)} {E' : Env W'} (hH : R.Reporting Γ B σ E E') {m t ins info a c c'}
    (hq : Question t ins info) (hc : R.Cfgs Γ (ins.reverse ++ a) c c') :
    R.Outs Γ (ins.reverse ++ a) ((reporting E).ask m t ins.length info c) (ask E' σ m t ins.length info c') := by
  simp only [reporting]
  unfold ask
  cases hσ : σ t with
  | none => exact .norm (hc.reported (hH.unselected (.asked t _) hσ _ _ hc.store))
  | some h =>
    dsimp only
    have hsp := hc.stackOK.split
    simp only [List.length_reverse] at hsp
    have hsh : (c'.stack.take ins.length).reverse ++ info ++ [nI64 m.fidx, nI64 m.iidx] = shown m ins.length info c := by
      rw [hc.stack]; rfl
    rw [hsh]
    obtain ⟨hty, hlen⟩ := shown_typed (Γ := Γ) m hc.stackOK hq.args
    rw [if_pos hty]
    have hpre : t.args.take t.results.length = t.results := by
      rw [hq.args, hq.results, List.append_assoc, List.take_left]
    have := hH.observing t h hσ hq.observes hpre (shown m ins.length info c) _ _ hty hc.store
    have et : (shown m ins.length info c).take t.results.length = (c.stack.take ins.length).reverse := by
      rw [hq.results]
      simp only [shown, List.append_assoc]
      exact List.take_left' hlen
    rw [et] at this
    generalize E'.callF h _ _ = o at this ⊢
    cases this with
    | @ok vs s s' hv hs =>
      dsimp only
      rw [if_pos hv.1]
      refine .norm ⟨?_, hc.locals, hs, hc.stackOK, hc.localsOK⟩
      rw [hc.stack, List.reverse_reverse, List.take_append_drop]
    | fuelR h => exact .fuelR h
    | trapR h => exact .trapR h

theorem report_perform_sim {R : Rel (W × Account) W'} {T X} {Q : W × Account → W' → Prop} (hS : R.S = SameState Γ T X Q) {σ : Sel} {B} {E : Env (W × Account)} {E' : Env W'}
    (hE : R.Envs Γ E E') (hH : R.Reporting Γ B σ E E') {m b a e c c'} (hB : B b) (ht : BTyped Γ b a e) (hc : R.Cfgs Γ a c c') :
    R.Outs Γ e ((reporting E).perf m b c) (perform E' σ m b c') := by
  rw [perform_eq]
  simp only [reporting]
  cases hd : delegation b with
  | none => exact step_sim hS hE ht hc
  | some p =>
    obtain ⟨t, k, info⟩ := p
    dsimp only
    cases hσ : σ t with
    | none =>
      simp only [Option.isSome_none, Bool.false_eq_true, if_false]
      have h1 := step_sim hS hE ht (hc.reported (hH.unselected (.asked t (shown m k info c)) hσ _ _ hc.store))
      have h2 := h1.bind (ts' := e) (k := fun c1 => .norm { c1 with store := c1.store.report (.done t (shown m k info c) (c1.stack.take t.results.length).reverse) })
        (k' := .norm) fun c1 c1' h => .norm (h.reported (hH.unselected (.done t _ _) hσ _ _ h.store))
      rwa [Out.bind_norm_right] at h2
    | some h =>
      simp only [Option.isSome_some, if_true]
      obtain ⟨ins, r, rfl, rfl, rfl, hargs, hstep⟩ := step_frame E (c := { c with store := c.store.report (.asked t (shown m k info c)) }) hd ht hc.stackOK
      rw [hstep]
      have hsp := hc.stackOK.split
      simp only [List.length_reverse] at hsp
      unfold ask
      rw [hσ]
      dsimp only
      rw [hc.stack]
      change R.Outs Γ _ _ (if (shown m ins.length info c).map RVal.type = t.args then _ else _)
      obtain ⟨hty, hlen⟩ := shown_typed (Γ := Γ) m hc.stackOK hargs
      rw [if_pos hty]
      have := hH.delegated b t _ info h hd hσ hB (.of_typed ht) (c.stack.take ins.length).reverse [nI64 m.fidx, nI64 m.iidx] c.store c'.store
        hlen rfl hty hc.store
      change R.Ress Γ _ _ (E'.callF h (shown m ins.length info c) c'.store) at this
      change R.Ress Γ _ ((execInstr E b _ (c.store.report (.asked t (shown m ins.length info c)))).report t (shown m ins.length info c)) _ at this
      change R.Outs Γ _ _ (match E'.callF h (shown m ins.length info c) c'.store with
        | .ok vs s => if vs.map RVal.type = t.results then Out.norm { c' with stack := vs.reverse ++ c.stack.drop ins.length, store := s } else .stuck
        | .trap s => .trap s
        | .stuck => .stuck
        | .fuel => .fuel)
      generalize execInstr E b _ _ = o at this ⊢
      generalize E'.callF h _ _ = o' at this ⊢
      cases o with
      | ok vs s =>
        have top : vs.map RVal.type = t.results → ((vs.reverse ++ c.stack.drop ins.length).take t.results.length).reverse = vs := by
          intro hv
          have : t.results.length = vs.reverse.length := by rw [← hv]; simp
          rw [this, List.take_left, List.reverse_reverse]
        simp only [Res.report] at this
        simp only [Out.bind]
        cases this with
        | ok hv hs =>
          dsimp only
          rw [if_pos hv.1, top hv.1]
          exact .norm ⟨rfl, hc.locals, hs, hv.reverse.append hsp.2, hc.localsOK⟩
        | fuelR h => exact .fuelR h
        | trapR h => exact .trapR h
      | trap s =>
        simp only [Res.report] at this
        simp only [Out.bind]
        cases this with
        | trap hs => exact .trap hs
        | fuelR h => exact .fuelR h
        | trapL h => exact .trapL h
        | trapT h => exact .trapT h
        | trapR h => exact .trapR h
      | stuck =>
        simp only [Res.report] at this
        cases this with
        | fuelR h => exact .fuelR h
        | trapR h => exact .trapR h
      | fuel =>
        simp only [Res.report] at this
        simp only [Out.bind]
        cases this with
        | fuel => exact .fuel
        | fuelL h => exact .fuelL h
        | fuelR h => exact .fuelR h
        | trapR h => exact .trapR h

theorem reporting_body_agrees {R : Rel (W × Account) W'} {T X} {Q : W × Account → W' → Prop} (hS : R.S = SameState Γ T X Q) {B σ} {E : Env (W × Account)} {E' : Env W'}
    (hE : R.Envs Γ E E') (hH : R.Reporting Γ B σ E E') {b : List TI} (hB : OnlyCode B (TI.lowerL b)) {ty : FuncType} {locals : List ValType}
    (ht : TTyL (Γ.body ty locals) b [] ty.results.reverse) {c c'} (hc : R.Cfgs (Γ.body ty locals) [] c c') :
    R.Outs (Γ.body ty locals) ty.results.reverse (gdenL (reporting E) E.loopFuel b c) (hdenL E' σ b c') := by
  rw [← (gden_hooking E' σ).2, hE.loopFuel]
  refine (sim (Γ₀ := Γ.body ty locals) (B := B) ?_ ?_).2 _ hB _ ⟨_, rfl⟩ _ _ ht c c' hc
  · intro Γ' hΓ m b a e c c' hB hb hc
    have hm := (Ctx.SameModule.body Γ ty locals).sameBut hΓ
    exact report_perform_sim (hS.trans (SameState.congr hm)) (hE.congr hm) (hH.congr hm) hB hb hc
  · intro Γ' hΓ m t ins info a c c' hq hc
    have hm := (Ctx.SameModule.body Γ ty locals).sameBut hΓ
    exact report_ask_sim (hH.congr hm) hq hc

/-- The reported original and the instrumented program agree. -/
theorem reported_agrees {C iface ts m r} (hs : SmallModule m) (hst : iface.Standard) (hg : iface.generic = none)
    (h : Instruments C iface ts m r) (hv : ValidModule m)
    (hB : ∀ i ∈ bodyTargets m ts, ∀ f, m.functions[i]? = some f → WellAnnotated m f (bodyOf C m i))
    {B : Basic → Prop} (hO : ∀ i ∈ bodyTargets m ts, ∀ f c, m.functions[i]? = some f → f.code = .present c → OnlyCode B c.body)
    {R : Rel (W × Account) W'} {Q : W × Account → W' → Prop} (hS : R.S = SameState m.ctx [] [] Q) {k : Nat} (hk : R.fl = true ∨ k = 0) {N : Num} {L : Nat}
    {H : Imports (W × Account)} {H' : Imports W'}
    (hhost : ∀ f ∈ m.functions, ∀ ns name, f.code = .imported ns name → HostsAgree R m.ctx f.type (H ns name) (H' ns name))
    (hhook : ∀ d, R.Reporting m.ctx B (hookSel iface m.functions.length) (envAt N (reported C m (bodyTargets m ts) H) L d)
      (envAt N (underAnalysis C m (bodyTargets m ts) H' (hookSel iface m.functions.length) (r.module.functions.drop m.functions.length)) L (d + k)))
    (d : Nat) : CallsAgree R m.ctx (callF N (reported C m (bodyTargets m ts) H) L d) (callF N (machineOf H' r.module.functions) L (d + k)) := by
  have e : callF N (machineOf H' r.module.functions) L (d + k) = callF N (underAnalysis C m (bodyTargets m ts) H'
      (hookSel iface m.functions.length) (r.module.functions.drop m.functions.length)) L (d + k) := by
    funext f args s; exact C09_instrumented_is_interposed hs hst hg h N H' L (d + k) f args s
  rw [e]
  refine calls_agree (P := fun E E' => R.Reporting m.ctx B (hookSel iface m.functions.length) E E') hk hhook ?_ d
  intro f ty hf
  simp only [Module.ctx, Option.map_eq_some_iff] at hf
  obtain ⟨g, hg, rfl⟩ := hf
  have hm := List.mem_of_getElem? hg
  cases hc : g.code with
  | imported ns name =>
    exact ⟨.host (H ns name), .host (H' ns name), by simp only [reported, hg, Option.map_some, hc], by simp only [underAnalysis, hg, hc],
      .host (hhost g hm ns name hc)⟩
  | present c =>
    refine ⟨.code c.locals fun E => if f ∈ bodyTargets m ts then gdenL (reporting E) E.loopFuel (bodyOf C m f) else denFlat E c.body,
      .code c.locals fun E => if f ∈ bodyTargets m ts then hdenL E (hookSel iface m.functions.length) (bodyOf C m f) else denFlat E c.body,
      by simp only [reported, hg, Option.map_some, hc], by simp only [underAnalysis, hg, hc], .code ?_⟩
    intro E E' hE hH cfg cfg' hcc
    by_cases hi : f ∈ bodyTargets m ts
    · rw [if_pos hi, if_pos hi]
      refine reporting_body_agrees hS hE hH ((hO f hi g c hg hc).mono ?_) (hB f hi g hg c hc) hcc
      intro i hm
      obtain ⟨b, hb⟩ := instruments_raises hs h f hi
      have e : bodyOf C m f = b := by simp [bodyOf, hb]
      obtain ⟨f', c', hf', hc', hr⟩ := raiseTarget_present hb
      rw [hg] at hf'; cases hf'
      rw [hc] at hc'; cases hc'
      rw [e] at hm
      have := C02_lowerTyped_raiseFunction _ _ _ _ _ hr
      rw [← this]
      exact List.mem_append_left _ hm
    · rw [if_neg hi, if_neg hi]
      exact plain_body_agrees hS hE (hv.functions g hm c hc) hcc

/-! ## Analyses -/

/-- Advice that performs an operation instead of the program. -/
def Advice.performs : Advice → Bool
  | .unary _ _ _ | .binary _ _ _ _ | .load _ _ _ _ | .store _ _ _ _ _ | .memoryGrow _ _ _ => true
  | _ => false

/-- What an observing analysis adds to forwarding: how its state changes before the program's instruction is performed; and after it has performed one, seeing
the results. -/
structure Observer (A : Type) where
  before : Advice → A → A
  after : Advice → List RVal → A → A

/-- The advice of an observing analysis. -/
def Observer.body (o : Observer A) (N : Num) (base : String → Option Nat) (a : Advice)
    (call : Nat → List RVal → Store (W × A) → Res (W × A)) (s : Store (W × A)) : Res (W × A) :=
  match forwardBody N base a call { s with world := (s.world.1, o.before a s.world.2) } with
  | .ok vs s1 => if a.performs then .ok vs { s1 with world := (s1.world.1, o.after a vs s1.world.2) } else .ok vs s1
  | r => r

/-- What an observing analysis gets to know: where the program is, as the library presents it; and the results of an operation. -/
inductive Remark where
  | told (a : Advice)
  | got (a : Advice) (results : List RVal)

/-- What a remark does to the state of the analysis. -/
def Observer.tell (o : Observer A) (x : A) : Remark → A
  | .told a => o.before a x
  | .got a vs => o.after a vs x

/-- A report as the library presents it. -/
def Report.remark : Report → Option Remark
  | .asked t args => (stdEntry t args).map .told
  | .done t args vs => (stdEntry t args).map (.got · vs)

/-- The reports that the analysis has hooks for are, in order, what it gets to know as `remarks`. -/
def Interface.Learns (iface : Interface) (rs : Account) (remarks : List Remark) : Prop :=
  (rs.filter fun r => (iface.trap r.trap).isSome).map Report.remark = remarks.map some

theorem Interface.Learns.heard {iface : Interface} {rs : Account} {remarks : List Remark} (h : iface.Learns rs remarks) {r : Report} {x : Remark} (ht : (iface.trap r.trap).isSome)
    (he : r.remark = some x) : iface.Learns (rs ++ [r]) (remarks ++ [x]) := by
  unfold Interface.Learns at *
  simp only [List.filter_append, List.filter_cons, ht, if_true, List.filter_nil, List.map_append, h, List.map_cons, List.map_nil, he]

theorem Interface.Learns.unheard {iface : Interface} {rs : Account} {remarks : List Remark} (h : iface.Learns rs remarks) {r : Report} (ht : iface.trap r.trap = none) :
    iface.Learns (rs ++ [r]) remarks := by
  unfold Interface.Learns at *
  simp only [List.filter_append, List.filter_cons, ht, Option.isSome_none, Bool.false_eq_true, if_false, List.filter_nil, List.append_nil, h]

/-- The reports and the state of the analysis after learning them. -/
def Learnt (iface : Interface) (o : Observer A) (a : A) (rs : Account) (a' : A) : Prop := ∃ remarks, iface.Learns rs remarks ∧ a' = remarks.foldl o.tell a

theorem Learnt.heard {iface : Interface} {o : Observer A} {a x : A} {rs : Account} (h : Learnt iface o a rs x) {r : Report} {k : Remark} (ht : (iface.trap r.trap).isSome)
    (he : r.remark = some k) : Learnt iface o a (rs ++ [r]) (o.tell x k) := by
  obtain ⟨remarks, h1, rfl⟩ := h
  exact ⟨remarks ++ [k], h1.heard ht he, by simp⟩

theorem Learnt.unheard {iface : Interface} {o : Observer A} {a x : A} {rs : Account} (h : Learnt iface o a rs x) {r : Report} (ht : iface.trap r.trap = none) :
    Learnt iface o a (rs ++ [r]) x := by
  obtain ⟨remarks, h1, h2⟩ := h
  exact ⟨remarks, h1.unheard ht, h2⟩

theorem stdEntry_performs {t : Trap} {args : List RVal} {adv : Advice} (h : stdEntry t args = some adv) : adv.performs = t.performs := by
  cases t <;> simp only [stdEntry] at h <;> split at h <;>
    first
    | (cases h; done)
    | (cases h; rfl)
    | (simp only [Option.map_eq_some_iff] at h; obtain ⟨_, _, rfl⟩ := h; rfl)

theorem Trap.performs_of {b : Basic} {t : Trap} {k info} (hd : delegation b = some (t, k, info)) : t.performs = true := by
  cases h : t.performs with
  | true => rfl
  | false => exact absurd hd (Trap.observes_of_not_performs h b k info)

/-- Executions whose program states agree and whose reports and analysis state are related by `Z`. -/
def reportingRel (Γ : Ctx) (Z : Account → A → Prop) (fl fr tl : Bool) : Rel (W × Account) (W × A) :=
  ⟨SameState Γ [] [] (fun (p : W × Account) (q : W × A) => p.1 = q.1 ∧ Z p.2 q.2), fl, fr, tl, fun _ _ => False, fun _ => False⟩

/-- An analysis that forwards and keeps its state as `o` says. -/
structure ObservesFor (N : Num) (iface : Interface) (o : Observer A) (callOK : (Nat → List RVal → Store (W × A) → Res (W × A)) → Prop) (B : Basic → Prop) (tl mo : Bool)
    (H : Imports (W × A)) : Prop where
  shown : ∀ t e, iface.trap t = some e → t.Observes → ∀ call, callOK call → ∀ args (s : Store W) a, args.map RVal.type = t.args →
    ∃ adv, stdEntry t args = some adv ∧
      H "WASTRUMENTATION_ANALYSIS" e.name call args (s.withAnalysis a) = .ok (args.take t.results.length) (s.withAnalysis (o.before adv a))
  performed : ∀ t e, iface.trap t = some e → ∀ b k info, delegation b = some (t, k, info) → B b →
    ∀ call, callOK call → ∀ operands location (s : Store W) a, operands.length = k → location.length = 2 →
      (operands ++ info ++ location).map RVal.type = t.args → (∀ x ∈ s.mems, x.Bounded) →
      (tl = true ∧ ∃ s1, execute N b operands s = .trap s1) ∨
      (mo = true ∧ H "WASTRUMENTATION_ANALYSIS" e.name call (operands ++ info ++ location) (s.withAnalysis a) = .fuel) ∨
      ∃ adv, stdEntry t (operands ++ info ++ location) = some adv ∧
        H "WASTRUMENTATION_ANALYSIS" e.name call (operands ++ info ++ location) (s.withAnalysis a) = match execute N b operands s with
          | .ok vs s1 => .ok vs (s1.withAnalysis (o.after adv vs (o.before adv a)))
          | r => r.withAnalysis (o.before adv a)

/-- The hooks of an observing analysis keep the executions in step. -/
theorem observing_hooks {C iface ts m r} (hs : SmallModule m) (h : Instruments C iface ts m r) {N : Num} {o : Observer A}
    {callOK : (Nat → List RVal → Store (W × A) → Res (W × A)) → Prop} {B : Basic → Prop} {tl mo : Bool} {H : Imports (W × A)}
    (hF : ObservesFor N iface o callOK (fun b => B b ∧ m.ctx.HasMem b) tl mo H) (a0 : A) {fl fr : Bool} (hmo : mo = true → fr = true) {k : Nat} (hk : fr = true ∨ 1 ≤ k) {L d : Nat}
    {targets : List Nat} {σ' : Sel} {E : Env (W × Account)} (hE : E.num = N)
    (hcalls : ∀ d', d + k = d' + 1 → callOK (callF N (underAnalysis C m targets H σ' (r.module.functions.drop m.functions.length)) L d')) :
    (reportingRel m.ctx (Learnt iface o a0) fl fr tl).Reporting m.ctx B (hookSel iface m.functions.length) E
      (envAt N (underAnalysis C m targets H σ' (r.module.functions.drop m.functions.length)) L (d + k)) := by
  refine ⟨?_, ?_, ?_⟩
  · intro x hσ s s' hS
    have ht := hookSel_none_iff.1 hσ
    simp only [reportingRel, SameState.iff] at hS ⊢
    obtain ⟨h1, ⟨h2, h3⟩, h4⟩ := hS
    exact ⟨h1.world rfl rfl rfl rfl rfl, ⟨h2, h3.unheard ht⟩, h4⟩
  · intro t i hσ ho hpre args s s' hty hS
    obtain ⟨e, he, hcall⟩ := hook_call (W' := W × A) hs h hσ
    simp only [envAt]
    cases hdk : d + k with
    | zero => rcases hk with hk | hk
              · exact .fuelR hk
              · omega
    | succ d' =>
      rw [hcall]
      simp only [reportingRel, SameState.iff] at hS
      obtain ⟨h1, ⟨h2, h3⟩, h4, h5, h6, h7, h8⟩ := hS
      obtain ⟨adv, hadv, hsh⟩ := hF.shown t e he ho (callF N (underAnalysis C m targets H σ' (r.module.functions.drop m.functions.length)) L d') (hcalls d' hdk) args
        ⟨s'.globals, s'.mems, s'.tables, s'.datas, s'.elems, s'.world.1⟩ s'.world.2 hty
      have e1 : Store.withAnalysis ⟨s'.globals, s'.mems, s'.tables, s'.datas, s'.elems, s'.world.1⟩ s'.world.2 = s' := rfl
      rw [e1] at hsh
      rw [hsh]
      refine .ok ⟨?_, ?_⟩ ?_
      · rw [List.map_take, hty, hpre]
      · intro v hv f hf
        have : v.type ∈ t.args := by rw [← hty]; exact List.mem_map_of_mem (List.mem_of_mem_take hv)
        rw [hf] at this
        exact absurd this (t.args_num _)
      · simp only [reportingRel, SameState.iff]
        exact ⟨h1.world rfl rfl rfl rfl rfl, ⟨h2, h3.heard (r := .asked t args) (k := .told adv) (by show (iface.trap t).isSome; rw [he]; rfl) (by simp only [Report.remark, hadv]; rfl)⟩,
          h4, h5, h6, h7, h8⟩
  · intro b t j info i hd hσ hB hm ops loc s s' hops hloc hty hS
    obtain ⟨e, he, hcall⟩ := hook_call (W' := W × A) hs h hσ
    simp only [envAt]
    cases hdk : d + k with
    | zero => rcases hk with hk | hk
              · exact .fuelR hk
              · omega
    | succ d' =>
      rw [hcall]
      simp only [reportingRel, SameState.iff] at hS
      obtain ⟨h1, ⟨h2, h3⟩, h4, h5, h6, h7, h8⟩ := hS
      have hperf := hF.performed t e he b j info hd ⟨hB, hm⟩ (callF N (underAnalysis C m targets H σ' (r.module.functions.drop m.functions.length)) L d')
        (hcalls d' hdk) ops loc ⟨s'.globals, s'.mems, s'.tables, s'.datas, s'.elems, s'.world.1⟩ s'.world.2 hops hloc hty (by rw [h5]; exact h1.pages)
      have e1 : Store.withAnalysis ⟨s'.globals, s'.mems, s'.tables, s'.datas, s'.elems, s'.world.1⟩ s'.world.2 = s' := rfl
      rw [e1] at hperf
      rw [execInstr_execute E hd, hE]
      have := execute_sim (Γ := m.ctx) (N := N) (s := s.report (.asked t (ops ++ info ++ loc)))
        (s' := ⟨s'.globals, s'.mems, s'.tables, s'.datas, s'.elems, s'.world.1⟩) hd rfl hm hops hloc hty
        (SameState.iff.2 ⟨h1.world rfl rfl rfl rfl rfl, ⟨rfl, rfl⟩, h4, h5, h6, h7, h8⟩)
      have hsel : (iface.trap t).isSome := by rw [he]; rfl
      rcases hperf with ⟨htl, s1, hx⟩ | ⟨hmo', hx⟩ | ⟨adv, hadv, hh⟩
      · rw [hx] at this
        generalize execute N b ops (s.report (.asked t (ops ++ info ++ loc))) = o at this ⊢
        cases this with
        | trap hS => exact .trapL htl
        | fuelL h => cases h
        | trapL h => cases h
        | trapT h => cases h
        | trapR h => cases h
      · rw [hx]; exact .fuelR (hmo hmo')
      rw [hh]
      have h3' : Learnt iface o a0 (s.report (.asked t (ops ++ info ++ loc))).world.2 (o.before adv s'.world.2) :=
        h3.heard (r := .asked t (ops ++ info ++ loc)) (k := .told adv) hsel (by simp only [Report.remark, hadv]; rfl)
      generalize execute N b ops (s.report (.asked t (ops ++ info ++ loc))) = o1 at this ⊢
      generalize execute N b ops _ = o2 at this ⊢
      cases this with
      | @ok vs s1 s1' hv hS =>
        refine .ok hv ?_
        simp only [SameState.iff] at hS
        simp only [reportingRel, SameState.iff]
        obtain ⟨g1, ⟨g2, g3⟩, g4⟩ := hS
        refine ⟨g1.world rfl rfl rfl rfl rfl, ⟨?_, ?_⟩, g4⟩
        · show s1.world.1 = s1'.world
          rw [g2, g3]; exact h2
        · have : s1.world.2 = (s.report (.asked t (ops ++ info ++ loc))).world.2 := by rw [g2]
          show Learnt iface o a0 (s1.world.2 ++ [_]) _
          rw [this]
          exact h3'.heard (r := .done t (ops ++ info ++ loc) vs) (k := .got adv vs) hsel (by simp only [Report.remark, hadv]; rfl)
      | @trap s1 s1' hS =>
        refine .trap ?_
        simp only [SameState.iff] at hS
        simp only [reportingRel, SameState.iff]
        obtain ⟨g1, ⟨g2, g3⟩, g4⟩ := hS
        refine ⟨g1, ⟨?_, ?_⟩, g4⟩
        · show s1.world.1 = s1'.world
          rw [g2, g3]; exact h2
        · show Learnt iface o a0 s1.world.2 _
          rw [g2]
          exact h3'
      | fuel => exact .fuel
      | fuelL h => cases h
      | fuelR h => cases h
      | trapL h => cases h
      | trapT h => cases h
      | trapR h => cases h

/-- What the forwarding analysis returns for an operation it is handed has the hook's type. -/
theorem forward_typed {m : Module} {N : Num} {base : String → Option Nat} {mo : Bool} {t : Trap} {b k info} (hd : delegation b = some (t, k, info))
    (hmem : m.ctx.HasMem b) {call} (hcall : BaseCalls N base (!m.memories.isEmpty) mo call)
    {ops loc : List RVal} {s : Store W} (hk : ops.length = k) (hl : loc.length = 2) (hty : (ops ++ info ++ loc).map RVal.type = t.args) {adv : Advice}
    (he : stdEntry t (ops ++ info ++ loc) = some adv) {vs s1} (h : forwardBody N base adv call s = .ok vs s1) : vs.map RVal.type = t.results := by
  obtain ⟨f, i, rfl⟩ : ∃ f i, loc = [f, i] := by
    match loc, hl with
    | [f, i], _ => exact ⟨f, i, rfl⟩
  cases b <;> try (simp [delegation] at hd; done)
  case unary op =>
    simp only [delegation, Option.map_eq_some_iff, Prod.mk.injEq] at hd
    obtain ⟨t, hd, rfl, rfl, rfl⟩ := hd
    obtain ⟨v, rfl⟩ : ∃ v, ops = [v] := by match ops, hk with | [v], _ => exact ⟨v, rfl⟩
    rw [(unaryTrap_args hd).1] at hty
    simp only [List.cons_append, List.nil_append, List.map_cons, List.map_nil, List.cons.injEq, and_true] at hty he
    obtain ⟨hv, _, hf, hi⟩ := hty
    obtain ⟨f, rfl⟩ := RVal.of_i64 hf
    obtain ⟨i, rfl⟩ := RVal.of_i64 hi
    obtain ⟨v, rfl, hvn⟩ := RVal.type_num hv op.sig_num
    rw [stdEntry_unary hd hvn, (C17_unary_codes _ op).2 rfl] at he
    cases he
    simp only [forwardBody, op.apply_eq, hvn, if_true] at h
    cases hu : N.unary op v with
    | none => rw [hu] at h; cases h
    | some w => rw [hu] at h; cases h; rw [(unaryTrap_args hd).2, ← N.unary_type op v w hu]; rfl
  case binary op =>
    simp only [delegation, Option.map_eq_some_iff, Prod.mk.injEq] at hd
    obtain ⟨t, hd, rfl, rfl, rfl⟩ := hd
    obtain ⟨v, w, rfl⟩ : ∃ v w, ops = [v, w] := by match ops, hk with | [v, w], _ => exact ⟨v, w, rfl⟩
    rw [(binaryTrap_args hd).1] at hty
    simp only [List.cons_append, List.nil_append, List.map_cons, List.map_nil, List.cons.injEq, and_true] at hty he
    obtain ⟨hv, hw, _, hf, hi⟩ := hty
    obtain ⟨f, rfl⟩ := RVal.of_i64 hf
    obtain ⟨i, rfl⟩ := RVal.of_i64 hi
    obtain ⟨v, rfl, hvn⟩ := RVal.type_num hv op.sig_num
    obtain ⟨w, rfl, hwn⟩ := RVal.type_num hw op.sig_num
    rw [stdEntry_binary hd hvn hwn, (C17_binary_codes _ op).2 rfl] at he
    cases he
    simp only [forwardBody, op.apply_eq, hvn, hwn, and_self, if_true] at h
    cases hu : N.binary op v w with
    | none => rw [hu] at h; cases h
    | some x => rw [hu] at h; cases h; rw [(binaryTrap_args hd).2, ← N.binary_type op v w x hu]; rfl
  case load op ma =>
    simp only [delegation, Option.map_eq_some_iff, Prod.mk.injEq] at hd
    obtain ⟨t, hd, rfl, rfl, rfl⟩ := hd
    obtain ⟨v, rfl⟩ : ∃ v, ops = [v] := by match ops, hk with | [v], _ => exact ⟨v, rfl⟩
    rw [(loadTrap_args hd).1] at hty
    simp only [List.cons_append, List.nil_append, List.map_cons, List.map_nil, List.cons.injEq, and_true] at hty he
    obtain ⟨hv, _, _, hf, hi⟩ := hty
    obtain ⟨f, rfl⟩ := RVal.of_i64 hf
    obtain ⟨i, rfl⟩ := RVal.of_i64 hi
    obtain ⟨x, rfl⟩ := RVal.of_i32 hv
    have hne : (!m.memories.isEmpty) = true := by
      have : 0 < m.ctx.mems := hmem
      cases h : m.memories with
      | nil => simp [Module.ctx, h] at this
      | cons => rfl
    rw [stdEntry_load hd, (C17_load_codes _ op).2 rfl] at he
    cases he
    simp only [forwardBody, LoadOp.perform, op.callee_eq] at h
    split at h
    · cases h
    · rename_i off _
      rcases hcall.load hne op x off s with ⟨_, h2⟩ | h2
      · have := h2.symm.trans h; cases this
      · have := h2.symm.trans h
        rw [show execute N (.load op ⟨0, op.alignExp⟩) [.i32 (x + off)] s = _ from execInstr_load _ _ _ _ _] at this
        cases h0 : s.mems[0]? with
        | none => rw [h0] at this; cases this
        | some y =>
          rw [h0] at this
          dsimp only at this
          split at this
          · rename_i v hv
            cases this
            rw [(loadTrap_args hd).2]
            simp only [Mem.load] at hv
            split at hv <;> cases hv
            exact congrArg (· :: []) (LoadOp.decode_type _ _)
          · cases this
  case store op ma =>
    simp only [delegation, Option.map_eq_some_iff, Prod.mk.injEq] at hd
    obtain ⟨t, hd, rfl, rfl, rfl⟩ := hd
    obtain ⟨a, v, rfl⟩ : ∃ v w, ops = [v, w] := by match ops, hk with | [v, w], _ => exact ⟨v, w, rfl⟩
    rw [(storeTrap_args hd).1] at hty
    simp only [List.cons_append, List.nil_append, List.map_cons, List.map_nil, List.cons.injEq, and_true] at hty he
    obtain ⟨ha, hv, _, _, hf, hi⟩ := hty
    obtain ⟨f, rfl⟩ := RVal.of_i64 hf
    obtain ⟨i, rfl⟩ := RVal.of_i64 hi
    obtain ⟨x, rfl⟩ := RVal.of_i32 ha
    obtain ⟨v, rfl, hvn⟩ := RVal.type_num hv op.ty_num
    have hne : (!m.memories.isEmpty) = true := by
      have : 0 < m.ctx.mems := hmem
      cases h : m.memories with
      | nil => simp [Module.ctx, h] at this
      | cons => rfl
    rw [stdEntry_store hd hvn, (C17_store_codes _ op).2 rfl] at he
    cases he
    simp only [forwardBody, StoreOp.perform, op.callee_eq, hvn, if_true] at h
    split at h
    · cases h
    · rename_i off _
      rcases hcall.store hne op x v off s with ⟨_, h2⟩ | h2
      · have := h2.symm.trans h; cases this
      · have := h2.symm.trans h
        rw [show execute N (.store op ⟨0, op.alignExp⟩) [.i32 (x + off), .num v] s = _ from execInstr_store _ _ _ _ _ _, if_pos hvn] at this
        rw [(storeTrap_args hd).2]
        cases h0 : s.mems[0]? with
        | none => rw [h0] at this; cases this
        | some y =>
          rw [h0] at this
          dsimp only at this
          split at this <;> cases this
          rfl
  case memoryGrow j =>
    simp only [delegation, Option.some.injEq, Prod.mk.injEq] at hd
    obtain ⟨rfl, rfl, rfl⟩ := hd
    obtain ⟨v, rfl⟩ : ∃ v, ops = [v] := by match ops, hk with | [v], _ => exact ⟨v, rfl⟩
    simp only [Trap.args, List.cons_append, List.nil_append, List.map_cons, List.map_nil, List.cons.injEq, and_true] at hty he
    obtain ⟨hv, _, hf, hi⟩ := hty
    obtain ⟨f, rfl⟩ := RVal.of_i64 hf
    obtain ⟨i, rfl⟩ := RVal.of_i64 hi
    obtain ⟨x, rfl⟩ := RVal.of_i32 hv
    have hne : (!m.memories.isEmpty) = true := by
      have : j < m.ctx.mems := hmem
      cases h : m.memories with
      | nil => simp [Module.ctx, h] at this
      | cons => rfl
    change some (Advice.memoryGrow (.i32 x) (BitVec.ofNat 64 j) (.new f i)) = some adv at he
    cases he
    simp only [forwardBody, stdGrow] at h
    split at h
    · cases h
    · rename_i off _
      rcases hcall.grow hne x off s with ⟨_, h2⟩ | h2
      · have := h2.symm.trans h; cases this
      · have := h2.symm.trans h
        simp only [execute, execInstr, step, List.reverse_cons, List.reverse_nil, List.nil_append] at this
        cases hm : s.mems[0]? with
        | none => rw [hm] at this; cases this
        | some y =>
          rw [hm] at this
          dsimp only at this
          cases hg : y.grow x.toNat <;> rw [hg] at this <;> cases this <;> rfl

/-- Around the library's entry, an observing analysis does what the forwarding one does and keeps its state. -/
theorem Observer.hook {o : Observer A} {N : Num} {base : String → Option Nat} {t : Trap} {args : List RVal} {adv : Advice}
    {call : Nat → List RVal → Store (W × A) → Res (W × A)} {s : Store W} {a : A} (he : stdEntry t args = some adv)
    (hty : ∀ vs s1, forwardBody N base adv call (s.withAnalysis (o.before adv a)) = .ok vs s1 → vs.map RVal.type = t.results) :
    stdHook (o.body N base) t call args (s.withAnalysis a) = match stdHook (forwardBody N base) t call args (s.withAnalysis (o.before adv a)) with
      | .ok vs s1 => if t.performs then .ok vs { s1 with world := (s1.world.1, o.after adv vs s1.world.2) } else .ok vs s1
      | r => r := by
  rw [stdHook_ok he hty]
  have e' : ({ (s.withAnalysis a) with world := ((s.withAnalysis a).world.1, o.before adv (s.withAnalysis a).world.2) } : Store (W × A)) = s.withAnalysis (o.before adv a) := rfl
  rw [stdHook_ok he]
  · unfold Observer.body
    rw [e', stdEntry_performs he]
  · intro vs s1
    unfold Observer.body
    rw [e']
    cases hb : forwardBody N base adv call (s.withAnalysis (o.before adv a)) with
    | ok ws s2 =>
      dsimp only
      intro h
      split at h <;> cases h <;> exact hty _ _ hb
    | _ => intro h; cases h

/-- An observing analysis observes. With `exact`, traps are accounted for too. -/
theorem observer_observes {m : Module} (hm1 : m.memories.length ≤ 1) {N : Num} {base : String → Option Nat} {iface : Interface} (hst : iface.Documented)
    {o : Observer A} {exact mo : Bool} {H : Imports (W × A)} (hL : LinkedTo iface (o.body N base) H) :
    ObservesFor N iface o (BaseCalls N base (!m.memories.isEmpty) mo)
      (fun b => OffsetsAre iface (fun o => o.toNat < 2 ^ 31 ∧ (exact = true → o = 0)) b ∧ m.ctx.HasMem b) (!exact) mo H := by
  have hH : ∀ t e, iface.trap t = some e → H "WASTRUMENTATION_ANALYSIS" e.name = stdHook (o.body N base) t := by
    intro t e he
    have hnm := hL t (by rw [he]; rfl)
    rw [C49_library_exports_what_is_imported] at hnm
    rw [hst t e he]
    exact hnm
  refine ⟨?_, ?_⟩
  · intro t e he ho call _ args s a hty
    rw [hH t e he]
    have hp := Trap.not_performs ho
    have hf : ∀ x, stdHook (forwardBody N base) t call args (s.withAnalysis x) = .ok (args.take t.results.length) (s.withAnalysis x) :=
      fun x => forward_shown hp call args _ hty
    cases hadv : stdEntry t args with
    | none => have := hf a; unfold stdHook at this; rw [hadv] at this; cases this
    | some adv =>
      refine ⟨adv, rfl, ?_⟩
      rw [Observer.hook hadv, hf]
      · simp only [hp, Bool.false_eq_true, if_false]
      · intro vs s1 hb
        have h1 := hf (o.before adv a)
        unfold stdHook at h1
        rw [hadv] at h1
        dsimp only at h1
        rw [hb] at h1
        dsimp only at h1
        split at h1
        · rename_i h2; rwa [C49_library_exports_what_is_imported] at h2
        · cases h1
  · intro t e he b k info hd hB call hcall ops loc s a hk hl hty hbd
    rw [hH t e he]
    obtain ⟨adv, hadv⟩ := stdEntry_delegation hd hk hl hty
    have hp := Trap.performs_of hd
    have hex := execute_withAnalysis (N := N) hd ops s (o.before adv a)
    have htyp : ∀ vs s1, forwardBody N base adv call (s.withAnalysis (o.before adv a)) = .ok vs s1 → vs.map RVal.type = t.results :=
      fun _ _ h => forward_typed hd hB.2 hcall hk hl hty hadv h
    rcases forward_performed hm1 (by rw [he]; rfl) hd hB hcall hk hl hty (s := s.withAnalysis (o.before adv a)) hbd with ⟨h1, s1, h2⟩ | ⟨h1, h2⟩ | h1
    · refine .inl ⟨by simp [h1], ?_⟩
      rw [hex] at h2
      cases hx : execute N b ops s with
      | trap s2 => exact ⟨s2, rfl⟩
      | _ => rw [hx] at h2; cases h2
    · exact .inr (.inl ⟨h1, by rw [Observer.hook hadv htyp, h2]⟩)
    · refine .inr (.inr ⟨adv, hadv, ?_⟩)
      rw [Observer.hook hadv htyp, h1, hex]
      cases execute N b ops s with
      | ok vs s1 => simp only [Res.withAnalysis, hp, if_true]; rfl
      | _ => rfl

/-- The functions the embedder provides do the same beside reports and beside an analysis (provided the functions of the
program that they call back do), and touch neither. -/
def ImportsBesideBoth {X Y : Type} (m : Module) (T : Imports (W × X)) (H : Imports (W × Y)) : Prop :=
  ∀ f ∈ m.functions, ∀ ns name, f.code = .imported ns name → ∀ (Z : X → Y → Prop) fl fr tl (pn : Prop),
    HostsAgree ⟨SameState m.ctx [] [] (fun (p : W × X) (q : W × Y) => p.1 = q.1 ∧ Z p.2 q.2), fl, fr, tl, fun _ _ => False, fun _ => pn⟩
      m.ctx f.type (T ns name) (H ns name)

/-- Imports that do not call back do the same whatever they run beside. -/
theorem ImportsBesideBoth.plain {X Y : Type} {m : Module} {H : Imports W} {T : Imports (W × X)} {H' : Imports (W × Y)}
    (hp : ∀ f ∈ m.functions, ∀ ns name, f.code = .imported ns name → PlainImport m.ctx f.type (H ns name) ∧ T ns name = H.beside X ns name ∧ H' ns name = H.beside Y ns name) :
    ImportsBesideBoth m T H' := by
  intro f hf ns name hc Z fl fr tl pn call call' _ args s s' ha hS
  obtain ⟨⟨h1, h2⟩, h3, h4⟩ := hp f hf ns name hc
  rw [h3, h4]
  simp only [Imports.beside]
  dsimp only at hS
  obtain ⟨g1, ⟨g2, g3⟩, g4, g5, g6, g7, g8⟩ := SameState.iff.1 hS
  rw [g4, g5, g6, g7, g8, ← g2]
  have hok : StoreOK m.ctx (⟨s.globals, s.mems, s.tables, s.datas, s.elems, s.world.1⟩ : Store W) := g1.world rfl rfl rfl rfl rfl
  rcases h2 (fun _ _ _ => .stuck) args _ ha hok with ⟨vs, s1, e1, hv, hs1⟩ | ⟨s1, e1, hs1⟩
  · rw [e1]
    refine .ok hv ?_
    simp only [SameState.iff]
    exact ⟨hs1.world rfl rfl rfl rfl rfl, ⟨rfl, g3⟩, rfl, rfl, rfl, rfl, rfl⟩
  · rw [e1]
    refine .trap ?_
    simp only [SameState.iff]
    exact ⟨hs1.world rfl rfl rfl rfl rfl, ⟨rfl, g3⟩, rfl, rfl, rfl, rfl, rfl⟩

/-- A program instrumented for an observing analysis on the Rust library, linked with it: the hypotheses of the theorems. -/
structure Observing (C : Checker) (iface : Interface) (ts : Option (List Nat)) (m : Module) (r : Instrumented) (N : Num) (o : Observer A)
    (T : Imports (W × Account)) (H : Imports (W × A)) : Prop where
  small : SmallModule m
  documented : iface.Documented
  noApply : iface.generic = none
  instruments : Instruments C iface ts m r
  valid : ValidModule m
  annotated : ∀ i ∈ bodyTargets m ts, ∀ f, m.functions[i]? = some f → WellAnnotated m f (bodyOf C m i)
  reserved : ∀ name ∈ iface.toolExports, name ∉ m.exportNames
  linked : LinkedTo iface (o.body N r.module.exported) H
  imports : ImportsBesideBoth m T H

theorem observer_agrees {C iface ts m r} {N : Num} {o : Observer A} {T : Imports (W × Account)} {H : Imports (W × A)} (hW : Observing C iface ts m r N o T H) {exact : Bool}
    (hoff : ∀ i ∈ bodyTargets m ts, ∀ f c, m.functions[i]? = some f → f.code = .present c →
      OnlyCode (OffsetsAre iface (fun o => o.toNat < 2 ^ 31 ∧ (exact = true → o = 0))) c.body)
    (a0 : A) {fl fr : Bool} {k : Nat} (h1 : fl = true ∨ k = 0) (h2 : fr = true ∨ 2 ≤ k) (L d : Nat) :
    CallsAgree (reportingRel m.ctx (Learnt iface o a0) fl fr (!exact)) m.ctx
      (callF N (reported C m (bodyTargets m ts) T) L d) (callF N (machineOf H r.module.functions) L (d + k)) := by
  have hm1 : m.memories.length ≤ 1 := by
    obtain ⟨ord, ord', ho, ho', h⟩ := hW.instruments
    exact ((instrument_ok_iff ho ho' hW.small).1 ⟨r, h⟩).1
  have hvr := C15_instrumented_module_valid hW.small hW.documented.standard (by intro ge cb h; rw [hW.noApply] at h; cases h) hW.instruments hW.valid hW.annotated hW.reserved
  refine reported_agrees hW.small hW.documented.standard hW.noApply hW.instruments hW.valid hW.annotated
    (B := OffsetsAre iface (fun o => o.toNat < 2 ^ 31 ∧ (exact = true → o = 0))) hoff
    (R := reportingRel m.ctx (Learnt iface o a0) fl fr (!exact))
    (Q := fun (p : W × Account) (q : W × A) => p.1 = q.1 ∧ Learnt iface o a0 p.2 q.2) rfl
    (k := k) h1 (N := N) (L := L) (H := T) (H' := H) (fun f hf ns name hc => hW.imports f hf ns name hc _ fl fr _ _)
    (fun d => observing_hooks hW.small hW.instruments (observer_observes hm1 hW.documented (exact := exact) (mo := fr) hW.linked) a0 (by simp) (h2.imp id (by omega)) rfl ?_) d
  intro d' hd'
  have e : callF N (underAnalysis C m (bodyTargets m ts) H (hookSel iface m.functions.length) (r.module.functions.drop m.functions.length)) L d' =
      callF N (machineOf H r.module.functions) L d' := by
    funext f args s; exact (C09_instrumented_is_interposed hW.small hW.documented.standard hW.noApply hW.instruments N H L d' f args s).symm
  rw [e]
  exact base_calls hW.small hW.instruments hvr.exports N H L d' fr (h2.imp id (by omega))

theorem reported_state {Γ : Ctx} {Z : Account → A → Prop} {s1 : Store (W × Account)} {s1' : Store (W × A)}
    (h : SameState Γ [] [] (fun (p : W × Account) (q : W × A) => p.1 = q.1 ∧ Z p.2 q.2) s1 s1') :
    ∃ (p : Store W) (rs : Account) (a' : A), s1 = p.withAnalysis rs ∧ s1' = p.withAnalysis a' ∧ Z rs a' := by
  obtain ⟨_, ⟨h2, h3⟩, h4, h5, h6, h7, h8⟩ := SameState.iff.1 h
  refine ⟨⟨s1.globals, s1.mems, s1.tables, s1.datas, s1.elems, s1.world.1⟩, s1.world.2, s1'.world.2, rfl, ?_, h3⟩
  obtain ⟨g, me, t, da, e, w, a⟩ := s1'
  simp only at h2 h4 h5 h6 h7 h8
  subst h2 h4 h5 h6 h7 h8
  rfl

end Wastrum
