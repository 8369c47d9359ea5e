import Verif.Report
import Verif.ExMem
/-!
# What an analysis that also looks at results knows at the end (C90)
-/

set_option linter.unusedSimpArgs false
set_option linter.unusedVariables false

namespace Wastrum

variable {W A : Type}

/-! ## The reported program is the program -/

/-- The questions among the reports: the log of C11. -/
def Account.questions (rs : Account) : Log := rs.filterMap fun
  | .asked t args => some (t, args)
  | .done _ _ _ => none

/-- Executions with a log and with reports. -/
def loggingRel (Γ : Ctx) : Rel (W × Log) (W × Account) :=
  ⟨SameState Γ [] [] (fun (p : W × Log) (q : W × Account) => p.1 = q.1 ∧ q.2.questions = p.2), false, false, false, fun _ _ => False, fun _ => False⟩

theorem noted_reported_body {Γ : Ctx} {E : Env (W × Log)} {E' : Env (W × Account)}
    (hE : (loggingRel Γ).Envs Γ E E') {b : List TI} {ty : FuncType} {locals : List ValType}
    (ht : TTyL (Γ.body ty locals) b [] ty.results.reverse) {c c'} (hc : (loggingRel Γ).Cfgs (Γ.body ty locals) [] c c') :
    (loggingRel Γ).Outs (Γ.body ty locals) ty.results.reverse (gdenL (noting E logEvent) E.loopFuel b c) (gdenL (reporting E') E'.loopFuel b c') := by
  rw [hE.loopFuel]
  have asked : ∀ {Γ'} {ts} {c : Cfg (W × Log)} {c' : Cfg (W × Account)} (m : Meta) (t : Trap) (k : Nat) (info : List RVal), (loggingRel Γ).Cfgs Γ' ts c c' →
      (loggingRel Γ).Cfgs Γ' ts { c with store := note logEvent t (shown m k info c) c.store } { c' with store := c'.store.report (.asked t (shown m k info c')) } := by
    intro Γ' ts c c' m t k info hc
    have e : shown m k info c' = shown m k info c := by unfold shown; rw [hc.stack]
    rw [e]
    refine { hc with store := ?_ }
    have := hc.store
    simp only [loggingRel, SameState.iff] at this ⊢
    obtain ⟨h1, ⟨h2, h3⟩, h4⟩ := this
    refine ⟨h1.world rfl rfl rfl rfl rfl, ⟨h2, ?_⟩, h4⟩
    show Account.questions (c'.store.world.2 ++ _) = c.store.world.2 ++ _
    rw [← h3]
    simp [Account.questions]
  refine (sim (Γ₀ := Γ.body ty locals) (B := fun _ => True) ?_ ?_).2 _ (fun _ _ => trivial) _ ⟨_, rfl⟩ _ _ ht c c' hc
  · intro Γ' hΓ m b a e c c' hB hb hc
    have hm := (Ctx.SameModule.body Γ ty locals).sameBut hΓ
    have hS : (loggingRel (W := W) Γ).S = SameState Γ' [] [] (fun (p : W × Log) (q : W × Account) => p.1 = q.1 ∧ q.2.questions = p.2) :=
      SameState.congr (Q := fun (p : W × Log) (q : W × Account) => p.1 = q.1 ∧ q.2.questions = p.2) hm
    simp only [noting, reporting]
    cases hd : delegation b with
    | none => exact step_sim hS (hE.congr hm) hb hc
    | some p =>
      obtain ⟨t, k, info⟩ := p
      dsimp only
      have h1 := step_sim hS (hE.congr hm) hb (asked m t k info hc)
      rw [← Out.bind_norm_right (step E b _)]
      refine h1.bind fun c1 c1' h => .norm { h with store := ?_ }
      have := h.store
      simp only [loggingRel, SameState.iff] at this ⊢
      obtain ⟨h1, ⟨h2, h3⟩, h4⟩ := this
      refine ⟨h1, ⟨h2, ?_⟩, h4⟩
      show Account.questions (c1'.store.world.2 ++ _) = _
      rw [← h3]
      simp [Account.questions]
  · intro Γ' hΓ m t ins info a c c' hq hc
    exact .norm (asked m t ins.length info hc)

/-- **C90, the reports.** `reported` is the original program, running with reports of every executed instruction of a target function at every place a hook exists for,
and of the results of the operations: it does exactly what the traced program (C11) does, which does what the original does; and the questions among the reports are the trace. -/
theorem C90_reports_extend_the_trace {C m targets} (hv : ValidModule m)
    (hB : ∀ i ∈ targets, ∀ f, m.functions[i]? = some f → WellAnnotated m f (bodyOf C m i)) {N : Num} {T : Imports (W × Log)} {G : Imports (W × Account)}
    (hI : ImportsBesideBoth m T G)
    {f : Nat} {ty : FuncType} {args : List RVal} {s : Store W} (hf : m.ctx.ftype f = some ty) (hargs : ValsOK m.ctx args ty.inputs)
    (hok : StoreOK m.ctx s) (L d : Nat) :
    ∃ (o : Res W) (rs : Account), callF N (reported C m targets G) L d f args (s.withAnalysis []) = o.withAnalysis rs ∧
      callF N (traced C m targets T logEvent) L d f args (s.withAnalysis []) = o.withAnalysis rs.questions := by
  have key : CallsAgree (loggingRel m.ctx) m.ctx (callF N (traced C m targets T logEvent) L d) (callF N (reported C m targets G) L (d + 0)) := by
    refine calls_agree (P := fun E E' => E.num = N) (.inr rfl) (fun _ => rfl) ?_ d
    intro f ty hf
    simp only [Module.ctx, Option.map_eq_some_iff] at hf
    obtain ⟨g, hg, rfl⟩ := hf
    have hm := List.mem_of_getElem? hg
    cases hc : g.code with
    | imported ns name =>
      exact ⟨.host (T ns name), .host (G ns name), by simp only [traced, hg, Option.map_some, hc],
        by simp only [reported, hg, Option.map_some, hc], .host (hI g hm ns name hc (fun l rs => rs.questions = l) _ _ _ False)⟩
    | present c =>
      refine ⟨.code c.locals fun E => if f ∈ targets then gdenL (noting E logEvent) E.loopFuel (bodyOf C m f) else denFlat E c.body,
        .code c.locals fun E => if f ∈ targets then gdenL (reporting E) E.loopFuel (bodyOf C m f) else denFlat E c.body,
        by simp only [traced, hg, Option.map_some, hc], by simp only [reported, hg, Option.map_some, hc], .code ?_⟩
      intro E E' hE _ cfg cfg' hcc
      by_cases hi : f ∈ targets
      · rw [if_pos hi, if_pos hi]
        exact noted_reported_body hE (hB f hi g hg c hc) hcc
      · rw [if_neg hi, if_neg hi]
        exact plain_body_agrees (T := []) (X := []) (Q := fun (p : W × Log) (q : W × Account) => p.1 = q.1 ∧ q.2.questions = p.2) rfl hE (hv.functions g hm c hc) hcc
  have hS : SameState m.ctx [] [] (fun (p : W × Log) (q : W × Account) => p.1 = q.1 ∧ q.2.questions = p.2) (s.withAnalysis []) (s.withAnalysis []) :=
    SameState.iff.2 ⟨hok.world rfl rfl rfl rfl rfl, ⟨rfl, rfl⟩, rfl, rfl, rfl, rfl, rfl⟩
  have := key.ok hf hargs hS rfl (fun _ _ h => h) (fun _ h => h)
  simp only [loggingRel, Bool.false_eq_true, false_or, and_false, Nat.add_zero] at this
  have state : ∀ {s1 : Store (W × Log)} {s1' : Store (W × Account)},
      SameState m.ctx [] [] (fun (p : W × Log) (q : W × Account) => p.1 = q.1 ∧ q.2.questions = p.2) s1 s1' →
      ∃ (p : Store W) (rs : Account), s1' = p.withAnalysis rs ∧ s1 = p.withAnalysis rs.questions := by
    intro s1 s1' h
    obtain ⟨_, ⟨h2, h3⟩, h4, h5, h6, h7, h8⟩ := SameState.iff.1 h
    refine ⟨⟨s1'.globals, s1'.mems, s1'.tables, s1'.datas, s1'.elems, s1'.world.1⟩, s1'.world.2, rfl, ?_⟩
    obtain ⟨g, me, t, da, e, w, a⟩ := s1
    simp only at h2 h3 h4 h5 h6 h7 h8
    subst h2 h3 h4 h5 h6 h7 h8
    rfl
  rcases this with ⟨h1, h2⟩ | ⟨vs, s1, s1', h1, h2, h3⟩ | ⟨s1, s1', h1, h2, h3⟩
  · exact ⟨.fuel, [], h2, h1⟩
  · obtain ⟨p, rs, rfl, rfl⟩ := state h3
    exact ⟨.ok vs p, rs, h2, h1⟩
  · obtain ⟨p, rs, rfl, rfl⟩ := state h3
    exact ⟨.trap p, rs, h2, h1⟩

/-! ## What the analysis knows -/

/-- **C90, the analysis.** The instrumented program does what the original does — results, traps and state — and at the end the analysis is in the state that
results from telling it, in order, the reports of the original program, as the library presents them: where the program is, and the results of the operations it performs. The proviso on
static offsets of loads and stores the analysis has hooks for is that of C48. -/
theorem C90_observing_exact {C iface ts m r} {N : Num} {o : Observer A} {T : Imports (W × Account)} {H : Imports (W × A)}
    (hW : Observing C iface ts m r N o T H)
    (hoff : ∀ i ∈ bodyTargets m ts, ∀ f c, m.functions[i]? = some f → f.code = .present c → OnlyCode (OffsetsAre iface fun o => o = 0) c.body)
    {f : Nat} {ty : FuncType} {args : List RVal} {s : Store W} (hf : m.ctx.ftype f = some ty) (hargs : ValsOK m.ctx args ty.inputs)
    (hok : StoreOK m.ctx s) (a : A) (L d : Nat) :
    (∀ vs (s1 : Store W) (rs : Account), callF N (reported C m (bodyTargets m ts) T) L d f args (s.withAnalysis []) = .ok vs (s1.withAnalysis rs) →
      ∃ remarks, iface.Learns rs remarks ∧
        callF N (machineOf H r.module.functions) L (d + 2) f args (s.withAnalysis a) = .ok vs (s1.withAnalysis (remarks.foldl o.tell a))) ∧
    (∀ (s1 : Store W) (rs : Account), callF N (reported C m (bodyTargets m ts) T) L d f args (s.withAnalysis []) = .trap (s1.withAnalysis rs) →
      ∃ remarks, iface.Learns rs remarks ∧
        callF N (machineOf H r.module.functions) L (d + 2) f args (s.withAnalysis a) = .trap (s1.withAnalysis (remarks.foldl o.tell a))) ∧
    (∀ vs s1', callF N (machineOf H r.module.functions) L d f args (s.withAnalysis a) = .ok vs s1' →
      ∃ (s1 : Store W) (rs : Account) (remarks : List Remark), callF N (reported C m (bodyTargets m ts) T) L d f args (s.withAnalysis []) = .ok vs (s1.withAnalysis rs) ∧
        iface.Learns rs remarks ∧ s1' = s1.withAnalysis (remarks.foldl o.tell a)) ∧
    (∀ s1', callF N (machineOf H r.module.functions) L d f args (s.withAnalysis a) = .trap s1' →
      ∃ (s1 : Store W) (rs : Account) (remarks : List Remark), callF N (reported C m (bodyTargets m ts) T) L d f args (s.withAnalysis []) = .trap (s1.withAnalysis rs) ∧
        iface.Learns rs remarks ∧ s1' = s1.withAnalysis (remarks.foldl o.tell a)) ∧
    callF N (machineOf H r.module.functions) L d f args (s.withAnalysis a) ≠ .stuck := by
  have hoff' : ∀ i ∈ bodyTargets m ts, ∀ f c, m.functions[i]? = some f → f.code = .present c →
      OnlyCode (OffsetsAre iface (fun o => o.toNat < 2 ^ 31 ∧ (true = true → o = 0))) c.body := by
    intro i hi f c hf hc b hb t k info hd ht
    have := hoff i hi f c hf hc b hb t k info hd ht
    cases b <;> first | trivial | (simp only at this ⊢; rw [this]; exact ⟨by decide, fun _ => rfl⟩)
  have hS : (reportingRel (W := W) m.ctx (Learnt iface o a) true false false).S (s.withAnalysis []) (s.withAnalysis a) :=
    (SameState.iff (Q := fun (p : W × Account) (q : W × A) => p.1 = q.1 ∧ Learnt iface o a p.2 q.2) (s := s.withAnalysis []) (s' := s.withAnalysis a)).2 ⟨hok.world rfl rfl rfl rfl rfl, ⟨rfl, [], rfl, rfl⟩, rfl, rfl, rfl, rfl, rfl⟩
  have k1 := (observer_agrees hW (exact := true) hoff' a (fl := true) (fr := false) (k := 2) (.inl rfl) (.inr (Nat.le_refl _)) L d).ok hf hargs hS rfl
    (fun _ _ h => h) (fun _ h => h)
  have k2 := (observer_agrees hW (exact := true) hoff' a (fl := false) (fr := true) (k := 0) (.inr rfl) (.inl rfl) L d).ok hf hargs hS rfl
    (fun _ _ h => h) (fun _ h => h)
  simp only [reportingRel, Bool.false_eq_true, and_false, false_or, Nat.add_zero, and_true] at k1 k2
  generalize callF N (reported C m (bodyTargets m ts) T) L d f args (s.withAnalysis []) = x at k1 k2 ⊢
  generalize callF N (machineOf H r.module.functions) L (d + 2) f args (s.withAnalysis a) = o1 at k1 ⊢
  generalize callF N (machineOf H r.module.functions) L d f args (s.withAnalysis a) = o0 at k2 ⊢
  refine ⟨?_, ?_, ?_, ?_, ?_⟩
  · rintro vs s1 log rfl
    rcases k1 with ⟨h, _⟩ | ⟨_, _, _, h, rfl, hs⟩ | ⟨_, _, h, _⟩ <;> cases h
    obtain ⟨p, l, a', e1, rfl, advs, hl, rfl⟩ := reported_state hs
    obtain ⟨rfl, rfl⟩ := withAnalysis_inj e1
    exact ⟨advs, hl, rfl⟩
  · rintro s1 log rfl
    rcases k1 with ⟨h, _⟩ | ⟨_, _, _, h, _⟩ | ⟨_, _, h, rfl, hs⟩ <;> cases h
    obtain ⟨p, l, a', e1, rfl, advs, hl, rfl⟩ := reported_state hs
    obtain ⟨rfl, rfl⟩ := withAnalysis_inj e1
    exact ⟨advs, hl, rfl⟩
  · rintro vs s1' rfl
    rcases k2 with ⟨_, h⟩ | h | ⟨_, _, _, rfl, h, hs⟩ | ⟨_, _, _, h, _⟩ <;> cases h
    obtain ⟨p, l, a', rfl, rfl, advs, hl, rfl⟩ := reported_state hs
    exact ⟨p, l, advs, rfl, hl, rfl⟩
  · rintro s1' rfl
    rcases k2 with ⟨_, h⟩ | h | ⟨_, _, _, _, h, _⟩ | ⟨_, _, rfl, h, hs⟩ <;> cases h
    obtain ⟨p, l, a', rfl, rfl, advs, hl, rfl⟩ := reported_state hs
    exact ⟨p, l, advs, rfl, hl, rfl⟩
  · rintro rfl
    rcases k2 with ⟨_, h⟩ | h | ⟨_, _, _, _, h, _⟩ | ⟨_, _, _, h, _⟩ <;> cases h

/-- **C90, for offsets below 2^31.** If the original program ends normally, the instrumented one does, with the same results and state, the analysis knowing the reports. And if the
instrumented program ends normally, then so did the original, with the same results and state, the analysis' state being as said; or it trapped, which is possible only
where an address plus offset exceeds 2^32 (C19). -/
theorem C90_observing_results {C iface ts m r} {N : Num} {o : Observer A} {T : Imports (W × Account)} {H : Imports (W × A)}
    (hW : Observing C iface ts m r N o T H)
    (hoff : ∀ i ∈ bodyTargets m ts, ∀ f c, m.functions[i]? = some f → f.code = .present c → OnlyCode (OffsetsAre iface fun o => o.toNat < 2 ^ 31) c.body)
    {f : Nat} {ty : FuncType} {args : List RVal} {s : Store W} (hf : m.ctx.ftype f = some ty) (hargs : ValsOK m.ctx args ty.inputs)
    (hok : StoreOK m.ctx s) (a : A) (L d : Nat) :
    (∀ vs (s1 : Store W) (rs : Account), callF N (reported C m (bodyTargets m ts) T) L d f args (s.withAnalysis []) = .ok vs (s1.withAnalysis rs) →
      ∃ remarks, iface.Learns rs remarks ∧
        callF N (machineOf H r.module.functions) L (d + 2) f args (s.withAnalysis a) = .ok vs (s1.withAnalysis (remarks.foldl o.tell a))) ∧
    (∀ vs s1', callF N (machineOf H r.module.functions) L d f args (s.withAnalysis a) = .ok vs s1' →
      (∃ (s1 : Store W) (rs : Account) (remarks : List Remark), callF N (reported C m (bodyTargets m ts) T) L d f args (s.withAnalysis []) = .ok vs (s1.withAnalysis rs) ∧
        iface.Learns rs remarks ∧ s1' = s1.withAnalysis (remarks.foldl o.tell a)) ∨
      ∃ s1, callF N (reported C m (bodyTargets m ts) T) L d f args (s.withAnalysis []) = .trap s1) := by
  have hoff' : ∀ i ∈ bodyTargets m ts, ∀ f c, m.functions[i]? = some f → f.code = .present c →
      OnlyCode (OffsetsAre iface (fun o => o.toNat < 2 ^ 31 ∧ (false = true → o = 0))) c.body := by
    intro i hi f c hf hc b hb t k info hd ht
    have := hoff i hi f c hf hc b hb t k info hd ht
    cases b <;> first | trivial | exact ⟨this, fun h => by cases h⟩
  have hS : (reportingRel (W := W) m.ctx (Learnt iface o a) true false false).S (s.withAnalysis []) (s.withAnalysis a) :=
    (SameState.iff (Q := fun (p : W × Account) (q : W × A) => p.1 = q.1 ∧ Learnt iface o a p.2 q.2) (s := s.withAnalysis []) (s' := s.withAnalysis a)).2 ⟨hok.world rfl rfl rfl rfl rfl, ⟨rfl, [], rfl, rfl⟩, rfl, rfl, rfl, rfl, rfl⟩
  have k1 := observer_agrees hW (exact := false) hoff' a (fl := true) (fr := false) (k := 2) (.inl rfl) (.inr (Nat.le_refl _)) L d f ty args _ _ hf hargs hS
  have k2 := observer_agrees hW (exact := false) hoff' a (fl := false) (fr := true) (k := 0) (.inr rfl) (.inl rfl) L d f ty args _ _ hf hargs hS
  simp only [Nat.add_zero] at k2
  generalize callF N (reported C m (bodyTargets m ts) T) L d f args (s.withAnalysis []) = x at k1 k2 ⊢
  generalize callF N (machineOf H r.module.functions) L (d + 2) f args (s.withAnalysis a) = o1 at k1 ⊢
  generalize callF N (machineOf H r.module.functions) L d f args (s.withAnalysis a) = o0 at k2 ⊢
  constructor
  · rintro vs s1 log rfl
    cases k1 with
    | ok hv hs =>
      simp only [reportingRel] at hs
      obtain ⟨p, l, a', e1, rfl, advs, hl, rfl⟩ := reported_state hs
      obtain ⟨rfl, rfl⟩ := withAnalysis_inj e1
      exact ⟨advs, hl, rfl⟩
    | fuelR h => cases h
    | trapR h => cases h
  · rintro vs s1' rfl
    cases k2 with
    | ok hv hs =>
      simp only [reportingRel] at hs
      obtain ⟨p, l, a', rfl, rfl, advs, hl, rfl⟩ := reported_state hs
      exact .inl ⟨p, l, advs, rfl, hl, rfl⟩
    | fuelL h => cases h
    | trapL h => exact .inr ⟨_, rfl⟩

/-! ## Examples -/

theorem exMem_observing {A : Type} (o : Observer A) {r} (hr : Instruments exTypedChecker exMemIface none exMem r) :
    Observing exTypedChecker exMemIface none exMem r exNum o (fun _ _ _ _ _ => .stuck) (exMemImports (o.body exNum r.module.exported)) where
  small := exMem_small
  documented := exMemIface_documented
  noApply := rfl
  instruments := hr
  valid := exMem_valid
  annotated := exMem_annotated
  reserved := by decide +kernel
  linked := exMem_linked _
  imports := fun f hf ns name hc => (exMem_noImports hf hc).elim

/-- The reports of `main(8)`: the byte 5 is written to address 11 and 1280 is read from address 10. -/
def exMemReports : Account := [
  .asked .i32Store [.i32 8, .i32 5, .i64 3, .i32 StoreOp.i32Store8.serialize, .i64 0, .i64 2],
  .done .i32Store [.i32 8, .i32 5, .i64 3, .i32 StoreOp.i32Store8.serialize, .i64 0, .i64 2] [],
  .asked .i32Load [.i32 8, .i64 2, .i32 LoadOp.i32Load16U.serialize, .i64 0, .i64 4],
  .done .i32Load [.i32 8, .i64 2, .i32 LoadOp.i32Load16U.serialize, .i64 0, .i64 4] [.i32 1280]]

def exMemRun : Res (Unit × Account) :=
  callF exNum (reported exTypedChecker exMem (bodyTargets exMem none) (fun _ _ _ _ _ => .stuck)) 10 10 0 [.i32 8] (exMemStore.withAnalysis [])

def reportsOf : Res (Unit × Account) → Option (List RVal × Account)
  | .ok vs s => some (vs, s.world.2)
  | _ => none

theorem exMemRun_is : (reportsOf exMemRun).map (fun p => (p.1, p.2.filter fun r => (exMemIface.trap r.trap).isSome)) = some ([.i32 1280], exMemReports) := by decide +kernel

theorem exMem_reported8 : ∃ (s1 : Store Unit) (rs : Account),
    callF exNum (reported exTypedChecker exMem (bodyTargets exMem none) (fun _ _ _ _ _ => .stuck)) 10 10 0 [.i32 8] (exMemStore.withAnalysis []) =
      .ok [.i32 1280] (s1.withAnalysis rs) ∧ rs.filter (fun r => (exMemIface.trap r.trap).isSome) = exMemReports := by
  have h := exMemRun_is
  unfold exMemRun at h
  generalize callF exNum (reported exTypedChecker exMem (bodyTargets exMem none) (fun _ _ _ _ _ => .stuck)) 10 10 0 [.i32 8] (exMemStore.withAnalysis []) = o at h ⊢
  cases o with
  | ok vs s =>
    simp only [reportsOf, Option.map_some, Option.some.injEq, Prod.mk.injEq] at h
    exact ⟨{ s with world := () }, s.world.2, by rw [h.1]; rfl, h.2⟩
  | _ => cases h

/-- The remarks about `main(8)`. -/
def exMemRemarks : List Remark := [
  .told (.store 8 (.i32 5) 3 .i32Store8 (.new 0 2)), .got (.store 8 (.i32 5) 3 .i32Store8 (.new 0 2)) [],
  .told (.load 8 2 .i32Load16U (.new 0 4)), .got (.load 8 2 .i32Load16U (.new 0 4)) [.i32 1280]]

theorem exMem_learns {rs : Account} (h : rs.filter (fun r => (exMemIface.trap r.trap).isSome) = exMemReports) {remarks : List Remark} (hl : exMemIface.Learns rs remarks) :
    remarks = exMemRemarks := by
  unfold Interface.Learns at hl
  rw [h] at hl
  have e : exMemReports.map Report.remark = exMemRemarks.map some := by
    have e : StoreOp.ofCode StoreOp.i32Store8.serialize = some .i32Store8 := (C17_store_codes _ _).2 rfl
    have e' : LoadOp.ofCode LoadOp.i32Load16U.serialize = some .i32Load16U := (C17_load_codes _ _).2 rfl
    simp [exMemReports, exMemRemarks, Report.remark, stdEntry, e, e', RVal.i32, RVal.i64]
  rw [e] at hl
  exact ((List.map_inj_right (fun _ _ h => Option.some.inj h)).1 hl).symm

/-- An analysis that adds up the numbers loaded. -/
def exSum : Observer Nat where
  before _ n := n
  after a vs n := match a, vs with
    | .load _ _ _ _, [.num (.i32 v)] => n + v.toNat
    | _, _ => n

-- C90: the sum of what `main(8)` loads is 1280.
example : ∃ r, Instruments exTypedChecker exMemIface none exMem r ∧ ∃ s1 : Store Unit,
    callF exNum (machineOf (exMemImports (exSum.body exNum r.module.exported)) r.module.functions) 10 12 0 [.i32 8] (exMemStore.withAnalysis 7) =
      .ok [.i32 1280] (s1.withAnalysis 1287) := by
  obtain ⟨r, hr⟩ := exMem_instruments
  obtain ⟨s1, rs, h, hl⟩ := exMem_reported8
  obtain ⟨remarks, h1, h2⟩ := (C90_observing_results (exMem_observing exSum hr) exMem_offsets (f := 0) rfl
    (ValsOK.nil.cons rfl (by simp [RVal.OK])) exMemStore_ok 7 10 10).1 _ _ _ h
  refine ⟨r, hr, s1, ?_⟩
  rw [h2, exMem_learns hl h1]
  rfl

-- C90, the reports: the questions among those of `main(8)` are what the log of C11 has.
example : exMemReports.questions = [(.i32Store, [.i32 8, .i32 5, .i64 3, .i32 StoreOp.i32Store8.serialize, .i64 0, .i64 2]),
    (.i32Load, [.i32 8, .i64 2, .i32 LoadOp.i32Load16U.serialize, .i64 0, .i64 4])] := rfl

/-- An observing analysis linked with the example program with calls. -/
def exObserved {A : Type} (o : Observer A) (base : String → Option Nat) : Imports (List RVal × A) := fun ns name call args s =>
  if ns = "WASTRUMENTATION_ANALYSIS" then
    match [Trap.ifThenElseTrap, .preTrapCall, .postTrapCall, .binaryI32I32ToI32].find? fun t => t.exportName == name with
    | some t => stdHook (o.body exNum base) t call args s
    | none => .stuck
  else exImports.beside A ns name call args s

theorem exObserving {A : Type} (o : Observer A) {r} (hr : Instruments exTypedChecker exIface none exModule r) :
    Observing exTypedChecker exIface none exModule r exNum o (exImports.beside Account) (exObserved o r.module.exported) where
  small := exModule_small
  documented := exIface_documented
  noApply := rfl
  instruments := hr
  valid := exModule_valid
  annotated := exModule_annotated
  reserved := by decide +kernel
  linked := by
    intro t h
    rw [C49_library_exports_what_is_imported]
    have : t = .ifThenElseTrap ∨ t = .preTrapCall ∨ t = .postTrapCall ∨ t = .binaryI32I32ToI32 := by
      simp only [exIface] at h
      split at h
      · assumption
      · cases h
    funext call args s
    simp only [exObserved, if_true]
    have e : List.find? (fun u => u.exportName == t.exportName) [Trap.ifThenElseTrap, .preTrapCall, .postTrapCall, .binaryI32I32ToI32] = some t := by
      rcases this with rfl | rfl | rfl | rfl <;> decide +kernel
    rw [e]
  imports := by
    refine .plain (H := exImports) fun f hf ns name hc => ?_
    simp only [exModule, List.mem_cons, List.not_mem_nil, or_false] at hf
    rcases hf with rfl | rfl | rfl | rfl <;> cases hc
    refine ⟨⟨fun _ _ => rfl, fun call args s ha hs => .inl ⟨_, _, rfl, .nil, hs.world rfl rfl rfl rfl rfl⟩⟩, ?_, ?_⟩ <;> (funext call args s; rfl)

/-- An analysis that keeps the results of the operations. -/
def exKeep : Observer (List (List RVal)) := ⟨fun _ x => x, fun _ vs x => x ++ [vs]⟩

-- C90, exact: whenever `main(0, 5)` returns with the analysis that keeps results, it did so without, and what was kept are the results reported.
example : ∃ r, Instruments exTypedChecker exIface none exModule r ∧
    ∀ vs s1', callF exNum (machineOf (exObserved exKeep r.module.exported) r.module.functions) 10 12 1 [.i32 0, .i32 5] (exStore.withAnalysis []) = .ok vs s1' →
      ∃ (s1 : Store (List RVal)) (rs : Account) (remarks : List Remark),
        callF exNum (reported exTypedChecker exModule (bodyTargets exModule none) (exImports.beside Account)) 10 12 1 [.i32 0, .i32 5] (exStore.withAnalysis []) = .ok vs (s1.withAnalysis rs) ∧
        exIface.Learns rs remarks ∧ s1' = s1.withAnalysis (remarks.foldl exKeep.tell []) := by
  obtain ⟨r, hr⟩ := instruments_of_ok (C := exTypedChecker) (iface := exIface) (ts := none) (m := exModule) (by decide) exModule_small exModule_raises_typed
  exact ⟨r, hr, (C90_observing_exact (exObserving exKeep hr) (exOffsets _) (f := 1) rfl (ValsOK.nil.cons rfl (by simp [RVal.OK]) |>.cons rfl (by simp [RVal.OK]))
    exStore_ok [] 10 12).2.2.1⟩

-- ... and it does return: the log of C11 and the reports of `main(0, 5)` are of the same run.
example : ∃ (s1 : Store (List RVal)) (rs : Account),
    callF exNum (reported exTypedChecker exModule (bodyTargets exModule none) (exImports.beside Account)) 10 10 1 [.i32 0, .i32 5] (exStore.withAnalysis []) =
      .ok [.i32 49] (s1.withAnalysis rs) ∧ exIface.observed rs.questions = exLog := by
  obtain ⟨log, h, hl⟩ := exModule_traced
  have hI : ImportsBesideBoth exModule (exImports.beside Log) (exImports.beside Account) := by
    refine .plain (H := exImports) fun f hf ns name hc => ?_
    simp only [exModule, List.mem_cons, List.not_mem_nil, or_false] at hf
    rcases hf with rfl | rfl | rfl | rfl <;> cases hc
    refine ⟨⟨fun _ _ => rfl, fun call args s ha hs => .inl ⟨_, _, rfl, .nil, hs.world rfl rfl rfl rfl rfl⟩⟩, ?_, ?_⟩ <;> (funext call args s; rfl)
  obtain ⟨o, rs, h1, h2⟩ := C90_reports_extend_the_trace exModule_valid exModule_annotated hI (N := exNum) (f := 1) (ty := ⟨[.i32, .i32], [.i32]⟩) (args := [.i32 0, .i32 5]) rfl
    (ValsOK.nil.cons rfl (by simp [RVal.OK]) |>.cons rfl (by simp [RVal.OK])) exStore_ok 10 10
  rw [h] at h2
  cases o with
  | ok vs s1 =>
    simp only [Res.withAnalysis, Res.ok.injEq] at h2
    obtain ⟨rfl, h2⟩ := h2
    obtain ⟨rfl, rfl⟩ := withAnalysis_inj h2
    exact ⟨_, rs, h1, hl⟩
  | _ => cases h2

end Wastrum
