import Verif.Watch
import Verif.AdviceThms
/-!
# What a watching analysis knows at the end (C58)
-/

set_option linter.unusedSimpArgs false
set_option linter.unusedVariables false

namespace Wastrum

variable {W A : Type}

/-! ## Lemmas -/

theorem Interface.Hears.heard {iface : Interface} {log : Log} {advs : List Advice} (h : iface.Hears log advs) {t args adv} (ht : (iface.trap t).isSome)
    (he : stdEntry t args = some adv) : iface.Hears (log ++ [(t, args)]) (advs ++ [adv]) := by
  unfold Interface.Hears Interface.observed at *
  simp only [List.filter_append, List.filter_cons, ht, if_true, List.filter_nil, List.map_append, h, List.map_cons, List.map_nil, he]

theorem Interface.Hears.unheard {iface : Interface} {log : Log} {advs : List Advice} (h : iface.Hears log advs) {t args} (ht : iface.trap t = none) :
    iface.Hears (log ++ [(t, args)]) advs := by
  unfold Interface.Hears Interface.observed at *
  simp only [List.filter_append, List.filter_cons, ht, Option.isSome_none, Bool.false_eq_true, if_false, List.filter_nil, List.append_nil, h]

/-- The log and the state of the analysis after the events of the log. -/
def Heard (iface : Interface) (w : Watcher A) (a : A) (log : Log) (a' : A) : Prop := ∃ advs, iface.Hears log advs ∧ w.run advs a = some a'

theorem watch_agrees {C iface ts m r} {N : Num} {w : Watcher A} {T : Imports (W × Log)} {H : Imports (W × A)} (hW : Hearing C iface ts m r N w T H) {exact : Bool}
    (hq : exact = true → ∀ a x, w.after a x = some x)
    (hoff : ∀ i ∈ bodyTargets m ts, ∀ f c, m.functions[i]? = some f → f.code = .present c →
      OnlyCode (OffsetsAre iface (fun o => o.toNat < 2 ^ 31 ∧ (exact = true → o = 0))) c.body)
    (a0 : A) {fl fr : Bool} {k : Nat} (h1 : fl = true ∨ k = 0) (h2 : fr = true ∨ 2 ≤ k) (L d : Nat) :
    CallsAgree (watchingRel m.ctx (Heard iface w a0) fl fr (!exact) (∃ adv x, w.step adv x = none)) m.ctx
      (callF N (traced C m (bodyTargets m ts) T logEvent) L d) (callF N (machineOf H r.module.functions) L (d + k)) := by
  have hvr := C15_instrumented_module_valid hW.small hW.documented.standard (by intro ge cb h; rw [hW.noApply] at h; cases h) hW.instruments hW.valid hW.annotated hW.reserved
  refine traced_agrees (u := logEvent) hW.small hW.documented.standard hW.noApply hW.instruments hW.valid hW.annotated
    (B := OffsetsAre iface (fun o => o.toNat < 2 ^ 31 ∧ (exact = true → o = 0))) hoff
    (R := watchingRel m.ctx (Heard iface w a0) fl fr (!exact) (∃ adv x, w.step adv x = none))
    (Q := fun (p : W × Log) (q : W × A) => p.1 = q.1 ∧ Heard iface w a0 p.2 q.2) rfl
    (k := k) h1 (N := N) (L := L) (H := T) (H' := H) (fun f hf ns name hc => hW.imports f hf ns name hc _ fl fr _ _)
    (fun d => watching_hooks hW.small hW.instruments (hW.hooks exact fr hq)
      (fun t args a ⟨adv, _, h⟩ => ⟨adv, a, h⟩) ?_ ?_ (by simp) (h2.imp id (by omega)) rfl ?_) d
  · rintro t args l x y ht ⟨adv, he, hs⟩ ⟨advs, hl, hr⟩
    exact ⟨advs ++ [adv], hl.heard ht he, by rw [Watcher.run_append, hr]; simp only [Option.bind_some, Watcher.run, hs]⟩
  · rintro t args l x ht ⟨advs, hl, hr⟩
    exact ⟨advs, hl.unheard ht, hr⟩
  · intro d' hd'
    have e : callF N (underAnalysis C m (bodyTargets m ts) H (hookSel iface m.functions.length) (r.module.functions.drop m.functions.length)) L d' =
        callF N (machineOf H r.module.functions) L d' := by
      funext f args s; exact (C09_instrumented_is_interposed hW.small hW.documented.standard hW.noApply hW.instruments N H L d' f args s).symm
    rw [e]
    exact base_calls hW.small hW.instruments hvr.exports N H L d' fr (h2.imp id (by omega))

theorem watched_state {Γ : Ctx} {Z : Log → A → Prop} {s1 : Store (W × Log)} {s1' : Store (W × A)}
    (h : SameState Γ [] [] (fun (p : W × Log) (q : W × A) => p.1 = q.1 ∧ Z p.2 q.2) s1 s1') :
    ∃ (p : Store W) (log : Log) (a' : A), s1 = p.withAnalysis log ∧ s1' = p.withAnalysis a' ∧ Z log a' := by
  obtain ⟨_, ⟨h2, h3⟩, h4, h5, h6, h7, h8⟩ := SameState.iff.1 h
  refine ⟨⟨s1.globals, s1.mems, s1.tables, s1.datas, s1.elems, s1.world.1⟩, s1.world.2, s1'.world.2, rfl, ?_, h3⟩
  obtain ⟨g, me, t, da, e, w, a⟩ := s1'
  simp only at h2 h4 h5 h6 h7 h8
  subst h2 h4 h5 h6 h7 h8
  rfl

theorem withAnalysis_inj {s s' : Store W} {a a' : A} (h : s.withAnalysis a = s'.withAnalysis a') : s = s' ∧ a = a' := by
  simp only [Store.withAnalysis, Store.mk.injEq, Prod.mk.injEq] at h
  obtain ⟨h1, h2, h3, h4, h5, h6, h7⟩ := h
  refine ⟨?_, h7⟩
  cases s; cases s'; simp_all

/-! ## C58 -/

/-- **C58.** Analyses written with the Rust library, whose hooks are the library's around their advice, are analyses the theorems below are about. -/
theorem C58_rust_analysis_qualifies {C iface ts m r} {N : Num} {w : Watcher A} {T : Imports (W × Log)} {H : Imports (W × A)} (hW : Watching C iface ts m r N w T H) :
    Hearing C iface ts m r N w T H := by
  have hm1 : m.memories.length ≤ 1 := by
    obtain ⟨ord, ord', ho, ho', h⟩ := hW.instruments
    exact ((instrument_ok_iff ho ho' hW.small).1 ⟨r, h⟩).1
  exact ⟨hW.small, hW.documented, hW.noApply, hW.instruments, hW.valid, hW.annotated, hW.reserved, fun exact mo hq => watcher_watches hm1 hW.documented hq hW.linked, hW.imports⟩

/-- **C58, for analyses that never panic and record before they perform.** The instrumented program does what the original
does — results, traps and state — and at the end the analysis is in the state that results from telling it, in order,
the events the original program went through (`traced`, C11), as the library presents them. The proviso on static offsets
of loads and stores the analysis has hooks for is that of C48. -/
theorem C58_watching_exact {C iface ts m r} {N : Num} {upd : Advice → A → A} {T : Imports (W × Log)} {H : Imports (W × A)}
    (hW : Hearing C iface ts m r N (.ahead upd) T H)
    (hoff : ∀ i ∈ bodyTargets m ts, ∀ f c, m.functions[i]? = some f → f.code = .present c → OnlyCode (OffsetsAre iface fun o => o = 0) c.body)
    {f : Nat} {ty : FuncType} {args : List RVal} {s : Store W} (hf : m.ctx.ftype f = some ty) (hargs : ValsOK m.ctx args ty.inputs)
    (hok : StoreOK m.ctx s) (a : A) (L d : Nat) :
    (∀ vs (s1 : Store W) (log : Log), callF N (traced C m (bodyTargets m ts) T logEvent) L d f args (s.withAnalysis []) = .ok vs (s1.withAnalysis log) →
      ∃ advs, iface.Hears log advs ∧
        callF N (machineOf H r.module.functions) L (d + 2) f args (s.withAnalysis a) = .ok vs (s1.withAnalysis (advs.foldl (fun x e => upd e x) a))) ∧
    (∀ (s1 : Store W) (log : Log), callF N (traced C m (bodyTargets m ts) T logEvent) L d f args (s.withAnalysis []) = .trap (s1.withAnalysis log) →
      ∃ advs, iface.Hears log advs ∧
        callF N (machineOf H r.module.functions) L (d + 2) f args (s.withAnalysis a) = .trap (s1.withAnalysis (advs.foldl (fun x e => upd e x) a))) ∧
    (∀ vs s1', callF N (machineOf H r.module.functions) L d f args (s.withAnalysis a) = .ok vs s1' →
      ∃ (s1 : Store W) (log : Log) (advs : List Advice), callF N (traced C m (bodyTargets m ts) T logEvent) L d f args (s.withAnalysis []) = .ok vs (s1.withAnalysis log) ∧
        iface.Hears log advs ∧ s1' = s1.withAnalysis (advs.foldl (fun x e => upd e x) a)) ∧
    (∀ s1', callF N (machineOf H r.module.functions) L d f args (s.withAnalysis a) = .trap s1' →
      ∃ (s1 : Store W) (log : Log) (advs : List Advice), callF N (traced C m (bodyTargets m ts) T logEvent) L d f args (s.withAnalysis []) = .trap (s1.withAnalysis log) ∧
        iface.Hears log advs ∧ s1' = s1.withAnalysis (advs.foldl (fun x e => upd e x) a)) ∧
    callF N (machineOf H r.module.functions) L d f args (s.withAnalysis a) ≠ .stuck := by
  have hoff' : ∀ i ∈ bodyTargets m ts, ∀ f c, m.functions[i]? = some f → f.code = .present c →
      OnlyCode (OffsetsAre iface (fun o => o.toNat < 2 ^ 31 ∧ (true = true → o = 0))) c.body := by
    intro i hi f c hf hc b hb t k info hd ht
    have := hoff i hi f c hf hc b hb t k info hd ht
    cases b <;> first | trivial | (simp only at this ⊢; rw [this]; exact ⟨by decide, fun _ => rfl⟩)
  have hS : (watchingRel (W := W) m.ctx (Heard iface (.ahead upd) a) true false false (∃ adv x, (Watcher.ahead upd).step adv x = none)).S (s.withAnalysis []) (s.withAnalysis a) :=
    (SameState.iff (Q := fun (p : W × Log) (q : W × A) => p.1 = q.1 ∧ Heard iface _ a p.2 q.2) (s := s.withAnalysis []) (s' := s.withAnalysis a)).2 ⟨hok.world rfl rfl rfl rfl rfl, ⟨rfl, [], rfl, rfl⟩, rfl, rfl, rfl, rfl, rfl⟩
  have hpn : ¬ ∃ adv x, (Watcher.ahead upd).step adv x = none := by
    rintro ⟨_, _, h⟩; cases h
  have k1 := (watch_agrees hW (exact := true) (fun _ _ _ => rfl) hoff' a (fl := true) (fr := false) (k := 2) (.inl rfl) (.inr (Nat.le_refl _)) L d).ok hf hargs hS rfl
    (fun _ _ h => h) (fun _ h => hpn h)
  have k2 := (watch_agrees hW (exact := true) (fun _ _ _ => rfl) hoff' a (fl := false) (fr := true) (k := 0) (.inr rfl) (.inl rfl) L d).ok hf hargs hS rfl
    (fun _ _ h => h) (fun _ h => hpn h)
  simp only [watchingRel, Bool.false_eq_true, and_false, false_or, Nat.add_zero, and_true] at k1 k2
  generalize callF N (traced C m (bodyTargets m ts) T logEvent) L d f args (s.withAnalysis []) = o at k1 k2 ⊢
  generalize callF N (machineOf H r.module.functions) L (d + 2) f args (s.withAnalysis a) = o1 at k1 ⊢
  generalize callF N (machineOf H r.module.functions) L d f args (s.withAnalysis a) = o0 at k2 ⊢
  refine ⟨?_, ?_, ?_, ?_, ?_⟩
  · rintro vs s1 log rfl
    rcases k1 with ⟨h, _⟩ | ⟨_, _, _, h, rfl, hs⟩ | ⟨_, _, h, _⟩ <;> cases h
    obtain ⟨p, l, a', e1, rfl, advs, hl, hr⟩ := watched_state hs
    obtain ⟨rfl, rfl⟩ := withAnalysis_inj e1
    rw [Watcher.run_ahead] at hr
    exact ⟨advs, hl, by rw [Option.some.inj hr]⟩
  · rintro s1 log rfl
    rcases k1 with ⟨h, _⟩ | ⟨_, _, _, h, _⟩ | ⟨_, _, h, rfl, hs⟩ <;> cases h
    obtain ⟨p, l, a', e1, rfl, advs, hl, hr⟩ := watched_state hs
    obtain ⟨rfl, rfl⟩ := withAnalysis_inj e1
    rw [Watcher.run_ahead] at hr
    exact ⟨advs, hl, by rw [Option.some.inj hr]⟩
  · rintro vs s1' rfl
    rcases k2 with ⟨_, h⟩ | h | ⟨_, _, _, rfl, h, hs⟩ | ⟨_, _, _, h, _⟩ <;> cases h
    obtain ⟨p, l, a', rfl, rfl, advs, hl, hr⟩ := watched_state hs
    rw [Watcher.run_ahead] at hr
    exact ⟨p, l, advs, rfl, hl, by rw [Option.some.inj hr]⟩
  · rintro s1' rfl
    rcases k2 with ⟨_, h⟩ | h | ⟨_, _, _, _, h, _⟩ | ⟨_, _, rfl, h, hs⟩ <;> cases h
    obtain ⟨p, l, a', rfl, rfl, advs, hl, hr⟩ := watched_state hs
    rw [Watcher.run_ahead] at hr
    exact ⟨p, l, advs, rfl, hl, by rw [Option.some.inj hr]⟩
  · rintro rfl
    rcases k2 with ⟨_, h⟩ | h | ⟨_, _, _, _, h, _⟩ | ⟨_, _, _, h, _⟩ <;> cases h

/-- **C58, for all watching analyses** (that may record after performing, and may panic), with offsets below 2^31. If the
original program ends normally, the instrumented one ends normally with the same results and state, the analysis being in
the state that results from telling it the original's events in order — or it traps, which it does only if the
analysis can panic. And if the instrumented program ends normally, then the original ended normally with the same results and
state, the analysis' state being as said; or it trapped, which is possible only where an address plus offset exceeds 2^32 (C19). -/
theorem C58_watching_results {C iface ts m r} {N : Num} {w : Watcher A} {T : Imports (W × Log)} {H : Imports (W × A)}
    (hW : Hearing C iface ts m r N w T H)
    (hoff : ∀ i ∈ bodyTargets m ts, ∀ f c, m.functions[i]? = some f → f.code = .present c → OnlyCode (OffsetsAre iface fun o => o.toNat < 2 ^ 31) c.body)
    {f : Nat} {ty : FuncType} {args : List RVal} {s : Store W} (hf : m.ctx.ftype f = some ty) (hargs : ValsOK m.ctx args ty.inputs)
    (hok : StoreOK m.ctx s) (a : A) (L d : Nat) :
    (∀ vs (s1 : Store W) (log : Log), callF N (traced C m (bodyTargets m ts) T logEvent) L d f args (s.withAnalysis []) = .ok vs (s1.withAnalysis log) →
      (∃ advs a1, iface.Hears log advs ∧ w.run advs a = some a1 ∧
        callF N (machineOf H r.module.functions) L (d + 2) f args (s.withAnalysis a) = .ok vs (s1.withAnalysis a1)) ∨
      (∃ adv x, w.step adv x = none) ∧ ∃ s', callF N (machineOf H r.module.functions) L (d + 2) f args (s.withAnalysis a) = .trap s') ∧
    (∀ vs s1', callF N (machineOf H r.module.functions) L d f args (s.withAnalysis a) = .ok vs s1' →
      (∃ (s1 : Store W) (log : Log) (advs : List Advice) (a1 : A), callF N (traced C m (bodyTargets m ts) T logEvent) L d f args (s.withAnalysis []) = .ok vs (s1.withAnalysis log) ∧
        iface.Hears log advs ∧ w.run advs a = some a1 ∧ s1' = s1.withAnalysis a1) ∨
      ∃ s1, callF N (traced C m (bodyTargets m ts) T logEvent) L d f args (s.withAnalysis []) = .trap s1) := by
  have hoff' : ∀ i ∈ bodyTargets m ts, ∀ f c, m.functions[i]? = some f → f.code = .present c →
      OnlyCode (OffsetsAre iface (fun o => o.toNat < 2 ^ 31 ∧ (false = true → o = 0))) c.body := by
    intro i hi f c hf hc b hb t k info hd ht
    have := hoff i hi f c hf hc b hb t k info hd ht
    cases b <;> first | trivial | exact ⟨this, fun h => by cases h⟩
  have hS : (watchingRel (W := W) m.ctx (Heard iface w a) true false false (∃ adv x, w.step adv x = none)).S (s.withAnalysis []) (s.withAnalysis a) :=
    (SameState.iff (Q := fun (p : W × Log) (q : W × A) => p.1 = q.1 ∧ Heard iface _ a p.2 q.2) (s := s.withAnalysis []) (s' := s.withAnalysis a)).2 ⟨hok.world rfl rfl rfl rfl rfl, ⟨rfl, [], rfl, rfl⟩, rfl, rfl, rfl, rfl, rfl⟩
  have k1 := watch_agrees hW (exact := false) (fun h => by cases h) hoff' a (fl := true) (fr := false) (k := 2) (.inl rfl) (.inr (Nat.le_refl _)) L d f ty args _ _ hf hargs hS
  have k2 := watch_agrees hW (exact := false) (fun h => by cases h) hoff' a (fl := false) (fr := true) (k := 0) (.inr rfl) (.inl rfl) L d f ty args _ _ hf hargs hS
  simp only [Nat.add_zero] at k2
  generalize callF N (traced C m (bodyTargets m ts) T logEvent) L d f args (s.withAnalysis []) = o at k1 k2 ⊢
  generalize callF N (machineOf H r.module.functions) L (d + 2) f args (s.withAnalysis a) = o1 at k1 ⊢
  generalize callF N (machineOf H r.module.functions) L d f args (s.withAnalysis a) = o0 at k2 ⊢
  constructor
  · rintro vs s1 log rfl
    cases k1 with
    | ok hv hs =>
      simp only [watchingRel] at hs
      obtain ⟨p, l, a', e1, rfl, advs, hl, hr⟩ := watched_state hs
      obtain ⟨rfl, rfl⟩ := withAnalysis_inj e1
      exact .inl ⟨advs, a', hl, hr, rfl⟩
    | fuelR h => cases h
    | trapR h => exact .inr ⟨h, _, rfl⟩
  · rintro vs s1' rfl
    cases k2 with
    | ok hv hs =>
      simp only [watchingRel] at hs
      obtain ⟨p, l, a', rfl, rfl, advs, hl, hr⟩ := watched_state hs
      exact .inl ⟨p, l, advs, a', rfl, hl, hr, rfl⟩
    | fuelL h => cases h
    | trapL h => exact .inr ⟨_, rfl⟩

/-- Calling function `f` of the instrumented program with `args` in state `s` has the outcome `o`, leaving the analysis in state `a1`;
the original program has the same outcome, in the course of which it goes through the events `advs` (as presented by the library,
and as far as the analysis has hooks for them). -/
def Saw (C : Checker) (iface : Interface) (ts : Option (List Nat)) (m : Module) (N : Num) (T : Imports (W × Log)) (L d f : Nat) (args : List RVal) (s : Store W)
    (o : Res (W × A)) (a1 : A) (advs : List Advice) : Prop :=
  ∃ (s1 : Store W) (log : Log), iface.Hears log advs ∧
    ((∃ vs, o = .ok vs (s1.withAnalysis a1) ∧ callF N (traced C m (bodyTargets m ts) T logEvent) L d f args (s.withAnalysis []) = .ok vs (s1.withAnalysis log)) ∨
      o = .trap (s1.withAnalysis a1) ∧ callF N (traced C m (bodyTargets m ts) T logEvent) L d f args (s.withAnalysis []) = .trap (s1.withAnalysis log))

/-- **C58, in one line.** Whatever a run of the instrumented program ends in, the analysis has been told exactly the events of the
original's run. -/
theorem C58_told_everything {C iface ts m r} {N : Num} {upd : Advice → A → A} {T : Imports (W × Log)} {H : Imports (W × A)}
    (hW : Hearing C iface ts m r N (.ahead upd) T H)
    (hoff : ∀ i ∈ bodyTargets m ts, ∀ f c, m.functions[i]? = some f → f.code = .present c → OnlyCode (OffsetsAre iface fun o => o = 0) c.body)
    {f : Nat} {ty : FuncType} {args : List RVal} {s : Store W} (hf : m.ctx.ftype f = some ty) (hargs : ValsOK m.ctx args ty.inputs)
    (hok : StoreOK m.ctx s) (a : A) (L d : Nat) :
    callF N (machineOf H r.module.functions) L d f args (s.withAnalysis a) = .fuel ∨
    ∃ advs, Saw C iface ts m N T L d f args s (callF N (machineOf H r.module.functions) L d f args (s.withAnalysis a)) (advs.foldl (fun x e => upd e x) a) advs := by
  obtain ⟨-, -, h3, h4, h5⟩ := C58_watching_exact hW hoff hf hargs hok a L d
  cases ho : callF N (machineOf H r.module.functions) L d f args (s.withAnalysis a) with
  | fuel => exact .inl rfl
  | stuck => exact absurd ho h5
  | ok vs s1' =>
    obtain ⟨s1, log, advs, e1, e2, rfl⟩ := h3 vs s1' ho
    exact .inr ⟨advs, s1, log, e2, .inl ⟨vs, rfl, e1⟩⟩
  | trap s1' =>
    obtain ⟨s1, log, advs, e1, e2, rfl⟩ := h4 s1' ho
    exact .inr ⟨advs, s1, log, e2, .inr ⟨rfl, e1⟩⟩

/-- **C58, nothing is missed.** Of the events `p` selects — the analysis having hooks for them — the analysis is told those the original program
goes through, in their order. -/
theorem C58_nothing_missed {iface : Interface} {log : Log} {advs : List Advice} (h : iface.Hears log advs) (p : Advice → Bool)
    (hp : ∀ t args a, stdEntry t args = some a → p a = true → (iface.trap t).isSome = true) :
    advs.filter p = (log.filterMap fun e => stdEntry e.1 e.2).filter p := by
  unfold Interface.Hears at h
  have e : advs = (iface.observed log).filterMap fun e => stdEntry e.1 e.2 := by
    have := congrArg (List.filterMap id) h
    rw [List.filterMap_map, List.filterMap_map] at this
    simpa [Function.comp_def] using this.symm
  rw [e, Interface.observed, List.filterMap_filter, List.filter_filterMap, List.filter_filterMap]
  congr 1
  funext x
  cases hx : stdEntry x.1 x.2 with
  | none => simp
  | some a =>
    by_cases hpa : p a = true
    · simp [hp _ _ _ hx hpa]
    · split <;> simp [hpa, Option.filter]

/-! ## An example -/

/-- A watching analysis linked with the example program. `base` are the accessors it may call. -/
def exWatched (w : Watcher A) (base : String → Option Nat) : Imports (List RVal × A) := fun ns name call args s =>
  if ns = "WASTRUMENTATION_ANALYSIS" then
    match [Trap.ifThenElseTrap, .preTrapCall, .postTrapCall, .binaryI32I32ToI32].find? fun t => t.exportName == name with
    | some t => stdHook (w.body exNum base) t call args s
    | none => .stuck
  else exImports.beside A ns name call args s

theorem exWatched_linked (w : Watcher A) (base) : LinkedTo exIface (w.body exNum base) (exWatched w base) := by
  intro t h
  rw [C49_library_exports_what_is_imported]
  have : t = .ifThenElseTrap ∨ t = .preTrapCall ∨ t = .postTrapCall ∨ t = .binaryI32I32ToI32 := by
    simp only [exIface] at h
    split at h
    · assumption
    · cases h
  funext call args s
  simp only [exWatched, if_true]
  have e : List.find? (fun u => u.exportName == t.exportName) [Trap.ifThenElseTrap, .preTrapCall, .postTrapCall, .binaryI32I32ToI32] = some t := by
    rcases this with rfl | rfl | rfl | rfl <;> decide +kernel
  rw [e]

theorem exWatching (w : Watcher A) {r} (hr : Instruments exTypedChecker exIface none exModule r) :
    Watching exTypedChecker exIface none exModule r exNum w (exImports.beside Log) (exWatched w r.module.exported) where
  small := exModule_small
  documented := exIface_documented
  noApply := rfl
  instruments := hr
  valid := exModule_valid
  annotated := exModule_annotated
  reserved := by decide +kernel
  linked := exWatched_linked w _
  imports := by
    refine .plain fun f hf ns name hc => ?_
    simp only [exModule, List.mem_cons, List.not_mem_nil, or_false] at hf
    rcases hf with rfl | rfl | rfl | rfl <;> cases hc
    refine ⟨⟨fun _ _ => rfl, fun call args s ha hs => .inl ⟨_, _, rfl, .nil, hs.world rfl rfl rfl rfl rfl⟩⟩, ?_⟩
    funext call args s
    rfl

theorem exOffsets (ok : BitVec 32 → Prop) : ∀ i ∈ bodyTargets exModule none, ∀ f c, exModule.functions[i]? = some f → f.code = .present c →
    OnlyCode (OffsetsAre exIface ok) c.body := by
  intro i hi f c hf hc b hb t k info hd ht
  cases b <;> first | trivial | skip
  all_goals exfalso; simp only [delegation, Option.map_eq_some_iff, Prod.mk.injEq] at hd
  all_goals obtain ⟨t, hd, rfl, rfl, rfl⟩ := hd
  all_goals rename_i op _; cases op <;> simp [loadTrap, storeTrap, LoadOp.ty, StoreOp.ty] at hd <;> subst hd <;> simp [exIface] at ht

/-- The events of `main(0, 5)` as the library presents them. -/
def exAdvs : List Advice := [
  .ifThenElse 0 0 1 (.new 1 1), .callPre 2 (.new 1 5), .callPre 0 (.new 2 1), .callPost 0 (.new 2 1),
  .binary .i32Mul (.i32 7) (.i32 7) (.new 2 4), .callPost 2 (.new 1 5)]

theorem exAdvs_heard {log : Log} (h : exIface.observed log = exLog) {advs} (hl : exIface.Hears log advs) : advs = exAdvs := by
  unfold Interface.Hears at hl
  rw [h] at hl
  have e : exLog.map (fun e => stdEntry e.1 e.2) = exAdvs.map some := by rfl
  rw [e] at hl
  exact ((List.map_inj_right (fun _ _ h => Option.some.inj h)).1 hl).symm

/-- `main(0, 5)` under any analysis that watches. -/
theorem exWatched_run (upd : Advice → A → A) (a : A) {r} (hr : Instruments exTypedChecker exIface none exModule r) :
    callF exNum (machineOf (exWatched (.ahead upd) r.module.exported) r.module.functions) 10 12 1 [.i32 0, .i32 5] (exStore.withAnalysis a) =
      .ok [.i32 49] (Store.withAnalysis { exStore with world := [.i32 7] } (exAdvs.foldl (fun x e => upd e x) a)) := by
  obtain ⟨log, h, hl⟩ := exModule_traced
  obtain ⟨advs, h1, h2⟩ := (C58_watching_exact (C58_rust_analysis_qualifies (exWatching (.ahead upd) hr)) (exOffsets _) (f := 1) rfl (ValsOK.nil.cons rfl (by simp [RVal.OK]) |>.cons rfl (by simp [RVal.OK]))
    exStore_ok a 10 10).1 _ _ _ h
  rw [← exAdvs_heard hl h1]
  exact h2

-- C58: an analysis that notes down the locations of all events, under the program of the examples.
example : ∃ r, Instruments exTypedChecker exIface none exModule r ∧
    callF exNum (machineOf (exWatched (.ahead fun e x => x ++ [e.location]) r.module.exported) r.module.functions) 10 12 1 [.i32 0, .i32 5] (exStore.withAnalysis []) =
      .ok [.i32 49] (Store.withAnalysis { exStore with world := [.i32 7] } [.new 1 1, .new 1 5, .new 2 1, .new 2 1, .new 2 4, .new 1 5]) := by
  obtain ⟨r, hr⟩ := instruments_of_ok (C := exTypedChecker) (iface := exIface) (ts := none) (m := exModule) (by decide) exModule_small exModule_raises_typed
  exact ⟨r, hr, exWatched_run _ [] hr⟩

/-- An analysis that counts operations after performing them and panics at the second. -/
def exCounting : Watcher Nat := ⟨fun _ a => some a, fun e a => match e with | .binary .. => if a = 1 then none else some (a + 1) | _ => some a⟩

-- C58, of that analysis.
example : ∃ r, Instruments exTypedChecker exIface none exModule r ∧ ∃ o,
    callF exNum (machineOf (exWatched exCounting r.module.exported)
      r.module.functions) 10 12 1 [.i32 0, .i32 5] (exStore.withAnalysis 0) = o ∧
    (o = .ok [.i32 49] (Store.withAnalysis { exStore with world := [.i32 7] } 1) ∨ ∃ s', o = .trap s') := by
  obtain ⟨r, hr⟩ := instruments_of_ok (C := exTypedChecker) (iface := exIface) (ts := none) (m := exModule) (by decide) exModule_small exModule_raises_typed
  refine ⟨r, hr, _, rfl, ?_⟩
  obtain ⟨log, h, hl⟩ := exModule_traced
  rcases (C58_watching_results (C58_rust_analysis_qualifies (exWatching exCounting hr)) (exOffsets _) (f := 1) rfl (ValsOK.nil.cons rfl (by simp [RVal.OK]) |>.cons rfl (by simp [RVal.OK]))
    exStore_ok 0 10 10).1 _ _ _ h with ⟨advs, a1, h1, h2, h3⟩ | ⟨_, s', h⟩
  · rw [exAdvs_heard hl h1] at h2
    have e : a1 = 1 := Option.some.inj (h2.symm.trans (by rfl : _ = some 1))
    rw [e] at h3
    exact .inl h3
  · exact .inr ⟨s', h⟩

-- C58, nothing missed: of the calls made.
example : ∃ log, exIface.Hears log exAdvs ∧
    exAdvs.filter (fun a => match a with | .callPre .. => true | _ => false) = [.callPre 2 (.new 1 5), .callPre 0 (.new 2 1)] :=
  ⟨exLog, by rfl, by rfl⟩

end Wastrum
