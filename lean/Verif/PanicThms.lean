import Verif.Gate
import Verif.WatchersThms
/-!
# When a watching analysis panics (C67)
-/

set_option linter.unusedSimpArgs false
set_option linter.unusedVariables false

namespace Wastrum

variable {W A : Type}

/-! ## Lemmas -/

/-- Beginnings of a log are told by beginnings of what the log is told by. -/
theorem Interface.Hears.of_prefix {iface : Interface} {log F : Log} {advs advsF : List Advice} (h : iface.Hears log advs) (hF : iface.Hears F advsF) (hp : log <+: F) :
    advs <+: advsF := by
  obtain ⟨rest, rfl⟩ := hp
  unfold Interface.Hears Interface.observed at *
  rw [List.filter_append, List.map_append, h] at hF
  have h1 : advsF.map some = advs.map some ++ (advsF.drop advs.length).map some := by
    rw [← hF]
    congr 1
    rw [List.map_drop, ← hF, List.drop_append_of_le_length (by simp)]
    simp
  rw [← List.map_append] at h1
  have := (List.map_inj_right (fun _ _ h => Option.some.inj h)).1 h1
  exact ⟨_, this.symm⟩

/-- A beginning of something an analysis survives is survived. -/
theorem Watcher.run_prefix {w : Watcher A} {as bs : List Advice} (h : as <+: bs) {a b : A} (hb : w.run bs a = some b) : ∃ x, w.run as a = some x := by
  obtain ⟨cs, rfl⟩ := h
  rw [Watcher.run_append] at hb
  cases hx : w.run as a with
  | none => rw [hx] at hb; cases hb
  | some x => exact ⟨x, rfl⟩

/-- As long as the events are those of `F`, an analysis that survives `F` keeps the program in step. -/
theorem gated_hooks {C iface ts m r} (hs : SmallModule m) (h : Instruments C iface ts m r) {N : Num} {P : Trap → List RVal → A → A → Prop}
    {callOK : (Nat → List RVal → Store (W × A) → Res (W × A)) → Prop} {B : Basic → Prop} {tl mo : Bool} {pn : Trap → List RVal → A → Prop} {H : Imports (W × A)}
    (hF : WatchesFor N iface P callOK (fun b => B b ∧ m.ctx.HasMem b) tl mo pn H) {F : Log} {Z : Log → A → Prop}
    (hpn : ∀ t args l a, (iface.trap t).isSome → Z l a → l ++ [(t, args)] <+: F → ¬ pn t args a)
    (hP : ∀ t args l a a', (iface.trap t).isSome → P t args a a' → Z l a → Z (l ++ [(t, args)]) a')
    (hn : ∀ t args l a, iface.trap t = none → Z l a → Z (l ++ [(t, args)]) a) {fr : Bool} (hmo : mo = true → fr = true) {k : Nat} (hk : fr = true ∨ 1 ≤ k) {L d : Nat}
    {targets : List Nat} {σ' : Sel} {E : Env (W × Log)} (hE : E.num = N)
    (hcalls : ∀ d', d + k = d' + 1 → callOK (callF N (underAnalysis C m targets H σ' (r.module.functions.drop m.functions.length)) L d')) :
    (watchingRel m.ctx Z true fr tl False).Judges true m.ctx B (hookSel iface m.functions.length) (gate F) E
      (envAt N (underAnalysis C m targets H σ' (r.module.functions.drop m.functions.length)) L (d + k)) := by
  refine ⟨?_, ?_, ?_⟩
  · intro t hσ args s s' hS
    have ht := hookSel_none_iff.1 hσ
    unfold gate
    split
    · refine .inr ⟨_, rfl, ?_⟩
      simp only [watchingRel, SameState.iff] at hS ⊢
      obtain ⟨h1, ⟨h2, h3⟩, h4⟩ := hS
      exact ⟨h1.world rfl rfl rfl rfl rfl, ⟨h2, hn t args _ _ ht h3⟩, h4⟩
    · exact .inl ⟨rfl, rfl, rfl⟩
  · intro t i hσ ho hpre args s s' hty hS
    obtain ⟨e, he, hcall⟩ := hook_call (W' := W × A) hs h hσ
    simp only [envAt]
    cases hdk : d + k with
    | zero => rcases hk with hk | hk
              · exact .fuelR hk
              · omega
    | succ d' =>
      rw [hcall]
      unfold gate
      by_cases hp : s.world.2 ++ [(t, args)] <+: F
      · rw [if_pos hp]
        simp only [watchingRel, SameState.iff] at hS
        obtain ⟨h1, ⟨h2, h3⟩, h4, h5, h6, h7, h8⟩ := hS
        have hsh := hF.shown t e he ho (callF N (underAnalysis C m targets H σ' (r.module.functions.drop m.functions.length)) L d') (hcalls d' hdk) args
          ⟨s'.globals, s'.mems, s'.tables, s'.datas, s'.elems, s'.world.1⟩ s'.world.2 hty
        have e1 : Store.withAnalysis ⟨s'.globals, s'.mems, s'.tables, s'.datas, s'.elems, s'.world.1⟩ s'.world.2 = s' := rfl
        rw [e1] at hsh
        rcases hsh with ⟨hpn', s2, hh⟩ | ⟨a', hp', hh⟩
        · exact absurd hpn' (hpn t args _ _ (by rw [he]; rfl) h3 hp)
        rw [hh]
        refine .ok ⟨?_, ?_⟩ ?_
        · rw [List.map_take, hty, hpre]
        · intro v hv f hf
          have : v.type ∈ t.args := by rw [← hty]; exact List.mem_map_of_mem (List.mem_of_mem_take hv)
          rw [hf] at this
          exact absurd this (t.args_num _)
        · simp only [watchingRel, SameState.iff]
          exact ⟨h1.world rfl rfl rfl rfl rfl, ⟨h2, hP _ _ _ _ _ (by rw [he]; rfl) hp' h3⟩, h4, h5, h6, h7, h8⟩
      · rw [if_neg hp]; exact .fuelL rfl
  · intro b t j info i hd hσ hB hm ops loc s s' hops hloc hty hS
    obtain ⟨e, he, hcall⟩ := hook_call (W' := W × A) hs h hσ
    simp only [envAt]
    cases hdk : d + k with
    | zero => rcases hk with hk | hk
              · exact .fuelR hk
              · omega
    | succ d' =>
      rw [hcall]
      unfold gate
      by_cases hp0 : s.world.2 ++ [(t, ops ++ info ++ loc)] <+: F
      · rw [if_pos hp0]
        change Rel.Ress _ _ _ (execInstr E b ops (note logEvent t (ops ++ info ++ loc) s)) _
        simp only [watchingRel, SameState.iff] at hS
        obtain ⟨h1, ⟨h2, h3⟩, h4, h5, h6, h7, h8⟩ := hS
        have hperf := hF.performed t e he b j info hd ⟨hB, hm⟩ (callF N (underAnalysis C m targets H σ' (r.module.functions.drop m.functions.length)) L d')
          (hcalls d' hdk) ops loc ⟨s'.globals, s'.mems, s'.tables, s'.datas, s'.elems, s'.world.1⟩ s'.world.2 hops hloc hty (by rw [h5]; exact h1.pages)
        have e1 : Store.withAnalysis ⟨s'.globals, s'.mems, s'.tables, s'.datas, s'.elems, s'.world.1⟩ s'.world.2 = s' := rfl
        rw [e1] at hperf
        rw [execInstr_execute E hd, hE]
        have := execute_sim (Γ := m.ctx) (N := N) (s := note logEvent t (ops ++ info ++ loc) s)
          (s' := ⟨s'.globals, s'.mems, s'.tables, s'.datas, s'.elems, s'.world.1⟩) hd rfl hm hops hloc hty
          (SameState.iff.2 ⟨h1.world rfl rfl rfl rfl rfl, ⟨rfl, rfl⟩, h4, h5, h6, h7, h8⟩)
        rcases hperf with ⟨htl, s1, hx⟩ | ⟨hmo', hx⟩ | ⟨hpn', s2, hx⟩ | ⟨a', hp, hh⟩
        · rw [hx] at this
          generalize execute N b ops (note logEvent t (ops ++ info ++ loc) s) = o at this ⊢
          cases this with
          | trap hS => exact .trapL htl
          | fuelL h => cases h
          | trapL h => cases h
          | trapT h => cases h
          | trapR h => cases h
        · rw [hx]; exact .fuelR (hmo hmo')
        · exact absurd hpn' (hpn t _ _ _ (by rw [he]; rfl) h3 hp0)
        rw [hh]
        generalize execute N b ops (note logEvent t (ops ++ info ++ loc) s) = o at this ⊢
        generalize execute N b ops _ = o' at this hp ⊢
        have lift : ∀ {s1 : Store (W × Log)} {s1' : Store W}, o' ≠ .stuck → o' ≠ .fuel → SameState m.ctx [] [] (fun w w' => w = (note logEvent t (ops ++ info ++ loc) s).world ∧ w' = s'.world.1) s1 s1' →
            SameState m.ctx [] [] (fun (p : W × Log) (q : W × A) => p.1 = q.1 ∧ Z p.2 q.2) s1 (s1'.withAnalysis a') := by
          intro s1 s1' n1 n2 hS
          rw [SameState.iff] at hS ⊢
          obtain ⟨g1, ⟨g2, g3⟩, g4⟩ := hS
          refine ⟨g1, ⟨?_, ?_⟩, g4⟩
          · rw [g2]
            show _ = s1'.world
            rw [g3]
            exact h2
          · rw [g2]
            exact hP _ _ _ _ _ (by rw [he]; rfl) (hp n1 n2) h3
        cases this with
        | ok hv hS => exact .ok hv (lift (by simp) (by simp) hS)
        | trap hS => exact .trap (lift (by simp) (by simp) hS)
        | fuel => exact .fuel
        | fuelL h => cases h
        | fuelR h => cases h
        | trapL h => cases h
        | trapT h => cases h
        | trapR h => cases h
      · rw [if_neg hp0]; exact .fuelL rfl

/-- Running beside the gate for `F`, an analysis that survives `F` keeps the program in step. -/
theorem gated_agrees {C iface ts m r} {N : Num} {w : Watcher A} {T : Imports (W × Log)} {H : Imports (W × A)} (hW : Hearing C iface ts m r N w T H) {exact : Bool}
    (hq : exact = true → ∀ a x, w.after a x = some x)
    (hoff : ∀ i ∈ bodyTargets m ts, ∀ f c, m.functions[i]? = some f → f.code = .present c →
      OnlyCode (OffsetsAre iface (fun o => o.toNat < 2 ^ 31 ∧ (exact = true → o = 0))) c.body)
    {F : Log} {advsF : List Advice} (hF : iface.Hears F advsF) {a0 aF : A} (hr : w.run advsF a0 = some aF) (L d : Nat) :
    CallsAgree (watchingRel m.ctx (Heard iface w a0) true false (!exact) False) m.ctx
      (callF N (judged true C m (bodyTargets m ts) T (gate F)) L d) (callF N (machineOf H r.module.functions) L (d + 2)) := by
  have hvr := C15_instrumented_module_valid hW.small hW.documented.standard (by intro ge cb h; rw [hW.noApply] at h; cases h) hW.instruments hW.valid hW.annotated hW.reserved
  refine judged_agrees (u := gate F) hW.small hW.documented.standard hW.noApply hW.instruments hW.valid hW.annotated
    (B := OffsetsAre iface (fun o => o.toNat < 2 ^ 31 ∧ (exact = true → o = 0))) hoff
    (R := watchingRel m.ctx (Heard iface w a0) true false (!exact) False) (cut := true)
    (Q := fun (p : W × Log) (q : W × A) => p.1 = q.1 ∧ Heard iface w a0 p.2 q.2) rfl
    (k := 2) (.inl rfl) (N := N) (L := L) (H := T) (H' := H) (fun f hf ns name hc => hW.imports f hf ns name hc _ true false _ _)
    (fun d => gated_hooks hW.small hW.instruments (hW.hooks exact false hq)
      ?_ ?_ ?_ (by simp) (.inr (by omega)) rfl ?_) d
  · rintro t args l x ht ⟨advs, hl, hx⟩ hp ⟨adv, he, hs⟩
    obtain ⟨y, hy⟩ := Watcher.run_prefix ((hl.heard ht he).of_prefix hF hp) hr
    rw [Watcher.run_append, hx] at hy
    simp only [Option.bind_some, Watcher.run, hs] at hy
    cases hy
  · rintro t args l x y ht ⟨adv, he, hs⟩ ⟨advs, hl, hr⟩
    exact ⟨advs ++ [adv], hl.heard ht he, by rw [Watcher.run_append, hr]; simp only [Option.bind_some, Watcher.run, hs]⟩
  · rintro t args l x ht ⟨advs, hl, hr⟩
    exact ⟨advs, hl.unheard ht, hr⟩
  · intro d' hd'
    have e : callF N (underAnalysis C m (bodyTargets m ts) H (hookSel iface m.functions.length) (r.module.functions.drop m.functions.length)) L d' =
        callF N (machineOf H r.module.functions) L d' := by
      funext f args s; exact (C09_instrumented_is_interposed hW.small hW.documented.standard hW.noApply hW.instruments N H L d' f args s).symm
    rw [e]
    exact base_calls hW.small hW.instruments hvr.exports N H L d' false (.inr (by omega))

theorem hears_unique {iface : Interface} {log : Log} {as bs : List Advice} (h1 : iface.Hears log as) (h2 : iface.Hears log bs) : as = bs :=
  (List.map_inj_right (fun _ _ h => Option.some.inj h)).1 (h1.symm.trans h2)

/-! ## C67 -/

/-- **C67.** When a watching analysis panics. Let the original program end normally, having gone through the events `advs` (as the library presents them, as far as the
analysis has hooks for them). Then the instrumented program ends normally, with the same results and state, if telling the analysis these events one by one, from its
state `a`, does not make it panic — and then the analysis ends in the state this results in. Otherwise the instrumented program traps. -/
theorem C67_panics_exactly {C iface ts m r} {N : Num} {w : Watcher A} {T : Imports (W × Log)} {H : Imports (W × A)}
    (hW : Hearing C iface ts m r N w T H) (hT : LeavesLog m T) (hP : PassesCuts m T)
    (hoff : ∀ i ∈ bodyTargets m ts, ∀ f c, m.functions[i]? = some f → f.code = .present c → OnlyCode (OffsetsAre iface fun o => o.toNat < 2 ^ 31) c.body)
    {f : Nat} {ty : FuncType} {args : List RVal} {s : Store W} (hf : m.ctx.ftype f = some ty) (hargs : ValsOK m.ctx args ty.inputs)
    (hok : StoreOK m.ctx s) (a : A) {L d : Nat} {vs : List RVal} {s1 : Store W} {log : Log}
    (hrun : callF N (traced C m (bodyTargets m ts) T logEvent) L d f args (s.withAnalysis []) = .ok vs (s1.withAnalysis log))
    {advs : List Advice} (hl : iface.Hears log advs) :
    (∀ a1, w.run advs a = some a1 → callF N (machineOf H r.module.functions) L (d + 2) f args (s.withAnalysis a) = .ok vs (s1.withAnalysis a1)) ∧
    (w.run advs a = none → ∃ s', callF N (machineOf H r.module.functions) L (d + 2) f args (s.withAnalysis a) = .trap s') := by
  constructor
  · intro a1 hr
    have hoff' : ∀ i ∈ bodyTargets m ts, ∀ f c, m.functions[i]? = some f → f.code = .present c →
        OnlyCode (OffsetsAre iface (fun o => o.toNat < 2 ^ 31 ∧ (false = true → o = 0))) c.body := by
      intro i hi f c hf hc b hb t k info hd ht
      have := hoff i hi f c hf hc b hb t k info hd ht
      cases b <;> first | trivial | exact ⟨this, fun h => by cases h⟩
    have hS : (watchingRel (W := W) m.ctx (Heard iface w a) true false (!false) False).S (s.withAnalysis []) (s.withAnalysis a) :=
      (SameState.iff (Q := fun (p : W × Log) (q : W × A) => p.1 = q.1 ∧ Heard iface _ a p.2 q.2) (s := s.withAnalysis []) (s' := s.withAnalysis a)).2 ⟨hok.world rfl rfl rfl rfl rfl, ⟨rfl, [], rfl, rfl⟩, rfl, rfl, rfl, rfl, rfl⟩
    have k1 := gated_agrees hW (exact := false) (fun h => by cases h) hoff' hl hr L d f ty args _ _ hf hargs hS
    have k2 := (gated_tracks (C := C) (targets := bodyTargets m ts) hT hP log N L d).2 f args (s.withAnalysis [])
    rw [hrun] at k2
    rcases k2 with k2 | ⟨_, k2⟩
    · rw [k2] at k1
      generalize callF N (machineOf H r.module.functions) L (d + 2) f args (s.withAnalysis a) = o1 at k1 ⊢
      cases k1 with
      | ok hv hs =>
        simp only [watchingRel] at hs
        obtain ⟨p, l, a', e1, rfl, advs', hl', hr'⟩ := watched_state hs
        obtain ⟨rfl, rfl⟩ := withAnalysis_inj e1
        rw [hears_unique hl' hl, hr] at hr'
        rw [Option.some.inj hr']
      | fuelR h => cases h
      | trapR h => exact h.elim
    · exact absurd (List.prefix_refl _) k2
  · intro hr
    rcases (C58_watching_results hW hoff hf hargs hok a L d).1 vs s1 log hrun with ⟨advs', a1, hl', hr', _⟩ | ⟨_, h⟩
    · rw [hears_unique hl' hl, hr] at hr'; cases hr'
    · exact h

-- C67: an analysis that panics at the second multiplication survives `main(0, 5)` from state 0 ...
example : ∃ r, Instruments exTypedChecker exIface none exModule r ∧
    callF exNum (machineOf (exWatched exCounting r.module.exported) r.module.functions) 10 12 1 [.i32 0, .i32 5] (exStore.withAnalysis 0) =
      .ok [.i32 49] (Store.withAnalysis { exStore with world := [.i32 7] } 1) := by
  obtain ⟨r, hr⟩ := instruments_of_ok (C := exTypedChecker) (iface := exIface) (ts := none) (m := exModule) (by decide) exModule_small exModule_raises_typed
  obtain ⟨log, h, hl⟩ := exModule_traced
  have hh : exIface.Hears log exAdvs := by unfold Interface.Hears; rw [hl]; rfl
  exact ⟨r, hr, (C67_panics_exactly (C58_rust_analysis_qualifies (exWatching exCounting hr)) (.beside _) (.beside _) (exOffsets _) (f := 1) rfl (ValsOK.nil.cons rfl (by simp [RVal.OK]) |>.cons rfl (by simp [RVal.OK]))
    exStore_ok 0 h hh).1 1 rfl⟩

-- ... and stops it from state 1.
example : ∃ r, Instruments exTypedChecker exIface none exModule r ∧
    ∃ s', callF exNum (machineOf (exWatched exCounting r.module.exported) r.module.functions) 10 12 1 [.i32 0, .i32 5] (exStore.withAnalysis 1) = .trap s' := by
  obtain ⟨r, hr⟩ := instruments_of_ok (C := exTypedChecker) (iface := exIface) (ts := none) (m := exModule) (by decide) exModule_small exModule_raises_typed
  obtain ⟨log, h, hl⟩ := exModule_traced
  have hh : exIface.Hears log exAdvs := by unfold Interface.Hears; rw [hl]; rfl
  exact ⟨r, hr, (C67_panics_exactly (C58_rust_analysis_qualifies (exWatching exCounting hr)) (.beside _) (.beside _) (exOffsets _) (f := 1) rfl (ValsOK.nil.cons rfl (by simp [RVal.OK]) |>.cons rfl (by simp [RVal.OK]))
    exStore_ok 1 h hh).2 rfl⟩

end Wastrum
