import Verif.Resume
import Verif.ShippedForward
/-!
# Executions in which values are revised (supporting definitions and lemmas for C71 and C72)

An analysis may replace the values a program computes with. Here is what that means for the program: at every instruction the analysis has a
hook for, and at every call it intercepts, the values that go in and come out are passed through a revision.
-/

set_option linter.unusedSimpArgs false
set_option linter.unusedVariables false

namespace Wastrum

variable {W W' A : Type} {Γ : Ctx}

/-! ## Vocabulary -/

/-- A revision of a list of values (`none`: execution stops there). -/
abbrev Revision := List RVal → Option (List RVal)

/-- A result with its values revised. -/
def Res.revised (g : Revision) : Res W → Res W
  | .ok vs s => match g vs with
    | some ws => .ok ws s
    | none => .trap s
  | o => o

/-- Run something on revised arguments, and revise its results. -/
def revisedRun (g : Revision) (run : List RVal → Store W → Res W) (args : List RVal) (s : Store W) : Res W :=
  match g args with
  | some xs => (run xs s).revised g
  | none => .trap s

/-- Plain execution, except that at instructions the analysis has hooks for, the operands and results that the hook gets to see are revised. -/
def revising (E : Env W) (hooked : Trap → Bool) (g : Revision) : Asker W where
  ask m t k info c :=
    if hooked t then
      match g (c.stack.take k).reverse with
      | some ws => .norm { c with stack := ws.reverse ++ c.stack.drop k }
      | none => .trap c.store
    else .norm c
  perf m b c := match delegation b with
    | some (t, k, _) =>
      if hooked t then
        match revisedRun g (execInstr E b) (c.stack.take k).reverse c.store with
        | .ok vs s => .norm { c with stack := vs.reverse ++ c.stack.drop k, store := s }
        | .trap s => .trap s
        | .stuck => .stuck
        | .fuel => .fuel
      else step E b c
    | none => step E b c

/-- A function of the original program, its instructions' values revised if it is a target. -/
def revisedImpl (C : Checker) (m : Module) (targets : List Nat) (hooked : Trap → Bool) (g : Revision) (H : Imports W) (i : Nat) (f : Func) : Impl W :=
  match f.code with
  | .imported ns name => .host (H ns name)
  | .present c => .code c.locals fun E => if i ∈ targets then gdenL (revising E hooked g) E.loopFuel (bodyOf C m i) else denFlat E c.body

/-- Calls of the original program, with the values of the instructions of `targets` that `hooked` selects and the arguments and results of the
functions in `intercepted` revised; `L` bounds loop iterations, the next argument the depth of calls. -/
def revisedCall (C : Checker) (m : Module) (targets intercepted : List Nat) (hooked : Trap → Bool) (g : Revision) (H : Imports W) (N : Num) (L : Nat) :
    Nat → Nat → List RVal → Store W → Res W
  | 0, _, _, _ => .fuel
  | d + 1, i, args, s => match m.functions[i]? with
    | none => .stuck
    | some f =>
      let run := runImpl ⟨N, fun k => m.functions[k]?.map (·.type), revisedCall C m targets intercepted hooked g H N L d, L⟩ f.type (revisedImpl C m targets hooked g H i f)
      if i ∈ intercepted then revisedRun g run args s else run args s

/-! ## Bodies -/

/-- The analysis' hooks revise as `g` says. -/
structure Rel.Revises (R : Rel W W') (Γ : Ctx) (B : Basic → Prop) (σ : Sel) (hooked : Trap → Bool) (g : Revision) (E : Env W) (E' : Env W') : Prop where
  selected : ∀ t, hooked t = (σ t).isSome
  observing : ∀ t h, σ t = some h → t.Observes → t.args.take t.results.length = t.results → ∀ args s s', args.map RVal.type = t.args → R.S s s' →
    R.Ress Γ t.results ((Res.ok (args.take t.results.length) s).revised g) (E'.callF h args s')
  delegated : ∀ b t k info h, delegation b = some (t, k, info) → σ t = some h → B b → Γ.HasMem b → ∀ ops loc s s', ops.length = k → loc.length = 2 →
    (ops ++ info ++ loc).map RVal.type = t.args → R.S s s' →
    R.Ress Γ t.results (revisedRun g (execInstr E b) ops s) (E'.callF h (ops ++ info ++ loc) s')

theorem Rel.Revises.congr {R : Rel W W'} {Γ Γ' : Ctx} (h : Γ.SameModule Γ') {B σ hooked g} {E : Env W} {E' : Env W'} (hE : R.Revises Γ B σ hooked g E E') :
    R.Revises Γ' B σ hooked g E E' :=
  ⟨hE.selected, fun t k hk ho hp args s s' ha hs => (hE.observing t k hk ho hp args s s' ha hs).congr h,
   fun b t k info h' hd hσ hB hm ops loc s s' h1 h2 h3 h4 =>
    (hE.delegated b t k info h' hd hσ hB (Ctx.HasMem.congr h.mems hm) ops loc s s' h1 h2 h3 h4).congr h⟩

/-- Questions keep the executions in step. -/
theorem revised_ask_sim {R : Rel W W'} {σ : Sel} {hooked g} {B} {E : Env W} {E' : Env W'} (hH : R.Revises Γ B σ hooked g E E') {m t ins info a c c'}
    (hq : Question t ins info) (hc : R.Cfgs Γ (ins.reverse ++ a) c c') :
    R.Outs Γ (ins.reverse ++ a) ((revising E hooked g).ask m t ins.length info c) (ask E' σ m t ins.length info c') := by
  simp only [revising, hH.selected]
  unfold ask
  cases hσ : σ t with
  | none => exact .norm hc
  | some h =>
    dsimp only [Option.isSome_some]
    rw [if_pos rfl]
    have hsp := hc.stackOK.split
    simp only [List.length_reverse] at hsp
    have hsh : (c'.stack.take ins.length).reverse ++ info ++ [nI64 m.fidx, nI64 m.iidx] = shown m ins.length info c := by
      rw [hc.stack]; rfl
    rw [hsh]
    have hty : (shown m ins.length info c).map RVal.type = t.args := by
      rw [hq.args]
      have := hsp.1.reverse.1
      rw [List.reverse_reverse] at this
      simp only [shown, List.map_append, this]
      rfl
    rw [if_pos hty]
    have := hH.observing t h hσ hq.observes (by rw [hq.args, hq.results, List.append_assoc]; simp) _ _ _ hty hc.store
    have hlen : (c.stack.take ins.length).reverse.length = ins.length := by
      have := hsp.1.reverse.length; simpa using this
    have htk : (shown m ins.length info c).take t.results.length = (c.stack.take ins.length).reverse := by
      rw [hq.results, shown, List.append_assoc, List.take_append_of_le_length (by omega), List.take_of_length_le (by omega)]
    rw [htk] at this
    simp only [Res.revised] at this
    cases hg : g (c.stack.take ins.length).reverse with
    | none =>
      rw [hg] at this
      dsimp only at this ⊢
      generalize E'.callF h _ _ = o at this ⊢
      cases this with
      | trap h => exact .trap h
      | fuelR h => exact .fuelR h
      | trapL h => exact .trapL h
      | trapT h => exact .trapT h
      | trapR h => exact .trapR h
    | some ws =>
      rw [hg] at this
      dsimp only at this ⊢
      generalize E'.callF h _ _ = o at this ⊢
      cases this with
      | @ok vs s s' hv hs =>
        dsimp only
        rw [if_pos hv.1]
        refine .norm ⟨?_, hc.locals, hs, ?_, hc.localsOK⟩
        · dsimp only
          rw [hc.stack]
        · have := hv.reverse.append hsp.2
          rwa [hq.results] at this
      | fuelR h => exact .fuelR h
      | trapR h => exact .trapR h

/-- Operations performed by the analysis keep the executions in step. -/
theorem revised_perform_sim {R : Rel W W'} {T X} {Q : W → W' → Prop} (hS : R.S = SameState Γ T X Q) {σ : Sel} {hooked g} {B} {E : Env W} {E' : Env W'}
    (hE : R.Envs Γ E E') (hH : R.Revises Γ B σ hooked g E E') {m b a e c c'} (hB : B b) (ht : BTyped Γ b a e) (hc : R.Cfgs Γ a c c') :
    R.Outs Γ e ((revising E hooked g).perf m b c) (perform E' σ m b c') := by
  rw [perform_eq]
  simp only [revising, hH.selected]
  cases hd : delegation b with
  | none => exact step_sim hS hE ht hc
  | some p =>
    obtain ⟨t, k, info⟩ := p
    dsimp only
    cases hσ : σ t with
    | none =>
      simp only [Option.isSome_none, Bool.false_eq_true, if_false]
      exact step_sim hS hE ht hc
    | some h =>
      simp only [Option.isSome_some, if_true]
      obtain ⟨ins, r, rfl, rfl, rfl, hargs, -⟩ := step_frame E (c := c) hd ht hc.stackOK
      have hsp := hc.stackOK.split
      simp only [List.length_reverse] at hsp
      unfold ask
      rw [hσ]
      dsimp only
      rw [hc.stack]
      change R.Outs Γ _ _ (if (shown m ins.length info c).map RVal.type = t.args then _ else _)
      have hty : (shown m ins.length info c).map RVal.type = t.args := by
        rw [hargs]
        have := hsp.1.reverse.1
        rw [List.reverse_reverse] at this
        simp only [shown, List.map_append, this]
        rfl
      rw [if_pos hty]
      have := hH.delegated b t _ info h hd hσ hB (.of_typed ht) (c.stack.take ins.length).reverse [nI64 m.fidx, nI64 m.iidx] c.store c'.store
        (by simpa using hsp.1.reverse.length) rfl hty hc.store
      change R.Outs Γ _ _ (match E'.callF h (shown m ins.length info c) c'.store with
        | .ok vs s => if vs.map RVal.type = t.results then Out.norm { c' with stack := vs.reverse ++ c.stack.drop ins.length, store := s } else .stuck
        | .trap s => .trap s
        | .stuck => .stuck
        | .fuel => .fuel)
      change R.Ress Γ _ _ (E'.callF h (shown m ins.length info c) c'.store) at this
      generalize revisedRun g (execInstr E b) _ _ = o at this ⊢
      generalize E'.callF h _ _ = o' at this ⊢
      cases this with
      | @ok vs s s' hv hs =>
        dsimp only
        rw [if_pos hv.1]
        exact .norm ⟨rfl, hc.locals, hs, hv.reverse.append hsp.2, hc.localsOK⟩
      | trap hs => exact .trap hs
      | fuel => exact .fuel
      | fuelL h => exact .fuelL h
      | fuelR h => exact .fuelR h
      | trapL h => exact .trapL h
      | trapT h => exact .trapT h
      | trapR h => exact .trapR h

/-- Code executed with revised values on one side, with the analysis interposed on the other. -/
theorem revised_body_agrees {R : Rel W W'} {T X} {Q : W → W' → Prop} (hS : R.S = SameState Γ T X Q) {B σ hooked g} {E : Env W} {E' : Env W'}
    (hE : R.Envs Γ E E') (hH : R.Revises Γ B σ hooked g E E') {b : List TI} (hB : OnlyCode B (TI.lowerL b)) {ty : FuncType} {locals : List ValType}
    (ht : TTyL (Γ.body ty locals) b [] ty.results.reverse) {c c'} (hc : R.Cfgs (Γ.body ty locals) [] c c') :
    R.Outs (Γ.body ty locals) ty.results.reverse (gdenL (revising E hooked g) E.loopFuel b c) (hdenL E' σ b c') := by
  rw [← (gden_hooking E' σ).2, hE.loopFuel]
  refine (sim (Γ₀ := Γ.body ty locals) (B := B) ?_ ?_).2 _ hB _ ⟨_, rfl⟩ _ _ ht c c' hc
  · intro Γ' hΓ m b a e c c' hB hb hc
    have hm := (Ctx.SameModule.body Γ ty locals).sameBut hΓ
    exact revised_perform_sim (hS.trans (SameState.congr hm)) (hE.congr hm) (hH.congr hm) hB hb hc
  · intro Γ' hΓ m t ins info a c c' hq hc
    have hm := (Ctx.SameModule.body Γ ty locals).sameBut hΓ
    exact revised_ask_sim (hH.congr hm) hq hc

section
variable {C : Checker} {iface : Interface} {ts : Option (List Nat)} {m : Module} {r : Instrumented} {ge : WasmExport} {cb : WasmImport}
  {order : List Nat} {fs : List Func} {hooks : FuncType → StackHooks} {copy : Nat} {K : LibLink} {H : Imports (World W A)} {N : Num} {L : Nat}

/-- The instrumented code of a function keeps the executions in step. (Like `body_runs`.) -/
theorem revised_body_runs (hs : SmallModule m) (hst : iface.Standard) (hA : Applied C iface ts m r ge cb order fs K.sigs hooks copy) (hv : ValidModule m)
    (hB : ∀ i ∈ bodyTargets m ts, ∀ f, m.functions[i]? = some f → WellAnnotated m f (bodyOf C m i)) {V V' : Type} {R : Rel V V'} {T X} {Q : V → V' → Prop}
    (hS : R.S = SameState m.ctx T X Q) {G : Imports V} {G' : Imports V'}
    (hhost : ∀ f ∈ m.functions, ∀ ns name, f.code = .imported ns name → HostsAgree R m.ctx f.type (G ns name) (G' ns name))
    {i k : Nat} {f g : Func} {es : List String} (hf : m.functions[i]? = some f) (hg : fs[i]? = some g) (hk : r.module.functions[k]? = some { g with exports := es })
    {E : Env V} (hEn : E.num = N) (hEL : E.loopFuel = L) (hEt : E.ftype = fun k => m.functions[k]?.map (·.type)) {D : Nat} (hc : CallsAgree R m.ctx E.callF (callF N (machineOf G' r.module.functions) L D))
    {B : Basic → Prop} (hO : ∀ i ∈ bodyTargets m ts, ∀ f c, m.functions[i]? = some f → f.code = .present c → OnlyCode B c.body) {hooked : Trap → Bool} {rev : Revision}
    (hH : R.Revises m.ctx B (hookSel iface m.functions.length) hooked rev E (envAt N (machineOf G' r.module.functions) L D))
    {args : List RVal} {s s'} (ha : ValsOK m.ctx args f.type.inputs) (hss : R.S s s') :
    R.Ress m.ctx f.type.results (runImpl E f.type (revisedImpl C m (bodyTargets m ts) hooked rev G i f) args s) (callF N (machineOf G' r.module.functions) L (D + 1) k args s') := by
  obtain ⟨targets, bs, ht, hd⟩ := hA.bodies
  have hm := List.mem_of_getElem? hf
  have hE : R.Envs m.ctx E (envAt N (machineOf G' r.module.functions) L D) := by
    refine ⟨hEn.symm, hEL.symm, ?_, hc⟩
    intro f' ty hty
    rw [envAt_types, hEt]
    refine ⟨hty, ?_⟩
    simp only [Module.ctx, Option.map_eq_some_iff] at hty
    obtain ⟨f0, hf0, rfl⟩ := hty
    obtain ⟨g0, hg0, ht0, _⟩ := hA.own hf0
    dsimp only
    by_cases ho : f' ∈ order
    · obtain ⟨j, hj⟩ := List.getElem?_of_mem ho
      rw [(hA.at.target j f' g0 hj hg0).2.2.1, ← ht0]
      rfl
    · rw [hA.at.untouched f' g0 ho hg0, ← ht0]
      rfl
  have hown := hd.own i (List.getElem?_eq_some_iff.1 hf).1
  rw [hg, hf, Option.map_some, Option.some.injEq] at hown
  cases hcode : f.code with
  | imported ns name =>
    have hgc : g.code = .imported ns name ∧ g.type = f.type := by
      rw [hown]; split
      · simp [Func.withBody, hcode]
      · exact ⟨hcode, rfl⟩
    rw [callF_import hk hgc.1]
    simp only [runImpl, revisedImpl, hcode]
    exact hhost f hm ns name hcode _ _ hc _ _ _ ha hss
  | present c =>
    simp only [runImpl, revisedImpl, hcode]
    by_cases hi : i ∈ bodyTargets m ts
    · have hit := (ht i).2 hi
      rw [if_pos hit] at hown
      obtain ⟨b, hb⟩ : ∃ b, raiseTarget C m i = .ok b := ⟨_, hA.raised i hi⟩
      have eb : bodyOf C m i = b := by simp [bodyOf, hb]
      have hI : Interposes r.module.functions (hookSel iface m.functions.length) (fun k' => if k' = k then some (bodyOf C m i) else none) := by
        refine hd.interposes hst (fun i hi => hA.raised i ((ht i).1 hi)) ?_ ?_
        · intro k' f' hk' hf'
          refine hA.at.untouched k' f' ?_ hf'
          intro ho
          obtain ⟨g0, hg0, _⟩ := mem_applyTargets.1 ((hA.mem k').1 ho)
          have := (List.getElem?_eq_some_iff.1 hg0).1
          omega
        · intro k' b' hb'
          split at hb'
          · rename_i hkk
            subst hkk
            cases hb'
            exact ⟨i, _, hit, rfl, hk, g, hg, rfl⟩
          · cases hb'
      have hgc : g.code = .present ⟨c.locals, lowerTyped (expandL (hookSel iface m.functions.length) (bs i) (bodyOf C m i))⟩ ∧ g.type = f.type := by
        rw [hown]; simp [Func.withBody, hcode]
      have e1 : ∀ D, callF N (machineOf G' r.module.functions) L D = _ := fun D => callF_interposed hI N G' L D
      have henv : envAt N (interposed (hookSel iface m.functions.length) (fun k' => if k' = k then some (bodyOf C m i) else none) (machineOf G' r.module.functions)) L D =
          envAt N (machineOf G' r.module.functions) L D := by
        simp only [envAt, interposed_type, ← e1]
      rw [e1]
      have e2 : interposed (hookSel iface m.functions.length) (fun k' => if k' = k then some (bodyOf C m i) else none) (machineOf G' r.module.functions) k =
          some (f.type, .code c.locals fun E => hdenL E (hookSel iface m.functions.length) (bodyOf C m i)) := by
        have : machineOf G' r.module.functions k = some (f.type, .code c.locals fun E => denFlat E (lowerTyped (expandL (hookSel iface m.functions.length) (bs i) (bodyOf C m i)))) := by
          simp only [machineOf, hk, Option.map_some, hgc.2, implOf, hgc.1]
        simp only [interposed, if_true, this]
      have e3 : callF N (interposed (hookSel iface m.functions.length) (fun k' => if k' = k then some (bodyOf C m i) else none) (machineOf G' r.module.functions)) L (D + 1) k args s' =
          runBody f.type c.locals (hdenL (envAt N (machineOf G' r.module.functions) L D) (hookSel iface m.functions.length) (bodyOf C m i)) args s' := by
        rw [← henv]
        simp only [callF, e2]
        rfl
      rw [e3]
      refine runBody_sim (fun cfg cfg' hcc => ?_) ha hss
      rw [if_pos hi]
      refine revised_body_agrees hS hE hH ((hO i hi f c hf hcode).mono ?_) (hB i hi f hf c hcode) hcc
      intro x hm
      obtain ⟨f', c', hf', hc', hr⟩ := raiseTarget_present hb
      rw [hf] at hf'; cases hf'
      rw [hcode] at hc'; cases hc'
      rw [eb] at hm
      have := C02_lowerTyped_raiseFunction _ _ _ _ _ hr
      rw [← this]
      exact List.mem_append_left _ hm
    · have hit : i ∉ targets := fun hh => hi ((ht i).1 hh)
      rw [if_neg hit] at hown
      subst hown
      rw [callF_code hk hcode]
      refine runBody_sim (fun cfg cfg' hcc => ?_) ha hss
      rw [if_neg hi]
      exact plain_body_agrees hS hE (hv.functions _ hm c hcode) hcc

/-! ## Intercepted calls -/

/-- What the interception of a call amounts to when the analysis edits the arguments, resumes, and edits the results. -/
theorem call_edited (hA : Applied C iface ts m r ge cb order fs K.sigs hooks copy) (hge : ge.args = [.i32, .i32, .i32, .i32, .i32, .i32, .i32] ∧ ge.results = [])
    (hcb : cb.args = [.i32, .i32] ∧ cb.results = []) (hsz : order.length < 2 ^ 32)
    (hK : K.Good) (hsm : SmallSigs K.sigs) (hlib : HasLib K H) {pre post : RuntimeValues → RuntimeValues → Act (World W A) Unit}
    (hH : H analysisModule ge.name = around K (copy + 2 * order.length) pre post)
    {j i : Nat} {f : Func} (hj : order[j]? = some i) (hf : m.functions[i]? = some f) {φ ψ : List Val → List Val} {χ χ' : Nat → List Val → List Val}
    (hpre : ∀ p, Edits f.type p (pre (handle f.type p) (handle f.type p)) φ (χ p)) (hpost : ∀ p, Edits f.type p (post (handle f.type p) (handle f.type p)) (χ' p) ψ)
    {l : Lib} (ok : l.Ok) {s : Store (World W A)} (hs : s.getLib = l.store) (hseg : SegmentsIntact m r s) {xs : List Val} (hx : xs.map Val.type = f.type.inputs)
    (hfull : ¬ Full l (12 * f.type.slots)) (hpg : l.mem.pages < 65536) (d : Nat) :
    ∃ (lc : Lib), lc.Ok ∧ lc.free = l.free + 12 * f.type.slots ∧ lc.mem.limit = l.mem.limit ∧ lc.mem.pages < 65536 ∧
      match callF N (machineOf H r.module.functions) L (d + 1) (copy + 2 * j) ((φ xs).map .num) (s.setLib lc.store) with
      | .ok vs s2 => ∀ (ys : List Val) (l2 : Lib), vs = ys.map .num → ys.map Val.type = f.type.results → s2.getLib = l2.store → l2.Ok → l2.free = lc.free →
          ∃ (l3 : Lib), callF N (machineOf H r.module.functions) L (d + 5) i (xs.map .num) s = .ok ((ψ ys).map .num) (s2.setLib l3.store) ∧ l3.Ok ∧ l3.free = l.free ∧
            l3.mem.limit = l2.mem.limit ∧ l3.mem.pages = l2.mem.pages
      | .trap s2 => callF N (machineOf H r.module.functions) L (d + 5) i (xs.map .num) s = .trap s2
      | .fuel => callF N (machineOf H r.module.functions) L (d + 5) i (xs.map .num) s = .fuel
      | .stuck => callF N (machineOf H r.module.functions) L (d + 5) i (xs.map .num) s = .stuck := by
  obtain ⟨g, hg, hgt, hgp⟩ := hA.own hf
  have hr := applyTarget_refFree hA hj hf
  have hn : f.type.slots < 8192 := by rw [← hgt]; exact hsm _ (hA.at.target j i g hj hg).1
  rcases call_intercepted (N := N) (L := L) hA hge hK hsm hlib hj hf ok hs hx (d + 3) with ⟨hfl, _⟩ | ⟨p, q, l1, hP, hans⟩
  · exact absurd hfl hfull
  obtain ⟨m1, e1, o1, a1, r1⟩ := hpre p l1 (s.setLib l1.store) hP.alloc.ok (Store.getLib_setLib _ _) hP.values_in
  have ok1 : (⟨l1.free, m1⟩ : Lib).Ok := o1.ok hP.alloc.ok
  have hin1 : p + 8 * f.type.slots ≤ (⟨l1.free, m1⟩ : Lib).mem.size := by dsimp only; rw [o1.size]; exact hP.values_in
  rw [hP.args] at a1
  refine ⟨⟨l1.free, m1⟩, ok1, hP.alloc.free, o1.limit.trans hP.alloc.limit, by dsimp only; rw [o1.pages]; exact hP.alloc.room hpg, ?_⟩
  have hres := call_resumed (N := N) (L := L) hA hcb hsz hK hlib hj hf ok1 (s := s.setLib (⟨l1.free, m1⟩ : Lib).store) (Store.getLib_setLib _ _) hseg hin1 d
  rw [show (⟨l1.free, m1⟩ : Lib).mem = m1 from rfl, a1] at hres
  have hrv := LibLink.runtimeValues_ok (W := W) (A := A) (s := s.setLib l1.store) (p := p) hK hP.alloc.ok (Store.getLib_setLib _ _) hr.both hn hP.types hP.types_in
  have hask : H analysisModule ge.name (callF N (machineOf H r.module.functions) L (d + 3)) (applyQuestion j i f.type p q (codePresent f)) (s.setLib l1.store) =
      match (WasmFunction.apply ⟨BitVec.ofNat 32 j, BitVec.ofNat 32 i, BitVec.ofNat 32 p, codePresent f⟩ (copy + 2 * order.length) (callF N (machineOf H r.module.functions) L (d + 3)) >>= fun _ => post (handle f.type p) (handle f.type p))
        (s.setLib (⟨l1.free, m1⟩ : Lib).store) with
      | .ok _ s => .ok [] s
      | .trap s => .trap s
      | .stuck => .stuck
      | .fuel => .fuel := by
    rw [hH]
    simp only [around, applyAdvice, applyQuestion, RVal.i32, bind, Act.bind, hrv, e1, Store.setLib_setLib]
    rfl
  rw [hask] at hans
  clear hask
  simp only [WasmFunction.apply, bind, Act.bind] at hans
  show match callF N (machineOf H r.module.functions) L (d + 1) (copy + 2 * j) ((φ xs).map .num) (s.setLib (⟨l1.free, m1⟩ : Lib).store) with
    | .ok vs s2 => _
    | .trap s2 => _
    | .fuel => _
    | .stuck => _
  cases hc : callF N (machineOf H r.module.functions) L (d + 1) (copy + 2 * j) ((φ xs).map .num) (s.setLib (⟨l1.free, m1⟩ : Lib).store) with
  | ok vs s2 =>
    rw [hc] at hres
    dsimp only
    intro ys l2 hvs hty hs2 ok2 hf2
    have hin2 : p + 8 * f.type.slots ≤ l2.mem.size := by
      have h1 := hP.alloc.free
      have h2 := ok2.free
      have h3 := hP.p_eq
      have hf2' : l2.free = l1.free := hf2
      split at h3 <;> omega
    obtain ⟨m2, e2, rs2, o2⟩ := hres.2 ys l2 hvs hty hs2 ok2 hin2
    have ok2' : (⟨l2.free, m2⟩ : Lib).Ok := o2.ok ok2
    obtain ⟨m3, e3, o3, a3, r3⟩ := hpost p ⟨l2.free, m2⟩ (s2.setLib (⟨l2.free, m2⟩ : Lib).store) ok2' rfl (by dsimp only; rw [o2.size]; exact hin2)
    dsimp only at r3
    rw [rs2] at r3
    rw [e2] at hans
    simp only [Res.toEff, pure, e3, Store.setLib_setLib] at hans
    have ok3 : (⟨l2.free, m3⟩ : Lib).Ok := Mem.OnlyIn.ok (l := ⟨l2.free, m2⟩) ok2' o3
    have hfin := hans ⟨l2.free, m3⟩ rfl ok3 hf2
    dsimp only at hfin
    rw [r3] at hfin
    refine ⟨⟨l.free, m3⟩, hfin, ⟨?_, ok.free', ok3.pages, ok3.limit⟩, rfl, o3.limit.trans o2.limit, o3.pages.trans o2.pages⟩
    have := ok3.free
    have := hP.alloc.free
    dsimp only at *
    omega
  | trap s2 =>
    rw [hc] at hres
    dsimp only [Resumed] at hres
    rw [hres] at hans
    exact hans
  | fuel =>
    rw [hc] at hres
    dsimp only [Resumed] at hres
    rw [hres] at hans
    exact hans
  | stuck =>
    rw [hc] at hres
    dsimp only [Resumed] at hres
    rw [hres] at hans
    exact hans

/-- With hardly any call depth left, an intercepted call whose arguments are edited runs out of it. -/
theorem call_edited_shallow (hA : Applied C iface ts m r ge cb order fs K.sigs hooks copy) (hge : ge.args = [.i32, .i32, .i32, .i32, .i32, .i32, .i32] ∧ ge.results = [])
    (hcb : cb.args = [.i32, .i32] ∧ cb.results = []) (hsz : order.length < 2 ^ 32)
    (hK : K.Good) (hsm : SmallSigs K.sigs) (hlib : HasLib K H) {pre post : RuntimeValues → RuntimeValues → Act (World W A) Unit}
    (hH : H analysisModule ge.name = around K (copy + 2 * order.length) pre post)
    {j i : Nat} {f : Func} (hj : order[j]? = some i) (hf : m.functions[i]? = some f) {φ : List Val → List Val} {χ : Nat → List Val → List Val}
    (hpre : ∀ p, Edits f.type p (pre (handle f.type p) (handle f.type p)) φ (χ p))
    {l : Lib} (ok : l.Ok) {s : Store (World W A)} (hs : s.getLib = l.store) (hseg : SegmentsIntact m r s) {xs : List Val} (hx : xs.map Val.type = f.type.inputs)
    (hfull : ¬ Full l (12 * f.type.slots)) {d : Nat} (hd : d < 5) :
    callF N (machineOf H r.module.functions) L d i (xs.map .num) s = .fuel := by
  obtain ⟨g, hg, hgt, hgp⟩ := hA.own hf
  have hr := applyTarget_refFree hA hj hf
  obtain ⟨hmem, hlk, htr, hcp, hap⟩ := hA.at.target j i g hj hg
  have hn : f.type.slots < 8192 := by rw [← hgt]; exact hsm _ hmem
  match d, hd with
  | 0, _ => rfl
  | 1, _ => exact call_shallow_one hA hj hf hx
  | d + 2, hd =>
    rcases call_intercepted (N := N) (L := L) hA hge hK hsm hlib hj hf ok hs hx d with ⟨hfl, _⟩ | ⟨p, q, l1, hP, hans⟩
    · exact absurd hfl hfull
    obtain ⟨m1, e1, o1, a1, r1⟩ := hpre p l1 (s.setLib l1.store) hP.alloc.ok (Store.getLib_setLib _ _) hP.values_in
    have hrv := LibLink.runtimeValues_ok (W := W) (A := A) (s := s.setLib l1.store) (p := p) hK hP.alloc.ok (Store.getLib_setLib _ _) hr.both hn hP.types hP.types_in
    have hbase := base_shallow (N := N) (L := L) (H := H) hA hcb hsz hj hf (s := s.setLib (⟨l1.free, m1⟩ : Lib).store) hseg (p := p) (d := d) (by omega)
    rw [hH] at hans
    simp only [around, applyAdvice, applyQuestion, RVal.i32, bind, Act.bind, hrv, e1, Store.setLib_setLib] at hans
    simp only [RVal.i32] at hbase
    simp only [WasmFunction.apply, bind, Act.bind, RVal.i32, hbase, Res.toEff] at hans
    exact hans

/-- A function on numbers as a function on values. -/
def RVal.mapNum (φ : Val → Val) : RVal → RVal
  | .num v => .num (φ v)
  | .ref r a => .ref r a

/-- Replace every number by another. -/
def replacing (φ : Val → Val) : Revision := fun vs => some (vs.map (RVal.mapNum φ))

/-- An intercepted call keeps the executions in step if the call of the copy does. -/
theorem edited_agrees (hA : Applied C iface ts m r ge cb order fs K.sigs hooks copy) (hge : ge.args = [.i32, .i32, .i32, .i32, .i32, .i32, .i32] ∧ ge.results = [])
    (hcb : cb.args = [.i32, .i32] ∧ cb.results = []) (hsz : order.length < 2 ^ 32)
    (hK : K.Good) (hsm : SmallSigs K.sigs) (hlib : HasLib K H) {pre post : RuntimeValues → RuntimeValues → Act (World W A) Unit}
    (hH : H analysisModule ge.name = around K (copy + 2 * order.length) pre post)
    {j i : Nat} {f : Func} (hj : order[j]? = some i) (hf : m.functions[i]? = some f) {φ : Val → Val} (hφ : ∀ v, (φ v).type = v.type) {χ χ' : Nat → List Val → List Val}
    (hpre : ∀ p, Edits f.type p (pre (handle f.type p) (handle f.type p)) (·.map φ) (χ p)) (hpost : ∀ p, Edits f.type p (post (handle f.type p) (handle f.type p)) (χ' p) (·.map φ))
    {T X} {F M : Nat} {fl fr tl : Bool} {d : Nat} {run : List RVal → Store W → Res W} {args : List RVal} (hr : f.type.RefFree) (ha : ValsOK m.ctx args f.type.inputs)
    (hcap : F + 12 * f.type.slots ≤ M * 65536 ∧ F + 12 * f.type.slots ≤ 65535 * 65536) {s : Store W} {s' : Store (World W A)} (hseg : SegmentsIntact m r s')
    (hS : (besideLib m.ctx T X (fun _ => LibAt F M) never fl fr tl).S s s')
    (hcopy : ∀ args, ValsOK m.ctx args f.type.inputs → ∀ s', (besideLib m.ctx T X (fun _ => LibAt (F + 12 * f.type.slots) M) never fl fr tl).S s s' →
      (besideLib m.ctx T X (fun _ => LibAt (F + 12 * f.type.slots) M) never fl fr tl).Ress m.ctx f.type.results (run args s) (callF N (machineOf H r.module.functions) L (d + 1) (copy + 2 * j) args s')) :
    (besideLib m.ctx T X (fun _ => LibAt F M) never fl fr tl).Ress m.ctx f.type.results (revisedRun (replacing φ) run args s) (callF N (machineOf H r.module.functions) L (d + 5) i args s') := by
  obtain ⟨xs, rfl, hx⟩ := args_nums ha.1 hr.inputs
  obtain ⟨h1, ⟨w, a, st⟩, ⟨h2, l, rfl, ok, rfl, rfl, hpg⟩, rfl⟩ := hS
  have hfull : ¬ Full l (12 * f.type.slots) := by
    rintro (h | h | h)
    · omega
    · omega
    · omega
  have hmap : ∀ xs : List Val, (xs.map RVal.num).map (RVal.mapNum φ) = (xs.map φ).map RVal.num := by
    intro xs; simp [RVal.mapNum, Function.comp_def]
  have hty : ∀ xs : List Val, (xs.map φ).map Val.type = xs.map Val.type := by
    intro xs; simp [hφ, Function.comp_def]
  have hnum : ∀ (xs : List Val) {tys}, xs.map Val.type = tys → ValsOK m.ctx (xs.map RVal.num) tys := by
    rintro xs tys rfl
    refine ⟨by simp [Function.comp_def, RVal.type], fun v hv f hf => ?_⟩
    obtain ⟨x, _, rfl⟩ := List.mem_map.1 hv
    cases x <;> cases hf
  simp only [revisedRun, replacing, hmap]
  obtain ⟨lc, okc, hfc, hlc, hpc, hres⟩ := call_edited (N := N) (L := L) hA hge hcb hsz hK hsm hlib hH hj hf hpre hpost ok (s := s.extend T X (w, a, l.store)) rfl hseg hx hfull hpg d
  have hst : (s.extend T X (w, a, l.store)).setLib lc.store = s.extend T X (w, a, lc.store) := rfl
  rw [hst] at hres
  have := hcopy ((xs.map φ).map .num) (hnum _ (by rw [hty, hx])) (s.extend T X (w, a, lc.store)) ⟨h1, (w, a, lc.store), ⟨h2, lc, rfl, okc, hfc, hlc, hpc⟩, rfl⟩
  generalize run _ _ = o at this ⊢
  generalize callF N (machineOf H r.module.functions) L (d + 1) (copy + 2 * j) ((xs.map φ).map .num) (s.extend T X (w, a, lc.store)) = o' at this hres
  cases this with
  | @ok vs s1 s1' hv hs1 =>
    obtain ⟨g1, ⟨w1, a1, st1⟩, ⟨g2, l2, rfl, ok2, hf2, hl2, hp2⟩, rfl⟩ := hs1
    obtain ⟨ys, rfl, hy⟩ := args_nums hv.1 hr.results
    obtain ⟨l3, e, ok3, hf3, hl3, hp3⟩ := hres ys l2 rfl hy rfl ok2 (by rw [hf2, hfc])
    rw [e]
    simp only [Res.revised, replacing, hmap]
    refine .ok (hnum _ (by rw [hty, hy])) ?_
    exact ⟨g1, (w1, a1, l3.store), ⟨g2, l3, rfl, ok3, hf3, by rw [hl3, hl2], by rw [hp3]; exact hp2⟩, rfl⟩
  | trap hs1 =>
    rw [hres]
    obtain ⟨g1, w1, ⟨g2, _⟩, rfl⟩ := hs1
    exact .trapT ⟨g1, w1, g2, rfl⟩
  | fuel => rw [hres]; exact .fuel
  | fuelL h => exact .fuelL h
  | fuelR h => rw [hres]; exact .fuelR h
  | trapL h => exact .trapL h
  | trapT h => rw [hres]; exact .trapT h
  | trapR h => exact absurd h id

end

end Wastrum
