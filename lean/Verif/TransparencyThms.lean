import Verif.CallSim
import Verif.InstrumentThms
import Verif.ValidityThms
/-!
# What forwarding and recording analyses do to a program (C10, C11, C46)
-/

set_option linter.unusedSimpArgs false
set_option linter.unusedVariables false

namespace Wastrum

variable {W W' A : Type}

/-! ## Specification -/

/-- The state of a program running under an analysis: the program's own state and the state `a` of the analysis. -/
def Store.withAnalysis (s : Store W) (a : A) : Store (W × A) := ⟨s.globals, s.mems, s.tables, s.datas, s.elems, (s.world, a)⟩

/-- A result of the program with a state of the analysis. -/
def Res.withAnalysis (r : Res W) (a : A) : Res (W × A) :=
  match r with
  | .ok vs s => .ok vs (s.withAnalysis a)
  | .trap s => .trap (s.withAnalysis a)
  | .stuck => .stuck
  | .fuel => .fuel

/-- Execute one operation on its operands. -/
def execute (N : Num) (b : Basic) (operands : List RVal) (s : Store W) : Res W :=
  execInstr ⟨N, fun _ => none, fun _ _ _ => .stuck, 0⟩ b operands s

/-- An analysis that forwards: a hook that is shown operands returns them (where the operand is a condition, it may return any
number that is as true); a hook that is handed an operation (with its operands and the operator's code) performs it. Each call changes the analysis' own state as allowed by `P`, and nothing else. -/
structure Forwards (N : Num) (iface : Interface) (P : Trap → List RVal → A → A → Prop) (H : Imports (W × A)) : Prop where
  shown : ∀ t e, iface.trap t = some e → t.Observes → ∀ call args (s : Store W) a, args.map RVal.type = t.args →
    ∃ vs a', SameAnswer t (args.take t.results.length) vs ∧ P t args a a' ∧
      H "WASTRUMENTATION_ANALYSIS" e.name call args (s.withAnalysis a) = .ok vs (s.withAnalysis a')
  performed : ∀ t e, iface.trap t = some e → ∀ b k info, delegation b = some (t, k, info) →
    ∀ call operands location (s : Store W) a, operands.length = k → location.length = 2 →
      (operands ++ info ++ location).map RVal.type = t.args →
      ∃ a', P t (operands ++ info ++ location) a a' ∧
        H "WASTRUMENTATION_ANALYSIS" e.name call (operands ++ info ++ location) (s.withAnalysis a) =
          (execute N b operands s).withAnalysis a'

/-- Executions whose program states agree: `fl`/`fr` say that the first/second may have been cut off where the other was
not; `tl` says that nothing is claimed once the first has trapped. -/
def agreeing (Γ : Ctx) (Q : W → W' → Prop) (fl fr : Bool) (tl : Bool := false) : Rel W W' := ⟨SameState Γ [] [] Q, fl, fr, tl, fun _ _ => False, fun _ => False⟩

/-- The program's imports do the same in both worlds (provided the functions of the program that they call back do). -/
def ImportsAgree (m : Module) (Q : W → W' → Prop) (H : Imports W) (H' : Imports W') : Prop :=
  ∀ f ∈ m.functions, ∀ ns name, f.code = .imported ns name →
    ∀ fl fr tl, HostsAgree (agreeing m.ctx Q fl fr tl) m.ctx f.type (H ns name) (H' ns name)

/-- The original program running with every executed instruction of a target noted by `u`. -/
def traced (C : Checker) (m : Module) (targets : List Nat) (H : Imports W) (u : Trap → List RVal → W → W) : Machine W := fun i =>
  m.functions[i]?.map fun f => (f.type, match f.code with
    | .imported ns name => .host (H ns name)
    | .present c => .code c.locals fun E => if i ∈ targets then gdenL (noting E u) E.loopFuel (bodyOf C m i) else denFlat E c.body)

/-! ## Lemmas -/

/-- Forwarding in general: the operations performed satisfy `B`, the functions the analysis may call behave as `callOK`
says; with `tl`, nothing is claimed about operations that trap; with `mo`, the analysis may run out of bounds. -/
structure ForwardsFor (N : Num) (iface : Interface) (P : Trap → List RVal → A → A → Prop)
    (callOK : (Nat → List RVal → Store (W × A) → Res (W × A)) → Prop) (B : Basic → Prop) (tl mo : Bool) (H : Imports (W × A)) : Prop where
  shown : ∀ t e, iface.trap t = some e → t.Observes → ∀ call args (s : Store W) a, args.map RVal.type = t.args →
    ∃ vs a', SameAnswer t (args.take t.results.length) vs ∧ P t args a a' ∧
      H "WASTRUMENTATION_ANALYSIS" e.name call args (s.withAnalysis a) = .ok vs (s.withAnalysis a')
  performed : ∀ t e, iface.trap t = some e → ∀ b k info, delegation b = some (t, k, info) → B b →
    ∀ call, callOK call → ∀ operands location (s : Store W) a, operands.length = k → location.length = 2 →
      (operands ++ info ++ location).map RVal.type = t.args → (∀ x ∈ s.mems, x.Bounded) →
      (tl = true ∧ ∃ s1, execute N b operands s = .trap s1) ∨
      (mo = true ∧ H "WASTRUMENTATION_ANALYSIS" e.name call (operands ++ info ++ location) (s.withAnalysis a) = .fuel) ∨
      ∃ a', P t (operands ++ info ++ location) a a' ∧
        H "WASTRUMENTATION_ANALYSIS" e.name call (operands ++ info ++ location) (s.withAnalysis a) =
          (execute N b operands s).withAnalysis a'

theorem Forwards.general {N : Num} {iface : Interface} {P : Trap → List RVal → A → A → Prop} {H : Imports (W × A)} {B : Basic → Prop} (h : Forwards N iface P H) :
    ForwardsFor N iface P (fun _ => True) B false false H :=
  ⟨h.shown, fun t e he b k info hd _ call _ ops loc s a h1 h2 h3 _ => .inr (.inr (h.performed t e he b k info hd call ops loc s a h1 h2 h3))⟩

theorem traced_nothing {C : Checker} {m : Module} {targets : List Nat} (hb : ∀ i ∈ targets, ∃ b, raiseTarget C m i = .ok b) (H : Imports W) :
    traced C m targets H (fun _ _ w => w) = machineOf H m.functions := by
  funext i
  unfold traced machineOf
  cases hf : m.functions[i]? with
  | none => rfl
  | some f =>
    simp only [Option.map_some, Option.some.injEq, Prod.mk.injEq, true_and]
    unfold implOf
    cases hc : f.code with
    | imported ns name => rfl
    | present c =>
      dsimp only
      congr 1
      funext E cfg
      by_cases hi : i ∈ targets
      · rw [if_pos hi, noting_nothing]
        obtain ⟨b, hb⟩ := hb i hi
        have e : bodyOf C m i = b := by simp [bodyOf, hb]
        obtain ⟨f', c', hf', hc', hr⟩ := raiseTarget_present hb
        rw [hf] at hf'; cases hf'
        rw [hc] at hc'; cases hc'
        rw [e, (gden_plain E).2, ← denFlat_lowerTyped, C02_lowerTyped_raiseFunction _ _ _ _ _ hr]
      · rw [if_neg hi]

theorem execInstr_execute (E : Env W) {b t k info} (hd : delegation b = some (t, k, info)) (ops : List RVal) (s : Store W) :
    execInstr E b ops s = execute E.num b ops s := by
  cases b <;> first | rfl | (simp [delegation] at hd; done)

theorem instruments_raises {C iface ts m r} (hs : SmallModule m) (h : Instruments C iface ts m r) :
    ∀ i ∈ bodyTargets m ts, ∃ b, raiseTarget C m i = .ok b := by
  obtain ⟨ord, ord', ho, ho', h⟩ := h
  exact ((instrument_ok_iff ho ho' hs).1 ⟨r, h⟩).2

/-- The general form: the traced original and the instrumented program agree. -/
theorem traced_agrees {C iface ts m r} (hs : SmallModule m) (hst : iface.Standard) (hg : iface.generic = none)
    (h : Instruments C iface ts m r) (hv : ValidModule m)
    (hB : ∀ i ∈ bodyTargets m ts, ∀ f, m.functions[i]? = some f → WellAnnotated m f (bodyOf C m i))
    {B : Basic → Prop} (hO : ∀ i ∈ bodyTargets m ts, ∀ f c, m.functions[i]? = some f → f.code = .present c → OnlyCode B c.body)
    {R : Rel W W'} {Q : W → W' → Prop} (hS : R.S = SameState m.ctx [] [] Q) {k : Nat} (hk : R.fl = true ∨ k = 0) {N : Num} {L : Nat}
    {H : Imports W} {H' : Imports W'} {u : Trap → List RVal → W → W}
    (hhost : ∀ f ∈ m.functions, ∀ ns name, f.code = .imported ns name → HostsAgree R m.ctx f.type (H ns name) (H' ns name))
    (hhook : ∀ d, R.Hooks m.ctx B (hookSel iface m.functions.length) u (envAt N (traced C m (bodyTargets m ts) H u) L d)
      (envAt N (underAnalysis C m (bodyTargets m ts) H' (hookSel iface m.functions.length) (r.module.functions.drop m.functions.length)) L (d + k)))
    (d : Nat) : CallsAgree R m.ctx (callF N (traced C m (bodyTargets m ts) H u) L d) (callF N (machineOf H' r.module.functions) L (d + k)) := by
  have e : callF N (machineOf H' r.module.functions) L (d + k) = callF N (underAnalysis C m (bodyTargets m ts) H'
      (hookSel iface m.functions.length) (r.module.functions.drop m.functions.length)) L (d + k) := by
    funext f args s; exact C09_instrumented_is_interposed hs hst hg h N H' L (d + k) f args s
  rw [e]
  refine calls_agree (P := fun E E' => R.Hooks m.ctx B (hookSel iface m.functions.length) u E E') hk hhook ?_ d
  intro f ty hf
  simp only [Module.ctx, Option.map_eq_some_iff] at hf
  obtain ⟨g, hg, rfl⟩ := hf
  have hm := List.mem_of_getElem? hg
  cases hc : g.code with
  | imported ns name =>
    exact ⟨.host (H ns name), .host (H' ns name), by simp only [traced, hg, Option.map_some, hc], by simp only [underAnalysis, hg, hc],
      .host (hhost g hm ns name hc)⟩
  | present c =>
    refine ⟨.code c.locals fun E => if f ∈ bodyTargets m ts then gdenL (noting E u) E.loopFuel (bodyOf C m f) else denFlat E c.body,
      .code c.locals fun E => if f ∈ bodyTargets m ts then hdenL E (hookSel iface m.functions.length) (bodyOf C m f) else denFlat E c.body,
      by simp only [traced, hg, Option.map_some, hc], by simp only [underAnalysis, hg, hc], .code ?_⟩
    intro E E' hE hH cfg cfg' hcc
    by_cases hi : f ∈ bodyTargets m ts
    · rw [if_pos hi, if_pos hi]
      refine hooked_body_agrees hS hE hH ((hO f hi g c hg hc).mono ?_) (hB f hi g hg c hc) hcc
      intro i hm
      obtain ⟨b, hb⟩ := instruments_raises hs h f hi
      have e : bodyOf C m f = b := by simp [bodyOf, hb]
      obtain ⟨f', c', hf', hc', hr⟩ := raiseTarget_present hb
      rw [hg] at hf'; cases hf'
      rw [hc] at hc'; cases hc'
      rw [e] at hm
      have := C02_lowerTyped_raiseFunction _ _ _ _ _ hr
      rw [← this]
      exact List.mem_append_left _ hm
    · rw [if_neg hi, if_neg hi]
      exact plain_body_agrees hS hE (hv.functions g hm c hc) hcc

/-- A hook call reaches the analysis. -/
theorem hook_call {C iface ts m r} (hs : SmallModule m) (h : Instruments C iface ts m r) {t : Trap} {k : Nat}
    (hk : hookSel iface m.functions.length t = some k) : ∃ e, iface.trap t = some e ∧
      ∀ (N : Num) (H' : Imports W') (L d : Nat) targets σ, callF N (underAnalysis C m targets H' σ (r.module.functions.drop m.functions.length)) L (d + 1) k =
        H' "WASTRUMENTATION_ANALYSIS" e.name (callF N (underAnalysis C m targets H' σ (r.module.functions.drop m.functions.length)) L d) := by
  cases he : iface.trap t with
  | none => rw [hookSel_none_iff.2 he] at hk; cases hk
  | some e =>
    obtain ⟨k', h1, h2, h3⟩ := hook_installed hs h he
    rw [hk] at h1; cases h1
    refine ⟨e, rfl, fun N H' L d targets σ => ?_⟩
    funext args s
    have e1 : underAnalysis C m targets H' σ (r.module.functions.drop m.functions.length) k =
        some (e.funcType, .host (H' "WASTRUMENTATION_ANALYSIS" e.name)) := by
      unfold underAnalysis
      rw [List.getElem?_eq_none h2]
      simp only [machineOf, List.getElem?_drop]
      rw [Nat.add_sub_cancel' h2, h3]
      rfl
    simp only [callF, e1]

/-- A delegated operation does the same in two worlds, and leaves the worlds alone. -/
theorem execute_sim {Γ : Ctx} {N : Num} {b t k info ops} {s : Store W} {s' : Store W'} {T X} {loc : List RVal} (hd : delegation b = some (t, k, info))
    (hΓ : Γ.locals = []) (hm : Γ.HasMem b) (hk : ops.length = k) (hl : loc.length = 2) (hty : (ops ++ info ++ loc).map RVal.type = t.args)
    (hs : SameState Γ T X (fun w w' => w = s.world ∧ w' = s'.world) s s') :
    (⟨SameState Γ T X (fun w w' => w = s.world ∧ w' = s'.world), false, false, false, fun _ _ => False, fun _ => False⟩ : Rel W W').Ress Γ t.results (execute N b ops s) (execute N b ops s') := by
  let E : Env W := ⟨N, Γ.ftype, fun _ _ _ => .fuel, 0⟩
  let E' : Env W' := ⟨N, Γ.ftype, fun _ _ _ => .fuel, 0⟩
  have e1 := execInstr_execute E hd ops s
  have e2 := execInstr_execute E' hd ops s'
  change _ = execute N b ops s at e1
  change _ = execute N b ops s' at e2
  rw [← e1, ← e2]
  have hE : (⟨SameState Γ T X (fun w w' => w = s.world ∧ w' = s'.world), false, false, false, fun _ _ => False, fun _ => False⟩ : Rel W W').Envs Γ E E' :=
    ⟨rfl, rfl, fun f ty hf => ⟨hf, hf⟩, fun _ _ _ _ _ _ _ _ => .fuel⟩
  have hb : ∃ ins, BTyped Γ b ins.reverse t.results.reverse ∧ t.args = ins ++ info.map RVal.type ++ [.i64, .i64] ∧ ins.length = k ∧ (∀ r, .ref r ∉ ins) := by
    cases b <;> try (simp [delegation] at hd; done)
    case unary op =>
      simp only [delegation, Option.map_eq_some_iff, Prod.mk.injEq] at hd
      obtain ⟨_, hd, rfl, rfl, rfl⟩ := hd
      have ha := unaryTrap_args hd
      exact ⟨[op.sig.1], ⟨[], rfl, by rw [ha.2]; rfl⟩, by rw [ha.1]; rfl, rfl, by simpa using fun r => Ne.symm (op.sig_num r)⟩
    case binary op =>
      simp only [delegation, Option.map_eq_some_iff, Prod.mk.injEq] at hd
      obtain ⟨_, hd, rfl, rfl, rfl⟩ := hd
      have ha := binaryTrap_args hd
      exact ⟨[op.sig.1, op.sig.1], ⟨[], rfl, by rw [ha.2]; rfl⟩, by rw [ha.1]; rfl, rfl, by simpa using fun r => Ne.symm (op.sig_num r)⟩
    case load op ma =>
      simp only [delegation, Option.map_eq_some_iff, Prod.mk.injEq] at hd
      obtain ⟨_, hd, rfl, rfl, rfl⟩ := hd
      have ha := loadTrap_args hd
      exact ⟨[.i32], ⟨hm, [], rfl, by rw [ha.2]; rfl⟩, by rw [ha.1]; rfl, rfl, by simp⟩
    case store op ma =>
      simp only [delegation, Option.map_eq_some_iff, Prod.mk.injEq] at hd
      obtain ⟨_, hd, rfl, rfl, rfl⟩ := hd
      have ha := storeTrap_args hd
      exact ⟨[.i32, op.ty], ⟨hm, [], rfl, by rw [ha.2]; rfl⟩, by rw [ha.1]; rfl, rfl, by simpa using fun r => Ne.symm (op.ty_num r)⟩
    case memoryGrow i =>
      simp only [delegation, Option.some.injEq, Prod.mk.injEq] at hd
      obtain ⟨rfl, rfl, rfl⟩ := hd
      exact ⟨[.i32], ⟨hm, [], rfl, rfl⟩, rfl, rfl, by simp⟩
  obtain ⟨ins, hb, ha, hi, hn⟩ := hb
  have hv : ValsOK Γ ops.reverse ins.reverse := by
    have hops : ops.map RVal.type = ins := by
      rw [ha, List.map_append, List.map_append, List.append_assoc, List.append_assoc] at hty
      exact (List.append_inj hty (by simp; omega)).1
    refine ⟨by rw [List.map_reverse, hops], fun v hv f hf => ?_⟩
    have : v.type ∈ ins := by rw [← hops]; exact List.mem_map_of_mem (List.mem_reverse.1 hv)
    rw [hf] at this
    exact absurd this (hn _)
  have := step_sim (R := ⟨SameState Γ T X (fun w w' => w = s.world ∧ w' = s'.world), false, false, false, fun _ _ => False, fun _ => False⟩) (T := T) (X := X)
    (Q := fun w w' => w = s.world ∧ w' = s'.world) (c := ⟨ops.reverse, [], s⟩) (c' := ⟨ops.reverse, [], s'⟩)
    rfl hE hb ⟨rfl, rfl, hs, hv, by rw [hΓ]; exact .nil⟩
  unfold execInstr
  obtain ⟨_, _, _, _, _, _, hf⟩ := step_frame E (c := ⟨ops.reverse, [], s⟩) hd hb hv
  generalize step E b _ = o at this hf ⊢
  generalize step E' b _ = o' at this ⊢
  cases this with
  | norm h =>
    dsimp only
    rw [h.stack]
    have := h.stackOK.reverse
    rw [List.reverse_reverse] at this
    exact .ok this h.store
  | trap h => exact .trap h
  | fuel => exact .fuel
  | fuelL h => cases h
  | fuelR h => cases h
  | trapL h => cases h
  | trapT h => cases h
  | trapR h => cases h
  | br _ _ => split at hf <;> cases hf
  | ret _ => split at hf <;> cases hf

theorem Trap.args_num (t : Trap) (r : RefType) : .ref r ∉ t.args := by cases t <;> simp [Trap.args]

theorem SameState.iff {Γ : Ctx} {Q : W → W' → Prop} {s : Store W} {s' : Store W'} :
    SameState Γ [] [] Q s s' ↔ StoreOK Γ s ∧ Q s.world s'.world ∧ s'.globals = s.globals ∧ s'.mems = s.mems ∧ s'.tables = s.tables ∧
      s'.datas = s.datas ∧ s'.elems = s.elems := by
  constructor
  · rintro ⟨h, w, hq, rfl⟩
    exact ⟨h, hq, by simp [Store.extend]⟩
  · rintro ⟨h, hq, h1, h2, h3, h4, h5⟩
    refine ⟨h, s'.world, hq, ?_⟩
    simp only [Store.extend, List.append_nil, ← h1, ← h2, ← h3, ← h4, ← h5]

theorem StoreOK.world {Γ : Ctx} {s : Store W} (h : StoreOK Γ s) {s' : Store W'} (h1 : s'.globals = s.globals) (h2 : s'.mems = s.mems)
    (h3 : s'.tables = s.tables) (h4 : s'.datas = s.datas) (h5 : s'.elems = s.elems) : StoreOK Γ s' := by
  refine ⟨h1 ▸ h.1, h2 ▸ h.2, h3 ▸ h.3, h3 ▸ h.4, h4 ▸ h.5, h5 ▸ h.6, h5 ▸ h.7, h2 ▸ h.8⟩

/-- The hooks of a forwarding analysis keep the executions in step. `pw` is the program's part of the first world, `Z`
relates the rest of the first world to the state of the analysis. -/
theorem forwarding_hooks {V : Type} {C iface ts m r} (hs : SmallModule m) (h : Instruments C iface ts m r) {N : Num} {P : Trap → List RVal → A → A → Prop}
    {callOK : (Nat → List RVal → Store (W × A) → Res (W × A)) → Prop} {B : Basic → Prop} {tl mo : Bool} {H : Imports (W × A)}
    (hF : ForwardsFor N iface P callOK (fun b => B b ∧ m.ctx.HasMem b) tl mo H) {pw : V → W} {Z : V → A → Prop} {u : Trap → List RVal → V → V}
    (hu : ∀ t args v, pw (u t args v) = pw v) (hP : ∀ t args v a a', (iface.trap t).isSome → P t args a a' → Z v a → Z (u t args v) a')
    (hn : ∀ t args v a, iface.trap t = none → Z v a → Z (u t args v) a) {fl fr : Bool} (hmo : mo = true → fr = true) {k : Nat} (hk : fr = true ∨ 1 ≤ k) {L d : Nat}
    {targets : List Nat} {σ' : Sel} {E : Env V} (hE : E.num = N)
    (hcalls : ∀ d', d + k = d' + 1 → callOK (callF N (underAnalysis C m targets H σ' (r.module.functions.drop m.functions.length)) L d')) :
    (agreeing m.ctx (fun v (p : W × A) => pw v = p.1 ∧ Z v p.2) fl fr tl).Hooks m.ctx B (hookSel iface m.functions.length) u E
      (envAt N (underAnalysis C m targets H σ' (r.module.functions.drop m.functions.length)) L (d + k)) := by
  refine ⟨?_, ?_, ?_⟩
  · intro t hσ args s s' hS
    have ht := hookSel_none_iff.1 hσ
    simp only [agreeing, SameState.iff] at hS ⊢
    obtain ⟨h1, ⟨h2, h3⟩, h4⟩ := hS
    exact ⟨h1.world rfl rfl rfl rfl rfl, ⟨(hu t args _).trans h2, hn t args _ _ ht h3⟩, h4⟩
  · intro t i hσ ho hpre args s s' hty hS
    obtain ⟨e, he, hcall⟩ := hook_call (W' := W × A) hs h hσ
    simp only [envAt]
    cases hdk : d + k with
    | zero => rcases hk with hk | hk
              · exact ⟨_, .refl _ _, .fuelR hk⟩
              · omega
    | succ d' =>
      rw [hcall]
      simp only [agreeing, SameState.iff] at hS
      obtain ⟨h1, ⟨h2, h3⟩, h4, h5, h6, h7, h8⟩ := hS
      obtain ⟨vs, a', hsame, hp, hh⟩ := hF.shown t e he ho (callF N (underAnalysis C m targets H σ' (r.module.functions.drop m.functions.length)) L d') args
        ⟨s'.globals, s'.mems, s'.tables, s'.datas, s'.elems, s'.world.1⟩ s'.world.2 hty
      have e1 : Store.withAnalysis ⟨s'.globals, s'.mems, s'.tables, s'.datas, s'.elems, s'.world.1⟩ s'.world.2 = s' := rfl
      rw [e1] at hh
      rw [hh]
      have hvt : vs.map RVal.type = t.results := by rw [hsame.types, List.map_take, hty, hpre]
      refine ⟨vs, hsame, .ok ⟨hvt, ?_⟩ ?_⟩
      · intro v hv f hf
        have : v.type ∈ t.results := by rw [← hvt]; exact List.mem_map_of_mem hv
        rw [hf] at this
        rw [← hpre] at this
        exact absurd (List.mem_of_mem_take this) (t.args_num _)
      · simp only [agreeing, SameState.iff]
        exact ⟨h1.world rfl rfl rfl rfl rfl, ⟨(hu t args _).trans h2, hP _ _ _ _ _ (by rw [he]; rfl) hp h3⟩, h4, h5, h6, h7, h8⟩
  · intro b t j info i hd hσ hB hm ops loc s s' hops hloc hty hS
    obtain ⟨e, he, hcall⟩ := hook_call (W' := W × A) hs h hσ
    simp only [envAt]
    cases hdk : d + k with
    | zero => rcases hk with hk | hk
              · exact .fuelR hk
              · omega
    | succ d' =>
      rw [hcall]
      simp only [agreeing, SameState.iff] at hS
      obtain ⟨h1, ⟨h2, h3⟩, h4, h5, h6, h7, h8⟩ := hS
      have hperf := hF.performed t e he b j info hd ⟨hB, hm⟩ (callF N (underAnalysis C m targets H σ' (r.module.functions.drop m.functions.length)) L d')
        (hcalls d' hdk) ops loc ⟨s'.globals, s'.mems, s'.tables, s'.datas, s'.elems, s'.world.1⟩ s'.world.2 hops hloc hty (by rw [h5]; exact h1.pages)
      have e1 : Store.withAnalysis ⟨s'.globals, s'.mems, s'.tables, s'.datas, s'.elems, s'.world.1⟩ s'.world.2 = s' := rfl
      rw [e1] at hperf
      rw [execInstr_execute E hd, hE]
      have := execute_sim (Γ := m.ctx) (N := N) (s := note u t (ops ++ info ++ loc) s)
        (s' := ⟨s'.globals, s'.mems, s'.tables, s'.datas, s'.elems, s'.world.1⟩) hd rfl hm hops hloc hty
        (SameState.iff.2 ⟨h1.world rfl rfl rfl rfl rfl, ⟨rfl, rfl⟩, h4, h5, h6, h7, h8⟩)
      rcases hperf with ⟨htl, s1, hx⟩ | ⟨hmo', hx⟩ | ⟨a', hp, hh⟩
      · rw [hx] at this
        generalize execute N b ops (note u t (ops ++ info ++ loc) s) = o at this ⊢
        cases this with
        | trap hS => exact .trapL htl
        | fuelL h => cases h
        | trapL h => cases h
        | trapT h => cases h
        | trapR h => cases h
      · rw [hx]; exact .fuelR (hmo hmo')
      rw [hh]
      generalize execute N b ops (note u t (ops ++ info ++ loc) s) = o at this ⊢
      generalize execute N b ops _ = o' at this ⊢
      have lift : ∀ {s1 : Store V} {s1' : Store W}, SameState m.ctx [] [] (fun w w' => w = (note u t (ops ++ info ++ loc) s).world ∧ w' = s'.world.1) s1 s1' →
          SameState m.ctx [] [] (fun v (p : W × A) => pw v = p.1 ∧ Z v p.2) s1 (s1'.withAnalysis a') := by
        intro s1 s1' hS
        rw [SameState.iff] at hS ⊢
        obtain ⟨g1, ⟨g2, g3⟩, g4⟩ := hS
        refine ⟨g1, ⟨?_, ?_⟩, g4⟩
        · rw [g2]
          show _ = s1'.world
          rw [g3]
          exact (hu t _ _).trans h2
        · rw [g2]
          exact hP _ _ _ _ _ (by rw [he]; rfl) hp h3
      cases this with
      | ok hv hS => exact .ok hv (lift hS)
      | trap hS => exact .trap (lift hS)
      | fuel => exact .fuel
      | fuelL h => cases h
      | fuelR h => cases h
      | trapL h => cases h
      | trapT h => cases h
      | trapR h => cases h

theorem CallsAgree.ok {R : Rel W W'} {Γ : Ctx} {call call'} (h : CallsAgree R Γ call call') {f ty args s s'} (hf : Γ.ftype f = some ty)
    (ha : ValsOK Γ args ty.inputs) (hS : R.S s s') (htl : R.tl = false) (hT : ∀ s s', ¬ R.T s s') (hTR : ∀ s, ¬ R.TR s) :
    call f args s = .fuel ∧ (R.fl = true ∨ call' f args s' = .fuel) ∨ call' f args s' = .fuel ∧ R.fr = true ∨
    (∃ vs s1 s1', call f args s = .ok vs s1 ∧ call' f args s' = .ok vs s1' ∧ R.S s1 s1') ∨
    (∃ s1 s1', call f args s = .trap s1 ∧ call' f args s' = .trap s1' ∧ R.S s1 s1') := by
  have := h f ty args s s' hf ha hS
  generalize call f args s = o at this ⊢
  generalize call' f args s' = o' at this ⊢
  cases this with
  | ok hv hs => exact .inr (.inr (.inl ⟨_, _, _, rfl, rfl, hs⟩))
  | trap hs => exact .inr (.inr (.inr ⟨_, _, rfl, rfl, hs⟩))
  | fuel => exact .inl ⟨rfl, .inr rfl⟩
  | fuelL h => exact .inl ⟨rfl, .inl h⟩
  | fuelR h => exact .inr (.inl ⟨rfl, h⟩)
  | trapL h => rw [htl] at h; cases h
  | trapT h => exact absurd h (hT _ _)
  | trapR h => exact absurd h (hTR _)

theorem SameState.program {Γ : Ctx} {s : Store W} {s' : Store (W × A)} {Q : W → W × A → Prop}
    (h : SameState Γ [] [] Q s s') (hQ : ∀ v p, Q v p → v = p.1) : s' = s.withAnalysis s'.world.2 := by
  obtain ⟨_, h2, h4, h5, h6, h7, h8⟩ := SameState.iff.1 h
  replace h2 := hQ _ _ h2
  obtain ⟨g, me, t, da, e, w, a⟩ := s'
  simp only at h2 h4 h5 h6 h7 h8
  subst h2 h4 h5 h6 h7 h8
  rfl

/-- The imports of a program running beside an analysis, when they do not call back: they act on the program's part of the state. -/
def Imports.beside (H : Imports W) (A : Type) : Imports (W × A) := fun ns name _ args s =>
  (H ns name (fun _ _ _ => .stuck) args ⟨s.globals, s.mems, s.tables, s.datas, s.elems, s.world.1⟩).withAnalysis s.world.2

/-- An imported function that does not call back and is well-behaved: it returns values of its type (or traps), and leaves the
program's state well-formed. -/
def PlainImport (Γ : Ctx) (ty : FuncType) (h : Host W) : Prop := (∀ call call', h call = h call') ∧
  ∀ call args s, ValsOK Γ args ty.inputs → StoreOK Γ s → (∃ vs s1, h call args s = .ok vs s1 ∧ ValsOK Γ vs ty.results ∧ StoreOK Γ s1) ∨
    ∃ s1, h call args s = .trap s1 ∧ StoreOK Γ s1

/-- Imports that do not call back do the same beside an analysis. -/
theorem ImportsAgree.plain {m : Module} {H : Imports W} {H' : Imports (W × A)}
    (hp : ∀ f ∈ m.functions, ∀ ns name, f.code = .imported ns name → PlainImport m.ctx f.type (H ns name) ∧ H' ns name = H.beside A ns name) :
    ImportsAgree m (fun w (p : W × A) => w = p.1) H H' := by
  intro f hf ns name hc fl fr tl call call' _ args s s' ha hS
  obtain ⟨⟨h1, h2⟩, h3⟩ := hp f hf ns name hc
  simp only [agreeing] at hS
  have hs' := hS.program fun _ _ h => h
  have hok := (SameState.iff.1 hS).1
  rw [h3, hs', h1 call (fun _ _ _ => .stuck)]
  simp only [Imports.beside]
  have e : (⟨(s.withAnalysis s'.world.2).globals, (s.withAnalysis s'.world.2).mems, (s.withAnalysis s'.world.2).tables, (s.withAnalysis s'.world.2).datas,
    (s.withAnalysis s'.world.2).elems, (s.withAnalysis s'.world.2).world.1⟩ : Store W) = s := rfl
  rw [e]
  rcases h2 (fun _ _ _ => .stuck) args s ha hok with ⟨vs, s1, e1, hv, hs1⟩ | ⟨s1, e1, hs1⟩
  · rw [e1]
    refine .ok hv ?_
    simp only [agreeing, SameState.iff]
    exact ⟨hs1, rfl, rfl, rfl, rfl, rfl, rfl⟩
  · rw [e1]
    refine .trap ?_
    simp only [agreeing, SameState.iff]
    exact ⟨hs1, rfl, rfl, rfl, rfl, rfl, rfl⟩

/-! ## C10 -/

/-- C10, with the bounds on loop iterations `L` and call depth `d` in view. Let a valid program be instrumented for an
analysis that forwards. Whatever function is called with whatever arguments in whatever state: if the original program
ends within the bounds, so does the instrumented one (hooks being one level deeper), with the same results or trap and
the same state of the program; and the other way around. Neither goes wrong. -/
theorem C10_forwarding_analysis_transparent {C iface ts m r} (hs : SmallModule m) (hst : iface.Standard) (hg : iface.generic = none)
    (h : Instruments C iface ts m r) (hv : ValidModule m)
    (hB : ∀ i ∈ bodyTargets m ts, ∀ f, m.functions[i]? = some f → WellAnnotated m f (bodyOf C m i))
    {N : Num} {P : Trap → List RVal → A → A → Prop} {H : Imports W} {H' : Imports (W × A)}
    (hF : Forwards N iface P H') (hI : ImportsAgree m (fun w (p : W × A) => w = p.1) H H')
    {f : Nat} {ty : FuncType} {args : List RVal} {s : Store W} (hf : m.ctx.ftype f = some ty) (hargs : ValsOK m.ctx args ty.inputs)
    (hok : StoreOK m.ctx s) (a : A) (L d : Nat) :
    (∀ vs s1, callF N (machineOf H m.functions) L d f args s = .ok vs s1 →
      ∃ a1, callF N (machineOf H' r.module.functions) L (d + 1) f args (s.withAnalysis a) = .ok vs (s1.withAnalysis a1)) ∧
    (∀ s1, callF N (machineOf H m.functions) L d f args s = .trap s1 →
      ∃ a1, callF N (machineOf H' r.module.functions) L (d + 1) f args (s.withAnalysis a) = .trap (s1.withAnalysis a1)) ∧
    (∀ vs s1', callF N (machineOf H' r.module.functions) L d f args (s.withAnalysis a) = .ok vs s1' →
      ∃ s1 a1, callF N (machineOf H m.functions) L d f args s = .ok vs s1 ∧ s1' = s1.withAnalysis a1) ∧
    (∀ s1', callF N (machineOf H' r.module.functions) L d f args (s.withAnalysis a) = .trap s1' →
      ∃ s1 a1, callF N (machineOf H m.functions) L d f args s = .trap s1 ∧ s1' = s1.withAnalysis a1) ∧
    callF N (machineOf H m.functions) L d f args s ≠ .stuck ∧
    callF N (machineOf H' r.module.functions) L d f args (s.withAnalysis a) ≠ .stuck := by
  have hQ : (fun w (p : W × A) => w = p.1) = (fun v (p : W × A) => id v = p.1 ∧ True) := by funext w p; simp
  rw [hQ] at hI
  have key : ∀ (fl fr : Bool) (k : Nat), fl = true ∨ k = 0 → fr = true ∨ 1 ≤ k →
      CallsAgree (agreeing m.ctx (fun v (p : W × A) => id v = p.1 ∧ True) fl fr) m.ctx (callF N (machineOf H m.functions) L d)
        (callF N (machineOf H' r.module.functions) L (d + k)) := by
    intro fl fr k h1 h2
    have := traced_agrees (u := fun _ _ w => w) hs hst hg h hv hB (B := fun _ => True) (fun _ _ _ _ _ _ _ _ => trivial)
      (R := agreeing m.ctx (fun v (p : W × A) => id v = p.1 ∧ True) fl fr) (Q := fun v (p : W × A) => id v = p.1 ∧ True) rfl
      (k := k) h1 (N := N) (L := L) (H := H) (H' := H') (fun f hf ns name hc => hI f hf ns name hc fl fr false)
      (fun d => forwarding_hooks hs h hF.general (pw := id) (Z := fun _ _ => True) (u := fun _ _ w => w) (fun _ _ _ => rfl)
        (fun _ _ _ _ _ _ _ _ => trivial) (fun _ _ _ _ _ _ => trivial) (by simp) h2 rfl (fun _ _ => trivial)) d
    rwa [traced_nothing (instruments_raises hs h)] at this
  have hS : SameState m.ctx [] [] (fun v (p : W × A) => id v = p.1 ∧ True) s (s.withAnalysis a) :=
    SameState.iff.2 ⟨hok, ⟨rfl, trivial⟩, rfl, rfl, rfl, rfl, rfl⟩
  have k1 := (key true false 1 (.inl rfl) (.inr (Nat.le_refl _))).ok hf hargs hS rfl (fun _ _ h => h) (fun _ h => h)
  have k2 := (key false true 0 (.inr rfl) (.inl rfl)).ok hf hargs hS rfl (fun _ _ h => h) (fun _ h => h)
  simp only [agreeing, Bool.false_eq_true, and_false, false_or, Nat.add_zero, and_true] at k1 k2
  generalize callF N (machineOf H m.functions) L d f args s = o at k1 k2 ⊢
  generalize callF N (machineOf H' r.module.functions) L (d + 1) f args (s.withAnalysis a) = o1 at k1 ⊢
  generalize callF N (machineOf H' r.module.functions) L d f args (s.withAnalysis a) = o0 at k2 ⊢
  refine ⟨?_, ?_, ?_, ?_, ?_, ?_⟩
  · rintro vs s1 rfl
    rcases k1 with ⟨h, _⟩ | ⟨_, _, _, h, rfl, hs⟩ | ⟨_, _, h, _⟩ <;> cases h
    exact ⟨_, by rw [← hs.program fun _ _ h => h]⟩
  · rintro s1 rfl
    rcases k1 with ⟨h, _⟩ | ⟨_, _, _, h, _⟩ | ⟨_, _, h, rfl, hs⟩ <;> cases h
    exact ⟨_, by rw [← hs.program fun _ _ h => h]⟩
  · rintro vs s1' rfl
    rcases k2 with ⟨_, h⟩ | h | ⟨_, _, _, rfl, h, hs⟩ | ⟨_, _, _, h, _⟩ <;> cases h
    exact ⟨_, _, rfl, hs.program fun _ _ h => h⟩
  · rintro s1' rfl
    rcases k2 with ⟨_, h⟩ | h | ⟨_, _, _, _, h, _⟩ | ⟨_, _, rfl, h, hs⟩ <;> cases h
    exact ⟨_, _, rfl, hs.program fun _ _ h => h⟩
  · rintro rfl
    rcases k1 with ⟨h, _⟩ | ⟨_, _, _, h, _⟩ | ⟨_, _, h, _⟩ <;> cases h
  · rintro rfl
    rcases k2 with ⟨_, h⟩ | h | ⟨_, _, _, _, h, _⟩ | ⟨_, _, _, h, _⟩ <;> cases h

/-- **C10.** An instrumented program whose analysis forwards behaves exactly like the original: it ends normally in one
iff in the other, with the same values and the same final state of the program (memories, globals, tables, world); it
traps in one iff in the other, in the same state; it runs forever in one iff in the other. -/
theorem C10_same_behaviour {C iface ts m r} (hs : SmallModule m) (hst : iface.Standard) (hg : iface.generic = none)
    (h : Instruments C iface ts m r) (hv : ValidModule m)
    (hB : ∀ i ∈ bodyTargets m ts, ∀ f, m.functions[i]? = some f → WellAnnotated m f (bodyOf C m i))
    {N : Num} {P : Trap → List RVal → A → A → Prop} {H : Imports W} {H' : Imports (W × A)}
    (hF : Forwards N iface P H') (hI : ImportsAgree m (fun w (p : W × A) => w = p.1) H H')
    {f : Nat} {ty : FuncType} {args : List RVal} {s : Store W} (hf : m.ctx.ftype f = some ty) (hargs : ValsOK m.ctx args ty.inputs)
    (hok : StoreOK m.ctx s) (a : A) :
    (∀ vs s1, (∃ L d, callF N (machineOf H m.functions) L d f args s = .ok vs s1) ↔
      ∃ L d a1, callF N (machineOf H' r.module.functions) L d f args (s.withAnalysis a) = .ok vs (s1.withAnalysis a1)) ∧
    (∀ s1, (∃ L d, callF N (machineOf H m.functions) L d f args s = .trap s1) ↔
      ∃ L d a1, callF N (machineOf H' r.module.functions) L d f args (s.withAnalysis a) = .trap (s1.withAnalysis a1)) ∧
    ((∀ L d, callF N (machineOf H m.functions) L d f args s = .fuel) ↔
      ∀ L d, callF N (machineOf H' r.module.functions) L d f args (s.withAnalysis a) = .fuel) := by
  have key := fun L d => C10_forwarding_analysis_transparent hs hst hg h hv hB hF hI hf hargs hok a L d
  have inj : ∀ {s1 s2 : Store W} {a1 a2 : A}, s1.withAnalysis a1 = s2.withAnalysis a2 → s1 = s2 := by
    intro s1 s2 a1 a2 e
    simp only [Store.withAnalysis, Store.mk.injEq, Prod.mk.injEq] at e
    obtain ⟨h1, h2, h3, h4, h5, h6, _⟩ := e
    cases s1; cases s2; simp_all
  refine ⟨?_, ?_, ?_⟩
  · intro vs s1
    constructor
    · rintro ⟨L, d, e⟩
      obtain ⟨a1, e'⟩ := (key L d).1 vs s1 e
      exact ⟨L, d + 1, a1, e'⟩
    · rintro ⟨L, d, a1, e⟩
      obtain ⟨s2, a2, e1, e2⟩ := (key L d).2.2.1 _ _ e
      exact ⟨L, d, by rw [e1, inj e2]⟩
  · intro s1
    constructor
    · rintro ⟨L, d, e⟩
      obtain ⟨a1, e'⟩ := (key L d).2.1 s1 e
      exact ⟨L, d + 1, a1, e'⟩
    · rintro ⟨L, d, a1, e⟩
      obtain ⟨s2, a2, e1, e2⟩ := (key L d).2.2.2.1 _ e
      exact ⟨L, d, by rw [e1, inj e2]⟩
  · constructor
    · intro e L d
      cases ho : callF N (machineOf H' r.module.functions) L d f args (s.withAnalysis a) with
      | fuel => rfl
      | stuck => exact absurd ho (key L d).2.2.2.2.2
      | ok vs s1 => obtain ⟨s2, a2, e1, _⟩ := (key L d).2.2.1 _ _ ho; rw [e] at e1; cases e1
      | trap s1 => obtain ⟨s2, a2, e1, _⟩ := (key L d).2.2.2.1 _ ho; rw [e] at e1; cases e1
    · intro e L d
      cases ho : callF N (machineOf H m.functions) L d f args s with
      | fuel => rfl
      | stuck => exact absurd ho (key L d).2.2.2.2.1
      | ok vs s1 => obtain ⟨a2, e1⟩ := (key L d).1 _ _ ho; rw [e] at e1; cases e1
      | trap s1 => obtain ⟨a2, e1⟩ := (key L d).2.1 _ ho; rw [e] at e1; cases e1

/-! ## C46 -/

/-- **C46.** Under an analysis that forwards, an execution in which no loop runs more than `L` times per entry and calls
nest at most `d` deep stays so after instrumentation (the hooks themselves nest one deeper), and the other way around: the
instrumented program needs neither more loop iterations nor deeper recursion than the original. -/
theorem C46_bounds_preserved {C iface ts m r} (hs : SmallModule m) (hst : iface.Standard) (hg : iface.generic = none)
    (h : Instruments C iface ts m r) (hv : ValidModule m)
    (hB : ∀ i ∈ bodyTargets m ts, ∀ f, m.functions[i]? = some f → WellAnnotated m f (bodyOf C m i))
    {N : Num} {P : Trap → List RVal → A → A → Prop} {H : Imports W} {H' : Imports (W × A)}
    (hF : Forwards N iface P H') (hI : ImportsAgree m (fun w (p : W × A) => w = p.1) H H')
    {f : Nat} {ty : FuncType} {args : List RVal} {s : Store W} (hf : m.ctx.ftype f = some ty) (hargs : ValsOK m.ctx args ty.inputs)
    (hok : StoreOK m.ctx s) (a : A) (L d : Nat) :
    (callF N (machineOf H m.functions) L d f args s ≠ .fuel →
      callF N (machineOf H' r.module.functions) L (d + 1) f args (s.withAnalysis a) ≠ .fuel) ∧
    (callF N (machineOf H' r.module.functions) L d f args (s.withAnalysis a) ≠ .fuel →
      callF N (machineOf H m.functions) L d f args s ≠ .fuel) := by
  obtain ⟨k1, k2, k3, k4, k5, k6⟩ := C10_forwarding_analysis_transparent hs hst hg h hv hB hF hI hf hargs hok a L d
  constructor
  · intro hn
    cases ho : callF N (machineOf H m.functions) L d f args s with
    | fuel => exact absurd ho hn
    | stuck => exact absurd ho k5
    | ok vs s1 => obtain ⟨_, e⟩ := k1 _ _ ho; rw [e]; simp
    | trap s1 => obtain ⟨_, e⟩ := k2 _ ho; rw [e]; simp
  · intro hn
    cases ho : callF N (machineOf H' r.module.functions) L d f args (s.withAnalysis a) with
    | fuel => exact absurd ho hn
    | stuck => exact absurd ho k6
    | ok vs s1 => obtain ⟨_, _, e, _⟩ := k3 _ _ ho; rw [e]; simp
    | trap s1 => obtain ⟨_, _, e, _⟩ := k4 _ ho; rw [e]; simp

/-! ## C11 -/

/-- A log of events: which hook, and what it is shown (operands, further information, and the location: function index and
instruction index). -/
abbrev Log := List (Trap × List RVal)

/-- Append an event to the log. -/
def logEvent (t : Trap) (args : List RVal) (p : W × Log) : W × Log := (p.1, p.2 ++ [(t, args)])

/-- The events a given analysis has a hook for. -/
def Interface.observed (iface : Interface) (l : Log) : Log := l.filter fun e => (iface.trap e.1).isSome

/-- The state in which the log is restricted to what the analysis has hooks for. -/
def Store.observed (iface : Interface) (s : Store (W × Log)) : Store (W × Log) :=
  ⟨s.globals, s.mems, s.tables, s.datas, s.elems, (s.world.1, iface.observed s.world.2)⟩

/-- **C11, first half.** `traced … logEvent` is the original program, running with a log that notes every executed
instruction of a target function at every point a hook exists for: leaving the log aside, it does what the original does. -/
theorem C11_traced_program_is_the_program {C m targets} (hr : ∀ i ∈ targets, ∃ b, raiseTarget C m i = .ok b) (hv : ValidModule m)
    (hB : ∀ i ∈ targets, ∀ f, m.functions[i]? = some f → WellAnnotated m f (bodyOf C m i)) {N : Num} {H : Imports W} {T : Imports (W × Log)}
    (hI : ImportsAgree m (fun (p : W × Log) w => p.1 = w) T H)
    {f : Nat} {ty : FuncType} {args : List RVal} {s : Store W} (hf : m.ctx.ftype f = some ty) (hargs : ValsOK m.ctx args ty.inputs)
    (hok : StoreOK m.ctx s) (log : Log) (L d : Nat) :
    ∃ log1, callF N (traced C m targets T logEvent) L d f args (s.withAnalysis log) =
      (callF N (machineOf H m.functions) L d f args s).withAnalysis log1 := by
  have key : CallsAgree (agreeing m.ctx (fun (p : W × Log) w => p.1 = w) false false) m.ctx (callF N (traced C m targets T logEvent) L d)
      (callF N (machineOf H m.functions) L (d + 0)) := by
    refine calls_agree (P := fun E E' => E.num = N) (.inr rfl) (fun _ => rfl) ?_ d
    intro f ty hf
    simp only [Module.ctx, Option.map_eq_some_iff] at hf
    obtain ⟨g, hg, rfl⟩ := hf
    have hm := List.mem_of_getElem? hg
    cases hc : g.code with
    | imported ns name =>
      exact ⟨.host (T ns name), .host (H ns name), by simp only [traced, hg, Option.map_some, hc],
        by simp only [machineOf, hg, Option.map_some, implOf, hc], .host (hI g hm ns name hc _ _ _)⟩
    | present c =>
      refine ⟨.code c.locals fun E => if f ∈ targets then gdenL (noting E logEvent) E.loopFuel (bodyOf C m f) else denFlat E c.body,
        .code c.locals fun E => denFlat E c.body,
        by simp only [traced, hg, Option.map_some, hc], by simp only [machineOf, hg, Option.map_some, implOf, hc], .code ?_⟩
      intro E E' hE _ cfg cfg' hcc
      by_cases hi : f ∈ targets
      · rw [if_pos hi]
        obtain ⟨b, hb⟩ := hr f hi
        have e : bodyOf C m f = b := by simp [bodyOf, hb]
        obtain ⟨f', c', hf', hc', hr⟩ := raiseTarget_present hb
        rw [hg] at hf'; cases hf'
        rw [hc] at hc'; cases hc'
        have hcode : denFlat E' c.body cfg' = hdenL E' (fun _ => none) (bodyOf C m f) cfg' := by
          rw [← C02_lowerTyped_raiseFunction _ _ _ _ _ hr, denFlat_lowerTyped, e, ← (gden_plain E').2, ← (gden_hooking E' _).2]
          congr 1
          unfold plain hooking
          congr 1
          funext m b c
          rw [perform_eq]
          split <;> rfl
        rw [hcode]
        refine hooked_body_agrees (Q := fun (p : W × Log) w => p.1 = w) (T := []) (X := []) (B := fun _ => True) rfl hE ⟨?_, ?_, ?_⟩ (fun _ _ => trivial)
          (hB f hi g hg c hc) hcc
        · intro t _ args s s' hS
          simp only [agreeing, SameState.iff] at hS ⊢
          exact ⟨hS.1.world rfl rfl rfl rfl rfl, hS.2⟩
        · intro t h hσ; cases hσ
        · intro b t k info h _ hσ; cases hσ
      · rw [if_neg hi]
        exact plain_body_agrees (T := []) (X := []) (Q := fun (p : W × Log) w => p.1 = w) rfl hE (hv.functions g hm c hc) hcc
  have hS : SameState m.ctx [] [] (fun (p : W × Log) w => p.1 = w) (s.withAnalysis log) s :=
    SameState.iff.2 ⟨hok.world rfl rfl rfl rfl rfl, rfl, rfl, rfl, rfl, rfl, rfl⟩
  have prog : ∀ {s1 : Store (W × Log)} {s1' : Store W}, SameState m.ctx [] [] (fun (p : W × Log) w => p.1 = w) s1 s1' →
      s1 = s1'.withAnalysis s1.world.2 := by
    intro s1 s1' h
    obtain ⟨_, h2, h4, h5, h6, h7, h8⟩ := SameState.iff.1 h
    obtain ⟨g, me, t, da, e, w, a⟩ := s1
    simp only [Store.withAnalysis, h2, h4, h5, h6, h7, h8, ← h2]
  have := key.ok hf hargs hS rfl (fun _ _ h => h) (fun _ h => h)
  simp only [agreeing, Bool.false_eq_true, false_or, and_false, Nat.add_zero] at this
  generalize callF N (machineOf H m.functions) L d f args s = o at this ⊢
  rcases this with ⟨h1, rfl⟩ | ⟨vs, s1, s1', h1, rfl, h3⟩ | ⟨s1, s1', h1, rfl, h3⟩
  · exact ⟨log, h1⟩
  · exact ⟨s1.world.2, by rw [h1, prog h3]; rfl⟩
  · exact ⟨s1.world.2, by rw [h1, prog h3]; rfl⟩

/-- **C11, second half.** An analysis that forwards and records each of its calls ends up with exactly the events of the
traced program it has hooks for, in order and nothing else, whether the program ends normally or traps; values and
program state are those of the traced program. `T` and `H'` are the imports of the traced and the instrumented program,
which agree but for the logs. -/
theorem C11_recorded_log_is_the_trace {C iface ts m r} (hs : SmallModule m) (hst : iface.Standard) (hg : iface.generic = none)
    (h : Instruments C iface ts m r) (hv : ValidModule m)
    (hB : ∀ i ∈ bodyTargets m ts, ∀ f, m.functions[i]? = some f → WellAnnotated m f (bodyOf C m i))
    {N : Num} {T H' : Imports (W × Log)} (hF : Forwards N iface (fun t args log log' => log' = log ++ [(t, args)]) H')
    (hI : ImportsAgree m (fun p p' => p.1 = p'.1 ∧ p'.2 = iface.observed p.2) T H')
    {f : Nat} {ty : FuncType} {args : List RVal} {s : Store (W × Log)} (hf : m.ctx.ftype f = some ty) (hargs : ValsOK m.ctx args ty.inputs)
    (hok : StoreOK m.ctx s) (L d : Nat) :
    (∀ vs s1, callF N (traced C m (bodyTargets m ts) T logEvent) L d f args s = .ok vs s1 →
      callF N (machineOf H' r.module.functions) L (d + 1) f args (s.observed iface) = .ok vs (s1.observed iface)) ∧
    (∀ s1, callF N (traced C m (bodyTargets m ts) T logEvent) L d f args s = .trap s1 →
      callF N (machineOf H' r.module.functions) L (d + 1) f args (s.observed iface) = .trap (s1.observed iface)) ∧
    (∀ vs s1', callF N (machineOf H' r.module.functions) L d f args (s.observed iface) = .ok vs s1' →
      ∃ s1, callF N (traced C m (bodyTargets m ts) T logEvent) L d f args s = .ok vs s1 ∧ s1' = s1.observed iface) ∧
    (∀ s1', callF N (machineOf H' r.module.functions) L d f args (s.observed iface) = .trap s1' →
      ∃ s1, callF N (traced C m (bodyTargets m ts) T logEvent) L d f args s = .trap s1 ∧ s1' = s1.observed iface) := by
  have key : ∀ (fl fr : Bool) (k : Nat), fl = true ∨ k = 0 → fr = true ∨ 1 ≤ k →
      CallsAgree (agreeing m.ctx (fun (p p' : W × Log) => p.1 = p'.1 ∧ p'.2 = iface.observed p.2) fl fr) m.ctx
        (callF N (traced C m (bodyTargets m ts) T logEvent) L d) (callF N (machineOf H' r.module.functions) L (d + k)) := by
    intro fl fr k h1 h2
    refine traced_agrees hs hst hg h hv hB (B := fun _ => True) (fun _ _ _ _ _ _ _ _ => trivial)
      (Q := fun (p p' : W × Log) => p.1 = p'.1 ∧ p'.2 = iface.observed p.2) rfl h1 (fun f hf ns name hc => hI f hf ns name hc fl fr false) (fun d => ?_) d
    refine forwarding_hooks hs h hF.general (pw := Prod.fst) (Z := fun p l => l = iface.observed p.2) (u := logEvent) (fun _ _ _ => rfl)
      ?_ ?_ (by simp) h2 rfl (fun _ _ => trivial)
    · rintro t args v a a' ht rfl rfl
      simp only [logEvent, Interface.observed, List.filter_append, List.filter_cons, ht, if_true, List.filter_nil]
    · intro t args v a ht hz
      simp only [logEvent, Interface.observed, List.filter_append, List.filter_cons, ht, Option.isSome_none, Bool.false_eq_true, if_false,
        List.filter_nil, List.append_nil]
      exact hz
  have hS : SameState m.ctx [] [] (fun (p p' : W × Log) => p.1 = p'.1 ∧ p'.2 = iface.observed p.2) s (s.observed iface) :=
    SameState.iff.2 ⟨hok, ⟨rfl, rfl⟩, rfl, rfl, rfl, rfl, rfl⟩
  have obs : ∀ {s1 s1' : Store (W × Log)}, SameState m.ctx [] [] (fun (p p' : W × Log) => p.1 = p'.1 ∧ p'.2 = iface.observed p.2) s1 s1' →
      s1' = s1.observed iface := by
    intro s1 s1' h
    obtain ⟨_, ⟨h2, h3⟩, h4, h5, h6, h7, h8⟩ := SameState.iff.1 h
    obtain ⟨g, me, t, da, e, w, a⟩ := s1'
    simp only at h2 h3 h4 h5 h6 h7 h8
    simp only [Store.observed, h2, h3, h4, h5, h6, h7, h8]
  have k1 := (key true false 1 (.inl rfl) (.inr (Nat.le_refl _))).ok hf hargs hS rfl (fun _ _ h => h) (fun _ h => h)
  have k2 := (key false true 0 (.inr rfl) (.inl rfl)).ok hf hargs hS rfl (fun _ _ h => h) (fun _ h => h)
  simp only [agreeing, Bool.false_eq_true, and_false, false_or, Nat.add_zero] at k1 k2
  generalize callF N (traced C m (bodyTargets m ts) T logEvent) L d f args s = o at k1 k2 ⊢
  generalize callF N (machineOf H' r.module.functions) L (d + 1) f args (s.observed iface) = o1 at k1 ⊢
  generalize callF N (machineOf H' r.module.functions) L d f args (s.observed iface) = o0 at k2 ⊢
  refine ⟨?_, ?_, ?_, ?_⟩
  · rintro vs s1 rfl
    rcases k1 with ⟨h, _⟩ | ⟨_, _, _, h, rfl, hs⟩ | ⟨_, _, h, _⟩ <;> cases h
    rw [obs hs]
  · rintro s1 rfl
    rcases k1 with ⟨h, _⟩ | ⟨_, _, _, h, _⟩ | ⟨_, _, h, rfl, hs⟩ <;> cases h
    rw [obs hs]
  · rintro vs s1' rfl
    rcases k2 with ⟨_, h⟩ | h | ⟨_, _, _, rfl, h, hs⟩ | ⟨_, _, _, h, _⟩
    · cases h
    · cases h.1
    · cases h; exact ⟨_, rfl, obs hs⟩
    · cases h
  · rintro s1' rfl
    rcases k2 with ⟨_, h⟩ | h | ⟨_, _, _, _, h, _⟩ | ⟨_, _, rfl, h, hs⟩
    · cases h
    · cases h.1
    · cases h
    · cases h; exact ⟨_, rfl, obs hs⟩

end Wastrum
