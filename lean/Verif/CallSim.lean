import Verif.Forward
import Verif.Machine
/-!
# Calls keep two executions in step (supporting lemmas)
-/

set_option linter.unusedSimpArgs false
set_option linter.unusedVariables false

namespace Wastrum

variable {W W' : Type} {Γ : Ctx}

/-- Contexts of code in the same module. -/
structure Ctx.SameModule (Γ Γ' : Ctx) : Prop where
  ftype : Γ'.ftype = Γ.ftype
  globals : Γ'.globals = Γ.globals
  tables : Γ'.tables = Γ.tables
  mems : Γ'.mems = Γ.mems
  datas : Γ'.datas = Γ.datas
  elems : Γ'.elems = Γ.elems

theorem Ctx.SameModule.label (Γ : Ctx) (l) : Γ.SameModule (Γ.label l) := ⟨rfl, rfl, rfl, rfl, rfl, rfl⟩
theorem Ctx.SameModule.body (Γ : Ctx) (ty l) : Γ.SameModule (Γ.body ty l) := ⟨rfl, rfl, rfl, rfl, rfl, rfl⟩
theorem Ctx.SameModule.symm {Γ Γ' : Ctx} (h : Γ.SameModule Γ') : Γ'.SameModule Γ := ⟨h.1.symm, h.2.symm, h.3.symm, h.4.symm, h.5.symm, h.6.symm⟩
theorem Ctx.SameModule.sameBut {Γ Γ₀ Γ₁ : Ctx} (h : Γ₁.SameModule Γ₀) (hb : Γ.SameBut Γ₀) : Γ₁.SameModule Γ := by
  obtain ⟨l, rfl⟩ := hb; exact ⟨h.1, h.2, h.3, h.4, h.5, h.6⟩

theorem ValsOK.congr {Γ Γ' : Ctx} (h : Γ.SameModule Γ') {vs ts} (hv : ValsOK Γ vs ts) : ValsOK Γ' vs ts := by
  refine ⟨hv.1, fun v hm f hf => ?_⟩
  rw [h.ftype]; exact hv.2 v hm f hf

theorem Rel.Ress.congr {R : Rel W W'} {Γ Γ' : Ctx} (h : Γ.SameModule Γ') {ts o o'} (hr : R.Ress Γ ts o o') : R.Ress Γ' ts o o' := by
  cases hr with
  | ok hv hs => exact .ok (hv.congr h) hs
  | trap hs => exact .trap hs
  | fuel => exact .fuel
  | fuelL h => exact .fuelL h
  | fuelR h => exact .fuelR h
  | trapL h => exact .trapL h
  | trapT h => exact .trapT h
  | trapR h => exact .trapR h

theorem Rel.Envs.congr {R : Rel W W'} {Γ Γ' : Ctx} (h : Γ.SameModule Γ') {E E'} (hE : R.Envs Γ E E') : R.Envs Γ' E E' := by
  refine ⟨hE.num, hE.loopFuel, ?_, ?_⟩
  · intro f ty hf; rw [h.ftype] at hf; exact hE.ftype f ty hf
  · intro f ty args s s' hf ha hs
    rw [h.ftype] at hf
    exact (hE.callF f ty args s s' hf (ha.congr h.symm) hs).congr h

theorem Rel.Hooks.congr {R : Rel W W'} {Γ Γ' : Ctx} (h : Γ.SameModule Γ') {B σ u E E'} (hE : R.Hooks Γ B σ u E E') : R.Hooks Γ' B σ u E E' :=
  ⟨hE.unselected, fun t k hk ho hp args s s' ha hs => (hE.observing t k hk ho hp args s s' ha hs).imp fun _ hvs => ⟨hvs.1, hvs.2.congr h⟩,
   fun b t k info h' hd hσ hB hm ops loc s s' h1 h2 h3 h4 =>
    (hE.delegated b t k info h' hd hσ hB (Ctx.HasMem.congr h.mems hm) ops loc s s' h1 h2 h3 h4).congr h⟩

theorem StoreOK.congr {Γ Γ' : Ctx} (h : Γ.SameModule Γ') {s : Store W} (hs : StoreOK Γ s) : StoreOK Γ' s := by
  have hr : ∀ r es, RefsOK Γ r es → RefsOK Γ' r es := by
    intro r es hre h1 f hf; rw [h.ftype]; exact hre h1 f hf
  exact ⟨h.globals ▸ hs.globals.congr h, h.mems ▸ hs.mems, h.tables ▸ hs.tables, fun t ht => hr _ _ (hs.tableElems t ht), h.datas ▸ hs.datas,
    h.elems ▸ hs.elems, fun e he => hr _ _ (hs.elemElems e he), hs.pages⟩

theorem SameState.congr {Γ Γ' : Ctx} (h : Γ.SameModule Γ') {T X} {Q : W → W' → Prop} : SameState Γ T X Q = SameState Γ' T X Q := by
  funext s s'
  apply propext
  exact ⟨fun ⟨h1, h2⟩ => ⟨h1.congr h, h2⟩, fun ⟨h1, h2⟩ => ⟨h1.congr h.symm, h2⟩⟩

theorem zeros_ok (ls : List ValType) : ValsOK Γ (ls.map ValType.zero) ls := by
  induction ls with
  | nil => exact .nil
  | cons t ls ih =>
    refine ih.cons ?_ ?_
    · cases t <;> rfl
    · intro f hf; cases t <;> cases hf

theorem runBody_sim {R : Rel W W'} {ty : FuncType} {locals : List ValType} {f f'} {args s s'}
    (hf : ∀ c c', R.Cfgs (Γ.body ty locals) [] c c' → R.Outs (Γ.body ty locals) ty.results.reverse (f c) (f' c'))
    (ha : ValsOK Γ args ty.inputs) (hs : R.S s s') : R.Ress Γ ty.results (runBody ty locals f args s) (runBody ty locals f' args s') := by
  have hc : R.Cfgs (Γ.body ty locals) [] ⟨[], args ++ locals.map ValType.zero, s⟩ ⟨[], args ++ locals.map ValType.zero, s'⟩ :=
    ⟨rfl, rfl, hs, .nil, (ha.congr (.body Γ ty locals)).append (zeros_ok locals)⟩
  have := hf _ _ hc
  unfold runBody
  generalize f _ = o at this ⊢
  generalize f' _ = o' at this ⊢
  have pre : ∀ {c : Cfg W} {c' : Cfg W'} {r}, R.Cfgs (Γ.body ty locals) (ty.results.reverse ++ r) c c' → R.Ress Γ ty.results
      (if ty.results.length ≤ c.stack.length then .ok (c.stack.take ty.results.length).reverse c.store else .stuck)
      (if ty.results.length ≤ c'.stack.length then .ok (c'.stack.take ty.results.length).reverse c'.store else .stuck) := by
    intro c c' r h
    have hl := h.stackOK.length
    have hsp := h.stackOK.split
    simp only [List.length_reverse, List.length_append] at hl hsp
    rw [h.stack, if_pos (by omega), if_pos (by omega)]
    have := hsp.1.reverse
    rw [List.reverse_reverse] at this
    exact .ok (this.congr (Ctx.SameModule.body Γ ty locals).symm) h.store
  cases this with
  | @norm c c' h =>
    dsimp only
    have hl := h.stackOK.length
    simp only [List.length_reverse] at hl
    rw [h.stack, if_pos hl, if_pos hl]
    have := h.stackOK.reverse
    rw [List.reverse_reverse] at this
    exact .ok (this.congr (Ctx.SameModule.body Γ ty locals).symm) h.store
  | @br l lt r c c' hl h =>
    cases l with
    | zero => cases hl; exact pre h
    | succ l => cases hl
  | ret h => exact pre h
  | trap h => exact .trap h
  | fuel => exact .fuel
  | fuelL h => exact .fuelL h
  | fuelR h => exact .fuelR h
  | trapL h => exact .trapL h
  | trapT h => exact .trapT h
  | trapR h => exact .trapR h

/-- Calls of functions of the program with related stores give related results. -/
def CallsAgree (R : Rel W W') (Γ : Ctx) (call : Nat → List RVal → Store W → Res W) (call' : Nat → List RVal → Store W' → Res W') : Prop :=
  ∀ f ty args s s', Γ.ftype f = some ty → ValsOK Γ args ty.inputs → R.S s s' → R.Ress Γ ty.results (call f args s) (call' f args s')

/-- An imported function does the same in both executions, provided the functions it calls back do. -/
def HostsAgree (R : Rel W W') (Γ : Ctx) (ty : FuncType) (h : Host W) (h' : Host W') : Prop :=
  ∀ call call', CallsAgree R Γ call call' → ∀ args s s', ValsOK Γ args ty.inputs → R.S s s' →
    R.Ress Γ ty.results (h call args s) (h' call' args s')

/-- Two implementations of a function agree. -/
inductive ImplsAgree (R : Rel W W') (Γ : Ctx) (P : Env W → Env W' → Prop) (ty : FuncType) : Impl W → Impl W' → Prop where
  | host {h h'} : HostsAgree R Γ ty h h' → ImplsAgree R Γ P ty (.host h) (.host h')
  | code {locals b b'} : (∀ E E', R.Envs Γ E E' → P E E' → ∀ c c', R.Cfgs (Γ.body ty locals) [] c c' →
      R.Outs (Γ.body ty locals) ty.results.reverse (b E c) (b' E' c')) → ImplsAgree R Γ P ty (.code locals b) (.code locals b')

/-- If the functions of the program agree one by one, calls agree. -/
theorem calls_agree {R : Rel W W'} {N : Num} {M : Machine W} {M' : Machine W'} {L k : Nat} {P : Env W → Env W' → Prop}
    (hk : R.fl = true ∨ k = 0) (hP : ∀ d, P (envAt N M L d) (envAt N M' L (d + k)))
    (hfun : ∀ f ty, Γ.ftype f = some ty → ∃ i i', M f = some (ty, i) ∧ M' f = some (ty, i') ∧ ImplsAgree R Γ P ty i i') (d : Nat) :
    CallsAgree R Γ (callF N M L d) (callF N M' L (d + k)) := by
  induction d with
  | zero =>
    intro f ty args s s' hf ha hs
    rcases hk with h | rfl
    · exact .fuelL h
    · exact .fuel
  | succ d ih =>
    intro f ty args s s' hf ha hs
    obtain ⟨i, i', e1, e2, hi⟩ := hfun f ty hf
    have he : d + 1 + k = (d + k) + 1 := by omega
    rw [he]
    simp only [callF, e1, e2]
    cases hi with
    | host h => exact h _ _ ih _ _ _ ha hs
    | code h =>
      refine runBody_sim (fun c c' hc => h _ _ ?_ (hP d) c c' hc) ha hs
      refine ⟨rfl, rfl, ?_, ih⟩
      intro g tg hg
      obtain ⟨j, j', g1, g2, _⟩ := hfun g tg hg
      constructor
      · show (M g).map (·.1) = _
        rw [g1]; rfl
      · show (M' g).map (·.1) = _
        rw [g2]; rfl

/-- Untouched code in both executions. -/
theorem plain_body_agrees {R : Rel W W'} {T X} {Q : W → W' → Prop} (hS : R.S = SameState Γ T X Q) {E : Env W} {E' : Env W'} (hE : R.Envs Γ E E')
    {code : List LInstr} {ty : FuncType} {locals : List ValType} (hv : ValidBody Γ ty ⟨locals, code⟩) {c c'}
    (hc : R.Cfgs (Γ.body ty locals) [] c c') : R.Outs (Γ.body ty locals) ty.results.reverse (denFlat E code c) (denFlat E' code c') := by
  obtain ⟨b, hb, ht⟩ := hv
  dsimp only at hb
  simp only [denFlat, hb]
  have h1 := (gden_plain E).2 (HI.tagL b) c
  have h2 := (gden_plain E').2 (HI.tagL b) c'
  rw [tag_erase.2] at h1 h2
  rw [← h1, ← h2, hE.loopFuel]
  refine (sim (Γ₀ := Γ.body ty locals) (B := fun _ => True) ?_ ?_).2 _ (fun _ _ => trivial) _ ⟨_, rfl⟩ _ _ (tag_typed.2 b _ _ _ ht) c c' hc
  · intro Γ' hΓ m b a e c c' _ hb hc
    have hm := (Ctx.SameModule.body Γ ty locals).sameBut hΓ
    exact step_sim (hS.trans (SameState.congr hm)) (hE.congr hm) hb hc
  · intro Γ' hΓ m t ins info a c c' hq hc
    exact .norm hc

/-- Code executed with notes on one side, with a forwarding analysis interposed on the other. -/
theorem hooked_body_agrees {R : Rel W W'} {T X} {Q : W → W' → Prop} (hS : R.S = SameState Γ T X Q) {B σ u} {E : Env W} {E' : Env W'}
    (hE : R.Envs Γ E E') (hH : R.Hooks Γ B σ u E E') {b : List TI} (hB : OnlyCode B (TI.lowerL b)) {ty : FuncType} {locals : List ValType}
    (ht : TTyL (Γ.body ty locals) b [] ty.results.reverse) {c c'} (hc : R.Cfgs (Γ.body ty locals) [] c c') :
    R.Outs (Γ.body ty locals) ty.results.reverse (gdenL (noting E u) E.loopFuel b c) (hdenL E' σ b c') := by
  rw [← (gden_hooking E' σ).2, ← (gden_settling (hooking_tests E' σ) _).2, hE.loopFuel]
  refine (sim (Γ₀ := Γ.body ty locals) (B := B) ?_ ?_).2 _ hB _ ⟨_, rfl⟩ _ _ ht c c' hc
  · intro Γ' hΓ m b a e c c' hB hb hc
    have hm := (Ctx.SameModule.body Γ ty locals).sameBut hΓ
    exact perform_sim (hS.trans (SameState.congr hm)) (hE.congr hm) (hH.congr hm) hB hb hc
  · intro Γ' hΓ m t ins info a c c' hq hc
    have hm := (Ctx.SameModule.body Γ ty locals).sameBut hΓ
    exact ask_sim (hH.congr hm) hq hc

end Wastrum
