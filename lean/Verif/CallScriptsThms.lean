import Verif.CallScripts
import Verif.ResumeThms
/-!
# An intercepted call is what the analysis makes of it (C85)
-/

set_option linter.unusedSimpArgs false
set_option linter.unusedVariables false

namespace Wastrum

variable {W A : Type}

/-- **C85.** Let an analysis intercept calls and decide what becomes of them (`Decision`: given the function called, the arguments and the state, including the analysis' own). Then the
instrumented program behaves as the original program in which, at every call of an intercepted function, at any depth, this decision is taken instead of calling the function
(`decidedCall`): same results, same traps, same effects, and the analysis' state is the one the decisions lead to. No buffers, trampolines or stack library are left in the description.
Conversely, whatever the instrumented program does is described by it. Instruction-level hooks, if there are any, forward. `H` are the program's imports. -/
theorem C85_decisions_govern_calls {C iface ts m r ge cb} (hs : SmallModule m) (hst : iface.Standard) (hsa : iface.StandardApply) (h : Instruments C iface ts m r)
    (hg : iface.generic = some (ge, cb)) (hv : ValidModule m)
    (hB : ∀ i ∈ bodyTargets m ts, ∀ f, m.functions[i]? = some f → WellAnnotated m f (bodyOf C m i)) :
    ∃ base : Nat, (∃ f, r.module.functions[base]? = some f ∧ f.exports = [cb.name]) ∧
      ∀ (W A : Type) (K : LibLink) (N : Num) (δ : Nat → Decision W A) (T : List Table) (X : List (RefType × List (Option Nat))) (B : Nat) (H : Imports (W × A)) (H' : Imports (World W A)),
        Decided C iface ts m r ge K N base δ T X B H H' →
        ∀ (f : Nat) (ty : FuncType) (args : List RVal) (s : Store (W × A)) (l : Lib),
          m.ctx.ftype f = some ty → ValsOK m.ctx args ty.inputs → StoreOK m.ctx s →
          l.Ok → l.mem.pages < 65536 → SegmentsIntact m r (s.extend T X (s.world.1, s.world.2, l.store)) →
        ∀ (L d : Nat), l.free + d * B ≤ l.mem.limit * 65536 → l.free + d * B ≤ 65535 * 65536 →
          let described := decidedCall m (applyTargets m ts) δ H N L
          let instrumented := callF N (machineOf H' r.module.functions) L
          let s' := s.extend T X (s.world.1, s.world.2, l.store)
          (∀ vs s1, described d f args s = .ok vs s1 →
            ∃ l1, instrumented (5 * d + 1) f args s' = .ok vs (s1.extend T X (s1.world.1, s1.world.2, l1.store)) ∧ Lib.Ok l1 ∧ l1.free = l.free ∧ l1.mem.limit = l.mem.limit ∧
              ∀ k < l.free, l1.mem.bytes k = l.mem.bytes k) ∧
          (∀ s1, described d f args s = .trap s1 → ∃ st1, instrumented (5 * d + 1) f args s' = .trap (s1.extend T X (s1.world.1, s1.world.2, st1))) ∧
          (∀ vs s1', instrumented d f args s' = .ok vs s1' →
            ∃ s1 l1, described d f args s = .ok vs s1 ∧ s1' = s1.extend T X (s1.world.1, s1.world.2, l1.store) ∧ Lib.Ok l1 ∧ l1.free = l.free ∧ l1.mem.limit = l.mem.limit ∧
              ∀ k < l.free, l1.mem.bytes k = l.mem.bytes k) ∧
          (∀ s1', instrumented d f args s' = .trap s1' → ∃ s1 st1, described d f args s = .trap s1 ∧ s1' = s1.extend T X (s1.world.1, s1.world.2, st1)) ∧
          described d f args s ≠ .stuck ∧ instrumented d f args s' ≠ .stuck := by
  obtain ⟨order, fs, sigs, hooks, copy, hA⟩ := applied hs h hg
  have hstd := hsa ge cb hg
  refine ⟨copy + 2 * order.length, ⟨_, hA.at.callBase, rfl⟩, ?_⟩
  intro W A K N δ T X B H H' hR f ty args s l hf ha hok ok hpg hseg L d hc1 hc2
  have hsigs : sigs = K.sigs := by have := hA.sigs_eq; rw [hR.sigs] at this; exact (Option.some.inj this).symm
  subst hsigs
  have hsz : order.length < 2 ^ 32 := by
    have := hA.count
    have := hs.functions
    omega
  have hseg' : ∀ (s2 : Store (W × A)) (w : World W A), StoreOK m.ctx s2 → SegmentsIntact m r (s2.extend T X w) := by
    intro s2 w e
    refine intact_of hA hseg ?_
    have hl := tables_length hok
    have hl2 := tables_length e
    simp only [Store.extend]
    rw [List.getElem?_append_right (by omega), List.getElem?_append_right (by omega), hl, hl2]
  have hS : ∀ fl fr, (besideState m.ctx T X (LibHolds l.free l.mem.limit l.mem.bytes) fl fr).S s (s.extend T X (s.world.1, s.world.2, l.store)) :=
    fun fl fr => ⟨hok, _, ⟨rfl, l, rfl, ok, rfl, rfl, hpg, fun _ _ => rfl⟩, rfl⟩
  have k1 := decided_forward (L := L) hs hst h hA ⟨hstd.1, hstd.2.1⟩ ⟨hstd.2.2.1, hstd.2.2.2.1⟩ hsz hv hB hR hseg' (M := l.mem.limit) d (5 * d + 1) l.free l.mem.bytes (Nat.le_refl _) hc1 hc2
    f ty args s _ hf ha (hS _ _)
  have k2 := decided_backward (L := L) hs hst h hA ⟨hstd.1, hstd.2.1⟩ ⟨hstd.2.2.1, hstd.2.2.2.1⟩ hsz hv hB hR hseg' (M := l.mem.limit) d d l.free l.mem.bytes (Nat.le_refl _) hc1 hc2
    f ty args s _ hf ha (hS _ _)
  intro described instrumented s'
  change (besideState m.ctx T X (LibHolds l.free l.mem.limit l.mem.bytes) true false).Ress m.ctx ty.results (described d f args s) (instrumented (5 * d + 1) f args s') at k1
  change (besideState m.ctx T X (LibHolds l.free l.mem.limit l.mem.bytes) false true).Ress m.ctx ty.results (described d f args s) (instrumented d f args s') at k2
  generalize described d f args s = o at k1 k2 ⊢
  generalize instrumented (5 * d + 1) f args s' = o1 at k1 ⊢
  generalize instrumented d f args s' = o0 at k2 ⊢
  have unS : ∀ {fl fr} {s1 : Store (W × A)} {s1' : Store (World W A)}, (besideState m.ctx T X (LibHolds l.free l.mem.limit l.mem.bytes) fl fr).S s1 s1' →
      ∃ l1, s1' = s1.extend T X (s1.world.1, s1.world.2, l1.store) ∧ Lib.Ok l1 ∧ l1.free = l.free ∧ l1.mem.limit = l.mem.limit ∧ ∀ k < l.free, l1.mem.bytes k = l.mem.bytes k := by
    rintro fl fr s1 s1' ⟨_, ⟨w, a1, st⟩, ⟨e, l1, e1, ok1, h1, h2, _, h3⟩, rfl⟩
    dsimp only at e1
    subst e1
    exact ⟨l1, by rw [e], ok1, h1, h2, h3⟩
  have unT : ∀ {fl fr} {s1 : Store (W × A)} {s1' : Store (World W A)}, (besideState m.ctx T X (LibHolds l.free l.mem.limit l.mem.bytes) fl fr).T s1 s1' →
      ∃ st1, s1' = s1.extend T X (s1.world.1, s1.world.2, st1) := by
    rintro fl fr s1 s1' ⟨_, ⟨w, a1, st⟩, e, rfl⟩
    exact ⟨st, by rw [e]⟩
  refine ⟨?_, ?_, ?_, ?_, ?_, ?_⟩
  · rintro vs s1 rfl
    cases k1 with
    | ok hv hS1 => obtain ⟨l1, rfl, hl⟩ := unS hS1; exact ⟨l1, rfl, hl⟩
    | fuelR h => cases h
    | trapR h => exact absurd h id
  · rintro s1 rfl
    cases k1 with
    | trap hS1 => obtain ⟨l1, rfl, hl⟩ := unS hS1; exact ⟨_, rfl⟩
    | trapT hT => obtain ⟨st1, rfl⟩ := unT hT; exact ⟨st1, rfl⟩
    | trapL h => cases h
    | fuelR h => cases h
    | trapR h => exact absurd h id
  · rintro vs s1' rfl
    cases k2 with
    | ok hv hS1 => obtain ⟨l1, rfl, hl⟩ := unS hS1; exact ⟨_, l1, rfl, rfl, hl⟩
    | fuelL h => cases h
    | trapL h => cases h
  · rintro s1' rfl
    cases k2 with
    | trap hS1 => obtain ⟨l1, rfl, hl⟩ := unS hS1; exact ⟨_, _, rfl, rfl⟩
    | trapT hT => obtain ⟨st1, rfl⟩ := unT hT; exact ⟨_, st1, rfl, rfl⟩
    | trapL h => cases h
    | fuelL h => cases h
    | trapR h => exact absurd h id
  · rintro rfl
    cases k1 with
    | fuelR h => cases h
    | trapR h => exact absurd h id
  · rintro rfl
    cases k2 with
    | fuelL h => cases h
    | trapL h => cases h

/-! ## Which decisions an analysis can take -/

/-- **C85 (scripts).** An `apply` advice written with the shipped library, in Rust or in Wasp, that reads and writes arguments and results, resumes the call any number of times and keeps
state, decides just what its script says (`Script.around`) on plain lists of arguments and results; provided that it writes values of the right types, looks only at results that are
there and leaves a value for every result. -/
theorem C85_scripts_are_followed {K : LibLink} (hK : K.Good) (base : Nat) {m : Module} {intercepted : List Nat} {σ : Nat → Script A} (hfit : ScriptsFit m intercepted σ) :
    Follows (W := W) m intercepted base (scripts m σ) (rustScripts K base σ) ∧ Follows (W := W) m intercepted base (scripts m σ) (waspScripts K base σ) :=
  ⟨rustScripts_follows hK base hfit, waspScripts_follows hK base hfit⟩

/-- **C85 (edits).** An `apply` advice that edits the arguments, resumes the call and edits the results decides just that. -/
theorem C85_edits_are_followed {base : Nat} {m : Module} {intercepted : List Nat} {pre post : FuncType → Nat → Nat → Act (World W A) Unit} {advice : Host (World W A)}
    (hH : Surrounds base pre post advice) {φ ψ : Nat → List Val → List Val} (he : ∀ i ∈ intercepted, ∀ f, m.functions[i]? = some f → f.type.RefFree → f.type.slots < 8192 → ∀ p, ∃ χ χ',
      EditsTyped f.type p (pre f.type p (p + 8 * f.type.slots)) (φ i) χ ∧ EditsTyped f.type p (post f.type p (p + 8 * f.type.slots)) χ' (ψ i)) :
    Follows m intercepted base (fun i => editing (φ i) (ψ i)) advice := surrounds_follows hH he

/-- **C85 (`set_arg_ret_to_zero`).** Under this analysis every intercepted function is called with zeros and its caller gets zeros, throughout the run. -/
theorem C85_zeros_are_followed {K : LibLink} (hK : K.Good) (base : Nat) (m : Module) (intercepted : List Nat) :
    Follows (W := W) (A := A) m intercepted base (fun _ => editing (·.map Val.zeroed) (·.map Val.zeroed)) (asApplyAdvice base (zeroWaspApply K)) :=
  surrounds_follows (φ := fun _ => (·.map Val.zeroed)) (ψ := fun _ => (·.map Val.zeroed))
    (asApply_surrounds base (fun args _ => K.setValuesToZero args) (fun _ results => K.setValuesToZero results))
    fun i hi f hf hr hn p => ⟨id, id, (setValuesToZero_edits hK hr hn).1, (setValuesToZero_edits hK hr hn).2⟩

/-- The script resumes the call nowhere. -/
def Script.Declines : Script A → Prop
  | .done | .panic => True
  | .getArg _ k | .getRes _ k => ∀ x, (k x).Declines
  | .setArg _ _ k | .setRes _ _ k => k.Declines
  | .resume _ => False
  | .state _ k => ∀ a, (k a).Declines

/-- **C85 (mocks).** A function whose calls are never resumed does not run: what becomes of its calls does not depend on it. -/
theorem C85_declined_functions_do_not_run {a : Script A} (ha : a.Declines) (n : Nat) (call call' : List RVal → Store (W × A) → Res (W × A)) (xs : List Val) (s : Store (W × A)) :
    a.decision n call xs s = a.decision n call' xs s := by
  have key : ∀ (a : Script A), a.Declines → ∀ xs rs (s : Store (W × A)), a.around call xs rs s = a.around call' xs rs s := by
    intro a
    induction a with
    | done => intro _ xs rs s; rfl
    | panic => intro _ xs rs s; rfl
    | getArg i k ih =>
      intro h xs rs s
      simp only [Script.around]
      cases xs[i.toNat]? with
      | none => rfl
      | some x => exact ih x (h x) _ _ _
    | getRes i k ih =>
      intro h xs rs s
      simp only [Script.around]
      cases rs[i.toNat]? with
      | none => rfl
      | some x => cases x with
        | none => rfl
        | some x => exact ih x (h x) _ _ _
    | setArg i x k ih => intro h xs rs s; simp only [Script.around, ih h]
    | setRes i x k ih => intro h xs rs s; simp only [Script.around, ih h]
    | resume k ih => intro h; exact h.elim
    | state g k ih => intro h xs rs s; exact ih _ (h _) _ _ _
  exact key a ha _ _ _

/-- **C85 (resuming).** A call that is resumed once, and otherwise left alone, is the call (of a function that returns numbers). -/
theorem C85_resuming_is_calling (n : Nat) (call : List RVal → Store (W × A) → Res (W × A)) (xs : List Val) (s : Store (W × A))
    (hn : ∀ vs s', call (xs.map .num) s = .ok vs s' → ∃ ys : List Val, vs = ys.map .num) : (Script.resume .done : Script A).decision n call xs s = call (xs.map .num) s := by
  simp only [Script.decision, Script.around]
  cases hc : call (xs.map .num) s with
  | ok vs s' =>
    obtain ⟨ys, rfl⟩ := hn _ _ hc
    dsimp only
    rw [numbers_nums, allSet_of (ys := ys) (by simp) (fun k hk => ⟨ys[k]'(by simpa using hk), by simp [List.getElem?_eq_getElem (show k < ys.length by simpa using hk)]⟩)]
  | trap s' => rfl
  | stuck => rfl
  | fuel => rfl

/-! ## A program meeting the hypotheses -/

/-- Imports that do not call back do the same beside the tool's tables, the analysis and the stack library. -/
theorem ImportsAgreeState.plain {m : Module} {H : Imports W} {H' : Imports (World W A)} (T X)
    (hp : ∀ f ∈ m.functions, ∀ ns name, f.code = .imported ns name → PlainImport m.ctx f.type (H ns name) ∧ H' ns name = H.besideTool m.tables.length m.elements.length ns name) :
    ImportsAgreeState m T X (H.beside A) H' := by
  intro f hf ns name hc I fl fr call call' _ args s s' ha hS
  obtain ⟨⟨h1, h2⟩, h3⟩ := hp f hf ns name hc
  obtain ⟨hok, ⟨w, a, st⟩, ⟨e, hI⟩, rfl⟩ := hS
  have hl := tables_length hok
  have hx : s.elems.length = m.elements.length := by
    have := congrArg List.length hok.elems
    simpa [Module.ctx] using this
  have e1 : (⟨(s.extend T X (w, a, st)).globals, (s.extend T X (w, a, st)).mems, (s.extend T X (w, a, st)).tables.take m.tables.length, (s.extend T X (w, a, st)).datas,
      (s.extend T X (w, a, st)).elems.take m.elements.length, (s.extend T X (w, a, st)).world.1⟩ : Store W) = ⟨s.globals, s.mems, s.tables, s.datas, s.elems, s.world.1⟩ := by
    rw [e]
    simp only [Store.extend, ← hl, ← hx, List.take_left]
  have e2 : (s.extend T X (w, a, st)).tables.drop m.tables.length = T := by simp only [Store.extend, ← hl, List.drop_left]
  have e3 : (s.extend T X (w, a, st)).elems.drop m.elements.length = X := by simp only [Store.extend, ← hx, List.drop_left]
  have e4 : s.world.2 = a := by rw [e]
  rw [h3]
  simp only [Imports.besideTool, Imports.beside]
  rw [e1, e2, e3, e4]
  rcases h2 (fun _ _ _ => .stuck) args ⟨s.globals, s.mems, s.tables, s.datas, s.elems, s.world.1⟩ ha (hok.world rfl rfl rfl rfl rfl) with ⟨vs, s1, e1, hv, hs1⟩ | ⟨s1, e1, hs1⟩
  · rw [e1]
    exact .ok hv ⟨hs1.world rfl rfl rfl rfl rfl, (s1.world, a, st), ⟨rfl, hI⟩, rfl⟩
  · rw [e1]
    exact .trap ⟨hs1.world rfl rfl rfl rfl rfl, (s1.world, a, st), ⟨rfl, hI⟩, rfl⟩

/-- An analysis that counts calls of `main`; does not let anything be printed; and lets the square be computed of 3, twice, adding to its state whenever the first attempt gives 9. -/
def exScripts : Nat → Script Nat
  | 0 => .done
  | 1 => .state (· + 1) fun _ => .resume .done
  | _ => .setArg 0 (.i32 3) (.resume (.getRes 0 fun y => if y = .i32 9 then .state (· + 10) fun _ => .resume .done else .done))

theorem exScripts_fit : ScriptsFit exModule (applyTargets exModule none) exScripts := by
  have ht : applyTargets exModule none = [0, 1, 2] := by decide +kernel
  rw [ht]
  intro i hi f hf
  simp only [List.mem_cons, List.not_mem_nil, or_false] at hi
  rcases hi with rfl | rfl | rfl <;> simp [exModule] at hf <;> subst hf
  · intro n hn; simp at hn
  · intro a n hn; trivial
  · refine ⟨fun v hv => ?_, fun _ => trivial, fun y hy => ?_⟩
    · simp at hv; exact hv
    · change Script.Fits _ (if y = .i32 9 then .state (· + 10) fun _ => .resume .done else .done) _
      split
      · intro a n hn; trivial
      · intro n hn
        trivial

/-- The embedder: the stack library; the analysis; and the embedder's `print`. -/
def exDecider (apply : Host (World (List RVal) A)) : Imports (World (List RVal) A) := fun ns name =>
  if ns = stackModule then libHost exResumeLink.N exResumeLink.sigs exResumeLink.L exResumeLink.d name
  else if ns = analysisModule then
    if name = interfaceGenericApply.1.name then apply
    else match [Trap.ifThenElseTrap, .preTrapCall, .postTrapCall, .binaryI32I32ToI32].find? fun t => t.exportName == name with
    | some t => stdHook (forwardBody exNum exResumed.module.exported) t
    | none => fun _ _ _ => .stuck
  else exImports.besideTool 1 0 ns name

theorem exDecider_decided {base : Nat} {δ : Nat → Decision (List RVal) A} {apply : Host (World (List RVal) A)} (hf : Follows exModule (applyTargets exModule none) base δ apply) :
    Decided exTypedChecker exIfaceApply none exModule exResumed interfaceGenericApply.1 exResumeLink exNum base δ [exToolTable] [] 36 (exImports.beside A) (exDecider apply) where
  sigs := by decide +kernel
  small := by
    rw [exResumed_sigs]
    intro t ht
    simp only [List.mem_cons, List.not_mem_nil, or_false] at ht
    obtain rfl | rfl | rfl := ht <;> decide
  good := ⟨libNum_stack, by decide, by decide⟩
  lib := fun name => rfl
  forwards := by
    refine ⟨fun _ _ a a' => a' = a, ?_, fun t args a a' h => h⟩
    have := exHooks_forward (base := exResumed.module.exported) (H := exDecider apply) ?_
    · exact ⟨this.shown, this.performed⟩
    intro t ht
    have ht' : t = .ifThenElseTrap ∨ t = .preTrapCall ∨ t = .postTrapCall ∨ t = .binaryI32I32ToI32 := by
      simp only [exIface] at ht
      split at ht
      · assumption
      · cases ht
    have e1 : t.exportName ≠ interfaceGenericApply.1.name := by rcases ht' with rfl | rfl | rfl | rfl <;> decide +kernel
    have e2 : List.find? (fun u => u.exportName == t.exportName) [Trap.ifThenElseTrap, .preTrapCall, .postTrapCall, .binaryI32I32ToI32] = some t := by
      rcases ht' with rfl | rfl | rfl | rfl <;> decide +kernel
    have e3 : ("WASTRUMENTATION_ANALYSIS" : String) ≠ stackModule := by decide
    simp only [exDecider, e1, e2, e3, if_false, analysisModule, if_true]
  follows := hf
  imports := by
    refine .plain _ _ fun f hf ns name hc => ?_
    simp only [exModule, List.mem_cons, List.not_mem_nil, or_false] at hf
    rcases hf with rfl | rfl | rfl | rfl <;> cases hc
    exact ⟨⟨fun _ _ => rfl, fun call args s ha hs => .inl ⟨_, _, rfl, .nil, hs.world rfl rfl rfl rfl rfl⟩⟩, rfl⟩
  frame := by
    rw [exResumed_sigs]
    intro t ht
    simp only [List.mem_cons, List.not_mem_nil, or_false] at ht
    obtain rfl | rfl | rfl := ht <;> decide

/-- The store of the example, with the analysis' state. -/
def exStoreWith (a : Nat) : Store (List RVal × Nat) := ⟨exStore.globals, exStore.mems, exStore.tables, exStore.datas, exStore.elems, ([], a)⟩

/-- In the original, `main(0, 5)` prints 7 and returns 49. As decided, it prints nothing and returns 9, with the analysis' state at 11. -/
theorem exModule_decided : decidedCall exModule (applyTargets exModule none) (scripts exModule exScripts) (exImports.beside Nat) exNum 10 10 1 [.i32 0, .i32 5] (exStoreWith 0) =
    .ok [.i32 9] (exStoreWith 11) := by
  cbv

theorem exResumeLink_good : exResumeLink.Good := ⟨libNum_stack, by decide, by decide⟩

-- C85: all hypotheses hold of the example, so that is what the instrumented program does, whether the advice is written in Rust or in Wasp.
example : ∃ base, ∀ apply ∈ [rustScripts exResumeLink base exScripts, waspScripts exResumeLink base exScripts], ∃ l1,
    callF exNum (machineOf (exDecider apply) exResumed.module.functions) 10 51 1 [.i32 0, .i32 5] ((exStoreWith 0).extend [exToolTable] [] ([], 0, exLib.store)) =
      .ok [.i32 9] ((exStoreWith 11).extend [exToolTable] [] ([], 11, Lib.store l1)) ∧ l1.free = 0 := by
  obtain ⟨base, _, h⟩ := C85_decisions_govern_calls exModule_small (iface := exIfaceApply) exIface_documented.standard exIfaceApply_standard exResumed_instruments rfl exModule_valid exModule_annotated
  refine ⟨base, fun apply ha => ?_⟩
  have hf : Follows exModule (applyTargets exModule none) base (scripts exModule exScripts) apply := by
    simp only [List.mem_cons, List.not_mem_nil, or_false] at ha
    rcases ha with rfl | rfl
    · exact (C85_scripts_are_followed exResumeLink_good base exScripts_fit).1
    · exact (C85_scripts_are_followed exResumeLink_good base exScripts_fit).2
  obtain ⟨l1, e, _, e1, _⟩ := (h _ _ _ _ _ _ _ _ _ _ (exDecider_decided hf) 1 _ [.i32 0, .i32 5] (exStoreWith 0) exLib rfl
    (ValsOK.nil.cons rfl (by simp [RVal.OK]) |>.cons rfl (by simp [RVal.OK])) (exStore_ok.world rfl rfl rfl rfl rfl) exLib_ok (by decide) (exResumed_intact exStore rfl _) 10 10 (by decide) (by decide)).1 _ _ exModule_decided
  exact ⟨l1, e, e1⟩

/-- With `set_arg_ret_to_zero`, `main(0, 5)` prints 0 and returns 0. -/
theorem exModule_zeroed : decidedCall exModule (applyTargets exModule none) (fun _ => editing (·.map Val.zeroed) (·.map Val.zeroed)) (exImports.beside Nat) exNum 10 10 1 [.i32 0, .i32 5]
    (exStoreWith 0) = .ok [.i32 0] ⟨exStore.globals, exStore.mems, exStore.tables, exStore.datas, exStore.elems, ([.i32 0], 0)⟩ := by
  cbv

-- C85: so does the instrumented program.
example : ∃ base l1, callF exNum (machineOf (exDecider (asApplyAdvice base (zeroWaspApply exResumeLink))) exResumed.module.functions) 10 51 1 [.i32 0, .i32 5]
    ((exStoreWith 0).extend [exToolTable] [] ([], 0, exLib.store)) =
      .ok [.i32 0] (Store.extend (W := List RVal × Nat) ⟨exStore.globals, exStore.mems, exStore.tables, exStore.datas, exStore.elems, ([.i32 0], 0)⟩ [exToolTable] [] ([.i32 0], 0, Lib.store l1)) := by
  obtain ⟨base, _, h⟩ := C85_decisions_govern_calls exModule_small (iface := exIfaceApply) exIface_documented.standard exIfaceApply_standard exResumed_instruments rfl exModule_valid exModule_annotated
  obtain ⟨l1, e, _, e1, _⟩ := (h _ _ _ _ _ _ _ _ _ _ (exDecider_decided (C85_zeros_are_followed exResumeLink_good base exModule _)) 1 _ [.i32 0, .i32 5] (exStoreWith 0) exLib rfl
    (ValsOK.nil.cons rfl (by simp [RVal.OK]) |>.cons rfl (by simp [RVal.OK])) (exStore_ok.world rfl rfl rfl rfl rfl) exLib_ok (by decide) (exResumed_intact exStore rfl _) 10 10 (by decide) (by decide)).1 _ _ exModule_zeroed
  exact ⟨base, l1, e⟩

-- A script that never resumes, for a function with one result.
example : (Script.setRes 0 (.i32 7) .done : Script Nat).Declines ∧ (Script.setRes 0 (.i32 7) .done : Script Nat).Fits ⟨[.i32], [.i32]⟩ fun _ => False :=
  ⟨trivial, fun v hv => by simp at hv; exact hv, fun n hn => .inl (by simp at hn ⊢; omega)⟩

end Wastrum
