import Verif.WaspFiles

/-!
# Wasp analyses with the guest code of `forward.wasp` (C80)

`forward.wasp` of the test suite has every kind of advice that decides something, the `apply` advice included, and forwards. The text of the guest code is not interpreted; what it does is `forwardWasp` and
`forwardWaspApply` (`AsValues.lean`). The theorem is about every text with `apply` advice the Wasp compiler accepts, whichever other advice it has; `forward.wasp` is one.
-/

namespace Wastrum

open Wasp

variable {W A : Type}

/-- Code that leaves the program alone and does not change a state of its own leaves alone whatever else is in that state. -/
theorem WaspCode.Mild.weaken {c : WaspCode (W × A)} {P Q : A → A → Prop} (h : ∀ a a', P a a' → Q a a') {t : Trap} (hc : c.Mild P t) : c.Mild Q t := by
  have own : ∀ {α : Type} {R : α → Prop} {body : Act (W × A) α}, Own P R body → Own Q R body := fun hb s a => by
    obtain ⟨x, a', e, hr, hp⟩ := hb s a
    exact ⟨x, a', e, hr, h _ _ hp⟩
  cases t
  all_goals first
    | exact trivial
    | exact own hc
    | exact fun x => own (hc x)
    | exact fun x y => own (hc x y)

/-- Code that does nothing. -/
def nothingMore : DynValues → DynValues → Act W Unit := fun _ _ => pure ()

/-- The `apply` advice of `forward.wasp` does nothing, resumes the call once and does nothing. -/
theorem forwardWaspApply_eq : (forwardWaspApply : AsFunction → Act W Unit → DynValues → DynValues → Act W Unit) =
    (fun _ call args results => do nothingMore args results; call; nothingMore args results) := by
  funext f call args results s
  simp only [forwardWaspApply, nothingMore, bind, pure, Act.bind]
  cases call s <;> rfl

/-- **Specification.** What is linked: the library generated for the instrumented program, and the functions generated around the guest code of `forward.wasp`. -/
structure ForwardWaspLinked (prog : List Wasp.Advice) (m : Module) (r : Instrumented) (K : LibLink) (base : Nat) (T : List Table) (X : List (RefType × List (Option Nat))) (B : Nat) (H : Imports W) (H' : Imports (World W A)) : Prop where
  sigs : r.librarySignatures = some K.sigs
  small : SmallSigs K.sigs
  good : K.Good
  lib : HasLib K H'
  hooks : ∀ t, (∃ x ∈ prog, Advises x t) → H' analysisModule t.exportName = forwardWasp.host t
  applies : H' analysisModule interfaceGenericApply.1.name = asApplyAdvice base forwardWaspApply
  imports : ImportsAgreeBeside m T X H H'
  /-- no frame takes more than `B` bytes -/
  frame : ∀ t ∈ K.sigs, 12 * t.slots ≤ B

/-- **C80 (`forward.wasp`).** For every text the compiler accepts that has `apply` advice: a valid program instrumented for it and linked with the guest code of `forward.wasp` returns the same results and traps alike, in the same program states, as the original, and the stack
allocator is back where it was; and conversely. (Bounds as in C23.) -/
theorem C80_forward_wasp_transparent {C iface ts m r} {text : String} {prog : List Wasp.Advice} {joins : JoinPoints} (hc : compile text = .ok (prog, joins))
    (hi : Wasp.interface prog = some iface) (hg : joins.flag .generic = true) (hs : SmallModule m)
    (h : Instruments C iface ts m r) (hv : ValidModule m)
    (hB : ∀ i ∈ bodyTargets m ts, ∀ f, m.functions[i]? = some f → WellAnnotated m f (bodyOf C m i)) :
    ∃ base : Nat, (∃ f, r.module.functions[base]? = some f ∧ f.exports = ["call_base"]) ∧
      ∀ (W A : Type) (K : LibLink) (N : Num) (T : List Table) (X : List (RefType × List (Option Nat))) (B : Nat) (H : Imports W) (H' : Imports (World W A)),
        ForwardWaspLinked prog m r K base T X B H H' →
        ∀ (f : Nat) (ty : FuncType) (args : List RVal) (s : Store W) (a : A) (l : Lib),
          m.ctx.ftype f = some ty → ValsOK m.ctx args ty.inputs → StoreOK m.ctx s →
          l.Ok → l.mem.pages < 65536 → SegmentsIntact m r (s.extend T X (s.world, a, l.store)) →
        ∀ (L d : Nat), l.free + d * B ≤ l.mem.limit * 65536 → l.free + d * B ≤ 65535 * 65536 →
          let original := callF N (machineOf H m.functions) L
          let instrumented := callF N (machineOf H' r.module.functions) L
          let s' := s.extend T X (s.world, a, l.store)
          (∀ vs s1, original d f args s = .ok vs s1 →
            ∃ a1 l1, instrumented (5 * d + 1) f args s' = .ok vs (s1.extend T X (s1.world, a1, l1.store)) ∧ Lib.Ok l1 ∧ l1.free = l.free ∧ l1.mem.limit = l.mem.limit) ∧
          (∀ s1, original d f args s = .trap s1 → ∃ a1 st1, instrumented (5 * d + 1) f args s' = .trap (s1.extend T X (s1.world, a1, st1))) ∧
          (∀ vs s1', instrumented d f args s' = .ok vs s1' →
            ∃ s1 a1 l1, original d f args s = .ok vs s1 ∧ s1' = s1.extend T X (s1.world, a1, l1.store) ∧ Lib.Ok l1 ∧ l1.free = l.free ∧ l1.mem.limit = l.mem.limit) ∧
          (∀ s1', instrumented d f args s' = .trap s1' → ∃ s1 a1 st1, original d f args s = .trap s1 ∧ s1' = s1.extend T X (s1.world, a1, st1)) ∧
          original d f args s ≠ .stuck ∧ instrumented d f args s' ≠ .stuck := by
  have hj : joins = joinPoints prog := by
    unfold compile at hc
    split at hc
    · cases hc
    · split at hc
      · cases hc
      · cases hc; rfl
  obtain ⟨base, hb, hmain⟩ := C80_wasp_resuming_transparent hi ((C35_join_points_exact prog).1.1 (hj ▸ hg)) hs h hv hB
  refine ⟨base, hb, fun W A K N T X B H H' hL => hmain W A K N T X B forwardWasp forwardWaspApply H H' ?_⟩
  exact ⟨hL.sigs, hL.small, hL.good, hL.lib, fun t ht => ⟨hL.hooks t ht, (C80_forward_wasp_mild t).weaken fun a a' e => by rw [e]⟩, hL.applies,
    ⟨nothingMore, nothingMore, forwardWaspApply_eq, fun _ _ _ _ _ _ => ⟨.pure _, .pure _⟩⟩, hL.imports, hL.frame⟩

/-! ## A program meeting the hypotheses -/

/-- A text with three of the pieces of advice of `forward.wasp`. -/
def forwardingText : String := "(aspect (global >>>GUEST>>>..<<<GUEST<<<)
    (advice call pre (f FunctionIndex) >>>GUEST>>>..<<<GUEST<<<)
    (advice call post (f FunctionIndex) >>>GUEST>>>..<<<GUEST<<<)
    (advice apply (func WasmFunction) (args MutDynArgs) (results MutDynResults) >>>GUEST>>>..<<<GUEST<<<))
"

theorem forwardingText_compiles : compile forwardingText = .ok (callStackProg, joinPoints callStackProg) :=
  compile_of (l := [.global "..", .plain (.call .pre "f") "..", .plain (.call .post "f") "..", .apply (.gen "func" ⟨"args", "MutDynArgs"⟩ ⟨"results", "MutDynResults"⟩) ".."]) (by decide +kernel) rfl

theorem exForwardWasp_linked (base : Nat) : ForwardWaspLinked (A := Unit) callStackProg exModule exWaspResumed exWaspLink base [exWaspTable] [] 36 exImports (exWaspHost forwardWasp forwardWaspApply base) where
  sigs := (exWasp_resuming base).sigs
  small := (exWasp_resuming base).small
  good := exWaspLink_good
  lib := fun name => rfl
  hooks := by
    rintro t ⟨x, hx, ha⟩
    have ht : t = .preTrapCall ∨ t = .postTrapCall := by
      simp only [callStackProg, List.mem_cons, List.not_mem_nil, or_false] at hx
      rcases hx with rfl | rfl | rfl | rfl <;> cases ha <;> simp
    have e1 : t.exportName ≠ interfaceGenericApply.1.name := by rcases ht with rfl | rfl <;> decide +kernel
    have e2 : List.find? (fun u => u.exportName == t.exportName) [Trap.preTrapCall, .postTrapCall] = some t := by rcases ht with rfl | rfl <;> decide +kernel
    have e3 : ("WASTRUMENTATION_ANALYSIS" : String) ≠ stackModule := by decide
    simp only [exWaspHost, e1, e2, e3, if_false, analysisModule, if_true]
  applies := rfl
  imports := by
    refine .plain _ _ fun f hf ns name hc => ?_
    simp only [exModule, List.mem_cons, List.not_mem_nil, or_false] at hf
    rcases hf with rfl | rfl | rfl | rfl <;> cases hc
    exact ⟨⟨fun _ _ => rfl, fun call args s ha hs => .inl ⟨_, _, rfl, .nil, hs.world rfl rfl rfl rfl rfl⟩⟩, rfl⟩
  frame := (exWasp_resuming base).frame

-- C80 (`forward.wasp`): `main(0, 5)` prints 7, once, and returns 49, as in the original.
example : ∃ base l1, callF exNum (machineOf (exWaspHost forwardWasp forwardWaspApply base) exWaspResumed.module.functions) 10 51 1 [.i32 0, .i32 5]
      (exStore.extend [exWaspTable] [] ([], (), exLib.store)) =
    .ok [.i32 49] (Store.extend { exStore with world := [RVal.i32 7] } [exWaspTable] [] ([RVal.i32 7], (), Lib.store l1)) ∧ l1.free = 0 := by
  obtain ⟨base, _, h⟩ := C80_forward_wasp_transparent forwardingText_compiles (iface := exWaspIface) rfl (by decide +kernel) exModule_small exWaspResumed_instruments exModule_valid exModule_annotated
  obtain ⟨_, l1, e, _, e1, _⟩ := (h _ _ _ exNum _ _ _ _ _ (exForwardWasp_linked base) 1 _ [.i32 0, .i32 5] exStore () exLib rfl
    (ValsOK.nil.cons rfl (by simp [RVal.OK]) |>.cons rfl (by simp [RVal.OK])) exStore_ok exLib_ok (by decide) (exWaspResumed_intact _ rfl _) 10 10 (by decide) (by decide)).1 _ _ exModule_runs
  exact ⟨base, l1, e, e1⟩

end Wastrum
