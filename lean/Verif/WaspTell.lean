import Verif.AsThms
import Verif.TellStack
/-!
# Analyses written in Wasp hear the story of the program (C83)

The framework of C76 for analyses written in Wasp, and what `call_stack.wasp` counts.
-/

set_option linter.unusedSimpArgs false
set_option linter.unusedVariables false

namespace Wastrum

variable {W A : Type}

/-! ## Vocabulary -/

/-- Guest code that changes nothing but the analysis' own state, as `upd` says, or traps if `upd` says so, and returns something that satisfies `R`. -/
def Notes {α : Type} (upd : A → Option A) (R : α → Prop) (body : Act (W × A) α) : Prop :=
  ∀ (s : Store W) (a : A), match upd a with
    | some a' => ∃ x, body (s.withAnalysis a) = .ok x (s.withAnalysis a') ∧ R x
    | none => ∃ s', body (s.withAnalysis a) = .trap s'

/-- **Specification.** The advice for a trap notes what happens, as `step` says, and leaves the program alone. -/
def WaspCode.Tells (c : WaspCode (W × A)) (step : Advice → A → Option A) : Trap → Prop
  | .ifThenTrap => ∀ k a b l, Notes (step (.ifThen k a b l)) (Unchanged k) (c.ifThen (.new k))
  | .ifThenElseTrap => ∀ k a b l, Notes (step (.ifThenElse k a b l)) (Unchanged k) (c.ifThenElse (.new k))
  | .brIfTrap => ∀ k label l, Notes (step (.brIf k label l)) (Unchanged k) (c.brIf (.new k) label)
  | .select => ∀ k l, Notes (step (.select k l)) (Unchanged k) (c.select (.new k))
  | .brTableTrap => ∀ target effective dflt l, Notes (step (.brTable target effective dflt l)) (Unchanged target) (c.brTable target dflt)
  | .preTrapCallIndirect => ∀ index table l, Notes (step (.callIndirectPre index table l)) (Unchanged index) (c.callIndirectPre table index)
  | .preTrapCall => ∀ f l, Notes (step (.callPre f l)) (fun _ => True) (c.callPre f)
  | .postTrapCall => ∀ f l, Notes (step (.callPost f l)) (fun _ => True) (c.callPost f)
  | .postTrapCallIndirect => ∀ table l, Notes (step (.callIndirectPost table l)) (fun _ => True) (c.callIndirectPost table)
  | .preBlock => ∀ a b l, Notes (step (.blockPre a b l)) (fun _ => True) c.blockPre
  | .postBlock => ∀ l, Notes (step (.blockPost l)) (fun _ => True) c.blockPost
  | .preLoop => ∀ a b l, Notes (step (.loopPre a b l)) (fun _ => True) c.loopPre
  | .postLoop => ∀ l, Notes (step (.loopPost l)) (fun _ => True) c.loopPost
  | _ => True

open Wasp in
/-- **Specification.** A Wasp analysis reports what it is told to `w`: the advice of `prog` notes as `w` says and leaves the program alone; the `apply` advice
notes that the function has been entered with these arguments, resumes the call, and notes that it has been left with these arguments and results. -/
structure WaspReports (prog : List Wasp.Advice) (ts : Option (List Nat)) (m : Module) (c : WaspCode (World W A))
    (apply : AsFunction → Act (World W A) Unit → DynValues → DynValues → Act (World W A) Unit) (w : CallWatcher A) : Prop where
  hooks : ∀ t, (∃ x ∈ prog, Advises x t) → c.Tells w.beside.step t
  resumes : ∃ pre post : AsFunction → DynValues → DynValues → Act (World W A) Unit, (apply = fun func call args results => do pre func args results; call; post func args results) ∧
    ∀ i ∈ applyTargets m ts, ∀ f, m.functions[i]? = some f → f.type.RefFree → f.type.slots < 8192 → ∀ j p,
      let func : AsFunction := ⟨BitVec.ofNat 32 j, BitVec.ofNat 32 i, BitVec.ofNat 32 p⟩
      let args := DynValues.args (asHandle f.type p (p + 8 * f.type.slots))
      let results := DynValues.ress (asHandle f.type p (p + 8 * f.type.slots))
      Records f.type p (·.args f.type p) (pre func args results) (w.enter i) ∧ Records f.type p (·.both f.type p) (post func args results) fun v => w.leave i v.1 v.2
  /-- Wasp advice does not perform operations, so there is no after. -/
  quiet : ∀ a x, w.after a x = some x

open Wasp in
/-- A program instrumented for a Wasp analysis with `apply` advice, linked with it and the stack library generated for it. `G` are the program's
imports beside a story. -/
structure WaspLinked (prog : List Wasp.Advice) (ts : Option (List Nat)) (m : Module) (r : Instrumented) (K : LibLink) (base : Nat) (T : List Table)
    (X : List (RefType × List (Option Nat))) (B : Nat) (c : WaspCode (World W A))
    (apply : AsFunction → Act (World W A) Unit → DynValues → DynValues → Act (World W A) Unit) (G : Imports (W × Story)) (H : Imports (World W A)) : Prop where
  sigs : r.librarySignatures = some K.sigs
  small : SmallSigs K.sigs
  good : K.Good
  lib : HasLib K H
  /-- the exported functions of the analysis are those generated around its guest code -/
  hooks : ∀ t, (∃ x ∈ prog, Advises x t) → H analysisModule t.exportName = c.host t
  applies : H analysisModule interfaceGenericApply.1.name = asApplyAdvice base apply
  imports : ImportsTold m T X G H
  frame : ∀ t ∈ K.sigs, 12 * t.slots ≤ B

/-! ## Facts -/

theorem Notes.returns {upd : A → Option A} {x : BitVec 32} {body : Act (W × A) (Option (BitVec 32))} (h : Notes upd (Unchanged x) body) (s : Store W) (a : A) :
    (upd a = none ∧ ∃ s', asReturn x body (s.withAnalysis a) = .trap s') ∨ ∃ a', upd a = some a' ∧ asReturn x body (s.withAnalysis a) = .ok [.i32 x] (s.withAnalysis a') := by
  have := h s a
  cases hu : upd a with
  | none =>
    rw [hu] at this
    obtain ⟨s', e⟩ := this
    exact .inl ⟨rfl, s', by simp only [asReturn, e]⟩
  | some a' =>
    rw [hu] at this
    obtain ⟨y, e, hy⟩ := this
    refine .inr ⟨a', rfl, ?_⟩
    cases y with
    | none => simp only [asReturn, e]
    | some y => obtain rfl := hy y rfl; simp only [asReturn, e]

theorem Notes.ends {upd : A → Option A} {body : Act (W × A) Unit} (h : Notes upd (fun _ => True) body) (s : Store W) (a : A) :
    (upd a = none ∧ ∃ s', (body (s.withAnalysis a)).done = .trap s') ∨ ∃ a', upd a = some a' ∧ (body (s.withAnalysis a)).done = .ok [] (s.withAnalysis a') := by
  have := h s a
  cases hu : upd a with
  | none =>
    rw [hu] at this
    obtain ⟨s', e⟩ := this
    exact .inl ⟨rfl, s', by simp only [e, Eff.done]⟩
  | some a' =>
    rw [hu] at this
    obtain ⟨y, e, _⟩ := this
    exact .inr ⟨a', rfl, by simp only [e, Eff.done]⟩

open Wasp in
/-- The exported functions hand the guest code what `stdEntry` says, as far as it is told. -/
theorem WaspCode.host_tells {c : WaspCode (W × A)} {step : Advice → A → Option A} {t : Trap} {x : Wasp.Advice} (hx : Advises x t) (hm : c.Tells step t) (call) {args : List RVal} (s : Store W)
    (a : A) (hty : args.map RVal.type = t.args) :
    ∃ adv, stdEntry t args = some adv ∧ ((step adv a = none ∧ ∃ s', c.host t call args (s.withAnalysis a) = .trap s') ∨
      ∃ a', step adv a = some a' ∧ c.host t call args (s.withAnalysis a) = .ok (args.take t.results.length) (s.withAnalysis a')) := by
  cases hx
  case ifThen => obtain ⟨x, _, _, _, _, rfl⟩ := args5 hty; exact ⟨_, rfl, (hm _ _ _ _).returns s a⟩
  case ifThenElse => obtain ⟨x, _, _, _, _, rfl⟩ := args5 hty; exact ⟨_, rfl, (hm _ _ _ _).returns s a⟩
  case brIf => obtain ⟨x, l, _, _, rfl⟩ := args4 hty; exact ⟨_, rfl, (hm _ _ _).returns s a⟩
  case brTable => obtain ⟨x, _, d, _, _, rfl⟩ := args5 hty; exact ⟨_, rfl, (hm _ _ _ _).returns s a⟩
  case callPre => obtain ⟨f, _, _, rfl⟩ := args3 hty; exact ⟨_, rfl, (hm _ _).ends s a⟩
  case callPost => obtain ⟨f, _, _, rfl⟩ := args3 hty; exact ⟨_, rfl, (hm _ _).ends s a⟩
  case callIndirectPre => obtain ⟨x, t, _, _, rfl⟩ := args4 hty; exact ⟨_, rfl, (hm _ _ _).returns s a⟩
  case callIndirectPost => obtain ⟨f, _, _, rfl⟩ := args3 hty; exact ⟨_, rfl, (hm _ _).ends s a⟩
  case blockPre => obtain ⟨_, _, _, _, rfl⟩ := args4 hty; exact ⟨_, rfl, (hm _ _ _).ends s a⟩
  case blockPost => obtain ⟨_, _, rfl⟩ := args2 hty; exact ⟨_, rfl, (hm _).ends s a⟩
  case loopPre => obtain ⟨_, _, _, _, rfl⟩ := args4 hty; exact ⟨_, rfl, (hm _ _ _).ends s a⟩
  case loopPost => obtain ⟨_, _, rfl⟩ := args2 hty; exact ⟨_, rfl, (hm _).ends s a⟩
  case select => obtain ⟨x, _, _, rfl⟩ := args3 hty; exact ⟨_, rfl, (hm _ _).returns s a⟩

open Wasp in
/-- Wasp advice that notes what happens watches. -/
theorem wasp_watches {prog : List Wasp.Advice} {iface : Interface} (hi : Wasp.interface prog = some iface) {N : Num} {c : WaspCode (W × A)} {step : Advice → A → Option A} {H : Imports (W × A)}
    (hH : ∀ t, (∃ x ∈ prog, Advises x t) → H analysisModule t.exportName = c.host t ∧ c.Tells step t) {callOK B tl mo} :
    WatchesFor N iface (fun t args a a' => ∃ adv, stdEntry t args = some adv ∧ step adv a = some a') callOK B tl mo (fun t args a => ∃ adv, stdEntry t args = some adv ∧ step adv a = none) H := by
  have hex := (C35_interface_exact_partial prog iface hi).1
  refine ⟨?_, ?_⟩
  · intro t e he _ call _ args s a hty
    obtain ⟨rfl, x, hx, hxt⟩ := (hex t e).1 he
    obtain ⟨h1, h2⟩ := hH t ⟨x, hx, hxt⟩
    rw [show H "WASTRUMENTATION_ANALYSIS" t.export.name = c.host t from h1]
    obtain ⟨adv, hadv, h | ⟨a', h3, h4⟩⟩ := WaspCode.host_tells hxt h2 call s a hty
    · exact .inl ⟨⟨adv, hadv, h.1⟩, h.2⟩
    · exact .inr ⟨a', ⟨adv, hadv, h3⟩, h4⟩
  · intro t e he b k info hd
    obtain ⟨rfl, x, hx, hxt⟩ := (hex t e).1 he
    exact absurd hd (hxt.observes b k info)

open Wasp in
theorem wasp_documented {prog : List Wasp.Advice} {iface : Interface} (hi : Wasp.interface prog = some iface) : iface.Documented := by
  intro t e he
  exact (((C35_interface_exact_partial prog iface hi).1 t e).1 he).1

open Wasp in
/-- No instruction Wasp can advise is performed by the analysis. -/
theorem wasp_offsets {prog : List Wasp.Advice} {iface : Interface} (hi : Wasp.interface prog = some iface) (ok : BitVec 32 → Prop) (b : Basic) : OffsetsAre iface ok b := by
  intro t k info hd ht
  obtain ⟨e, he⟩ := Option.isSome_iff_exists.1 ht
  obtain ⟨_, x, _, hxt⟩ := ((C35_interface_exact_partial prog iface hi).1 t e).1 he
  exact absurd hd (hxt.observes b k info)

open Wasp in
theorem wasp_watchable {C iface ts m r} {prog : List Wasp.Advice} (hi : Wasp.interface prog = some iface) (hg : ∃ x ∈ prog, IsGeneric x) (hs : SmallModule m)
    (h : Instruments C iface ts m r) (hv : ValidModule m)
    (hB : ∀ i ∈ bodyTargets m ts, ∀ f, m.functions[i]? = some f → WellAnnotated m f (bodyOf C m i)) (hres : ∀ name ∈ iface.toolExports, name ∉ m.exportNames) :
    CallWatchable C iface ts m r interfaceGenericApply.1 interfaceGenericApply.2 :=
  ⟨hs, wasp_documented hi, (wasp_standard hi).2, h, ((C35_interface_exact_partial prog iface hi).2 interfaceGenericApply).2 ⟨rfl, hg⟩, hv, hB, hres⟩

open Wasp in
/-- **C83.** A Wasp analysis that reports what it is told, linked with the instrumented program, is an analysis C76 is about. -/
theorem C83_wasp_analysis_qualifies {prog : List Wasp.Advice} {iface : Interface} (hi : Wasp.interface prog = some iface) {ts : Option (List Nat)} {m : Module} {r : Instrumented} {K : LibLink}
    {base : Nat} {T : List Table} {X : List (RefType × List (Option Nat))} {B : Nat} (N : Num) {w : CallWatcher A} {c : WaspCode (World W A)}
    {apply : AsFunction → Act (World W A) Unit → DynValues → DynValues → Act (World W A) Unit} {G : Imports (W × Story)} {H : Imports (World W A)}
    (hW : WaspReports prog ts m c apply w) (hR : WaspLinked prog ts m r K base T X B c apply G H) :
    CallHearing iface ts m r interfaceGenericApply.1 K base T X B N w G H := by
  obtain ⟨pre, post, happ, hrec⟩ := hW.resumes
  refine ⟨hR.sigs, hR.small, hR.good, hR.lib, fun exact fr hq => wasp_watches hi fun t ht => ⟨hR.hooks t ht, hW.hooks t ht⟩,
    ⟨fun f t p => pre ⟨f.f_apply, f.instr_f_idx, f.sigv⟩ (.args (asHandle t p (p + 8 * t.slots))) (.ress (asHandle t p (p + 8 * t.slots))),
      fun f t p => post ⟨f.f_apply, f.instr_f_idx, f.sigv⟩ (.args (asHandle t p (p + 8 * t.slots))) (.ress (asHandle t p (p + 8 * t.slots))), ?_, hrec⟩, hR.imports, hR.frame⟩
  · intro call t j i p present l l1 xs s hr hn hP hs
    rw [hR.applies, happ]
    rfl

open Wasp in
/-- **C83.** An analysis written in Wasp that intercepts calls hears the story of the program. Let a valid program be instrumented for it, linked with it and the stack library generated for it,
and let the original program end, normally or with a trap, with a story of which the analysis is told `tales`. If telling the analysis these tales one by one, from its state `a`, does not make it trap,
the instrumented program ends as the original does, with the same results and state, and the analysis in the state this results in; the stack allocator is back where it was. Otherwise the instrumented program traps.
Conversely, if the instrumented program ends normally the original does so too, and so it is with the analysis. (No proviso on offsets: Wasp cannot advise loads and stores. The library's memory has room for `d`
nested frames of at most `B` bytes.) -/
theorem C83_wasp_analysis_hears_the_story {C iface ts m r} {prog : List Wasp.Advice} (hi : Wasp.interface prog = some iface) (hg : ∃ x ∈ prog, IsGeneric x) (hs : SmallModule m)
    (h : Instruments C iface ts m r) (hv : ValidModule m)
    (hB : ∀ i ∈ bodyTargets m ts, ∀ f, m.functions[i]? = some f → WellAnnotated m f (bodyOf C m i)) (hres : ∀ name ∈ iface.toolExports, name ∉ m.exportNames) :
    ∃ base : Nat, (∃ f, r.module.functions[base]? = some f ∧ f.exports = ["call_base"]) ∧
      ∀ (W A : Type) (K : LibLink) (N : Num) (T : List Table) (X : List (RefType × List (Option Nat))) (B : Nat) (w : CallWatcher A) (c : WaspCode (World W A)) apply (G : Imports (W × Story)) (H : Imports (World W A)),
        WaspReports prog ts m c apply w → WaspLinked prog ts m r K base T X B c apply G H → LeavesLog m G → PassesCuts m G →
        ∀ (f : Nat) (ty : FuncType) (args : List RVal) (s : Store W) (a : A) (l : Lib),
          m.ctx.ftype f = some ty → ValsOK m.ctx args ty.inputs → StoreOK m.ctx s →
          l.Ok → l.mem.pages < 65536 → SegmentsIntact m r (s.extend T X (s.world, a, l.store)) →
        ∀ (L d : Nat), l.free + d * B ≤ l.mem.limit * 65536 → l.free + d * B ≤ 65535 * 65536 →
          let told := toldCall C m (bodyTargets m ts) (applyTargets m ts) G N L d f args (s.withAnalysis [])
          let instrumented := fun D => callF N (machineOf H r.module.functions) L D f args (s.extend T X (s.world, a, l.store))
          (∀ vs (s1 : Store W) (st : Story) (tales : List Tale), told = .ok vs (s1.withAnalysis st) → iface.Tells st tales →
            (∀ a1, w.hear tales a = some a1 → ∃ l1, instrumented (5 * d + 2) = .ok vs (s1.extend T X (s1.world, a1, l1.store)) ∧ Lib.Ok l1 ∧ l1.free = l.free ∧ l1.mem.limit = l.mem.limit) ∧
            (w.hear tales a = none → ∃ s', instrumented (5 * d + 2) = .trap s')) ∧
          (∀ (s1 : Store W) (st : Story) (tales : List Tale), told = .trap (s1.withAnalysis st) → iface.Tells st tales →
            (∀ a1, w.hear tales a = some a1 → ∃ u, instrumented (5 * d + 2) = .trap (s1.extend T X (s1.world, a1, u))) ∧
            (w.hear tales a = none → ∃ s', instrumented (5 * d + 2) = .trap s')) ∧
          (∀ vs s1', instrumented d = .ok vs s1' →
            ∃ (s1 : Store W) (st : Story) (tales : List Tale) (a1 : A) (l1 : Lib), told = .ok vs (s1.withAnalysis st) ∧ iface.Tells st tales ∧ w.hear tales a = some a1 ∧
              s1' = s1.extend T X (s1.world, a1, l1.store) ∧ Lib.Ok l1 ∧ l1.free = l.free ∧ l1.mem.limit = l.mem.limit) := by
  obtain ⟨base, hb, hmain⟩ := C76_panics_exactly_ahead (wasp_watchable hi hg hs h hv hB hres) fun _ _ _ _ _ _ b _ => wasp_offsets hi _ b
  exact ⟨base, hb, fun W A K N T X B w c apply G H hW hR => hmain W A K N T X B w G H (C83_wasp_analysis_qualifies hi N hW hR) hW.quiet⟩

open Wasp in
/-- **C83 (no `apply` advice).** A Wasp analysis without `apply` advice whose code notes what it is told, linked with the instrumented program, is an analysis C58 and C67 are about: it is told, in order, the events
of the original program it has advice for. -/
theorem C83_wasp_watcher_qualifies {C iface ts m r} {prog : List Wasp.Advice} (hi : Wasp.interface prog = some iface) (hg : ¬ ∃ x ∈ prog, IsGeneric x) (hs : SmallModule m)
    (h : Instruments C iface ts m r) (hv : ValidModule m)
    (hB : ∀ i ∈ bodyTargets m ts, ∀ f, m.functions[i]? = some f → WellAnnotated m f (bodyOf C m i)) (hres : ∀ name ∈ iface.toolExports, name ∉ m.exportNames)
    (N : Num) {w : Watcher A} {c : WaspCode (W × A)} {T : Imports (W × Log)} {H : Imports (W × A)}
    (hH : ∀ t, (∃ x ∈ prog, Advises x t) → H analysisModule t.exportName = c.host t ∧ c.Tells w.step t) (hI : ImportsBeside m T H) :
    Hearing C iface ts m r N w T H := by
  have hgen : iface.generic = none := by
    cases e : iface.generic with
    | none => rfl
    | some g => exact absurd (((C35_interface_exact_partial prog iface hi).2 g).1 e).2 hg
  exact ⟨hs, wasp_documented hi, hgen, h, hv, hB, hres, fun exact mo hq => wasp_watches hi hH, hI⟩

/-! ## What `call_stack.wasp` counts -/

/-- The counters of `call_stack.wasp`, under the names the Rust analysis has for them. (Vocabulary of the statement, not code.) -/
def CallDepths.counters (g : CallDepths) : CallStackFull :=
  ⟨g.number_of_applys, g.max_apply_depth, g.apply_stack, ⟨g.number_of_calls, g.max_call_depth, g.call_stack⟩⟩

/-- `call_stack.wasp` as an analysis that is told of calls: `/repo/wastrumentation-instr-lib/tests/analyses/wasp-as/call_stack.wasp` 16-51. -/
def callStackWaspWatcher : CallWatcher CallDepths where
  toWatcher := .ahead fun e g => match e with
    | .callPre _ _ => { g with call_stack := g.call_stack + 1, max_call_depth := asMax g.max_call_depth (g.call_stack + 1), number_of_calls := g.number_of_calls + 1 }
    | .callPost _ _ => { g with call_stack := g.call_stack - 1 }
    | _ => g
  enter _ _ g := some { g with apply_stack := g.apply_stack + 1, max_apply_depth := asMax g.max_apply_depth (g.apply_stack + 1), number_of_applys := g.number_of_applys + 1 }
  leave _ _ _ g := some { g with apply_stack := g.apply_stack - 1 }

theorem asMax_eq (a b : BitVec 32) : asMax a b = i32Max a b := by
  unfold asMax i32Max
  by_cases h : a.toInt ≤ b.toInt
  · rw [if_neg (by omega), if_pos h]
  · rw [if_pos (by omega), if_neg h]

theorem callStackWasp_counts : Counts callStackWaspWatcher CallDepths.counters := by
  refine ⟨fun _ _ => rfl, fun t x => ?_⟩
  cases t with
  | adv e =>
    refine ⟨_, rfl, ?_⟩
    cases e <;> first | rfl | (simp only [CallWatcher.tell, CallDepths.counters, asMax_eq]; rfl)
  | enter i xs => exact ⟨_, rfl, by simp only [callStackFull, CallWatcher.tell, CallDepths.counters, CallStackFull.enter, asMax_eq]⟩
  | leave i xs ys => exact ⟨_, rfl, rfl⟩

open Wasp in
/-- **C83 (`call_stack.wasp`).** Its code reports what it is told. -/
theorem C83_call_stack_wasp_reports_events (ts : Option (List Nat)) (m : Module) : WaspReports (W := W) callStackProg ts m callStackWasp callStackWaspApply callStackWaspWatcher := by
  refine ⟨fun t ⟨x, hx, ha⟩ => ?_, ⟨_, _, rfl, fun i hi f hf hr hn j p => ⟨fun _ _ _ _ _ _ => rfl, fun _ _ _ _ _ _ => rfl⟩⟩, fun _ _ => rfl⟩
  have ht : t = .preTrapCall ∨ t = .postTrapCall := by
    simp only [callStackProg, List.mem_cons, List.not_mem_nil, or_false] at hx
    rcases hx with rfl | rfl | rfl | rfl <;> cases ha <;> simp
  rcases ht with rfl | rfl <;> exact fun f l s a => ⟨(), rfl, trivial⟩

open Wasp in
/-- **C83 (`call_stack.wasp`).** After a run of the instrumented program from the start of the analysis the globals it exports say what C77 says of the Rust analysis of that name: the program did what the
original does; `number_of_applys` is the number of times the original program entered one of the intercepted functions, `max_apply_depth` the largest number of them that were open at the same time, `number_of_calls`
and `max_call_depth` the same of the direct calls made by instrumented functions, each provided there were fewer than 2^31; `apply_stack` and `call_stack` are the numbers of those that were interrupted, zero if the
run ended normally. -/
theorem C83_call_stack_wasp_counts {C iface ts m r} (hi : Wasp.interface callStackProg = some iface) (hs : SmallModule m)
    (h : Instruments C iface ts m r) (hv : ValidModule m)
    (hB : ∀ i ∈ bodyTargets m ts, ∀ f, m.functions[i]? = some f → WellAnnotated m f (bodyOf C m i)) (hres : ∀ name ∈ iface.toolExports, name ∉ m.exportNames) :
    ∃ base : Nat, (∃ f, r.module.functions[base]? = some f ∧ f.exports = ["call_base"]) ∧
      ∀ (W : Type) (K : LibLink) (N : Num) (T : List Table) (X : List (RefType × List (Option Nat))) (B : Nat) (I : Imports W) (IL : Imports (W × Log)) (G : Imports (W × Story)) (H : Imports (World W CallDepths)),
        WaspLinked callStackProg ts m r K base T X B callStackWasp callStackWaspApply G H →
        ImportsAgree m (fun (p : W × Log) w => p.1 = w) IL I → ImportsBeside m IL G → LeavesLog m IL → LeavesLog m G →
        ∀ (f : Nat) (ty : FuncType) (args : List RVal) (s : Store W) (l : Lib),
          m.ctx.ftype f = some ty → ValsOK m.ctx args ty.inputs → StoreOK m.ctx s →
          l.Ok → l.mem.pages < 65536 → SegmentsIntact m r (s.extend T X (s.world, ({} : CallDepths), l.store)) →
        ∀ (L d : Nat), l.free + d * B ≤ l.mem.limit * 65536 → l.free + d * B ≤ 65535 * 65536 →
          let told := toldCall C m (bodyTargets m ts) (applyTargets m ts) G N L d f args (s.withAnalysis [])
          let original := callF N (machineOf I m.functions) L d f args s
          let instrumented := callF N (machineOf H r.module.functions) L d f args (s.extend T X (s.world, ({} : CallDepths), l.store))
          instrumented = .fuel ∨ ∃ (s1 : Store W) (st : Story) (g : CallDepths) (u : Store Unit),
            (st.applies < 2 ^ 31 → g.number_of_applys = BitVec.ofNat 32 st.applies ∧ (∃ depth, st.Deepest depth ∧ g.max_apply_depth = BitVec.ofNat 32 depth) ∧ g.apply_stack = BitVec.ofNat 32 st.openApplies) ∧
            (∃ advs, iface.Hears st.instrs advs ∧ (times advs Advice.isCallPre < 2 ^ 31 → g.number_of_calls = BitVec.ofNat 32 (times advs Advice.isCallPre) ∧
              (∃ depth, DeepestCalls advs depth ∧ g.max_call_depth = BitVec.ofNat 32 depth) ∧ g.call_stack = BitVec.ofNat 32 (openCalls advs))) ∧
            ((∃ vs, original = .ok vs s1 ∧ told = .ok vs (s1.withAnalysis st) ∧ instrumented = .ok vs (s1.extend T X (s1.world, g, u)) ∧ st.openApplies = 0 ∧ ∀ advs, iface.Hears st.instrs advs → openCalls advs = 0) ∨
              original = .trap s1 ∧ told = .trap (s1.withAnalysis st) ∧ instrumented = .trap (s1.extend T X (s1.world, g, u))) := by
  have hex := (C35_interface_exact_partial callStackProg iface hi).1
  have hg : ∃ x ∈ callStackProg, IsGeneric x := ⟨.apply (.gen .mutableDynamic "func" "args" "results") "..", by simp [callStackProg], ⟨_, _, _, _, _, rfl⟩⟩
  have hook : ∀ t, (∃ x ∈ callStackProg, Advises x t) → (iface.trap t).isSome := fun t ht => by rw [(hex t t.export).2 ⟨rfl, ht⟩]; rfl
  obtain ⟨base, hb, hmain⟩ := counting_reports (wasp_watchable hi hg hs h hv hB hres) (hook _ ⟨.plain (.call .pre "f") "..", by simp [callStackProg], .callPre _ _⟩)
    (hook _ ⟨.plain (.call .post "f") "..", by simp [callStackProg], .callPost _ _⟩) fun _ _ _ _ _ _ b _ => wasp_offsets hi _ b
  refine ⟨base, hb, ?_⟩
  intro W K N T X B I IL G H hW hI hG hIL hLG f ty args s l hf hargs hok ok hpg hseg L d hc1 hc2
  rcases hmain W CallDepths callStackWaspWatcher CallDepths.counters K N T X B I IL G H (C83_wasp_analysis_qualifies hi N (C83_call_stack_wasp_reports_events ts m) hW) callStackWasp_counts hI hG hIL hLG
    f ty args s {} l rfl hf hargs hok ok hpg hseg L d hc1 hc2 with h | ⟨s1, st, g, u, hr, h⟩
  · exact .inl h
  · exact .inr ⟨s1, st, g, u, hr.1, hr.2, h⟩

/-! ## Example -/

theorem exWasp_linked (base : Nat) : WaspLinked callStackProg none exModule exWaspResumed exWaspLink base [exWaspTable] [] 36 callStackWasp callStackWaspApply (exImports.beside Story)
    (exWaspHost callStackWasp callStackWaspApply base) where
  sigs := (exWasp_resuming base).sigs
  small := (exWasp_resuming base).small
  good := (exWasp_resuming base).good
  lib := (exWasp_resuming base).lib
  hooks t ht := ((exWasp_resuming base).hooks t ht).1
  applies := rfl
  imports := by
    refine .plain _ _ fun f hf ns name hc => ?_
    simp only [exModule, List.mem_cons, List.not_mem_nil, or_false] at hf
    rcases hf with rfl | rfl | rfl | rfl <;> cases hc
    exact ⟨⟨fun _ _ => rfl, fun call args s ha hs => .inl ⟨_, _, rfl, .nil, hs.world rfl rfl rfl rfl rfl⟩⟩, rfl⟩
  frame := (exWasp_resuming base).frame

theorem exWasp_reserved : ∀ name ∈ exWaspIface.toolExports, name ∉ exModule.exportNames := by decide +kernel

/-- The story of `main(0, 5)`, as `call_stack.wasp` is told it. -/
def exWaspTales : List Tale := [.enter 1 [.i32 0, .i32 5], .adv (.callPre 2 (.new 1 5)), .enter 2 [.i32 7], .adv (.callPre 0 (.new 2 1)), .enter 0 [.i32 7],
  .leave 0 [.i32 7] [], .adv (.callPost 0 (.new 2 1)), .leave 2 [.i32 7] [.i32 49], .adv (.callPost 2 (.new 1 5)), .leave 1 [.i32 0, .i32 5] [.i32 49]]

theorem exWaspTold_run : ∃ st : Story, toldCall exTypedChecker exModule (bodyTargets exModule none) (applyTargets exModule none) (exImports.beside Story) exNum 10 10 1 [.i32 0, .i32 5] (exStore.withAnalysis []) =
    .ok [.i32 49] (Store.withAnalysis { exStore with world := [.i32 7] } st) ∧ exWaspIface.Tells st exWaspTales := by
  obtain ⟨st, h, _⟩ := C76_story_is_of_the_program (iface := exWaspIface) (ts := none) exModule_small exWaspResumed_instruments exModule_valid exModule_annotated (N := exNum) exImports_beside.1 exImports_beside.2
    (f := 1) rfl (args := [.i32 0, .i32 5]) (ValsOK.nil.cons rfl (by simp [RVal.OK]) |>.cons rfl (by simp [RVal.OK])) exStore_ok 10 10
  rw [exModule_runs] at h
  refine ⟨st, h, ?_⟩
  have e : ((match toldCall exTypedChecker exModule (bodyTargets exModule none) (applyTargets exModule none) (exImports.beside Story) exNum 10 10 1 [.i32 0, .i32 5] (exStore.withAnalysis []) with
    | .ok _ s => s.world.2
    | _ => []).filter exWaspIface.hasHook).map Note.tale = exWaspTales.map some := by cbv
  rw [h] at e
  exact e

-- C83: all hypotheses hold of the example and `call_stack.wasp`. In `main(0, 5)` three functions are entered, one within the other, and two direct calls are made.
example : ∃ (base : Nat) (l1 : Lib), callF exNum (machineOf (exWaspHost callStackWasp callStackWaspApply base) exWaspResumed.module.functions) 10 52 1 [.i32 0, .i32 5]
      (exStore.extend [exWaspTable] [] ([], ({} : CallDepths), exLib.store)) =
    .ok [.i32 49] (Store.extend { exStore with world := [RVal.i32 7] } [exWaspTable] [] ([RVal.i32 7], (⟨3, 3, 0, 2, 2, 0⟩ : CallDepths), l1.store)) := by
  obtain ⟨base, _, h⟩ := C83_wasp_analysis_hears_the_story (prog := callStackProg) (iface := exWaspIface) rfl ⟨.apply (.gen .mutableDynamic "func" "args" "results") "..", by simp [callStackProg], ⟨_, _, _, _, _, rfl⟩⟩
    exModule_small exWaspResumed_instruments exModule_valid exModule_annotated exWasp_reserved
  obtain ⟨st, hst, ht⟩ := exWaspTold_run
  obtain ⟨l1, h3, _⟩ := ((h _ _ _ _ _ _ _ _ _ _ _ _ (C83_call_stack_wasp_reports_events _ _) (exWasp_linked base) (.beside _) (.beside _) 1 _ [.i32 0, .i32 5] exStore {} exLib rfl
    (ValsOK.nil.cons rfl (by simp [RVal.OK]) |>.cons rfl (by simp [RVal.OK])) exStore_ok exLib_ok (by decide) (exWaspResumed_intact _ rfl _) 10 10 (by decide) (by decide)).1 _ _ _ _ hst ht).1 ⟨3, 3, 0, 2, 2, 0⟩ (by rfl)
  exact ⟨base, l1, h3⟩

-- The theorem about its counters applies.
example : ∃ base : Nat, callF exNum (machineOf (exWaspHost callStackWasp callStackWaspApply base) exWaspResumed.module.functions) 10 10 1 [.i32 0, .i32 5]
      (exStore.extend [exWaspTable] [] ([], ({} : CallDepths), exLib.store)) = .fuel ∨ ∃ (st : Story) (g : CallDepths), st.applies < 2 ^ 31 → g.number_of_applys = BitVec.ofNat 32 st.applies := by
  obtain ⟨base, _, h⟩ := C83_call_stack_wasp_counts (iface := exWaspIface) rfl exModule_small exWaspResumed_instruments exModule_valid exModule_annotated exWasp_reserved
  refine ⟨base, ?_⟩
  rcases h _ _ _ _ _ _ _ _ _ _ (exWasp_linked base) exImports_beside.1 exImports_beside.2 (.beside _) (.beside _) 1 _ [.i32 0, .i32 5] exStore exLib rfl
    (ValsOK.nil.cons rfl (by simp [RVal.OK]) |>.cons rfl (by simp [RVal.OK])) exStore_ok exLib_ok (by decide) (exWaspResumed_intact _ rfl _) 10 10 (by decide) (by decide) with h | ⟨_, st, g, _, h, _⟩
  · exact .inl h
  · exact .inr ⟨st, g, fun hb => (h hb).1⟩

end Wastrum
