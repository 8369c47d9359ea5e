import Verif.CommandWatch
import Verif.LoggingWhole
/-!
# The command line tool with an analysis that looks at results, and with the logging analysis (C94)
-/

set_option linter.unusedSimpArgs false
set_option linter.unusedVariables false

namespace Wastrum

theorem learns_unique {iface : Interface} {rs : Account} {xs ys : List Remark} (h1 : iface.Learns rs xs) (h2 : iface.Learns rs ys) : xs = ys :=
  (List.map_inj_right (fun _ _ h => Option.some.inj h)).1 (h1.symm.trans h2)

/-- **C94 (looking at results).** Let the command write its output for a valid program, without `generic-apply`, and let the analysis (`ob`) update its own state with whatever it is told before and after
instructions, results included, and otherwise forward. Then the merged program returns `vs` in the program's state `s1` with the analysis in the state `x1` if and only if the original program returns `vs`
in the state `s1` and `x1` is what comes of telling the analysis, in order, what happened in that run of the original program at the instructions for which hooks were selected on the command line. The same
holds of traps. Provisos as in C87. -/
theorem C94_command_tells_results {CE : Type} {w : CliWorld CE} (ho : Orderly w) {a : CliArgs} {input out : Bytes} (h : cli w a input = some out)
    {m : Module} (hd : w.decode input = some m) (hv : ValidModule m) (hl : m.WithinLimits) (hC : w.checker.Right m) (hk : KeepsOff m) (hz : ZeroOffsets a m)
    (hg : ¬ a.Asks .genericApply) :
    ∃ (r : Instrumented) (program analysis : Bytes) (o : MergeOptions),
      instrument w.checker w.ord w.ord' (interfaceFrom (selectHooks a.hooks)) a.targets m = .ok r ∧ w.encode r.module = some program ∧ w.compileAnalysis = .ok analysis ∧
      o.modules = [⟨program, "instrumented_input"⟩, ⟨analysis, "WASTRUMENTATION_ANALYSIS"⟩] ∧ o.merge w.merging = .ok out ∧
      ∀ {W A : Type} {N : Num} {ob : Observer A} {T : Imports (W × Account)} {H' : Imports (W × A)},
        LinkedTo (interfaceFrom (selectHooks a.hooks)) (ob.body N r.module.exported) H' → ImportsBesideBoth m T H' →
        ∀ {f : Nat} {ty : FuncType} {args : List RVal} {s : Store W}, m.ctx.ftype f = some ty → ValsOK m.ctx args ty.inputs → StoreOK m.ctx s → ∀ x : A,
          let original := fun L d => callF N (reported w.checker m (bodyTargets m a.targets) T) L d f args (s.withAnalysis [])
          let merged := fun L d => callF N (machineOf H' r.module.functions) L d f args (s.withAnalysis x)
          (∀ vs (s1 : Store W) (x1 : A), (∃ L d, merged L d = .ok vs (s1.withAnalysis x1)) ↔
            ∃ L d rs remarks, original L d = .ok vs (s1.withAnalysis rs) ∧ (interfaceFrom (selectHooks a.hooks)).Learns rs remarks ∧ x1 = remarks.foldl ob.tell x) ∧
          (∀ (s1 : Store W) (x1 : A), (∃ L d, merged L d = .trap (s1.withAnalysis x1)) ↔
            ∃ L d rs remarks, original L d = .trap (s1.withAnalysis rs) ∧ (interfaceFrom (selectHooks a.hooks)).Learns rs remarks ∧ x1 = remarks.foldl ob.tell x) := by
  obtain ⟨m', r, program, analysis, o, hd', hr, hp, ha, hm, _, _, hout⟩ := (C87_command_writes w a input out).1 h
  rw [hd] at hd'; cases hd'
  have hmods : o.modules = [⟨program, "instrumented_input"⟩, ⟨analysis, "WASTRUMENTATION_ANALYSIS"⟩] := by
    rcases hm with ⟨_, _, e⟩ | ⟨hy, _⟩
    · exact e
    · exact absurd hy hg
  have hgen : (interfaceFrom (selectHooks a.hooks)).generic = none := by
    rw [(C34_selected_hooks_exact _).2, if_neg]
    exact fun hm => hg ((selectHooks_mem a .genericApply).1 hm)
  have hI : Instruments w.checker (interfaceFrom (selectHooks a.hooks)) a.targets m r := ⟨_, _, ho.bodies, ho.applications, hr⟩
  refine ⟨r, program, analysis, o, hr, hp, ha, hmods, hout, ?_⟩
  intro W A N ob T H' hL hT f ty args s hf hargs hok x original merged
  have hW : Observing w.checker (interfaceFrom (selectHooks a.hooks)) a.targets m r N ob T H' :=
    ⟨hl.small hv, interfaceFrom_documented _, hgen, hI, hv, fun i _ f hf => wellAnnotated_of hv hC i f hf, hk.reserved _, hL, hT⟩
  have key := fun L d => C90_observing_exact hW (fun i _ f c hf hc => hz.code (List.mem_of_getElem? hf) hc) hf hargs hok x L d
  refine ⟨fun vs s1 x1 => ⟨?_, ?_⟩, fun s1 x1 => ⟨?_, ?_⟩⟩
  · rintro ⟨L, d, e⟩
    obtain ⟨s2, log, advs, e1, e2, e3⟩ := (key L d).2.2.1 _ _ e
    obtain ⟨rfl, rfl⟩ := withAnalysis_inj e3
    exact ⟨L, d, log, advs, e1, e2, rfl⟩
  · rintro ⟨L, d, log, advs, e1, e2, rfl⟩
    obtain ⟨advs', e3, e4⟩ := (key L d).1 _ _ _ e1
    rw [learns_unique e3 e2] at e4
    exact ⟨L, d + 2, e4⟩
  · rintro ⟨L, d, e⟩
    obtain ⟨s2, log, advs, e1, e2, e3⟩ := (key L d).2.2.2.1 _ e
    obtain ⟨rfl, rfl⟩ := withAnalysis_inj e3
    exact ⟨L, d, log, advs, e1, e2, rfl⟩
  · rintro ⟨L, d, log, advs, e1, e2, rfl⟩
    obtain ⟨advs', e3, e4⟩ := (key L d).2.1 _ _ e1
    rw [learns_unique e3 e2] at e4
    exact ⟨L, d + 2, e4⟩

/-- **C94 (the log).** With the logging analysis: the merged program returns `vs` in the program's state `s1` having printed `text` (after `before`) if and only if the original program returns `vs` in the
state `s1` and `text` is the log of what happened in that run at the instructions for which hooks were selected on the command line. The same holds of traps. -/
theorem C94_command_prints {CE : Type} {w : CliWorld CE} (ho : Orderly w) {a : CliArgs} {input out : Bytes} (h : cli w a input = some out)
    {m : Module} (hd : w.decode input = some m) (hv : ValidModule m) (hl : m.WithinLimits) (hC : w.checker.Right m) (hk : KeepsOff m) (hz : ZeroOffsets a m)
    (hg : ¬ a.Asks .genericApply) :
    ∃ (r : Instrumented) (program analysis : Bytes) (o : MergeOptions),
      instrument w.checker w.ord w.ord' (interfaceFrom (selectHooks a.hooks)) a.targets m = .ok r ∧ w.encode r.module = some program ∧ w.compileAnalysis = .ok analysis ∧
      o.modules = [⟨program, "instrumented_input"⟩, ⟨analysis, "WASTRUMENTATION_ANALYSIS"⟩] ∧ o.merge w.merging = .ok out ∧
      ∀ {W : Type} {N : Num} {F : FloatText} {T : Imports (W × Account)} {H' : Imports (W × String)},
        LinkedTo (interfaceFrom (selectHooks a.hooks)) ((logging F).body N r.module.exported) H' → ImportsBesideBoth m T H' →
        ∀ {f : Nat} {ty : FuncType} {args : List RVal} {s : Store W}, m.ctx.ftype f = some ty → ValsOK m.ctx args ty.inputs → StoreOK m.ctx s → ∀ before : String,
          let original := fun L d => callF N (reported w.checker m (bodyTargets m a.targets) T) L d f args (s.withAnalysis [])
          let merged := fun L d => callF N (machineOf H' r.module.functions) L d f args (s.withAnalysis before)
          (∀ vs (s1 : Store W) (text : String), (∃ L d, merged L d = .ok vs (s1.withAnalysis text)) ↔
            ∃ L d rs remarks, original L d = .ok vs (s1.withAnalysis rs) ∧ (interfaceFrom (selectHooks a.hooks)).Learns rs remarks ∧ text = before ++ logText F (eventsOf remarks)) ∧
          (∀ (s1 : Store W) (text : String), (∃ L d, merged L d = .trap (s1.withAnalysis text)) ↔
            ∃ L d rs remarks, original L d = .trap (s1.withAnalysis rs) ∧ (interfaceFrom (selectHooks a.hooks)).Learns rs remarks ∧ text = before ++ logText F (eventsOf remarks)) := by
  obtain ⟨r, program, analysis, o, hr, hp, ha, hmods, hout, hall⟩ := C94_command_tells_results ho h hd hv hl hC hk hz hg
  refine ⟨r, program, analysis, o, hr, hp, ha, hmods, hout, ?_⟩
  intro W N F T H' hL hT f ty args s hf hargs hok before
  have := hall hL hT hf hargs hok before
  simpa only [logging_told] using this

/-- **C94 (intercepting calls).** With `generic-apply`, the generated library and the logging analysis merged: as long as the library has room for the buffers of `d` nested calls, a call behaves as in the
original program up to that depth, and leaves the library's stack as it was. (What is printed about a call: C93.) -/
theorem C94_command_logs_calls {CE : Type} {w : CliWorld CE} (ho : Orderly w) {a : CliArgs} {input out : Bytes} (h : cli w a input = some out)
    {m : Module} (hd : w.decode input = some m) (hv : ValidModule m) (hl : m.WithinLimits) (hC : w.checker.Right m) (hk : KeepsOff m) (hz : ZeroOffsets a m)
    (hg : a.Asks .genericApply) :
    ∃ (r : Instrumented) (sigs : List FuncType) (program library analysis : Bytes) (o : MergeOptions),
      instrument w.checker w.ord w.ord' (interfaceFrom (selectHooks a.hooks)) a.targets m = .ok r ∧ w.encode r.module = some program ∧
      r.librarySignatures = some sigs ∧ w.compileLibrary sigs = .ok library ∧ w.compileAnalysis = .ok analysis ∧
      o.modules = [⟨program, "instrumented_input"⟩, ⟨library, "wastrumentation_stack"⟩, ⟨analysis, "WASTRUMENTATION_ANALYSIS"⟩] ∧ o.merge w.merging = .ok out ∧
      ValidModule r.module ∧
      ∃ base : Nat, (∃ f, r.module.functions[base]? = some f ∧ f.exports = ["call_base"]) ∧
        ∀ (W : Type) (F : FloatText) (K : LibLink) (N : Num) (T : List Table) (X : List (RefType × List (Option Nat))) (B : Nat) (H : Imports W) (H' : Imports (World W String)),
          DeployedAll (interfaceFrom (selectHooks a.hooks)) m r interfaceGenericApply.1 K base T X B ((logging F).beside.body N r.module.exported) (loggingApply K base) H H' →
          ∀ (f : Nat) (ty : FuncType) (args : List RVal) (s : Store W) (text : String) (l : Lib),
            m.ctx.ftype f = some ty → ValsOK m.ctx args ty.inputs → StoreOK m.ctx s →
            l.Ok → l.mem.pages < 65536 → SegmentsIntact m r (s.extend T X (s.world, text, l.store)) →
          ∀ (L d : Nat), l.free + d * B ≤ l.mem.limit * 65536 → l.free + d * B ≤ 65535 * 65536 →
            let original := callF N (machineOf H m.functions) L
            let merged := callF N (machineOf H' r.module.functions) L
            let s' := s.extend T X (s.world, text, l.store)
            (∀ vs s1, original d f args s = .ok vs s1 →
              ∃ text1 l1, merged (5 * d + 2) f args s' = .ok vs (s1.extend T X (s1.world, text1, l1.store)) ∧ Lib.Ok l1 ∧ l1.free = l.free ∧ l1.mem.limit = l.mem.limit) ∧
            (∀ s1, original d f args s = .trap s1 → ∃ text1 st1, merged (5 * d + 2) f args s' = .trap (s1.extend T X (s1.world, text1, st1))) ∧
            (∀ vs s1', merged d f args s' = .ok vs s1' →
              ∃ s1 text1 l1, original d f args s = .ok vs s1 ∧ s1' = s1.extend T X (s1.world, text1, l1.store) ∧ Lib.Ok l1 ∧ l1.free = l.free ∧ l1.mem.limit = l.mem.limit) ∧
            (∀ s1', merged d f args s' = .trap s1' → ∃ s1 text1 st1, original d f args s = .trap s1 ∧ s1' = s1.extend T X (s1.world, text1, st1)) ∧
            original d f args s ≠ .stuck ∧ merged d f args s' ≠ .stuck := by
  obtain ⟨m', r, program, analysis, o, hd', hr, hp, ha, hm, _, _, hout⟩ := (C87_command_writes w a input out).1 h
  rw [hd] at hd'; cases hd'
  obtain ⟨hn, _⟩ | ⟨_, sigs, library, hs, hc, hmods⟩ := hm
  · exact absurd hg hn
  have hgen : (interfaceFrom (selectHooks a.hooks)).generic = some (interfaceGenericApply.1, interfaceGenericApply.2) := by
    rw [(C34_selected_hooks_exact _).2, if_pos]
    exact (selectHooks_mem a .genericApply).2 hg
  have hI : Instruments w.checker (interfaceFrom (selectHooks a.hooks)) a.targets m r := ⟨_, _, ho.bodies, ho.applications, hr⟩
  have hmem : m.memories.length ≤ 1 := (C82_valid_programs_are_instrumented hv hl hC _ a.targets ho.bodies ho.applications).1 ⟨r, hr⟩
  refine ⟨r, sigs, program, library, analysis, o, hr, hp, hs, hc, ha, hmods, hout, ?_, ?_⟩
  · exact (C82_valid_to_valid hv hl hC hmem (interfaceFrom_documented _).standard (interfaceFrom_standardApply _) a.targets (hk.reserved _)).2 r hI
  exact C93_logging_transparent (hl.small hv) (interfaceFrom_documented _) (interfaceFrom_standardApply _) hI hgen hv (fun i _ f hf => wellAnnotated_of hv hC i f hf)
    (hk.reserved _) (fun i _ f c hf hc => hz.code (List.mem_of_getElem? hf) hc)

/-! ## Two runs of the command -/

/-- The remarks about `main(0, 5)` for `--hooks if-then-else call-pre call-post`. -/
def exCommandRemarks : List Remark := exHeard.map .told

/-- The log. -/
def exCommandLog : String :=
  "[ANALYSIS:] if_ PathContinuation(\n    0,\n) [if_then_else_input_c: IfThenElseInputCount(0), if_then_else_arity: IfThenElseArity(1), location: Location { instr_index: 1, funct_index: 1 }]\n" ++
  "[ANALYSIS:] call pre FunctionIndex(\n    2,\n), location: Location { instr_index: 1, funct_index: 5 }\n" ++
  "[ANALYSIS:] call pre FunctionIndex(\n    0,\n), location: Location { instr_index: 2, funct_index: 1 }\n" ++
  "[ANALYSIS:] call post FunctionIndex(\n    0,\n), location: Location { instr_index: 2, funct_index: 1 }\n" ++
  "[ANALYSIS:] call post FunctionIndex(\n    2,\n), location: Location { instr_index: 1, funct_index: 5 }\n"

/-- Selecting the hooks for conditionals and calls. -/
theorem exArgs_hooks {t : Trap} (ht : ((interfaceFrom (selectHooks exArgs.hooks)).trap t).isSome) : t = .ifThenElseTrap ∨ t = .preTrapCall ∨ t = .postTrapCall := by
  have := interfaceFrom_trap exArgs ht
  revert this
  clear ht
  cases t <;> decide

theorem exCommand_learns {rs : Account} (h : rs.filter (fun r => (exIface.trap r.trap).isSome) = exCallReports) :
    (interfaceFrom (selectHooks exArgs.hooks)).Learns rs exCommandRemarks := by
  unfold Interface.Learns
  have e : rs.filter (fun r => ((interfaceFrom (selectHooks exArgs.hooks)).trap r.trap).isSome) = exCallReports.filter (fun r => ((interfaceFrom (selectHooks exArgs.hooks)).trap r.trap).isSome) := by
    rw [← h, List.filter_filter]
    refine List.filter_congr fun r _ => ?_
    cases hx : ((interfaceFrom (selectHooks exArgs.hooks)).trap r.trap).isSome with
    | false => rfl
    | true => rcases exArgs_hooks hx with e | e | e <;> rw [e] <;> rfl
  rw [e]
  rfl

-- C94: with the logging analysis, the merged program returns 49 and prints the events of the original run.
example : ∃ r L d, instrument exTypedChecker id id (interfaceFrom (selectHooks exArgs.hooks)) none exModule = .ok r ∧ ∃ s1 : Store (List RVal),
    callF exNum (machineOf (exObserved (logging exFloatText) r.module.exported) r.module.functions) L d 1 [.i32 0, .i32 5] (exStore.withAnalysis "") =
      .ok [.i32 49] (s1.withAnalysis exCommandLog) := by
  obtain ⟨out, h⟩ := (C87_valid_programs_are_accepted (exCli_works exModule exTypedChecker) (exCli_orderly _ _) (input := [1]) rfl exModule_valid exModule_limits exTypedChecker_right exArgs).2 (by decide)
  obtain ⟨r, _, _, _, hr, _, _, _, _, hall⟩ := C94_command_prints (exCli_orderly _ _) h rfl exModule_valid exModule_limits exTypedChecker_right
    exModule_keepsOff exModule_zero (fun hn => by have := hn _ rfl; revert this; decide)
  have hL : LinkedTo (interfaceFrom (selectHooks exArgs.hooks)) ((logging exFloatText).body exNum r.module.exported) (exObserved (logging exFloatText) r.module.exported) := by
    intro t ht
    rw [C49_library_exports_what_is_imported]
    have := exArgs_hooks ht
    funext call args s
    simp only [exObserved, if_true]
    have e : List.find? (fun u => u.exportName == t.exportName) [Trap.ifThenElseTrap, .preTrapCall, .postTrapCall, .binaryI32I32ToI32] = some t := by
      rcases this with rfl | rfl | rfl <;> decide +kernel
    rw [e]
  have hT : ImportsBesideBoth exModule (exImports.beside Account) (exObserved (logging exFloatText) r.module.exported) := by
    refine .plain (H := exImports) fun f hf ns name hc => ?_
    simp only [exModule, List.mem_cons, List.not_mem_nil, or_false] at hf
    rcases hf with rfl | rfl | rfl | rfl <;> cases hc
    refine ⟨⟨fun _ _ => rfl, fun call args s ha hs => .inl ⟨_, _, rfl, .nil, hs.world rfl rfl rfl rfl rfl⟩⟩, ?_, ?_⟩ <;> (funext call args s; rfl)
  obtain ⟨s1, rs, ht, hl⟩ := exCall_reported
  have e : exCommandLog = "" ++ logText exFloatText (eventsOf exCommandRemarks) := by decide +kernel
  obtain ⟨L, d, e'⟩ := ((hall hL hT (f := 1) rfl (ValsOK.nil.cons rfl (by simp [RVal.OK]) |>.cons rfl (by simp [RVal.OK])) exStore_ok "").1 [.i32 49] s1 exCommandLog).2
    ⟨10, 10, rs, _, ht, exCommand_learns hl, e⟩
  exact ⟨r, L, d, hr, s1, e'⟩

-- C94, intercepting calls: the example of C93, from the command line.
example (F : FloatText) : ∃ (base : Nat) (s1 : Store Unit) (text : String) (l1 : Lib), callF exNum (machineOf (exLogHost F base) exNanned.module.functions) 10 52 0
      [.i32 8, .num (.f32 0x7fc00001)] (exMemStore.extend [exNanTable] [] ((), "", exLib.store)) =
    .ok [.i32 0x7fc00001] (Store.extend s1 [exNanTable] [] ((), text, Lib.store l1)) ∧ l1.free = 0 := by
  obtain ⟨out, h⟩ := (C87_valid_programs_are_accepted (exCli_works exNan exNanChecker) (exCli_orderly _ _) (input := [1]) rfl exNan_valid exNan_limits exNanChecker_right exNanArgs).2 (by decide)
  obtain ⟨r, _, _, _, _, _, hr, _, _, _, _, _, _, _, base, _, h⟩ := C94_command_logs_calls (exCli_orderly _ _) h rfl exNan_valid exNan_limits exNanChecker_right
    exNan_keepsOff exNan_zero (fun l hl => by cases hl; decide)
  have hr : r = exNanned := by
    rw [exNanArgs_iface] at hr
    change instrument exNanChecker id id denanIface none exNan = .ok r at hr
    unfold exNanned
    rw [hr]; rfl
  rw [hr, exNanArgs_iface] at h
  have h := h _ _ _ _ _ _ _ _ _ (exLogHost_deployed F base) 0 _ [.i32 8, .num (.f32 0x7fc00001)] exMemStore "" exLib rfl
    (ValsOK.nil.cons rfl (by simp [RVal.OK]) |>.cons rfl (by simp [RVal.OK])) exNanStore_ok exLib_ok (by decide)
    (fun el hel tbl hm k f hk => exNanned_intact ((), (), exLib.store) el hel tbl hm k f hk) 10 10 (by decide) (by decide)
  have hr := exNan_runs
  split at hr
  · rename_i vs s1 he
    cases hr
    obtain ⟨text, l1, e, _, e1, _⟩ := h.1 _ _ he
    exact ⟨base, s1, text, l1, e, e1⟩
  · cases hr

end Wastrum
