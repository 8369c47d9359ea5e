import Verif.CommandLine
import Verif.TellThms
/-!
# The command line tool with an analysis that records (C88)

C87 says what the command writes, and that a forwarding analysis does not change the program. Here the analysis records what it is told (C58, C76).
-/

set_option linter.unusedSimpArgs false
set_option linter.unusedVariables false

namespace Wastrum

theorem hears_unique {iface : Interface} {log : Log} {as bs : List Advice} (h1 : iface.Hears log as) (h2 : iface.Hears log bs) : as = bs :=
  (List.map_inj_right (fun _ _ h => Option.some.inj h)).1 (h1.symm.trans h2)

/-- **C88 (recording instructions).** Let the command write its output for a valid program, without `generic-apply`, and let the analysis update its own state with whatever it is told (`upd`) and otherwise
forward. Then the merged program returns results `vs` in the program's state `s1` with the analysis in the state `x1` if and only if the original program returns `vs` in the state `s1` and `x1` is what
comes of telling the analysis, in order, the instructions of that run of the original program for which hooks were selected on the command line. The same holds of traps. Every selection of hooks and of
functions is covered. Provisos as in C87: offset 0 for loads and stores through the analysis, and the program keeps off the tool's names. -/
theorem C88_command_records_instructions {CE : Type} {w : CliWorld CE} (ho : Orderly w) {a : CliArgs} {input out : Bytes} (h : cli w a input = some out)
    {m : Module} (hd : w.decode input = some m) (hv : ValidModule m) (hl : m.WithinLimits) (hC : w.checker.Right m) (hk : KeepsOff m) (hz : ZeroOffsets a m)
    (hg : ¬ a.Asks .genericApply) :
    ∃ (r : Instrumented) (program analysis : Bytes) (o : MergeOptions),
      instrument w.checker w.ord w.ord' (interfaceFrom (selectHooks a.hooks)) a.targets m = .ok r ∧ w.encode r.module = some program ∧ w.compileAnalysis = .ok analysis ∧
      o.modules = [⟨program, "instrumented_input"⟩, ⟨analysis, "WASTRUMENTATION_ANALYSIS"⟩] ∧ o.merge w.merging = .ok out ∧
      ∀ {W A : Type} {N : Num} {upd : Advice → A → A} {T : Imports (W × Log)} {H' : Imports (W × A)},
        LinkedTo (interfaceFrom (selectHooks a.hooks)) ((Watcher.ahead upd).body N r.module.exported) H' → ImportsBeside m T H' →
        ∀ {f : Nat} {ty : FuncType} {args : List RVal} {s : Store W}, m.ctx.ftype f = some ty → ValsOK m.ctx args ty.inputs → StoreOK m.ctx s → ∀ x : A,
          let original := fun L d => callF N (traced w.checker m (bodyTargets m a.targets) T logEvent) L d f args (s.withAnalysis [])
          let merged := fun L d => callF N (machineOf H' r.module.functions) L d f args (s.withAnalysis x)
          (∀ vs (s1 : Store W) (x1 : A), (∃ L d, merged L d = .ok vs (s1.withAnalysis x1)) ↔
            ∃ L d log advs, original L d = .ok vs (s1.withAnalysis log) ∧ (interfaceFrom (selectHooks a.hooks)).Hears log advs ∧ x1 = advs.foldl (fun x e => upd e x) x) ∧
          (∀ (s1 : Store W) (x1 : A), (∃ L d, merged L d = .trap (s1.withAnalysis x1)) ↔
            ∃ L d log advs, original L d = .trap (s1.withAnalysis log) ∧ (interfaceFrom (selectHooks a.hooks)).Hears log advs ∧ x1 = advs.foldl (fun x e => upd e x) x) := by
  obtain ⟨m', r, program, analysis, o, hd', hr, hp, ha, hm, _, _, hout⟩ := (C87_command_writes w a input out).1 h
  rw [hd] at hd'; cases hd'
  have hmods : o.modules = [⟨program, "instrumented_input"⟩, ⟨analysis, "WASTRUMENTATION_ANALYSIS"⟩] := by
    rcases hm with ⟨_, _, e⟩ | ⟨hy, _⟩
    · exact e
    · exact absurd hy hg
  have hgen : (interfaceFrom (selectHooks a.hooks)).generic = none := by
    rw [(C34_selected_hooks_exact _).2, if_neg]
    exact fun hm => hg ((selectHooks_mem a .genericApply).1 hm)
  have hI : Instruments w.checker (interfaceFrom (selectHooks a.hooks)) a.targets m r := ⟨_, _, ho.bodies, ho.applications, hr⟩
  refine ⟨r, program, analysis, o, hr, hp, ha, hmods, hout, ?_⟩
  intro W A N upd T H' hL hT f ty args s hf hargs hok x original merged
  have hW : Watching w.checker (interfaceFrom (selectHooks a.hooks)) a.targets m r N (.ahead upd) T H' :=
    ⟨hl.small hv, interfaceFrom_documented _, hgen, hI, hv, fun i _ f hf => wellAnnotated_of hv hC i f hf, hk.reserved _, hL, hT⟩
  have key := fun L d => C58_watching_exact (C58_rust_analysis_qualifies hW) (fun i _ f c hf hc => hz.code (List.mem_of_getElem? hf) hc) hf hargs hok x L d
  refine ⟨fun vs s1 x1 => ⟨?_, ?_⟩, fun s1 x1 => ⟨?_, ?_⟩⟩
  · rintro ⟨L, d, e⟩
    obtain ⟨s2, log, advs, e1, e2, e3⟩ := (key L d).2.2.1 _ _ e
    obtain ⟨rfl, rfl⟩ := withAnalysis_inj e3
    exact ⟨L, d, log, advs, e1, e2, rfl⟩
  · rintro ⟨L, d, log, advs, e1, e2, rfl⟩
    obtain ⟨advs', e3, e4⟩ := (key L d).1 _ _ _ e1
    rw [hears_unique e3 e2] at e4
    exact ⟨L, d + 2, e4⟩
  · rintro ⟨L, d, e⟩
    obtain ⟨s2, log, advs, e1, e2, e3⟩ := (key L d).2.2.2.1 _ e
    obtain ⟨rfl, rfl⟩ := withAnalysis_inj e3
    exact ⟨L, d, log, advs, e1, e2, rfl⟩
  · rintro ⟨L, d, log, advs, e1, e2, rfl⟩
    obtain ⟨advs', e3, e4⟩ := (key L d).2.1 _ _ e1
    rw [hears_unique e3 e2] at e4
    exact ⟨L, d + 2, e4⟩

/-- **C88 (recording calls and instructions).** The same with `generic-apply`, where the generated library is merged as well and the analysis is also told of the functions entered (with their arguments) and left
(with their arguments and results): the state of the analysis at the end is what comes of telling it the story of the original program's run, as long as the library has room for `d` nested frames. -/
theorem C88_command_records_calls {CE : Type} {w : CliWorld CE} (ho : Orderly w) {a : CliArgs} {input out : Bytes} (h : cli w a input = some out)
    {m : Module} (hd : w.decode input = some m) (hv : ValidModule m) (hl : m.WithinLimits) (hC : w.checker.Right m) (hk : KeepsOff m) (hz : ZeroOffsets a m)
    (hg : a.Asks .genericApply) :
    ∃ (r : Instrumented) (sigs : List FuncType) (program library analysis : Bytes) (o : MergeOptions),
      instrument w.checker w.ord w.ord' (interfaceFrom (selectHooks a.hooks)) a.targets m = .ok r ∧ w.encode r.module = some program ∧
      r.librarySignatures = some sigs ∧ w.compileLibrary sigs = .ok library ∧ w.compileAnalysis = .ok analysis ∧
      o.modules = [⟨program, "instrumented_input"⟩, ⟨library, "wastrumentation_stack"⟩, ⟨analysis, "WASTRUMENTATION_ANALYSIS"⟩] ∧ o.merge w.merging = .ok out ∧
      ∃ base : Nat, (∃ f, r.module.functions[base]? = some f ∧ f.exports = ["call_base"]) ∧
        ∀ (W A : Type) (K : LibLink) (N : Num) (T : List Table) (X : List (RefType × List (Option Nat))) (B : Nat) (u : CallWatcher A) (G : Imports (W × Story)) (H : Imports (World W A)),
          CallWatching (interfaceFrom (selectHooks a.hooks)) a.targets m r interfaceGenericApply.1 K base T X B N u G H → (∀ e x, u.after e x = some x) → (∀ t x, u.tell t x ≠ none) →
          ∀ (f : Nat) (ty : FuncType) (args : List RVal) (s : Store W) (x : A) (l : Lib),
            m.ctx.ftype f = some ty → ValsOK m.ctx args ty.inputs → StoreOK m.ctx s →
            l.Ok → l.mem.pages < 65536 → SegmentsIntact m r (s.extend T X (s.world, x, l.store)) →
          ∀ (L d : Nat), l.free + d * B ≤ l.mem.limit * 65536 → l.free + d * B ≤ 65535 * 65536 →
            let original := toldCall w.checker m (bodyTargets m a.targets) (applyTargets m a.targets) G N L d f args (s.withAnalysis [])
            let merged := fun D => callF N (machineOf H r.module.functions) L D f args (s.extend T X (s.world, x, l.store))
            (∀ vs (s1 : Store W) (st : Story), original = .ok vs (s1.withAnalysis st) → ∃ tales x1 l1, (interfaceFrom (selectHooks a.hooks)).Tells st tales ∧ u.hear tales x = some x1 ∧
              merged (5 * d + 2) = .ok vs (s1.extend T X (s1.world, x1, l1.store)) ∧ Lib.Ok l1 ∧ l1.free = l.free ∧ l1.mem.limit = l.mem.limit) ∧
            (∀ (s1 : Store W) (st : Story), original = .trap (s1.withAnalysis st) → ∃ tales x1 v, (interfaceFrom (selectHooks a.hooks)).Tells st tales ∧ u.hear tales x = some x1 ∧
              merged (5 * d + 2) = .trap (s1.extend T X (s1.world, x1, v))) ∧
            (∀ vs s1', merged d = .ok vs s1' → ∃ (s1 : Store W) (st : Story) (tales : List Tale) (x1 : A) (l1 : Lib), original = .ok vs (s1.withAnalysis st) ∧
              (interfaceFrom (selectHooks a.hooks)).Tells st tales ∧ u.hear tales x = some x1 ∧
              s1' = s1.extend T X (s1.world, x1, l1.store) ∧ Lib.Ok l1 ∧ l1.free = l.free ∧ l1.mem.limit = l.mem.limit) ∧
            (∀ s1', merged d = .trap s1' → ∃ (s1 : Store W) (st : Story) (tales : List Tale) (x1 : A) (v : Store Unit), original = .trap (s1.withAnalysis st) ∧
              (interfaceFrom (selectHooks a.hooks)).Tells st tales ∧ u.hear tales x = some x1 ∧ s1' = s1.extend T X (s1.world, x1, v)) ∧
            original ≠ .stuck ∧ merged d ≠ .stuck := by
  obtain ⟨m', r, program, analysis, o, hd', hr, hp, ha, hm, _, _, hout⟩ := (C87_command_writes w a input out).1 h
  rw [hd] at hd'; cases hd'
  obtain ⟨hn, _⟩ | ⟨_, sigs, library, hs, hc, hmods⟩ := hm
  · exact absurd hg hn
  have hgen : (interfaceFrom (selectHooks a.hooks)).generic = some (interfaceGenericApply.1, interfaceGenericApply.2) := by
    rw [(C34_selected_hooks_exact _).2, if_pos]
    exact (selectHooks_mem a .genericApply).2 hg
  have hI : Instruments w.checker (interfaceFrom (selectHooks a.hooks)) a.targets m r := ⟨_, _, ho.bodies, ho.applications, hr⟩
  have hP : CallWatchable w.checker (interfaceFrom (selectHooks a.hooks)) a.targets m r interfaceGenericApply.1 interfaceGenericApply.2 :=
    ⟨hl.small hv, interfaceFrom_documented _, interfaceFrom_standardApply _, hI, hgen, hv, fun i _ f hf => wellAnnotated_of hv hC i f hf, hk.reserved _⟩
  refine ⟨r, sigs, program, library, analysis, o, hr, hp, hs, hc, ha, hmods, hout, ?_⟩
  obtain ⟨base, hb, hall⟩ := C76_analysis_hears_the_story hP fun i _ f c hf hc => hz.code (List.mem_of_getElem? hf) hc
  exact ⟨base, hb, fun W A K N T X B u G H hW => hall W A K N T X B u G H (C76_rust_analysis_qualifies hP hW)⟩

/-! ## Two runs -/

theorem exTypedChecker_right : exTypedChecker.Right exModule := by
  intro f hf c hc _
  simp only [exModule, List.mem_cons, List.not_mem_nil, or_false] at hf
  rcases hf with rfl | rfl | rfl | rfl <;> cases hc
  · refine ⟨_, _, rfl, ?_, _, _, rfl, trivial, _, _, rfl, ?_, _, _, rfl, trivial, _, _, rfl, trivial, _, _, rfl, trivial, _, _, rfl, trivial, _, _, rfl, trivial, trivial⟩
    all_goals intro t ht; cases ht; rfl
  · refine ⟨_, _, rfl, ?_, _, _, rfl, trivial, _, _, rfl, ?_, _, _, rfl, ?_, _, _, rfl, trivial, _, _, rfl, trivial, trivial⟩
    all_goals intro t ht; cases ht; rfl
  · exact ⟨_, _, rfl, trivial, trivial⟩

/-- The events of `main(0, 5)` for `--hooks if-then-else call-pre call-post`. -/
def exHeard : List Advice := [.ifThenElse 0 0 1 (.new 1 1), .callPre 2 (.new 1 5), .callPre 0 (.new 2 1), .callPost 0 (.new 2 1), .callPost 2 (.new 1 5)]

theorem exCommand_traced : ∃ log, callF exNum (traced exTypedChecker exModule (bodyTargets exModule none) (exImports.beside Log) logEvent) 10 10 1
    [.i32 0, .i32 5] (exStore.withAnalysis []) = .ok [.i32 49] (Store.withAnalysis { exStore with world := [.i32 7] } log) ∧
    (interfaceFrom (selectHooks exArgs.hooks)).Hears log exHeard := by
  obtain ⟨log, h, _⟩ := exModule_traced
  refine ⟨log, h, ?_⟩
  have e : (interfaceFrom (selectHooks exArgs.hooks)).Hears (logOf exTraced) exHeard := by unfold Interface.Hears; cbv
  unfold exTraced at e
  rw [h] at e
  exact e

-- C88: with those hooks and an analysis that notes down what it is told, the merged program returns 49, and the analysis has noted the events of the original run.
example : ∃ r L d, instrument exTypedChecker id id (interfaceFrom (selectHooks exArgs.hooks)) none exModule = .ok r ∧
    callF exNum (machineOf (exWatched (.ahead fun e x => x ++ [e]) r.module.exported) r.module.functions) L d 1 [.i32 0, .i32 5] (exStore.withAnalysis []) =
      .ok [.i32 49] (Store.withAnalysis { exStore with world := [.i32 7] } exHeard) := by
  obtain ⟨out, h⟩ := (C87_valid_programs_are_accepted (exCli_works exModule exTypedChecker) (exCli_orderly _ _) (input := [1]) rfl exModule_valid exModule_limits exTypedChecker_right exArgs).2 (by decide)
  obtain ⟨r, _, _, _, hr, _, _, _, _, hall⟩ := C88_command_records_instructions (exCli_orderly _ _) h rfl exModule_valid exModule_limits exTypedChecker_right
    exModule_keepsOff exModule_zero (fun hn => by have := hn _ rfl; revert this; decide)
  obtain ⟨log, ht, hh⟩ := exCommand_traced
  have hL : LinkedTo (interfaceFrom (selectHooks exArgs.hooks)) ((Watcher.ahead fun e (x : List Advice) => x ++ [e]).body exNum r.module.exported) (exWatched (.ahead fun e x => x ++ [e]) r.module.exported) := by
    intro t ht
    refine exWatched_linked _ _ t ?_
    have := interfaceFrom_trap exArgs ht
    revert this
    clear ht
    cases t <;> decide
  have hT : ImportsBeside exModule (exImports.beside Log) (exWatched (.ahead fun e (x : List Advice) => x ++ [e]) r.module.exported) := by
    refine .plain fun f hf ns name hc => ?_
    simp only [exModule, List.mem_cons, List.not_mem_nil, or_false] at hf
    rcases hf with rfl | rfl | rfl | rfl <;> cases hc
    refine ⟨⟨fun _ _ => rfl, fun call args s ha hs => .inl ⟨_, _, rfl, .nil, hs.world rfl rfl rfl rfl rfl⟩⟩, ?_⟩
    funext call args s
    rfl
  obtain ⟨L, d, e⟩ := ((hall hL hT (f := 1) rfl (ValsOK.nil.cons rfl (by simp [RVal.OK]) |>.cons rfl (by simp [RVal.OK])) exStore_ok []).1 [.i32 49] _ exHeard).2 ⟨10, 10, log, _, ht, hh, rfl⟩
  exact ⟨r, L, d, hr, e⟩

/-- `--hooks generic-apply if-then-else call-pre call-post`. -/
def exCallArgs : CliArgs := ⟨some [.genericApply, .ifThenElse, .callPre, .callPost], none⟩

/-- What the command makes of the example program. -/
def exCommanded : Instrumented := ((instrument exTypedChecker id id (interfaceFrom (selectHooks exCallArgs.hooks)) none exModule).toOption).getD ⟨exModule, none⟩

/-- The library generated for it. -/
def exCommandLink : LibLink := ⟨libNum, (exCommanded.librarySignatures).getD [], 65537, 5⟩

theorem exCommandLink_sigs : exCommandLink.sigs = [⟨[.i32], []⟩, ⟨[.i32, .i32], [.i32]⟩, ⟨[.i32], [.i32]⟩] := by decide +kernel

theorem exCommandLink_good : exCommandLink.Good := ⟨libNum_stack, by decide, by decide⟩

/-- The embedder: the library, an analysis that writes down everything it is told, and the embedder's `print`. -/
def exCommandHost (base : Nat) : Imports (World (List RVal) (List Tale)) := fun ns name =>
  if ns = stackModule then libHost exCommandLink.N exCommandLink.sigs exCommandLink.L exCommandLink.d name
  else if ns = analysisModule then
    if name = interfaceGenericApply.1.name then telling exCommandLink base (scribeBefore exCommandLink) (scribeAfter exCommandLink)
    else match [Trap.ifThenElseTrap, .preTrapCall, .postTrapCall].find? fun t => t.exportName == name with
    | some t => stdHook (scribe.toWatcher.beside.body exNum exCommanded.module.exported) t
    | none => fun _ _ _ => .stuck
  else exImports.besideTool 1 0 ns name

/-- The table the tool adds. -/
def exCommandTable : Table := ⟨.funcRef, [some 36, some 38, some 40], 3⟩

theorem exCommanded_intact {A : Type} (s : Store (List RVal)) (hs : s.tables.length = 1) (w : World (List RVal) A) : SegmentsIntact exModule exCommanded (s.extend [exCommandTable] [] w) := by
  have h : exCommanded.module.elements = [⟨.funcRef, [[.refFunc 36, .fin], [.refFunc 38, .fin], [.refFunc 40, .fin]], .active 1 [.const (.i32 0), .fin]⟩] := by
    decide +kernel
  rw [SegmentsIntact, h]
  intro el hel tbl hm k f hk
  simp only [exModule, List.length_nil, List.drop_zero, List.mem_singleton] at hel
  subst hel
  cases hm
  refine ⟨exCommandTable, ?_, ?_⟩
  · simp only [Store.extend]
    rw [List.getElem?_append_right (by omega)]
    simp [hs]
  · dsimp only [exCommandTable] at hk ⊢
    match k with
    | 0 | 1 | 2 => simpa using hk
    | k + 3 => simp at hk

theorem exCommandHost_watching (base : Nat) : CallWatching (interfaceFrom (selectHooks exCallArgs.hooks)) none exModule exCommanded interfaceGenericApply.1 exCommandLink base [exCommandTable] [] 36 exNum scribe
    (exImports.beside Story) (exCommandHost base) where
  sigs := by decide +kernel
  small := by
    rw [exCommandLink_sigs]
    intro t ht
    simp only [List.mem_cons, List.not_mem_nil, or_false] at ht
    obtain rfl | rfl | rfl := ht <;> decide
  good := exCommandLink_good
  lib := fun name => rfl
  linked := by
    intro t ht
    rw [C49_library_exports_what_is_imported]
    have ht' : t = .ifThenElseTrap ∨ t = .preTrapCall ∨ t = .postTrapCall := by
      have := interfaceFrom_trap exCallArgs ht
      revert this
      clear ht
      cases t <;> decide
    have e1 : t.exportName ≠ interfaceGenericApply.1.name := by rcases ht' with rfl | rfl | rfl <;> decide +kernel
    have e2 : List.find? (fun u => u.exportName == t.exportName) [Trap.ifThenElseTrap, .preTrapCall, .postTrapCall] = some t := by
      rcases ht' with rfl | rfl | rfl <;> decide +kernel
    have e3 : ("WASTRUMENTATION_ANALYSIS" : String) ≠ stackModule := by decide
    simp only [exCommandHost, e1, e2, e3, if_false, analysisModule, if_true]
  advice := by
    refine ⟨_, _, rfl, ?_⟩
    intro i hi f hf hr hn j p
    have ht : applyTargets exModule none = [0, 1, 2] := by decide +kernel
    rw [ht] at hi
    have hi' : (BitVec.ofNat 32 i).toNat = i := by
      simp only [List.mem_cons, List.not_mem_nil, or_false] at hi
      rcases hi with rfl | rfl | rfl <;> rfl
    have h1 : (handle f.type p).resc.toNat = f.type.results.length := by
      simp only [handle, BitVec.toNat_ofNat]
      simp only [FuncType.slots] at hn
      omega
    have h2 : (handle f.type p).argc.toNat = f.type.inputs.length := by
      simp only [handle, BitVec.toNat_ofNat]
      simp only [FuncType.slots] at hn
      omega
    unfold scribeBefore scribeAfter
    rw [h1, h2]
    dsimp only
    rw [hi']
    exact ⟨Records.ofArgs exCommandLink_good hr hn (g := fun xs => updateState (· ++ [Tale.enter i xs])) fun xs s => rfl,
      Records.ofBoth exCommandLink_good hr hn (g := fun xs ys => updateState (· ++ [Tale.leave i xs ys])) fun xs ys s => rfl⟩
  imports := by
    refine .plain _ _ fun f hf ns name hc => ?_
    simp only [exModule, List.mem_cons, List.not_mem_nil, or_false] at hf
    rcases hf with rfl | rfl | rfl | rfl <;> cases hc
    exact ⟨⟨fun _ _ => rfl, fun call args s ha hs => .inl ⟨_, _, rfl, .nil, hs.world rfl rfl rfl rfl rfl⟩⟩, rfl⟩
  frame := by
    rw [exCommandLink_sigs]
    intro t ht
    simp only [List.mem_cons, List.not_mem_nil, or_false] at ht
    obtain rfl | rfl | rfl := ht <;> decide

/-- The story of `main(0, 5)` for those hooks. -/
def exCommandTales : List Tale := [.enter 1 [.i32 0, .i32 5], .adv (.ifThenElse 0 0 1 (.new 1 1)), .adv (.callPre 2 (.new 1 5)), .enter 2 [.i32 7], .adv (.callPre 0 (.new 2 1)), .enter 0 [.i32 7],
  .leave 0 [.i32 7] [], .adv (.callPost 0 (.new 2 1)), .leave 2 [.i32 7] [.i32 49], .adv (.callPost 2 (.new 1 5)), .leave 1 [.i32 0, .i32 5] [.i32 49]]

theorem exCommand_told : ∃ st : Story, toldCall exTypedChecker exModule (bodyTargets exModule none) (applyTargets exModule none) (exImports.beside Story) exNum 10 10 1 [.i32 0, .i32 5] (exStore.withAnalysis []) =
    .ok [.i32 49] (Store.withAnalysis { exStore with world := [.i32 7] } st) ∧ (interfaceFrom (selectHooks exCallArgs.hooks)).Tells st exCommandTales := by
  obtain ⟨st, h, _⟩ := exTold_run
  refine ⟨st, h, ?_⟩
  have e : ((match toldCall exTypedChecker exModule (bodyTargets exModule none) (applyTargets exModule none) (exImports.beside Story) exNum 10 10 1 [.i32 0, .i32 5] (exStore.withAnalysis []) with
    | .ok _ s => s.world.2
    | _ => []).filter (interfaceFrom (selectHooks exCallArgs.hooks)).hasHook).map Note.tale = exCommandTales.map some := by cbv
  rw [h] at e
  exact e

theorem exCall_zero : ZeroOffsets exCallArgs exModule := by
  intro f hf c hc ma
  simp only [exModule, List.mem_cons, List.not_mem_nil, or_false] at hf
  rcases hf with rfl | rfl | rfl | rfl <;> cases hc <;> simp

-- C88: with `generic-apply` the analysis writes down the story of `main(0, 5)`, with every call's arguments and results.
example : ∃ (base : Nat) (l1 : Lib), callF exNum (machineOf (exCommandHost base) exCommanded.module.functions) 10 52 1 [.i32 0, .i32 5] (exStore.extend [exCommandTable] [] ([], [], exLib.store)) =
    .ok [.i32 49] (Store.extend { exStore with world := [RVal.i32 7] } [exCommandTable] [] ([RVal.i32 7], exCommandTales, l1.store)) ∧ l1.free = 0 := by
  obtain ⟨out, h⟩ := (C87_valid_programs_are_accepted (exCli_works exModule exTypedChecker) (exCli_orderly _ _) (input := [1]) rfl exModule_valid exModule_limits exTypedChecker_right exCallArgs).2 (by decide)
  obtain ⟨r, _, _, _, _, _, hr, _, _, _, _, _, _, base, _, h⟩ := C88_command_records_calls (exCli_orderly _ _) h rfl exModule_valid exModule_limits exTypedChecker_right
    exModule_keepsOff exCall_zero (fun l hl => by cases hl; decide)
  have hr : r = exCommanded := by
    change instrument exTypedChecker id id (interfaceFrom (selectHooks exCallArgs.hooks)) none exModule = .ok r at hr
    unfold exCommanded
    rw [hr]; rfl
  rw [hr] at h
  obtain ⟨st, hst, ht⟩ := exCommand_told
  obtain ⟨tales, a1, l1, h1, h2, h3, _, h4, _⟩ := (h _ _ _ _ _ _ _ _ _ _ (exCommandHost_watching base) (fun _ _ => rfl) (fun t x => by cases t <;> exact nofun) 1 _ [.i32 0, .i32 5] exStore [] exLib rfl
    (ValsOK.nil.cons rfl (by simp [RVal.OK]) |>.cons rfl (by simp [RVal.OK])) exStore_ok exLib_ok (by decide) (exCommanded_intact _ rfl _) 10 10 (by decide) (by decide)).1 _ _ _ hst
  rw [tells_unique h1 ht, scribe_hear] at h2
  cases h2
  exact ⟨base, l1, h3, h4⟩

end Wastrum
