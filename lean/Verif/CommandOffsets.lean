import Verif.CommandSwap
/-!
# The command line tool and programs whose loads and stores have offsets (C87, C88, C94, C95)

The functions the tool exports for the analysis to perform loads and stores add address and offset modulo 2^32 (C19), so a program that traps because that sum is too large may not trap after the command. Up to
that, results and states are the same for offsets below 2^31, the largest the library accepts (C21).
-/

set_option linter.unusedSimpArgs false
set_option linter.unusedVariables false

namespace Wastrum

/-- **Specification.** Loads and stores that go through the analysis, if their hooks are selected, have offsets below 2^31. -/
def SmallOffsets (a : CliArgs) (m : Module) : Prop :=
  ∀ f ∈ m.functions, ∀ c, f.code = .present c → ∀ ma : Memarg,
    (a.Asks .load → ∀ op, LInstr.load op ma ∈ c.body → ma.offset.toNat < 2 ^ 31) ∧ (a.Asks .store → ∀ op, LInstr.store op ma ∈ c.body → ma.offset.toNat < 2 ^ 31)

theorem SmallOffsets.code {a : CliArgs} {m : Module} (h : SmallOffsets a m) {f : Func} {c} (hf : f ∈ m.functions) (hc : f.code = .present c) :
    OnlyCode (OffsetsAre (interfaceFrom (selectHooks a.hooks)) fun o => o.toNat < 2 ^ 31) c.body := by
  intro b hb t k info hd ht
  have ht := interfaceFrom_trap a ht
  cases b <;> first | trivial | skip
  case load op ma =>
    obtain ⟨t', h1, h2⟩ := loadTrap_hook op
    simp only [delegation, h1, Option.map_some, Option.some.injEq, Prod.mk.injEq] at hd
    exact (h f hf c hc ma).1 ((selectHooks_mem a .load).1 (by rw [show CliHook.load.toHook = t.hook by rw [← hd.1, h2]; rfl]; exact ht)) op hb
  case store op ma =>
    obtain ⟨t', h1, h2⟩ := storeTrap_hook op
    simp only [delegation, h1, Option.map_some, Option.some.injEq, Prod.mk.injEq] at hd
    exact (h f hf c hc ma).2 ((selectHooks_mem a .store).1 (by rw [show CliHook.store.toHook = t.hook by rw [← hd.1, h2]; rfl]; exact ht)) op hb

/-- What the command has made, without `generic-apply`. -/
theorem command_made {CE : Type} {w : CliWorld CE} (ho : Orderly w) {a : CliArgs} {input out : Bytes} (h : cli w a input = some out) {m : Module} (hd : w.decode input = some m) (hg : ¬ a.Asks .genericApply) :
    ∃ (r : Instrumented) (program analysis : Bytes) (o : MergeOptions),
      (instrument w.checker w.ord w.ord' (interfaceFrom (selectHooks a.hooks)) a.targets m = .ok r ∧ w.encode r.module = some program ∧ w.compileAnalysis = .ok analysis ∧
      o.modules = [⟨program, "instrumented_input"⟩, ⟨analysis, "WASTRUMENTATION_ANALYSIS"⟩] ∧ o.merge w.merging = .ok out) ∧
      (interfaceFrom (selectHooks a.hooks)).generic = none ∧ Instruments w.checker (interfaceFrom (selectHooks a.hooks)) a.targets m r := by
  obtain ⟨m', r, program, analysis, o, hd', hr, hp, ha, hmm, _, _, hout⟩ := (C87_command_writes w a input out).1 h
  rw [hd] at hd'; cases hd'
  refine ⟨r, program, analysis, o, ⟨hr, hp, ha, ?_, hout⟩, ?_, ⟨_, _, ho.bodies, ho.applications, hr⟩⟩
  · rcases hmm with ⟨_, _, e⟩ | ⟨hy, _⟩
    · exact e
    · exact absurd hy hg
  · rw [(C34_selected_hooks_exact _).2, if_neg]
    exact fun hm => hg ((selectHooks_mem a .genericApply).1 hm)

/-- **C95 (with offsets).** As `C95_command_rewrites`, for programs whose loads and stores, if their hooks are selected, have offsets below 2^31: whenever the rewritten program returns, the merged one does, with
the same results and program state; when the merged program returns, the rewritten one does so with the same results and program state, or it traps. -/
theorem C95_command_rewrites_results {CE : Type} {w : CliWorld CE} (ho : Orderly w) {a : CliArgs} {input out : Bytes} (h : cli w a input = some out)
    {m : Module} (hd : w.decode input = some m) (hv : ValidModule m) (hl : m.WithinLimits) (hC : w.checker.Right m) (hk : KeepsOff m) (hz : SmallOffsets a m) (hg : ¬ a.Asks .genericApply) :
    ∃ (r : Instrumented) (program analysis : Bytes) (o : MergeOptions),
      (instrument w.checker w.ord w.ord' (interfaceFrom (selectHooks a.hooks)) a.targets m = .ok r ∧ w.encode r.module = some program ∧ w.compileAnalysis = .ok analysis ∧
      o.modules = [⟨program, "instrumented_input"⟩, ⟨analysis, "WASTRUMENTATION_ANALYSIS"⟩] ∧ o.merge w.merging = .ok out) ∧
      ∀ {W A : Type} {N : Num} {c : Choices}, c.Typed → ∀ {H : Imports W} {H' : Imports (W × A)},
        LinkedTo (interfaceFrom (selectHooks a.hooks)) (choosingBody N c r.module.exported) H' → ImportsAgree m (fun w (p : W × A) => w = p.1) H H' →
        ∀ {f : Nat} {ty : FuncType} {args : List RVal} {s : Store W}, m.ctx.ftype f = some ty → ValsOK m.ctx args ty.inputs → StoreOK m.ctx s → ∀ (x : A) (L d : Nat),
          let rewritten := fun d => callF N (machineOf H (m.rewritten w.checker (bodyTargets m a.targets) .nothing (chosen a c)).functions) L d f args s
          let merged := fun d => callF N (machineOf H' r.module.functions) L d f args (s.withAnalysis x)
          (∀ vs s1, rewritten d = .ok vs s1 → ∃ x1, merged (d + 2) = .ok vs (s1.withAnalysis x1)) ∧
          (∀ vs s1', merged d = .ok vs s1' → (∃ s1 x1, rewritten d = .ok vs s1 ∧ s1' = s1.withAnalysis x1) ∨ ∃ s1, rewritten d = .trap s1) := by
  obtain ⟨r, program, analysis, o, made, hgen, hI⟩ := command_made ho h hd hg
  refine ⟨r, program, analysis, o, made, ?_⟩
  intro W A N c hc H H' hL hT f ty args s hf hargs hok x L d
  rw [← chosen_eq]
  exact C89_library_rewrites_accesses_with_offsets (hl.small hv) (interfaceFrom_documented _) hgen hI hv (fun i _ f hf => wellAnnotated_of hv hC i f hf) (hk.reserved _)
    (fun i _ f c hf hc => hz.code (List.mem_of_getElem? hf) hc) hc hL hT hf hargs hok x L d

/-- **C87 (what is merged returns the same, with offsets).** Let the command write its output for a valid program, without `generic-apply`, and let loads and stores, if their hooks are selected, have offsets below
2^31. With the shipped forwarding analysis, whenever the original program returns, the merged one does, with the same results and program state; when the merged program returns, the original does so with the same
results and program state, or it traps. -/
theorem C87_forwarded_programs_return_the_same {CE : Type} {w : CliWorld CE} (ho : Orderly w) {a : CliArgs} {input out : Bytes} (h : cli w a input = some out)
    {m : Module} (hd : w.decode input = some m) (hv : ValidModule m) (hl : m.WithinLimits) (hC : w.checker.Right m) (hk : KeepsOff m) (hz : SmallOffsets a m) (hg : ¬ a.Asks .genericApply) :
    ∃ (r : Instrumented) (program analysis : Bytes) (o : MergeOptions),
      (instrument w.checker w.ord w.ord' (interfaceFrom (selectHooks a.hooks)) a.targets m = .ok r ∧ w.encode r.module = some program ∧ w.compileAnalysis = .ok analysis ∧
      o.modules = [⟨program, "instrumented_input"⟩, ⟨analysis, "WASTRUMENTATION_ANALYSIS"⟩] ∧ o.merge w.merging = .ok out) ∧
      ∀ {W A : Type} {N : Num} {H : Imports W} {H' : Imports (W × A)},
        LinkedTo (interfaceFrom (selectHooks a.hooks)) (forwardBody N r.module.exported) H' → ImportsAgree m (fun w (p : W × A) => w = p.1) H H' →
        ∀ {f : Nat} {ty : FuncType} {args : List RVal} {s : Store W}, m.ctx.ftype f = some ty → ValsOK m.ctx args ty.inputs → StoreOK m.ctx s → ∀ (x : A) (L d : Nat),
          let original := fun d => callF N (machineOf H m.functions) L d f args s
          let merged := fun d => callF N (machineOf H' r.module.functions) L d f args (s.withAnalysis x)
          (∀ vs s1, original d = .ok vs s1 → ∃ x1, merged (d + 2) = .ok vs (s1.withAnalysis x1)) ∧
          (∀ vs s1', merged d = .ok vs s1' → (∃ s1 x1, original d = .ok vs s1 ∧ s1' = s1.withAnalysis x1) ∨ ∃ s1, original d = .trap s1) := by
  obtain ⟨r, program, analysis, o, made, hgen, hI⟩ := command_made ho h hd hg
  refine ⟨r, program, analysis, o, made, ?_⟩
  intro W A N H H' hL hT f ty args s hf hargs hok x L d
  exact C48_shipped_forwarding_preserves_results (hl.small hv) (interfaceFrom_documented _) hgen hI hv (fun i _ f hf => wellAnnotated_of hv hC i f hf) (hk.reserved _)
    (fun i _ f c hf hc => hz.code (List.mem_of_getElem? hf) hc) hL hT hf hargs hok x L d

/-- **C87 (intercepting calls, with offsets).** The same with `generic-apply`, as long as the library has room for the buffers of `d` nested calls; a call that returns leaves the library's stack as it was. -/
theorem C87_intercepted_programs_return_the_same {CE : Type} {w : CliWorld CE} (ho : Orderly w) {a : CliArgs} {input out : Bytes} (h : cli w a input = some out)
    {m : Module} (hd : w.decode input = some m) (hv : ValidModule m) (hl : m.WithinLimits) (hC : w.checker.Right m) (hk : KeepsOff m) (hz : SmallOffsets a m) (hg : a.Asks .genericApply) :
    ∃ (r : Instrumented) (sigs : List FuncType) (program library analysis : Bytes) (o : MergeOptions),
      (instrument w.checker w.ord w.ord' (interfaceFrom (selectHooks a.hooks)) a.targets m = .ok r ∧ w.encode r.module = some program ∧
      r.librarySignatures = some sigs ∧ w.compileLibrary sigs = .ok library ∧ w.compileAnalysis = .ok analysis ∧
      o.modules = [⟨program, "instrumented_input"⟩, ⟨library, "wastrumentation_stack"⟩, ⟨analysis, "WASTRUMENTATION_ANALYSIS"⟩] ∧ o.merge w.merging = .ok out) ∧
      ∃ base : Nat, (∃ f, r.module.functions[base]? = some f ∧ f.exports = ["call_base"]) ∧
        ∀ (W A : Type) (K : LibLink) (N : Num) (T : List Table) (X : List (RefType × List (Option Nat))) (B : Nat) (H : Imports W) (H' : Imports (World W A)),
          Deployed (interfaceFrom (selectHooks a.hooks)) m r interfaceGenericApply.1 K base T X B (forwardBody N r.module.exported) forwardIdle forwardIdle H H' →
          ∀ (f : Nat) (ty : FuncType) (args : List RVal) (s : Store W) (x : A) (l : Lib),
            m.ctx.ftype f = some ty → ValsOK m.ctx args ty.inputs → StoreOK m.ctx s →
            l.Ok → l.mem.pages < 65536 → SegmentsIntact m r (s.extend T X (s.world, x, l.store)) →
          ∀ (L d : Nat), l.free + d * B ≤ l.mem.limit * 65536 → l.free + d * B ≤ 65535 * 65536 →
            let original := callF N (machineOf H m.functions) L
            let merged := callF N (machineOf H' r.module.functions) L
            let s' := s.extend T X (s.world, x, l.store)
            (∀ vs s1, original d f args s = .ok vs s1 →
              ∃ x1 l1, merged (5 * d + 2) f args s' = .ok vs (s1.extend T X (s1.world, x1, l1.store)) ∧ Lib.Ok l1 ∧ l1.free = l.free ∧ l1.mem.limit = l.mem.limit) ∧
            (∀ vs s1', merged d f args s' = .ok vs s1' →
              (∃ s1 x1 l1, original d f args s = .ok vs s1 ∧ s1' = s1.extend T X (s1.world, x1, l1.store) ∧ Lib.Ok l1 ∧ l1.free = l.free ∧ l1.mem.limit = l.mem.limit) ∨
              ∃ s1, original d f args s = .trap s1) := by
  obtain ⟨m', r, program, analysis, o, hd', hr, hp, ha, hm, _, _, hout⟩ := (C87_command_writes w a input out).1 h
  rw [hd] at hd'; cases hd'
  obtain ⟨hn, _⟩ | ⟨_, sigs, library, hs, hc, hmods⟩ := hm
  · exact absurd hg hn
  have hgen : (interfaceFrom (selectHooks a.hooks)).generic = some (interfaceGenericApply.1, interfaceGenericApply.2) := by
    rw [(C34_selected_hooks_exact _).2, if_pos]
    exact (selectHooks_mem a .genericApply).2 hg
  have hI : Instruments w.checker (interfaceFrom (selectHooks a.hooks)) a.targets m r := ⟨_, _, ho.bodies, ho.applications, hr⟩
  refine ⟨r, sigs, program, library, analysis, o, ⟨hr, hp, hs, hc, ha, hmods, hout⟩, ?_⟩
  obtain ⟨base, hb, hall⟩ := C71_looking_preserves_results (hl.small hv) (interfaceFrom_documented _) (interfaceFrom_standardApply _) hI hgen hv (fun i _ f hf => wellAnnotated_of hv hC i f hf)
    (hk.reserved _) (fun i _ f c hf hc => hz.code (List.mem_of_getElem? hf) hc)
  exact ⟨base, hb, fun W A K N T X B H H' hD => hall W A K N T X B H H' _ _ hD fun i _ f _ p q => ⟨.pure _, .pure _⟩⟩

/-- **C88 (recording instructions, with offsets).** As `C88_command_records_instructions`, for programs whose loads and stores, if their hooks are selected, have offsets below 2^31, and for every analysis that
records (`u`), before or after performing, and that may panic. Whenever the original program returns, the merged one does, with the same results and program state, the analysis having been told, in order, the
instructions of the run for which hooks were selected — or it traps, which it does only if the analysis can panic. When the merged program returns, so did the original, the analysis' state being as said, or it
trapped. -/
theorem C88_command_records_results {CE : Type} {w : CliWorld CE} (ho : Orderly w) {a : CliArgs} {input out : Bytes} (h : cli w a input = some out)
    {m : Module} (hd : w.decode input = some m) (hv : ValidModule m) (hl : m.WithinLimits) (hC : w.checker.Right m) (hk : KeepsOff m) (hz : SmallOffsets a m) (hg : ¬ a.Asks .genericApply) :
    ∃ (r : Instrumented) (program analysis : Bytes) (o : MergeOptions),
      (instrument w.checker w.ord w.ord' (interfaceFrom (selectHooks a.hooks)) a.targets m = .ok r ∧ w.encode r.module = some program ∧ w.compileAnalysis = .ok analysis ∧
      o.modules = [⟨program, "instrumented_input"⟩, ⟨analysis, "WASTRUMENTATION_ANALYSIS"⟩] ∧ o.merge w.merging = .ok out) ∧
      ∀ {W A : Type} {N : Num} {u : Watcher A} {T : Imports (W × Log)} {H' : Imports (W × A)},
        LinkedTo (interfaceFrom (selectHooks a.hooks)) (u.body N r.module.exported) H' → ImportsBeside m T H' →
        ∀ {f : Nat} {ty : FuncType} {args : List RVal} {s : Store W}, m.ctx.ftype f = some ty → ValsOK m.ctx args ty.inputs → StoreOK m.ctx s → ∀ (x : A) (L d : Nat),
          let original := fun d => callF N (traced w.checker m (bodyTargets m a.targets) T logEvent) L d f args (s.withAnalysis [])
          let merged := fun d => callF N (machineOf H' r.module.functions) L d f args (s.withAnalysis x)
          (∀ vs (s1 : Store W) (log : Log), original d = .ok vs (s1.withAnalysis log) →
            (∃ advs x1, (interfaceFrom (selectHooks a.hooks)).Hears log advs ∧ u.run advs x = some x1 ∧ merged (d + 2) = .ok vs (s1.withAnalysis x1)) ∨
            (∃ adv y, u.step adv y = none) ∧ ∃ s', merged (d + 2) = .trap s') ∧
          (∀ vs s1', merged d = .ok vs s1' →
            (∃ (s1 : Store W) (log : Log) (advs : List Advice) (x1 : A), original d = .ok vs (s1.withAnalysis log) ∧ (interfaceFrom (selectHooks a.hooks)).Hears log advs ∧
              u.run advs x = some x1 ∧ s1' = s1.withAnalysis x1) ∨
            ∃ s1, original d = .trap s1) := by
  obtain ⟨r, program, analysis, o, made, hgen, hI⟩ := command_made ho h hd hg
  refine ⟨r, program, analysis, o, made, ?_⟩
  intro W A N u T H' hL hT f ty args s hf hargs hok x L d
  have hW : Watching w.checker (interfaceFrom (selectHooks a.hooks)) a.targets m r N u T H' :=
    ⟨hl.small hv, interfaceFrom_documented _, hgen, hI, hv, fun i _ f hf => wellAnnotated_of hv hC i f hf, hk.reserved _, hL, hT⟩
  exact C58_watching_results (C58_rust_analysis_qualifies hW) (fun i _ f c hf hc => hz.code (List.mem_of_getElem? hf) hc) hf hargs hok x L d

/-- **C94 (looking at results, with offsets).** As `C94_command_tells_results`, for programs whose loads and stores, if their hooks are selected, have offsets below 2^31: whenever the original program returns, the
merged one does, with the same results and program state, the analysis having been told what happened; when the merged program returns, so did the original, the analysis' state being as said, or it trapped. -/
theorem C94_command_tells_results_with_offsets {CE : Type} {w : CliWorld CE} (ho : Orderly w) {a : CliArgs} {input out : Bytes} (h : cli w a input = some out)
    {m : Module} (hd : w.decode input = some m) (hv : ValidModule m) (hl : m.WithinLimits) (hC : w.checker.Right m) (hk : KeepsOff m) (hz : SmallOffsets a m) (hg : ¬ a.Asks .genericApply) :
    ∃ (r : Instrumented) (program analysis : Bytes) (o : MergeOptions),
      (instrument w.checker w.ord w.ord' (interfaceFrom (selectHooks a.hooks)) a.targets m = .ok r ∧ w.encode r.module = some program ∧ w.compileAnalysis = .ok analysis ∧
      o.modules = [⟨program, "instrumented_input"⟩, ⟨analysis, "WASTRUMENTATION_ANALYSIS"⟩] ∧ o.merge w.merging = .ok out) ∧
      ∀ {W A : Type} {N : Num} {ob : Observer A} {T : Imports (W × Account)} {H' : Imports (W × A)},
        LinkedTo (interfaceFrom (selectHooks a.hooks)) (ob.body N r.module.exported) H' → ImportsBesideBoth m T H' →
        ∀ {f : Nat} {ty : FuncType} {args : List RVal} {s : Store W}, m.ctx.ftype f = some ty → ValsOK m.ctx args ty.inputs → StoreOK m.ctx s → ∀ (x : A) (L d : Nat),
          let original := fun d => callF N (reported w.checker m (bodyTargets m a.targets) T) L d f args (s.withAnalysis [])
          let merged := fun d => callF N (machineOf H' r.module.functions) L d f args (s.withAnalysis x)
          (∀ vs (s1 : Store W) (rs : Account), original d = .ok vs (s1.withAnalysis rs) →
            ∃ remarks, (interfaceFrom (selectHooks a.hooks)).Learns rs remarks ∧ merged (d + 2) = .ok vs (s1.withAnalysis (remarks.foldl ob.tell x))) ∧
          (∀ vs s1', merged d = .ok vs s1' →
            (∃ (s1 : Store W) (rs : Account) (remarks : List Remark), original d = .ok vs (s1.withAnalysis rs) ∧ (interfaceFrom (selectHooks a.hooks)).Learns rs remarks ∧
              s1' = s1.withAnalysis (remarks.foldl ob.tell x)) ∨
            ∃ s1, original d = .trap s1) := by
  obtain ⟨r, program, analysis, o, made, hgen, hI⟩ := command_made ho h hd hg
  refine ⟨r, program, analysis, o, made, ?_⟩
  intro W A N ob T H' hL hT f ty args s hf hargs hok x L d
  have hW : Observing w.checker (interfaceFrom (selectHooks a.hooks)) a.targets m r N ob T H' :=
    ⟨hl.small hv, interfaceFrom_documented _, hgen, hI, hv, fun i _ f hf => wellAnnotated_of hv hC i f hf, hk.reserved _, hL, hT⟩
  exact C90_observing_results hW (fun i _ f c hf hc => hz.code (List.mem_of_getElem? hf) hc) hf hargs hok x L d

/-- **C94 (the log, with offsets).** As `C94_command_prints`, for programs whose loads and stores, if their hooks are selected, have offsets below 2^31: whenever the original program returns, so does the merged one,
and what the logging analysis has printed by then is the log of that run; when the merged program returns, that was so, or the original trapped. -/
theorem C94_command_prints_with_offsets {CE : Type} {w : CliWorld CE} (ho : Orderly w) {a : CliArgs} {input out : Bytes} (h : cli w a input = some out)
    {m : Module} (hd : w.decode input = some m) (hv : ValidModule m) (hl : m.WithinLimits) (hC : w.checker.Right m) (hk : KeepsOff m) (hz : SmallOffsets a m) (hg : ¬ a.Asks .genericApply) :
    ∃ (r : Instrumented) (program analysis : Bytes) (o : MergeOptions),
      (instrument w.checker w.ord w.ord' (interfaceFrom (selectHooks a.hooks)) a.targets m = .ok r ∧ w.encode r.module = some program ∧ w.compileAnalysis = .ok analysis ∧
      o.modules = [⟨program, "instrumented_input"⟩, ⟨analysis, "WASTRUMENTATION_ANALYSIS"⟩] ∧ o.merge w.merging = .ok out) ∧
      ∀ {W : Type} {N : Num} {F : FloatText} {T : Imports (W × Account)} {H' : Imports (W × String)},
        LinkedTo (interfaceFrom (selectHooks a.hooks)) ((logging F).body N r.module.exported) H' → ImportsBesideBoth m T H' →
        ∀ {f : Nat} {ty : FuncType} {args : List RVal} {s : Store W}, m.ctx.ftype f = some ty → ValsOK m.ctx args ty.inputs → StoreOK m.ctx s → ∀ (before : String) (L d : Nat),
          let original := fun d => callF N (reported w.checker m (bodyTargets m a.targets) T) L d f args (s.withAnalysis [])
          let merged := fun d => callF N (machineOf H' r.module.functions) L d f args (s.withAnalysis before)
          (∀ vs (s1 : Store W) (rs : Account), original d = .ok vs (s1.withAnalysis rs) →
            ∃ remarks, (interfaceFrom (selectHooks a.hooks)).Learns rs remarks ∧ merged (d + 2) = .ok vs (s1.withAnalysis (before ++ logText F (eventsOf remarks)))) ∧
          (∀ vs s1', merged d = .ok vs s1' →
            (∃ (s1 : Store W) (rs : Account) (remarks : List Remark), original d = .ok vs (s1.withAnalysis rs) ∧ (interfaceFrom (selectHooks a.hooks)).Learns rs remarks ∧
              s1' = s1.withAnalysis (before ++ logText F (eventsOf remarks))) ∨
            ∃ s1, original d = .trap s1) := by
  obtain ⟨r, program, analysis, o, made, hall⟩ := C94_command_tells_results_with_offsets ho h hd hv hl hC hk hz hg
  refine ⟨r, program, analysis, o, made, ?_⟩
  intro W N F T H' hL hT f ty args s hf hargs hok before L d
  have := hall hL hT hf hargs hok before L d
  simpa only [logging_told] using this

/-! ## Example: `--hooks load store` for a program that reads and writes at offsets 2 and 3 -/

/-- The command line. -/
def exAccessArgs : CliArgs := ⟨some [.load, .store], none⟩

/-- The traps of the two hooks. -/
def exAccessTraps : List Trap := [.i32Load, .i64Load, .f32Load, .f64Load, .i32Store, .i64Store, .f32Store, .f64Store]

/-- An analysis, linked with the example program. -/
def exAccesses {A : Type} (body : Advice → (Nat → List RVal → Store (Unit × A) → Res (Unit × A)) → Store (Unit × A) → Res (Unit × A)) : Imports (Unit × A) := fun ns name call args s =>
  match exAccessTraps.find? fun t => t.exportName == name with
  | some t => stdHook body t call args s
  | none => .stuck

theorem exAccesses_linked {A : Type} (body) : LinkedTo (interfaceFrom (selectHooks exAccessArgs.hooks)) body (exAccesses (A := A) body) := by
  intro t ht
  rw [C49_library_exports_what_is_imported]
  have hx : t.hook = .load ∨ t.hook = .store := by
    have := interfaceFrom_trap exAccessArgs ht
    simpa [selectHooks, exAccessArgs, CliHook.toHook] using this
  have e : exAccessTraps.find? (fun u => u.exportName == t.exportName) = some t := by
    clear ht
    cases t <;> first | (rcases hx with h | h <;> cases h; done) | decide +kernel
  funext call args s
  show (match exAccessTraps.find? (fun u => u.exportName == t.exportName) with
    | some t => stdHook body t call args s
    | none => .stuck) = _
  rw [e]

theorem exMem_limits : exMem.WithinLimits where
  functions := by decide
  tables := by decide
  arity := by decide
  length := by
    simp only [exMem, List.mem_cons, List.not_mem_nil, or_false, forall_eq]
    simp
  blocks := by
    simp only [exMem, List.mem_cons, List.not_mem_nil, or_false, forall_eq]
    simp

theorem exMem_right : exTypedChecker.Right exMem := by
  intro f hf c hc _
  simp only [exMem, List.mem_cons, List.not_mem_nil, or_false] at hf
  subst hf
  cases hc
  refine ⟨_, _, rfl, ?_, _, _, rfl, trivial, _, _, rfl, trivial, _, _, rfl, ?_, _, _, rfl, trivial, _, _, rfl, trivial, trivial⟩
  all_goals intro t ht; cases ht; rfl

theorem exMem_keepsOff : KeepsOff exMem := by unfold KeepsOff; decide +kernel

theorem exMem_small_offsets : SmallOffsets exAccessArgs exMem := by
  intro f hf c hc ma
  simp only [exMem, List.mem_cons, List.not_mem_nil, or_false] at hf
  subst hf
  cases hc
  simp only [List.mem_cons, List.not_mem_nil, or_false]
  refine ⟨fun _ op h => ?_, fun _ op h => ?_⟩ <;> simp at h <;> rw [h.2] <;> decide

theorem exAccessArgs_plain : ¬ exAccessArgs.Asks .genericApply := fun hn => by have := hn _ rfl; revert this; decide

theorem exAccess_accepted : ∃ out, cli (exCli exMem exTypedChecker) exAccessArgs [1] = some out :=
  (C87_valid_programs_are_accepted (exCli_works exMem exTypedChecker) (exCli_orderly _ _) (input := [1]) rfl exMem_valid exMem_limits exMem_right exAccessArgs).2 (by decide)

-- C87 (with offsets): `main(8)` writes the byte 5 at 8 + 3 and reads two bytes from 8 + 2, and so it does after the command.
example : ∃ r s1, instrument exTypedChecker id id (interfaceFrom (selectHooks exAccessArgs.hooks)) none exMem = .ok r ∧
    callF exNum (machineOf (exAccesses (forwardBody exNum r.module.exported)) r.module.functions) 10 12 0 [.i32 8] (exMemStore.withAnalysis ()) = .ok [.i32 0x500] s1 := by
  obtain ⟨out, h⟩ := exAccess_accepted
  obtain ⟨r, _, _, _, made, hall⟩ := C87_forwarded_programs_return_the_same (exCli_orderly _ _) h rfl exMem_valid exMem_limits exMem_right exMem_keepsOff exMem_small_offsets exAccessArgs_plain
  have hx : exReturned (callF exNum (machineOf (fun _ _ _ _ _ => .stuck) exMem.functions) 10 10 0 [.i32 8] exMemStore) = some [.i32 0x500] := by decide +kernel
  generalize ho : callF exNum _ 10 10 0 [.i32 8] exMemStore = o at hx
  cases o <;> simp [exReturned] at hx
  subst hx
  obtain ⟨_, e⟩ := (hall (exAccesses_linked _) (H := fun _ _ _ _ _ => .stuck) (fun f hf ns name hc => (exMem_noImports hf hc).elim) (f := 0) (ty := ⟨[.i32], [.i32]⟩) rfl
    (ValsOK.nil.cons rfl (by simp [RVal.OK])) exMemStore_ok () 10 10).1 _ _ ho
  exact ⟨r, _, made.1, e⟩

-- C95 (with offsets): with the analysis of C89 it reads one byte.
example : ∃ r s1, instrument exTypedChecker id id (interfaceFrom (selectHooks exAccessArgs.hooks)) none exMem = .ok r ∧
    callF exNum (machineOf (exAccesses (choosingBody exNum exHalves r.module.exported)) r.module.functions) 10 12 0 [.i32 8] (exMemStore.withAnalysis ()) = .ok [.i32 0] s1 := by
  obtain ⟨out, h⟩ := exAccess_accepted
  obtain ⟨r, _, _, _, made, hall⟩ := C95_command_rewrites_results (exCli_orderly _ _) h rfl exMem_valid exMem_limits exMem_right exMem_keepsOff exMem_small_offsets exAccessArgs_plain
  have hx : exReturned (callF exNum (machineOf (fun _ _ _ _ _ => .stuck) (exMem.rewritten exTypedChecker (bodyTargets exMem none) .nothing (chosen exAccessArgs exHalves)).functions) 10 10 0
      [.i32 8] exMemStore) = some [.i32 0] := by decide +kernel
  generalize ho : callF exNum _ 10 10 0 [.i32 8] exMemStore = o at hx
  cases o <;> simp [exReturned] at hx
  subst hx
  obtain ⟨_, e⟩ := (hall exHalves_typed (exAccesses_linked _) (H := fun _ _ _ _ _ => .stuck) (fun f hf ns name hc => (exMem_noImports hf hc).elim) (f := 0) (ty := ⟨[.i32], [.i32]⟩) rfl
    (ValsOK.nil.cons rfl (by simp [RVal.OK])) exMemStore_ok () 10 10).1 _ _ ho
  exact ⟨r, _, made.1, e⟩

-- C88 (with offsets): an analysis that notes down what it is told has noted the two accesses of the original run, addresses and offsets apart.
example : ∃ r, instrument exTypedChecker id id (interfaceFrom (selectHooks exAccessArgs.hooks)) none exMem = .ok r ∧ ∃ s1 : Store Unit,
    callF exNum (machineOf (exAccesses ((Watcher.ahead fun e x => x ++ [e]).body exNum r.module.exported)) r.module.functions) 10 12 0 [.i32 8] (exMemStore.withAnalysis []) =
      .ok [.i32 0x500] (s1.withAnalysis [Advice.store 8 (.i32 5) 3 .i32Store8 (.new 0 2), .load 8 2 .i32Load16U (.new 0 4)]) := by
  obtain ⟨out, h⟩ := exAccess_accepted
  obtain ⟨r, _, _, _, made, hall⟩ := C88_command_records_results (exCli_orderly _ _) h rfl exMem_valid exMem_limits exMem_right exMem_keepsOff exMem_small_offsets exAccessArgs_plain
  have h1 : resultsOf (exMemTraced 8) = some [.i32 0x500] := by decide +kernel
  have h2 : (interfaceFrom (selectHooks exAccessArgs.hooks)).Hears (logOf (exMemTraced 8)) (exMemAdvs 8) := by
    have e : (interfaceFrom (selectHooks exAccessArgs.hooks)).observed (logOf (exMemTraced 8)) = [(.i32Store, [.i32 8, .i32 5, .i64 3, .i32 StoreOp.i32Store8.serialize, .i64 0, .i64 2]),
        (.i32Load, [.i32 8, .i64 2, .i32 LoadOp.i32Load16U.serialize, .i64 0, .i64 4])] := by decide +kernel
    have e1 : StoreOp.ofCode StoreOp.i32Store8.serialize = some .i32Store8 := (C17_store_codes _ _).2 rfl
    have e2 : LoadOp.ofCode LoadOp.i32Load16U.serialize = some .i32Load16U := (C17_load_codes _ _).2 rfl
    unfold Interface.Hears
    rw [e]
    simp [stdEntry, e1, e2, exMemAdvs, RVal.i32, RVal.i64]
  unfold exMemTraced at h1 h2
  generalize ho : callF exNum _ 10 10 0 [.i32 8] _ = o at h1 h2
  cases o <;> simp [resultsOf] at h1
  rename_i vs s1
  subst h1
  obtain ⟨advs, x1, e1, e2, e3⟩ | ⟨⟨_, _, e⟩, _⟩ := (hall (u := .ahead fun e (x : List Advice) => x ++ [e]) (exAccesses_linked _) (T := fun _ _ _ _ _ => .stuck)
    (fun f hf ns name hc => (exMem_noImports hf hc).elim) (f := 0) (ty := ⟨[.i32], [.i32]⟩) rfl
    (ValsOK.nil.cons rfl (by simp [RVal.OK])) exMemStore_ok [] 10 10).1 _ { s1 with world := () } s1.world.2 ho
  · rw [hears_unique e1 h2] at e2
    cases e2
    exact ⟨r, made.1, _, e3⟩
  · cases e

/-- The reports about the two accesses of `main(8)`. -/
def exAccessReports : Account :=
  [.asked .i32Store [.i32 8, .i32 5, .i64 3, .i32 StoreOp.i32Store8.serialize, .i64 0, .i64 2], .done .i32Store [.i32 8, .i32 5, .i64 3, .i32 StoreOp.i32Store8.serialize, .i64 0, .i64 2] [],
    .asked .i32Load [.i32 8, .i64 2, .i32 LoadOp.i32Load16U.serialize, .i64 0, .i64 4], .done .i32Load [.i32 8, .i64 2, .i32 LoadOp.i32Load16U.serialize, .i64 0, .i64 4] [.i32 0x500]]

/-- Run with reports; the results and the reports about accesses. -/
def exAccessRun : Option (List RVal × Account) :=
  match callF exNum (reported exTypedChecker exMem (bodyTargets exMem none) (fun _ _ _ _ _ => .stuck)) 10 10 0 [.i32 8] (exMemStore.withAnalysis []) with
  | .ok vs s => some (vs, s.world.2.filter fun r => ((interfaceFrom (selectHooks exAccessArgs.hooks)).trap r.trap).isSome)
  | _ => none

theorem exAccessRun_is : exAccessRun = some ([.i32 0x500], exAccessReports) := by decide +kernel

-- C94 (with offsets): an analysis that notes down the results it is shown has noted what was loaded.
example : ∃ r, instrument exTypedChecker id id (interfaceFrom (selectHooks exAccessArgs.hooks)) none exMem = .ok r ∧ ∃ s1 : Store Unit,
    callF exNum (machineOf (exAccesses (Observer.body ⟨fun _ x => x, fun _ vs x => x ++ vs⟩ exNum r.module.exported)) r.module.functions) 10 12 0 [.i32 8] (exMemStore.withAnalysis []) =
      .ok [.i32 0x500] (s1.withAnalysis [.i32 0x500]) := by
  obtain ⟨out, h⟩ := exAccess_accepted
  obtain ⟨r, _, _, _, made, hall⟩ := C94_command_tells_results_with_offsets (exCli_orderly _ _) h rfl exMem_valid exMem_limits exMem_right exMem_keepsOff exMem_small_offsets exAccessArgs_plain
  have hx := exAccessRun_is
  unfold exAccessRun at hx
  generalize ho : callF exNum _ 10 10 0 [.i32 8] _ = o at hx
  cases o <;> simp at hx
  rename_i vs s1
  obtain ⟨rfl, hx⟩ := hx
  obtain ⟨remarks, e1, e2⟩ := (hall (ob := ⟨fun _ x => x, fun _ vs (x : List RVal) => x ++ vs⟩) (exAccesses_linked _) (T := fun _ _ _ _ _ => .stuck)
    (fun f hf ns name hc => (exMem_noImports hf hc).elim) (f := 0) (ty := ⟨[.i32], [.i32]⟩) rfl
    (ValsOK.nil.cons rfl (by simp [RVal.OK])) exMemStore_ok [] 10 10).1 _ { s1 with world := () } s1.world.2 ho
  have c1 : StoreOp.ofCode StoreOp.i32Store8.serialize = some .i32Store8 := (C17_store_codes _ _).2 rfl
  have c2 : LoadOp.ofCode LoadOp.i32Load16U.serialize = some .i32Load16U := (C17_load_codes _ _).2 rfl
  have e3 : remarks = [.told (.store 8 (.i32 5) 3 .i32Store8 (.new 0 2)), .got (.store 8 (.i32 5) 3 .i32Store8 (.new 0 2)) [], .told (.load 8 2 .i32Load16U (.new 0 4)),
      .got (.load 8 2 .i32Load16U (.new 0 4)) [.i32 0x500]] := by
    refine learns_unique e1 ?_
    unfold Interface.Learns
    rw [hx]
    simp [exAccessReports, Report.remark, stdEntry, c1, c2, RVal.i32, RVal.i64]
  rw [e3] at e2
  exact ⟨r, made.1, _, e2⟩

/-- What the analysis of the two accesses is told. -/
def exAccessRemarks : List Remark :=
  [.told (.store 8 (.i32 5) 3 .i32Store8 (.new 0 2)), .got (.store 8 (.i32 5) 3 .i32Store8 (.new 0 2)) [], .told (.load 8 2 .i32Load16U (.new 0 4)),
    .got (.load 8 2 .i32Load16U (.new 0 4)) [.i32 0x500]]

-- C94 (the log, with offsets): what the logging analysis has printed is the log of the two accesses.
example (F : FloatText) : ∃ r, instrument exTypedChecker id id (interfaceFrom (selectHooks exAccessArgs.hooks)) none exMem = .ok r ∧ ∃ s1 : Store Unit,
    callF exNum (machineOf (exAccesses ((logging F).body exNum r.module.exported)) r.module.functions) 10 12 0 [.i32 8] (exMemStore.withAnalysis "> ") =
      .ok [.i32 0x500] (s1.withAnalysis ("> " ++ logText F (eventsOf exAccessRemarks))) := by
  obtain ⟨out, h⟩ := exAccess_accepted
  obtain ⟨r, _, _, _, made, hall⟩ := C94_command_prints_with_offsets (exCli_orderly _ _) h rfl exMem_valid exMem_limits exMem_right exMem_keepsOff exMem_small_offsets exAccessArgs_plain
  have hx := exAccessRun_is
  unfold exAccessRun at hx
  generalize ho : callF exNum _ 10 10 0 [.i32 8] _ = o at hx
  cases o <;> simp at hx
  rename_i vs s1
  obtain ⟨rfl, hx⟩ := hx
  obtain ⟨remarks, e1, e2⟩ := (hall (F := F) (exAccesses_linked _) (T := fun _ _ _ _ _ => .stuck)
    (fun f hf ns name hc => (exMem_noImports hf hc).elim) (f := 0) (ty := ⟨[.i32], [.i32]⟩) rfl
    (ValsOK.nil.cons rfl (by simp [RVal.OK])) exMemStore_ok "> " 10 10).1 _ { s1 with world := () } s1.world.2 ho
  have c1 : StoreOp.ofCode StoreOp.i32Store8.serialize = some .i32Store8 := (C17_store_codes _ _).2 rfl
  have c2 : LoadOp.ofCode LoadOp.i32Load16U.serialize = some .i32Load16U := (C17_load_codes _ _).2 rfl
  have e3 : remarks = exAccessRemarks := by
    refine learns_unique e1 ?_
    unfold Interface.Learns
    rw [hx]
    simp [exAccessReports, exAccessRemarks, Report.remark, stdEntry, c1, c2, RVal.i32, RVal.i64]
  rw [e3] at e2
  exact ⟨r, made.1, _, e2⟩

-- C87 (intercepting calls): the hypotheses hold of the example of C87 with `generic-apply`.
example : ∃ (base : Nat) (s1 : Store Unit) (l1 : Lib), callF exNum (machineOf (exNanHost (forwardBody exNum exNanned.module.exported) forwardIdle forwardIdle base) exNanned.module.functions) 10 52 0
      [.i32 8, .num (.f32 0x7fc00001)] (exMemStore.extend [exNanTable] [] ((), (), exLib.store)) =
    .ok [.i32 0x7fc00001] (Store.extend s1 [exNanTable] [] ((), (), Lib.store l1)) ∧ l1.free = 0 := by
  obtain ⟨out, h⟩ := (C87_valid_programs_are_accepted (exCli_works exNan exNanChecker) (exCli_orderly _ _) (input := [1]) rfl exNan_valid exNan_limits exNanChecker_right exNanArgs).2 (by decide)
  obtain ⟨r, _, _, _, _, _, ⟨hr, _⟩, base, _, h⟩ := C87_intercepted_programs_return_the_same (exCli_orderly _ _) h rfl exNan_valid exNan_limits exNanChecker_right
    exNan_keepsOff (fun f hf c hc ma => ⟨fun ha op ho => by rw [(exNan_zero f hf c hc ma).1 ha op ho]; decide, fun ha op ho => by rw [(exNan_zero f hf c hc ma).2 ha op ho]; decide⟩)
    (fun l hl => by cases hl; decide)
  have hr : r = exNanned := by
    rw [exNanArgs_iface] at hr
    change instrument exNanChecker id id denanIface none exNan = .ok r at hr
    unfold exNanned
    rw [hr]; rfl
  rw [hr, exNanArgs_iface] at h
  have h := h _ _ _ _ _ _ _ _ _ (exNanHost_deployed (forwardBody exNum exNanned.module.exported) forwardIdle forwardIdle base) 0 _ [.i32 8, .num (.f32 0x7fc00001)] exMemStore () exLib rfl
    (ValsOK.nil.cons rfl (by simp [RVal.OK]) |>.cons rfl (by simp [RVal.OK])) exNanStore_ok exLib_ok (by decide) (exNanned_intact _) 10 10 (by decide) (by decide)
  have hr := exNan_runs
  split at hr
  · rename_i vs s1 he
    cases hr
    obtain ⟨a1, l1, e, _, e1, _⟩ := h.1 _ _ he
    exact ⟨base, s1, l1, e, e1⟩
  · cases hr

end Wastrum
