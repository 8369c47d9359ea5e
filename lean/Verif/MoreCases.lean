import Verif.Cases
import Verif.TraceThms
import Verif.SafeHeapThms
import Verif.DenanThms

/-!
Further theorems applied to the programs of the examples.
-/

namespace Wastrum

theorem exModule_instrumented : ∃ r, Instruments exTypedChecker exIface none exModule r :=
  instruments_of_ok (C := exTypedChecker) (iface := exIface) (ts := none) (m := exModule) (by decide) exModule_small exModule_raises_typed

theorem exMain_args : ValsOK exModule.ctx [.i32 0, .i32 5] [.i32, .i32] := ValsOK.nil.cons rfl (by simp [RVal.OK]) |>.cons rfl (by simp [RVal.OK])

theorem ok_store {W : Type} {vs vs' : List RVal} {s s' : Store W} (h : Res.ok vs s = .ok vs' s') : s = s' := by cases h; rfl

/-- A run of `main(0, 5)` under an analysis that watches leaves it in the state after the six events of the example. -/
theorem exSaw {upd : Advice → A → A} {a a1 : A} {advs : List Advice} {r} (hr : Instruments exTypedChecker exIface none exModule r)
    (h : Saw exTypedChecker exIface none exModule exNum (exImports.beside Log) 10 12 1 [.i32 0, .i32 5] exStore
      (callF exNum (machineOf (exWatched (.ahead upd) r.module.exported) r.module.functions) 10 12 1 [.i32 0, .i32 5] (exStore.withAnalysis a)) a1 advs) :
    a1 = exAdvs.foldl (fun x e => upd e x) a := by
  obtain ⟨s1, log, hl, h⟩ := h
  rw [exWatched_run upd a hr] at h
  rcases h with ⟨vs, h, _⟩ | ⟨h, _⟩
  · exact (withAnalysis_inj (ok_store h)).2.symm
  · cases h

-- C58, in one line: an analysis that notes down the locations of all events.
example : ∃ r, Instruments exTypedChecker exIface none exModule r ∧ ∃ advs : List Advice,
    advs.map Advice.location = [.new 1 1, .new 1 5, .new 2 1, .new 2 1, .new 2 4, .new 1 5] := by
  obtain ⟨r, hr⟩ := exModule_instrumented
  refine ⟨r, hr, ?_⟩
  rcases C58_told_everything (C58_rust_analysis_qualifies (exWatching (.ahead fun e (x : List Location) => x ++ [e.location]) hr)) (exOffsets _) (f := 1) rfl exMain_args exStore_ok [] 10 12 with
    h | ⟨advs, h⟩
  · rw [exWatched_run _ _ hr] at h; cases h
  · have := exSaw hr h
    refine ⟨advs, ?_⟩
    have e : ∀ (l : List Advice) x, l.foldl (fun x e => x ++ [e.location]) x = x ++ l.map Advice.location := by
      intro l
      induction l with
      | nil => simp
      | cons y l ih => intro x; simp [ih]
    rw [e, e] at this
    simp only [List.nil_append] at this
    rw [this]
    rfl

-- C59: two calls and one operation are counted.
example : ∃ r, Instruments exTypedChecker exIface none exModule r ∧ ∃ (a1 : OpcodeCounts) (advs : List Advice),
    Saw exTypedChecker exIface none exModule exNum (exImports.beside Log) 10 12 1 [.i32 0, .i32 5] exStore
      (callF exNum (machineOf (exWatched (.ahead opcodes) r.module.exported) r.module.functions) 10 12 1 [.i32 0, .i32 5] (exStore.withAnalysis OpcodeCounts.init)) a1 advs ∧
    a1.getCountInstr 8 = some 2 ∧ ∀ k, a1.getCountInstr k = opcodeEvents[k.toNat]?.map fun p => BitVec.ofNat 32 (times advs p) := by
  obtain ⟨r, hr⟩ := exModule_instrumented
  refine ⟨r, hr, ?_⟩
  rcases C59_opcodes_counts_every_event (exWatching (.ahead opcodes) hr) (exOffsets _) (f := 1) rfl exMain_args exStore_ok 10 12 with h | ⟨a1, advs, h, hk⟩
  · rw [exWatched_run _ _ hr] at h; cases h
  · refine ⟨a1, advs, h, ?_, hk⟩
    rw [exSaw hr h]
    decide +kernel

-- C61: the condition of the `if` was 0.
example : ∃ r, Instruments exTypedChecker exIface none exModule r ∧ ∃ (a1 : BranchCoverage) (advs : List Advice),
    Saw exTypedChecker exIface none exModule exNum (exImports.beside Log) 10 12 1 [.i32 0, .i32 5] exStore
      (callF exNum (machineOf (exWatched (.ahead branches) r.module.exported) r.module.functions) 10 12 1 [.i32 0, .i32 5] (exStore.withAnalysis [])) a1 advs ∧ a1.getCoverage 1 1 = 0 := by
  obtain ⟨r, hr⟩ := exModule_instrumented
  refine ⟨r, hr, ?_⟩
  rcases C61_branches_report_last_decision (exWatching (.ahead branches) hr) (exOffsets _) (f := 1) rfl exMain_args exStore_ok 10 12 with h | ⟨a1, advs, h, hk⟩
  · rw [exWatched_run _ _ hr] at h; cases h
  · refine ⟨a1, advs, h, ?_⟩
    rw [exSaw hr h]
    decide +kernel

-- C65: whatever the analysis is told in the run of `main(0, 5)` is raised by an instruction of the program, the calls by calls.
example : ∃ r, Instruments exTypedChecker exIface none exModule r ∧ ∃ advs : List Advice, advs = exAdvs ∧
    (∀ a ∈ advs, ∃ f ∈ bodyTargets exModule none, ∃ fn c i instr, exModule.functions[f]? = some fn ∧ fn.code = .present c ∧ c.body[i]? = some instr ∧
      a.At (BitVec.ofNat 64 f) (BitVec.ofNat 64 i)) ∧
    ∃ f ∈ bodyTargets exModule none, ∃ fn c i g, exModule.functions[f]? = some fn ∧ fn.code = .present c ∧ c.body[i]? = some (.call g) ∧
      (1 : BitVec 64) = BitVec.ofNat 64 f ∧ (5 : BitVec 64) = BitVec.ofNat 64 i ∧ (2 : BitVec 32) = BitVec.ofNat 32 g := by
  obtain ⟨r, hr⟩ := exModule_instrumented
  refine ⟨r, hr, ?_⟩
  rcases C58_told_everything (C58_rust_analysis_qualifies (exWatching (.ahead fun e (x : List Advice) => x ++ [e]) hr)) (exOffsets _) (f := 1) rfl exMain_args exStore_ok [] 10 12 with
    h | ⟨advs, h⟩
  · rw [exWatched_run _ _ hr] at h; cases h
  · have e : ∀ (l x : List Advice), l.foldl (fun x e => x ++ [e]) x = x ++ l := by
      intro l
      induction l with
      | nil => simp
      | cons y l ih => intro x; simp [ih]
    have hadvs := exSaw hr h
    rw [e, e] at hadvs
    simp only [List.nil_append] at hadvs
    refine ⟨advs, hadvs, fun a ha => ?_, C65_calls_told_are_in_the_program (.beside _) h (callee := 2) (caller := 1) (x := 5) (by rw [hadvs]; simp [exAdvs])⟩
    obtain ⟨f, hf, fn, c, i, instr, h1, h2, h3, h4, _⟩ := C65_analysis_told_of_instructions (.beside _) h a ha
    exact ⟨f, hf, fn, c, i, instr, h1, h2, h3, h4⟩

-- C70: the checked original differs from the original by stopping only; at 65535 it does stop.
example (p : BitVec 32) : exHeapChecked .i32Store8 .i32Load8U p = exHeapOriginal .i32Store8 .i32Load8U p ∨ ∃ s1, exHeapChecked .i32Store8 .i32Load8U p = .trap s1 := by
  obtain ⟨r, hr⟩ := exHeap_instruments (st := .i32Store8) (op := .i32Load8U)
  exact C70_checked_original (instruments_raises exHeap_small hr) (exHeap_valid rfl rfl) (exHeap_annotated rfl rfl) (fun f hf ns name hc => (exHeap_noImports hf hc).elim) exMemIface
    (f := 0) (ty := ⟨[.i32], [.i32]⟩) rfl (ValsOK.nil.cons rfl (by simp [RVal.OK])) exHeapStore_ok 10 10
example : isTrap (exHeapChecked .i32Store8 .i32Load8U 65535) = true := by decide +kernel

-- C72: whatever `main(8, x)` returns under `denan`, for every `x`, it is no NaN.
example (x : BitVec 32) : ∃ base, ∀ vs s1',
    callF exNum (machineOf (exNanHost (denanBody exNum exNanned.module.exported) (denanBefore exNanLink) (denanAfter exNanLink) base) exNanned.module.functions) 10 10 0
      [.i32 8, .num (.f32 x)] (exMemStore.extend [exNanTable] [] ((), (), exLib.store)) = .ok vs s1' → ∀ v, .num v ∈ vs → ¬ v.IsNaN := by
  obtain ⟨base, _, h⟩ := C72_denan_returns_no_nan exNan_denanned
  exact ⟨base, h _ _ _ _ _ _ _ _ _ _ _ _ _ 10 10 (exNan_call base 8 x) (by rw [exNan_applyTargets]; simp)⟩

end Wastrum
