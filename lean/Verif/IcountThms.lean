import Verif.WatchersThms

/-!
# How many functions `icount` says it has counted in (C63)

`total_counted_fs` returns the number of keys of the map of counts, and the keys are what `function_index` returns, which is the number of the instruction within its function (C22).
-/

namespace Wastrum

variable {W : Type}

theorem icount_total (advs : List Advice) :
    ∃ indices : List (BitVec 64), indices.Nodup ∧ (∀ x, x ∈ indices ↔ ∃ a ∈ advs, ∃ f, a.location = .new f x) ∧
      ICounts.totalCountedFs (advs.foldl (fun x e => icount e x) []) = BitVec.ofNat 32 indices.length := by
  obtain ⟨h1, h2⟩ := keys_of_events (upd := icount) (keysOf := fun (b : ICounts) => b.map (·.1)) (key := fun a => some a.location.functionIndex)
    (fun a b => HMap.keys_modifyOrInsert _ _ _ _) advs [] (by simp)
  refine ⟨_, h1, fun x => ?_, by rw [ICounts.totalCountedFs, List.length_map]⟩
  rw [h2]
  simp only [List.map_nil, List.not_mem_nil, false_or, Option.some.injEq]
  constructor
  · rintro ⟨a, ha, rfl⟩
    exact ⟨a, ha, a.location.instructionIndex, rfl⟩
  · rintro ⟨a, ha, f, e⟩
    exact ⟨a, ha, by rw [e]; rfl⟩

/-- **C63, `icount`, the number of functions.** `total_counted_fs` does not return the number of functions in which there were events, but the number of different `x` such that there was an event at an instruction
numbered `x`, of whichever function `f`. (Events are located by the number of the function and that of the instruction, in this order.) -/
theorem C63_icount_total_is_of_instruction_numbers {C iface ts m r} {N : Num} {T : Imports (W × Log)} {H : Imports (W × ICounts)}
    (hW : Watching C iface ts m r N (.ahead icount) T H)
    (hoff : ∀ i ∈ bodyTargets m ts, ∀ f c, m.functions[i]? = some f → f.code = .present c → OnlyCode (OffsetsAre iface fun o => o = 0) c.body)
    {f : Nat} {ty : FuncType} {args : List RVal} {s : Store W} (hf : m.ctx.ftype f = some ty) (hargs : ValsOK m.ctx args ty.inputs)
    (hok : StoreOK m.ctx s) (L d : Nat) :
    callF N (machineOf H r.module.functions) L d f args (s.withAnalysis []) = .fuel ∨
    ∃ (a1 : ICounts) (advs : List Advice), Saw C iface ts m N T L d f args s (callF N (machineOf H r.module.functions) L d f args (s.withAnalysis [])) a1 advs ∧
      ∃ indices : List (BitVec 64), indices.Nodup ∧ (∀ x, x ∈ indices ↔ ∃ a ∈ advs, ∃ f, a.location = .new f x) ∧ a1.totalCountedFs = BitVec.ofNat 32 indices.length :=
  hW.conclude hoff hf hargs hok _ L d (fun (a1 : ICounts) advs => ∃ indices : List (BitVec 64), indices.Nodup ∧ (∀ x, x ∈ indices ↔ ∃ a ∈ advs, ∃ f, a.location = .new f x) ∧
    a1.totalCountedFs = BitVec.ofNat 32 indices.length) icount_total

/-- The different numbers of functions in a list of events: what one would expect to be returned. -/
def functionsOf (advs : List Advice) : List (BitVec 64) := (advs.map fun a => a.location.instrIndex).eraseDups

-- C63, `icount`: `main(0, 5)` has events in two functions, at three instruction numbers; three is returned.
example : ∃ r, Instruments exTypedChecker exIface none exModule r ∧ ∃ a1,
    callF exNum (machineOf (exWatched (.ahead icount) r.module.exported) r.module.functions) 10 12 1 [.i32 0, .i32 5] (exStore.withAnalysis []) =
      .ok [.i32 49] (Store.withAnalysis { exStore with world := [.i32 7] } a1) ∧ a1.totalCountedFs = 3 ∧ (functionsOf exAdvs).length = 2 := by
  obtain ⟨r, hr⟩ := instruments_of_ok (C := exTypedChecker) (iface := exIface) (ts := none) (m := exModule) (by decide) exModule_small exModule_raises_typed
  exact ⟨r, hr, _, exWatched_run _ _ hr, by decide +kernel, by decide +kernel⟩

end Wastrum
