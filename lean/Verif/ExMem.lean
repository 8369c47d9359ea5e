import Verif.WatchThms
/-!
# A program that accesses memory, for examples (C68-C70)
-/

set_option linter.unusedSimpArgs false
set_option linter.unusedVariables false

namespace Wastrum

variable {A : Type}

/-- `main(p)` writes the byte 5 to `p + 3` and returns the two bytes at `p + 2`. -/
def exMem : Module where
  functions := [⟨⟨[.i32], [.i32]⟩, .present ⟨[], [.loc .get 0, .const (.i32 5), .store .i32Store8 ⟨3, 0⟩, .loc .get 0, .load .i32Load16U ⟨2, 0⟩, .fin]⟩, ["main"]⟩]
  tables := []
  elements := []
  memories := [⟨1, none, none, []⟩]
  globals := []
  datas := []
  start := none

/-- An analysis of loads and stores of `i32`. -/
def exMemIface : Interface where
  generic := none
  trap t := if t = .i32Store ∨ t = .i32Load then some t.export else none

def exMemStore : Store Unit := ⟨[], [⟨1, 65536, fun _ => 0⟩], [], [], [], ()⟩

theorem exMem_small : SmallModule exMem where
  functions := by decide
  arity := by decide
  length := by
    simp only [exMem, List.mem_cons, List.not_mem_nil, or_false, forall_eq]
    simp
  body := by
    simp only [exMem, List.mem_cons, List.not_mem_nil, or_false, forall_eq]
    simp [LInstr.Small]

theorem exMem_valid : ValidModule exMem where
  functions := by
    intro f hf c hc
    simp only [exMem, List.mem_cons, List.not_mem_nil, or_false] at hf
    subst hf
    simp only [FuncCode.present.injEq] at hc; subst hc
    refine .straight (bs := [.loc .get 0, .const (.i32 5), .store .i32Store8 ⟨3, 0⟩, .loc .get 0, .load .i32Load16U ⟨2, 0⟩]) rfl ?_
    exact .cons (.basic ⟨.i32, rfl, [], rfl, rfl⟩) (.cons (.basic ⟨_, rfl, rfl⟩) (.cons (.basic ⟨by decide, [], rfl, rfl⟩)
        (.cons (.basic ⟨.i32, rfl, _, rfl, rfl⟩) (.ofBasic ⟨by decide, [], rfl, rfl⟩))))
  elements := by simp [exMem]
  start := by simp [exMem]
  exports := by decide

theorem exMem_targets : bodyTargets exMem none = [0] := by decide +kernel

theorem exMem_annotated : ∀ i ∈ bodyTargets exMem none, ∀ f, exMem.functions[i]? = some f → WellAnnotated exMem f (bodyOf exTypedChecker exMem i) := by
  rw [exMem_targets]
  intro i hi f hf c hc
  simp only [List.mem_cons, List.not_mem_nil, or_false] at hi
  subst hi
  cases hf; cases hc
  have e : bodyOf exTypedChecker exMem 0 =
        [.basic ⟨0, 0, .reachable ⟨[], [.i32]⟩, false⟩ (.loc .get 0), .basic ⟨0, 1, .unreachable, false⟩ (.const (.i32 5)),
          .basic ⟨0, 2, .unreachable, false⟩ (.store .i32Store8 ⟨3, 0⟩), .basic ⟨0, 3, .reachable ⟨[], [.i32]⟩, false⟩ (.loc .get 0),
          .basic ⟨0, 4, .unreachable, false⟩ (.load .i32Load16U ⟨2, 0⟩)] := rfl
  rw [e]
  have ok : ∀ t, (InferredTy.reachable ⟨[], [.i32]⟩).reads = some t → [ValType.i32][0]? = some t := by
    rintro t ht; cases ht; rfl
  exact .cons (.basic ⟨.i32, rfl, [], rfl, rfl⟩ ok) (.cons (.basic ⟨_, rfl, rfl⟩ trivial) (.cons (.basic ⟨by decide, [], rfl, rfl⟩ trivial)
      (.cons (.basic ⟨.i32, rfl, _, rfl, rfl⟩ ok) (.cons (.basic ⟨by decide, [], rfl, rfl⟩ trivial) .nil))))

theorem exMem_raises : ∀ i ∈ bodyTargets exMem none, ∃ b, raiseTarget exTypedChecker exMem i = .ok b := by
  rw [exMem_targets]
  intro i hi
  simp only [List.mem_cons, List.not_mem_nil, or_false] at hi
  subst hi
  exact ⟨_, rfl⟩

theorem exMem_instruments : ∃ r, Instruments exTypedChecker exMemIface none exMem r := instruments_of_ok (by decide) exMem_small exMem_raises

theorem exMemIface_documented : exMemIface.Documented := by
  intro t e h
  simp only [exMemIface] at h
  split at h
  · exact (Option.some.inj h).symm
  · cases h

theorem exMemIface_hooks {t : Trap} (h : (exMemIface.trap t).isSome) : t = .i32Store ∨ t = .i32Load := by
  simp only [exMemIface] at h
  split at h
  · assumption
  · cases h

/-- Hooks of the analysis linked with the example program. -/
def exMemImports (body : Advice → (Nat → List RVal → Store (Unit × A) → Res (Unit × A)) → Store (Unit × A) → Res (Unit × A)) : Imports (Unit × A) := fun ns name call args s =>
  match [Trap.i32Store, .i32Load].find? fun t => t.exportName == name with
  | some t => stdHook body t call args s
  | none => .stuck

theorem exMem_linked (body) : LinkedTo exMemIface body (exMemImports (A := A) body) := by
  intro t h
  rw [C49_library_exports_what_is_imported]
  have := exMemIface_hooks h
  funext call args s
  simp only [exMemImports]
  have e : List.find? (fun u => u.exportName == t.exportName) [Trap.i32Store, .i32Load] = some t := by
    rcases this with rfl | rfl <;> decide +kernel
  rw [e]

theorem exMem_noImports {f ns name} (hf : f ∈ exMem.functions) (hc : f.code = .imported ns name) : False := by
  simp only [exMem, List.mem_cons, List.not_mem_nil, or_false] at hf
  subst hf
  cases hc

theorem exMem_watching (w : Watcher A) {r} (hr : Instruments exTypedChecker exMemIface none exMem r) :
    Watching exTypedChecker exMemIface none exMem r exNum w (fun _ _ _ _ _ => .stuck) (exMemImports (w.body exNum r.module.exported)) where
  small := exMem_small
  documented := exMemIface_documented
  noApply := rfl
  instruments := hr
  valid := exMem_valid
  annotated := exMem_annotated
  reserved := by decide +kernel
  linked := exMem_linked _
  imports := fun f hf ns name hc => (exMem_noImports hf hc).elim

theorem exMem_offsets : ∀ i ∈ bodyTargets exMem none, ∀ f c, exMem.functions[i]? = some f → f.code = .present c →
    OnlyCode (OffsetsAre exMemIface fun o => o.toNat < 2 ^ 31) c.body := by
  rw [exMem_targets]
  intro i hi f c hf hc
  simp only [List.mem_cons, List.not_mem_nil, or_false] at hi
  subst hi
  cases hf; cases hc
  intro b hb t k info hd ht
  simp only [List.mem_cons, List.not_mem_nil, or_false] at hb
  cases b <;> first | trivial | skip
  all_goals simp [Basic.toL] at hb; obtain ⟨rfl, rfl⟩ := hb; decide

theorem exMemStore_ok : StoreOK exMem.ctx exMemStore where
  globals := .nil
  mems := rfl
  tables := rfl
  tableElems := by intro e he; cases he
  datas := rfl
  elems := rfl
  elemElems := by intro e he; cases he
  pages := by
    intro x hx
    simp only [exMemStore, List.mem_cons, List.not_mem_nil, or_false] at hx
    subst hx
    exact ⟨by decide, by decide⟩

/-- The events of `main(p)`. -/
def exMemAdvs (p : BitVec 32) : List Advice := [.store p (.i32 5) 3 .i32Store8 (.new 0 2), .load p 2 .i32Load16U (.new 0 4)]

/-- The original program running with its log. -/
def exMemTraced (p : BitVec 32) : Res (Unit × Log) :=
  callF exNum (traced exTypedChecker exMem (bodyTargets exMem none) (fun _ _ _ _ _ => .stuck) logEvent) 10 10 0 [.i32 p] (exMemStore.withAnalysis [])

def resultsOf : Res (Unit × Log) → Option (List RVal)
  | .ok vs _ => some vs
  | _ => none

theorem exMem_traced {p v : BitVec 32} (h1 : resultsOf (exMemTraced p) = some [.i32 v])
    (h2 : exMemIface.observed (logOf (exMemTraced p)) = [(.i32Store, [.i32 p, .i32 5, .i64 3, .i32 StoreOp.i32Store8.serialize, .i64 0, .i64 2]),
      (.i32Load, [.i32 p, .i64 2, .i32 LoadOp.i32Load16U.serialize, .i64 0, .i64 4])]) :
    ∃ (s1 : Store Unit) (log : Log), callF exNum (traced exTypedChecker exMem (bodyTargets exMem none) (fun _ _ _ _ _ => .stuck) logEvent) 10 10 0 [.i32 p] (exMemStore.withAnalysis []) =
      .ok [.i32 v] (s1.withAnalysis log) ∧ exMemIface.Hears log (exMemAdvs p) := by
  unfold exMemTraced at h1 h2
  cases hr : callF exNum (traced exTypedChecker exMem (bodyTargets exMem none) (fun _ _ _ _ _ => .stuck) logEvent) 10 10 0 [.i32 p] (exMemStore.withAnalysis []) with
  | ok vs s =>
    rw [hr] at h1 h2
    cases h1
    refine ⟨{ s with world := () }, s.world.2, rfl, ?_⟩
    unfold Interface.Hears
    rw [show exMemIface.observed s.world.2 = _ from h2]
    have e : StoreOp.ofCode StoreOp.i32Store8.serialize = some .i32Store8 := (C17_store_codes _ _).2 rfl
    have e' : LoadOp.ofCode LoadOp.i32Load16U.serialize = some .i32Load16U := (C17_load_codes _ _).2 rfl
    simp [stdEntry, e, e', exMemAdvs, RVal.i32, RVal.i64]
  | _ => rw [hr] at h1; cases h1

/-- `main(8)` returns 1280. -/
theorem exMem_traced8 : ∃ (s1 : Store Unit) (log : Log),
    callF exNum (traced exTypedChecker exMem (bodyTargets exMem none) (fun _ _ _ _ _ => .stuck) logEvent) 10 10 0 [.i32 8] (exMemStore.withAnalysis []) =
      .ok [.i32 1280] (s1.withAnalysis log) ∧ exMemIface.Hears log (exMemAdvs 8) :=
  exMem_traced (by decide +kernel) (by decide +kernel)

end Wastrum
