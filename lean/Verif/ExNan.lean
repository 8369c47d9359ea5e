import Verif.ForwardThms
import Verif.ExMem
/-!
# A program that handles a floating-point number, for examples (C71, C72)
-/

set_option linter.unusedSimpArgs false
set_option linter.unusedVariables false

namespace Wastrum

/-- `main(p, x)` writes the number `x` to `p` and returns its bits. -/
def exNan : Module where
  functions := [⟨⟨[.i32, .f32], [.i32]⟩, .present ⟨[], [.loc .get 0, .loc .get 1, .store .f32Store ⟨0, 0⟩, .loc .get 0, .load .i32Load ⟨0, 0⟩, .fin]⟩, ["main"]⟩]
  tables := []
  elements := []
  memories := [⟨1, none, none, []⟩]
  globals := []
  datas := []
  start := none

/-- A checker that knows the types of its parameters. -/
def exNanChecker : Checker := ⟨Unit, fun _ _ => (), fun _ i => match i with
  | .loc .get 1 => some ((), .reachable ⟨[], [.f32]⟩)
  | .loc .get _ => some ((), .reachable ⟨[], [.i32]⟩)
  | _ => some ((), .unreachable)⟩

/-- The interface of `denan`. -/
def denanIface : Interface where
  generic := some interfaceGenericApply
  trap t := if t.denans then some t.export else none

/-- The example program instrumented for an analysis with this interface. -/
def exNanned : Instrumented := ((instrument exNanChecker id id denanIface none exNan).toOption).getD ⟨exNan, none⟩

theorem exNanned_instruments : Instruments exNanChecker denanIface none exNan exNanned := by
  have h : (match instrument exNanChecker id id denanIface none exNan with | .ok _ => true | .error _ => false) = true := by decide +kernel
  refine ⟨id, id, fun _ => .rfl, fun _ => .rfl, ?_⟩
  unfold exNanned
  split at h
  · rename_i r hr; rw [hr]; rfl
  · simp at h

theorem exNan_small : SmallModule exNan where
  functions := by decide
  arity := by decide
  length := by
    simp only [exNan, List.mem_cons, List.not_mem_nil, or_false, forall_eq]
    simp
  body := by
    simp only [exNan, List.mem_cons, List.not_mem_nil, or_false, forall_eq]
    simp [LInstr.Small]

theorem exNan_valid : ValidModule exNan where
  functions := by
    intro f hf c hc
    simp only [exNan, List.mem_cons, List.not_mem_nil, or_false] at hf
    subst hf
    simp only [FuncCode.present.injEq] at hc; subst hc
    refine .straight (bs := [.loc .get 0, .loc .get 1, .store .f32Store ⟨0, 0⟩, .loc .get 0, .load .i32Load ⟨0, 0⟩]) rfl ?_
    exact .cons (.basic ⟨.i32, rfl, [], rfl, rfl⟩) (.cons (.basic ⟨.f32, rfl, _, rfl, rfl⟩) (.cons (.basic ⟨by decide, [], rfl, rfl⟩)
        (.cons (.basic ⟨.i32, rfl, _, rfl, rfl⟩) (.ofBasic ⟨by decide, [], rfl, rfl⟩))))
  elements := by simp [exNan]
  start := by simp [exNan]
  exports := by decide

theorem exNan_targets : bodyTargets exNan none = [0] := by decide +kernel
theorem exNan_applyTargets : applyTargets exNan none = [0] := by decide +kernel

theorem exNan_annotated : ∀ i ∈ bodyTargets exNan none, ∀ f, exNan.functions[i]? = some f → WellAnnotated exNan f (bodyOf exNanChecker exNan i) := by
  rw [exNan_targets]
  intro i hi f hf c hc
  simp only [List.mem_cons, List.not_mem_nil, or_false] at hi
  subst hi
  cases hf; cases hc
  have e : bodyOf exNanChecker exNan 0 =
        [.basic ⟨0, 0, .reachable ⟨[], [.i32]⟩, false⟩ (.loc .get 0), .basic ⟨0, 1, .reachable ⟨[], [.f32]⟩, false⟩ (.loc .get 1),
          .basic ⟨0, 2, .unreachable, false⟩ (.store .f32Store ⟨0, 0⟩), .basic ⟨0, 3, .reachable ⟨[], [.i32]⟩, false⟩ (.loc .get 0),
          .basic ⟨0, 4, .unreachable, false⟩ (.load .i32Load ⟨0, 0⟩)] := rfl
  rw [e]
  have ok : ∀ t, (InferredTy.reachable ⟨[], [.i32]⟩).reads = some t → [ValType.i32, .f32][0]? = some t := by
    rintro t ht; cases ht; rfl
  have ok' : ∀ t, (InferredTy.reachable ⟨[], [.f32]⟩).reads = some t → [ValType.i32, .f32][1]? = some t := by
    rintro t ht; cases ht; rfl
  exact .cons (.basic ⟨.i32, rfl, [], rfl, rfl⟩ ok) (.cons (.basic ⟨.f32, rfl, _, rfl, rfl⟩ ok') (.cons (.basic ⟨by decide, [], rfl, rfl⟩ trivial)
      (.cons (.basic ⟨.i32, rfl, _, rfl, rfl⟩ ok) (.cons (.basic ⟨by decide, [], rfl, rfl⟩ trivial) .nil))))

theorem denanIface_documented : denanIface.Documented := by
  intro t e h
  simp only [denanIface] at h
  split at h
  · exact (Option.some.inj h).symm
  · cases h

theorem denanIface_standard : denanIface.StandardApply := by
  intro ge cb h
  simp only [denanIface, Option.some.injEq] at h
  cases h
  decide

theorem denanIface_hooks {t : Trap} (h : (denanIface.trap t).isSome) : t.denans = true := by
  simp only [denanIface] at h
  split at h
  · assumption
  · cases h

theorem exNan_reserved : ∀ name ∈ denanIface.toolExports, name ∉ exNan.exportNames := by decide +kernel

theorem exNan_offsets : ∀ i ∈ bodyTargets exNan none, ∀ f c, exNan.functions[i]? = some f → f.code = .present c → OnlyCode (OffsetsAre denanIface fun o => o = 0) c.body := by
  rw [exNan_targets]
  intro i hi f c hf hc
  simp only [List.mem_cons, List.not_mem_nil, or_false] at hi
  subst hi
  cases hf; cases hc
  intro b hb t k info hd ht
  simp only [List.mem_cons, List.not_mem_nil, or_false] at hb
  cases b <;> first | trivial | skip
  all_goals simp [Basic.toL] at hb; obtain ⟨rfl, rfl⟩ := hb; rfl

theorem exNan_noImports {f ns name} (hf : f ∈ exNan.functions) (hc : f.code = .imported ns name) : False := by
  simp only [exNan, List.mem_cons, List.not_mem_nil, or_false] at hf
  subst hf
  cases hc

theorem exNanStore_ok : StoreOK exNan.ctx exMemStore where
  globals := .nil
  mems := rfl
  tables := rfl
  tableElems := by intro e he; cases he
  datas := rfl
  elems := rfl
  elemElems := by intro e he; cases he
  pages := by
    intro x hx
    simp only [exMemStore, List.mem_cons, List.not_mem_nil, or_false] at hx
    subst hx
    exact ⟨by decide, by decide⟩

/-- The library generated for the example. -/
def exNanLink : LibLink := ⟨libNum, (exNanned.librarySignatures).getD [], 65537, 5⟩

theorem exNanned_sigs : exNanLink.sigs = [⟨[.i32, .f32], [.i32]⟩] := by decide +kernel

/-- The table the tool has added, after instantiation. -/
def exNanTable : Table := ⟨.funcRef, [some 69], 1⟩

theorem exNanned_intact (w : World Unit Unit) : SegmentsIntact exNan exNanned (exMemStore.extend [exNanTable] [] w) := by
  have h : exNanned.module.elements = [⟨.funcRef, [[.refFunc 69, .fin]], .active 0 [.const (.i32 0), .fin]⟩] := by decide +kernel
  rw [SegmentsIntact, h]
  intro el hel tbl hm k f hk
  simp only [exNan, List.length_nil, List.drop_zero, List.mem_singleton] at hel
  subst hel
  cases hm
  refine ⟨exNanTable, rfl, ?_⟩
  dsimp only [exNanTable] at hk ⊢
  match k with
  | 0 => simpa using hk
  | k + 1 => simp at hk

/-- The embedder: the stack library, and an analysis with the given advice. -/
def exNanHost (body : Advice → (Nat → List RVal → Store (World Unit Unit) → Res (World Unit Unit)) → Store (World Unit Unit) → Res (World Unit Unit))
    (pre post : RuntimeValues → RuntimeValues → Act (World Unit Unit) Unit) (base : Nat) : Imports (World Unit Unit) := fun ns name =>
  if ns = stackModule then libHost exNanLink.N exNanLink.sigs exNanLink.L exNanLink.d name
  else if name = interfaceGenericApply.1.name then around exNanLink base pre post
  else match denanIface.selected.find? fun t => t.exportName == name with
  | some t => stdHook body t
  | none => fun _ _ _ => .stuck

theorem exNanHost_deployed (body pre post base) :
    Deployed denanIface exNan exNanned interfaceGenericApply.1 exNanLink base [exNanTable] [] 36 body pre post (fun _ _ _ _ _ => .stuck) (exNanHost body pre post base) where
  sigs := by decide +kernel
  small := by
    rw [exNanned_sigs]
    intro t ht
    simp only [List.mem_singleton] at ht
    subst ht; decide
  good := ⟨libNum_stack, by decide, by decide⟩
  lib := fun name => rfl
  linked := by
    intro t ht
    rw [C49_library_exports_what_is_imported]
    have hd := denanIface_hooks ht
    have e : t.exportName ≠ interfaceGenericApply.1.name ∧ List.find? (fun u => u.exportName == t.exportName) denanIface.selected = some t := by
      revert hd; clear ht
      have : ∀ t : Trap, (!t.denans || (decide (t.exportName ≠ interfaceGenericApply.1.name) && decide (List.find? (fun u => u.exportName == t.exportName) denanIface.selected = some t))) = true := by
        intro t; cases t <;> decide +kernel
      intro hd
      have := this t
      simpa [hd] using this
    have e3 : ("WASTRUMENTATION_ANALYSIS" : String) ≠ stackModule := by decide
    simp only [exNanHost, e.1, e.2, e3, if_false]
  advice := rfl
  imports := fun f hf ns name hc => (exNan_noImports hf hc).elim
  frame := by
    rw [exNanned_sigs]
    intro t ht
    simp only [List.mem_singleton] at ht
    subst ht; decide

-- C71: all hypotheses hold of the example. With the call, the store and the load going through the analysis, `main(8, NaN)` returns the bits of
-- the NaN, as in the original, and the stack allocator is back at 0.
theorem exNan_runs : (match callF exNum (machineOf (fun _ _ _ _ _ => .stuck) exNan.functions) 10 10 0 [.i32 8, .num (.f32 0x7fc00001)] exMemStore with
    | .ok vs _ => some vs
    | _ => none) = some [.i32 0x7fc00001] := by decide +kernel

example : ∃ (base : Nat) (s1 : Store Unit) (l1 : Lib), callF exNum (machineOf (exNanHost (forwardBody exNum exNanned.module.exported) forwardIdle forwardIdle base) exNanned.module.functions) 10 52 0
      [.i32 8, .num (.f32 0x7fc00001)] (exMemStore.extend [exNanTable] [] ((), (), exLib.store)) =
    .ok [.i32 0x7fc00001] (Store.extend s1 [exNanTable] [] ((), (), Lib.store l1)) ∧ l1.free = 0 := by
  obtain ⟨base, _, h⟩ := C71_shipped_forward_transparent exNan_small denanIface_documented denanIface_standard exNanned_instruments rfl exNan_valid exNan_annotated exNan_reserved exNan_offsets
  have h := h _ _ _ _ _ _ _ _ _ (exNanHost_deployed (forwardBody exNum exNanned.module.exported) forwardIdle forwardIdle base) 0 _ [.i32 8, .num (.f32 0x7fc00001)] exMemStore () exLib rfl
    (ValsOK.nil.cons rfl (by simp [RVal.OK]) |>.cons rfl (by simp [RVal.OK])) exNanStore_ok exLib_ok (by decide) (exNanned_intact _) 10 10 (by decide) (by decide)
  have hr := exNan_runs
  split at hr
  · rename_i vs s1 he
    cases hr
    obtain ⟨a1, l1, e, _, e1, _⟩ := h.1 _ _ he
    exact ⟨base, s1, l1, e, e1⟩
  · cases hr

end Wastrum
