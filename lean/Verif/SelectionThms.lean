import Verif.Hooks
import Verif.InstrumentThms
/-!
# Theorems about selecting hooks (C34)
-/

set_option linter.unusedSimpArgs false

namespace Wastrum

/-- **Specification.** The hook a user selects to observe an interface entry. -/
def Trap.hook : Trap → Hook
  | .preBlock => .blockPre | .postBlock => .blockPost | .preLoop => .loopPre | .postLoop => .loopPost
  | .select => .select
  | .preTrapCall => .callPre | .postTrapCall => .callPost
  | .preTrapCallIndirect => .callIndirectPre | .postTrapCallIndirect => .callIndirectPost
  | .ifThenTrap => .ifThen | .ifThenPostTrap => .ifThenPost
  | .ifThenElseTrap => .ifThenElse | .ifThenElsePostTrap => .ifThenElsePost
  | .brTrap => .branch | .brIfTrap => .branchIf | .brTableTrap => .branchTable
  | .dropTrap => .drop | .returnTrap => .ret
  | .constI32Trap | .constF32Trap | .constI64Trap | .constF64Trap => .const
  | .unaryI32ToI32 | .unaryI64ToI32 | .unaryI64ToI64 | .unaryF32ToF32 | .unaryF64ToF64 | .unaryF32ToI32 | .unaryF64ToI32
  | .unaryI32ToI64 | .unaryF32ToI64 | .unaryF64ToI64 | .unaryI32ToF32 | .unaryI64ToF32 | .unaryF64ToF32
  | .unaryI32ToF64 | .unaryI64ToF64 | .unaryF32ToF64 => .unary
  | .binaryI32I32ToI32 | .binaryI64I64ToI32 | .binaryF32F32ToI32 | .binaryF64F64ToI32 | .binaryI64I64ToI64
  | .binaryF32F32ToF32 | .binaryF64F64ToF64 => .binary
  | .memorySize => .memorySize | .memoryGrow => .memoryGrow
  | .localGetI32 | .localSetI32 | .localTeeI32 | .localGetF32 | .localSetF32 | .localTeeF32
  | .localGetI64 | .localSetI64 | .localTeeI64 | .localGetF64 | .localSetF64 | .localTeeF64 => .locals
  | .globalGetI32 | .globalSetI32 | .globalGetF32 | .globalSetF32
  | .globalGetI64 | .globalSetI64 | .globalGetF64 | .globalSetF64 => .globals
  | .f32Store | .f64Store | .i32Store | .i64Store => .store
  | .f32Load | .f64Load | .i32Load | .i64Load => .load

theorem Interface.setTraps (l : List (Trap × Trap)) (hl : ∀ p ∈ l, p.1 = p.2) (i : Interface) :
    (l.foldl (fun i p => i.setTrap p.1 p.2) i).generic = i.generic ∧
    ∀ t, (l.foldl (fun i p => i.setTrap p.1 p.2) i).trap t = if (t, t) ∈ l then some t.export else i.trap t := by
  induction l generalizing i with
  | nil => simp
  | cons p l ih =>
    obtain ⟨h1, h2⟩ := ih (fun q hq => hl q (by simp [hq])) (i.setTrap p.1 p.2)
    refine ⟨h1, fun t => ?_⟩
    rw [List.foldl_cons, h2]
    obtain ⟨a, b⟩ := p
    have : a = b := hl (a, b) (by simp)
    subst this
    by_cases hm : (t, t) ∈ l
    · simp [hm]
    · by_cases ht : t = a
      · simp [hm, ht, Interface.setTrap]
      · simp [hm, ht, Interface.setTrap]

theorem Hook.arm_own (h : Hook) : ∀ p ∈ h.arm, p.1 = p.2 := by cases h <;> decide +kernel

theorem Hook.arm_mem (h : Hook) (t : Trap) : (t, t) ∈ h.arm ↔ t.hook = h := by
  cases h <;> cases t <;> decide

theorem Interface.add_eq (i : Interface) (h : Hook) :
    (i.add h).generic = (if h = .genericApply then some interfaceGenericApply else i.generic) ∧
    ∀ t, (i.add h).trap t = if t.hook = h then some t.export else i.trap t := by
  by_cases hg : h = .genericApply
  · subst hg
    refine ⟨rfl, fun t => ?_⟩
    have : t.hook ≠ .genericApply := by cases t <;> decide
    rw [if_neg this]; rfl
  · have e : i.add h = h.arm.foldl (fun i p => i.setTrap p.1 p.2) i := by
      cases h <;> first | rfl | exact absurd rfl hg
    obtain ⟨h1, h2⟩ := Interface.setTraps h.arm h.arm_own i
    rw [e, if_neg hg]
    exact ⟨h1, fun t => by rw [h2]; simp only [h.arm_mem]⟩

theorem interfaceFrom_eq (hs : List Hook) (i : Interface) :
    (hs.foldl Interface.add i).generic = (if .genericApply ∈ hs then some interfaceGenericApply else i.generic) ∧
    ∀ t, (hs.foldl Interface.add i).trap t = if t.hook ∈ hs then some t.export else i.trap t := by
  induction hs generalizing i with
  | nil => simp
  | cons h hs ih =>
    obtain ⟨h1, h2⟩ := ih (i.add h)
    obtain ⟨a1, a2⟩ := i.add_eq h
    refine ⟨?_, fun t => ?_⟩
    · rw [List.foldl_cons, h1, a1]
      by_cases hm : Hook.genericApply ∈ hs
      · simp [hm]
      · by_cases e : h = .genericApply
        · simp [e]
        · simp [hm, e, Ne.symm e]
    · rw [List.foldl_cons, h2, a2]
      by_cases hm : t.hook ∈ hs
      · simp [hm]
      · by_cases e : t.hook = h
        · simp [e]
        · simp [hm, e]

/-- **C34 (exactly the selected hooks).** Whatever hooks are selected, an interface entry is present exactly if its hook is
selected, and it then has the entry's own name and signature. -/
theorem C34_selected_hooks_exact (hs : List Hook) :
    (∀ t : Trap, (interfaceFrom hs).trap t = if t.hook ∈ hs then some t.export else none) ∧
    (interfaceFrom hs).generic = if .genericApply ∈ hs then some interfaceGenericApply else none := by
  obtain ⟨h1, h2⟩ := interfaceFrom_eq hs .empty
  exact ⟨h2, h1⟩

/-- **C34 (a set).** The interface depends only on which hooks are selected, not on their order or on repetitions. -/
theorem C34_order_irrelevant (hs hs' : List Hook) (h : ∀ k, k ∈ hs ↔ k ∈ hs') : interfaceFrom hs = interfaceFrom hs' := by
  obtain ⟨a1, a2⟩ := C34_selected_hooks_exact hs
  obtain ⟨b1, b2⟩ := C34_selected_hooks_exact hs'
  have e1 : (interfaceFrom hs).trap = (interfaceFrom hs').trap := by
    funext t; rw [a1, b1]; simp only [h]
  have e2 : (interfaceFrom hs).generic = (interfaceFrom hs').generic := by
    rw [a2, b2]; simp only [h]
  calc interfaceFrom hs = ⟨(interfaceFrom hs).generic, (interfaceFrom hs).trap⟩ := rfl
    _ = ⟨(interfaceFrom hs').generic, (interfaceFrom hs').trap⟩ := by rw [e1, e2]
    _ = interfaceFrom hs' := rfl

/-- **C34 (different selections differ).** Two selections with the same interface select the same hooks: every hook has an
entry. -/
theorem C34_selection_determined (hs hs' : List Hook) (h : interfaceFrom hs = interfaceFrom hs') : ∀ k, k ∈ hs ↔ k ∈ hs' := by
  obtain ⟨a1, a2⟩ := C34_selected_hooks_exact hs
  obtain ⟨b1, b2⟩ := C34_selected_hooks_exact hs'
  rw [h] at a1 a2
  have ht : ∀ t : Trap, t.hook ∈ hs ↔ t.hook ∈ hs' := by
    intro t
    have := (a1 t).symm.trans (b1 t)
    by_cases x : t.hook ∈ hs <;> by_cases y : t.hook ∈ hs' <;> simp [x, y] at this ⊢
  intro k
  by_cases hk : k = .genericApply
  · subst hk
    have := a2.symm.trans b2
    by_cases x : Hook.genericApply ∈ hs <;> by_cases y : Hook.genericApply ∈ hs' <;> simp [x, y] at this ⊢
  · have hex : ∃ t : Trap, t.hook = k := by
      cases k
      · exact absurd rfl hk
      · exact ⟨.preTrapCall, rfl⟩
      · exact ⟨.postTrapCall, rfl⟩
      · exact ⟨.preTrapCallIndirect, rfl⟩
      · exact ⟨.postTrapCallIndirect, rfl⟩
      · exact ⟨.ifThenTrap, rfl⟩
      · exact ⟨.ifThenPostTrap, rfl⟩
      · exact ⟨.ifThenElseTrap, rfl⟩
      · exact ⟨.ifThenElsePostTrap, rfl⟩
      · exact ⟨.brTrap, rfl⟩
      · exact ⟨.brIfTrap, rfl⟩
      · exact ⟨.brTableTrap, rfl⟩
      · exact ⟨.select, rfl⟩
      · exact ⟨.unaryI32ToI32, rfl⟩
      · exact ⟨.binaryI32I32ToI32, rfl⟩
      · exact ⟨.dropTrap, rfl⟩
      · exact ⟨.returnTrap, rfl⟩
      · exact ⟨.constI32Trap, rfl⟩
      · exact ⟨.localGetI32, rfl⟩
      · exact ⟨.globalGetI32, rfl⟩
      · exact ⟨.i32Store, rfl⟩
      · exact ⟨.i32Load, rfl⟩
      · exact ⟨.memorySize, rfl⟩
      · exact ⟨.memoryGrow, rfl⟩
      · exact ⟨.preBlock, rfl⟩
      · exact ⟨.postBlock, rfl⟩
      · exact ⟨.preLoop, rfl⟩
      · exact ⟨.postLoop, rfl⟩
    obtain ⟨t, rfl⟩ := hex
    exact ht t

/-- **C34 (command line).** The command line's hooks and the tool's hooks correspond one to one; giving no selection makes
every entry of the interface present, giving one makes exactly its hooks' entries present. -/
theorem C34_command_line :
    (∀ a b : CliHook, a.toHook = b.toHook → a = b) ∧ (∀ h : Hook, ∃ a : CliHook, a.toHook = h) ∧
    (∀ t : Trap, (interfaceFrom (selectHooks none)).trap t = some t.export) ∧
    (interfaceFrom (selectHooks none)).generic = some interfaceGenericApply ∧
    ∀ (l : List CliHook) (t : Trap), (interfaceFrom (selectHooks (some l))).trap t = some t.export ↔ ∃ a ∈ l, a.toHook = t.hook := by
  refine ⟨?_, ?_, ?_, ?_, ?_⟩
  · intro a b; cases a <;> cases b <;> decide
  · intro h
    cases h
    · exact ⟨.genericApply, rfl⟩
    · exact ⟨.callPre, rfl⟩
    · exact ⟨.callPost, rfl⟩
    · exact ⟨.callIndirectPre, rfl⟩
    · exact ⟨.callIndirectPost, rfl⟩
    · exact ⟨.ifThen, rfl⟩
    · exact ⟨.ifThenPost, rfl⟩
    · exact ⟨.ifThenElse, rfl⟩
    · exact ⟨.ifThenElsePost, rfl⟩
    · exact ⟨.branch, rfl⟩
    · exact ⟨.branchIf, rfl⟩
    · exact ⟨.branchTable, rfl⟩
    · exact ⟨.select, rfl⟩
    · exact ⟨.unary, rfl⟩
    · exact ⟨.binary, rfl⟩
    · exact ⟨.drop, rfl⟩
    · exact ⟨.ret, rfl⟩
    · exact ⟨.const, rfl⟩
    · exact ⟨.locals, rfl⟩
    · exact ⟨.globals, rfl⟩
    · exact ⟨.store, rfl⟩
    · exact ⟨.load, rfl⟩
    · exact ⟨.memorySize, rfl⟩
    · exact ⟨.memoryGrow, rfl⟩
    · exact ⟨.blockPre, rfl⟩
    · exact ⟨.blockPost, rfl⟩
    · exact ⟨.loopPre, rfl⟩
    · exact ⟨.loopPost, rfl⟩
  · intro t
    rw [(C34_selected_hooks_exact _).1, if_pos]
    cases t <;> simp [Trap.hook, selectHooks, Hook.all]
  · rw [(C34_selected_hooks_exact _).2, if_pos]
    simp [selectHooks, Hook.all]
  · intro l t
    rw [(C34_selected_hooks_exact _).1]
    simp [selectHooks]

/-- **C34 (what the program imports).** The instrumented program imports from the analysis exactly the entries of the selected
hooks (and the generic apply hook if it is selected), provided the program imports nothing from a module of that name itself. -/
theorem C34_imports_exact {C hs ts m r} (hsm : SmallModule m) (h : Instruments C (interfaceFrom hs) ts m r)
    (hns : ∀ f ∈ m.functions, ∀ name, f.code ≠ .imported "WASTRUMENTATION_ANALYSIS" name) (name : String) :
    (∃ f ∈ r.module.functions, f.code = .imported "WASTRUMENTATION_ANALYSIS" name) ↔
      (∃ t : Trap, t.hook ∈ hs ∧ t.export.name = name) ∨ (.genericApply ∈ hs ∧ interfaceGenericApply.1.name = name) := by
  obtain ⟨e1, e2⟩ := C34_selected_hooks_exact hs
  constructor
  · rintro ⟨f, hf, hc⟩
    obtain ⟨e, he, rfl⟩ := C33_only_hooks_imported hsm h hns f name hf hc
    simp only [FuncCode.imported.injEq, true_and] at hc
    rcases he with ⟨t, ht⟩ | ⟨cb, hg⟩
    · rw [e1] at ht
      split at ht
      · rename_i hm
        cases ht
        exact .inl ⟨t, hm, hc⟩
      · simp at ht
    · rw [e2] at hg
      split at hg
      · rename_i hm
        have := Option.some.inj hg
        exact .inr ⟨hm, by rw [this]; exact hc⟩
      · simp at hg
  · rintro (⟨t, ht, rfl⟩ | ⟨hg, rfl⟩)
    · exact ⟨_, (C33_every_hook_imported hsm h).1 t t.export (by rw [e1, if_pos ht]), rfl⟩
    · exact ⟨_, (C33_every_hook_imported hsm h).2 interfaceGenericApply.1 interfaceGenericApply.2 (by rw [e2, if_pos hg]), rfl⟩

-- Selecting stores and calls, in two orders and with a repetition.
example : interfaceFrom [.store, .callPre] = interfaceFrom [.callPre, .store, .callPre] :=
  C34_order_irrelevant _ _ (by simp [or_comm])
example : (interfaceFrom [.store, .callPre]).trap .i64Store = some ⟨Trap.i64Store.exportName, Trap.i64Store.args, Trap.i64Store.results⟩ ∧
    (interfaceFrom [.store, .callPre]).trap .postTrapCall = none := by decide
example : (interfaceFrom (selectHooks (some [.branchIf]))).trap .brIfTrap ≠ none := by decide

end Wastrum
