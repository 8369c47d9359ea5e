import Verif.Expand
/-! # Each pass is the rewrite for its hook alone; rewrites for different hooks compose -/

set_option linter.unusedSimpArgs false
set_option linter.unusedVariables false

namespace Wastrum

theorem meta_eta (m : Meta) : (⟨m.fidx, m.iidx, m.ty, m.flag⟩ : Meta) = m := rfl

theorem instrumentWith_ok {m : Meta} (h : m.flag = false) (k : Meta → TI) :
    instrumentWith m k = .ok (k (insMeta m)) := by simp [instrumentWith, h, insMeta]

theorem placeOriginal_ok {m : Meta} (h : m.flag = false) (k : Meta → TI) :
    placeOriginal m k = .ok (k m) := by
  unfold placeOriginal; rw [if_neg (by simp [h])]

theorem placeUntouched_eq (m : Meta) (k : Meta → TI) : placeUntouched m k = k m := rfl

theorem toI32_ok {n : Nat} (h : n < 2 ^ 31) : toI32 n = .ok (BitVec.ofNat 32 n) := by simp [toI32, h]
theorem toI64_ok {n : Nat} (h : n < 2 ^ 63) : toI64 n = .ok (BitVec.ofNat 64 n) := by simp [toI64, h]

theorem toTrapCall_ok {m : Meta} (h : m.flag = false) (hi : m.iidx < 2 ^ 63) (k : Nat) :
    toTrapCall m k = .ok (hookCall m [] k) := by
  simp [toTrapCall, instrumentWith_ok h, toI64_ok hi, hookCall, ins, u32ToI64, bind, Except.bind, pure, Except.pure]

theorem constI32_ok {m : Meta} (h : m.flag = false) (v : BitVec 32) :
    constI32 m v = .ok (ins m (.const (.i32 v))) := by simp [constI32, instrumentWith_ok h, ins]

theorem constI64_ok {m : Meta} (h : m.flag = false) (v : BitVec 64) :
    constI64 m v = .ok (ins m (.const (.i64 v))) := by simp [constI64, instrumentWith_ok h, ins]

@[simp] theorem ok_bind {ε α β} (a : α) (f : α → Except ε β) : (Except.ok a >>= f) = f a := rfl
@[simp] theorem pure_ok {ε α} (a : α) : (pure a : Except ε α) = .ok a := rfl

theorem hookCall_cons (m : Meta) (b : Basic) (imm : List Basic) (k : Nat) :
    hookCall m (b :: imm) k = ins m b :: hookCall m imm k := rfl

theorem blockPrologue_ok {m : Meta} (h : m.flag = false) (hi : m.iidx < 2 ^ 63) {t : FuncType}
    (h1 : t.inputs.length < 2 ^ 31) (h2 : t.results.length < 2 ^ 31) (k : Nat) :
    blockPrologue m t k = .ok (hookCall m (arity t) k) := by
  simp [blockPrologue, toI32_ok h1, toI32_ok h2, constI32_ok h, toTrapCall_ok h hi, arity, hookCall_cons, cI32]

theorem ifPrologue_ok {m : Meta} (h : m.flag = false) (hi : m.iidx < 2 ^ 63) {t : FuncType}
    (h1 : t.inputs.length < 2 ^ 31) (h2 : t.results.length < 2 ^ 31) (k : Nat) :
    ifPrologue m t k = .ok (hookCall m (arity t) k) := by
  simp [ifPrologue, toI32_ok h1, toI32_ok h2, constI32_ok h, toTrapCall_ok h hi, arity, hookCall_cons, cI32]

theorem hooked_single {m : Meta} {h : Trap} {k : Nat} (x : Option (Trap × List Basic)) :
    hooked (.single h k) m x = match x with
      | none => []
      | some (t, imm) => if t = h then hookCall m imm k else [] := by
  unfold hooked Sel.single
  cases x with
  | none => rfl
  | some p => obtain ⟨t, imm⟩ := p; by_cases e : t = h <;> simp [e]

theorem orReplaced_single {m : Meta} {h : Trap} {k : Nat} (b : Basic) :
    orReplaced (.single h k) m b = match hookReplace b with
      | none => [.basic m b]
      | some (t, imm) => if t = h then hookCall m imm k else [.basic m b] := by
  unfold orReplaced Sel.single
  cases hookReplace b with
  | none => rfl
  | some p => obtain ⟨t, imm⟩ := p; by_cases e : t = h <;> simp [e]

/-- The five transformation modules. -/
inductive Grp where
  | blockLoop | branch | call | simple | memory
  deriving DecidableEq, Repr

/-- The transformation module that serves a hook. -/
def Trap.grp : Trap → Grp
  | .preBlock | .postBlock | .preLoop | .postLoop | .select => .blockLoop
  | .preTrapCall | .postTrapCall | .preTrapCallIndirect | .postTrapCallIndirect => .call
  | .ifThenTrap | .ifThenPostTrap | .ifThenElseTrap | .ifThenElsePostTrap | .brTrap | .brIfTrap | .brTableTrap => .branch
  | .memorySize | .memoryGrow => .memory
  | .localGetI32 | .localSetI32 | .localTeeI32 | .globalGetI32 | .globalSetI32 => .memory
  | .localGetF32 | .localSetF32 | .localTeeF32 | .globalGetF32 | .globalSetF32 => .memory
  | .localGetI64 | .localSetI64 | .localTeeI64 | .globalGetI64 | .globalSetI64 => .memory
  | .localGetF64 | .localSetF64 | .localTeeF64 | .globalGetF64 | .globalSetF64 => .memory
  | .f32Store | .f64Store | .i32Store | .i64Store | .f32Load | .f64Load | .i32Load | .i64Load => .memory
  | _ => .simple

/-- The transformation module that may rewrite a basic instruction. -/
def Basic.grp : Basic → Grp
  | .select | .typedSelect _ => .blockLoop
  | .br _ | .brIf _ | .brTable _ _ => .branch
  | .call _ | .callIndirect _ _ => .call
  | .ret | .drop | .const _ | .unary _ | .binary _ => .simple
  | _ => .memory

theorem unaryTrap_grp {p t} (h : unaryTrap p = some t) : t.grp = .simple := by
  unfold unaryTrap at h; split at h <;> cases h <;> rfl
theorem binaryTrap_grp {p t} (h : binaryTrap p = some t) : t.grp = .simple := by
  unfold binaryTrap at h; split at h <;> cases h <;> rfl
theorem constTrap_grp {p t} (h : constTrap p = some t) : t.grp = .simple := by
  unfold constTrap at h; split at h <;> cases h <;> rfl
theorem loadTrap_grp {p t} (h : loadTrap p = some t) : t.grp = .memory := by
  unfold loadTrap at h; split at h <;> cases h <;> rfl
theorem storeTrap_grp {p t} (h : storeTrap p = some t) : t.grp = .memory := by
  unfold storeTrap at h; split at h <;> cases h <;> rfl
theorem localTrap_grp {o p t} (h : localTrap o p = some t) : t.grp = .memory := by
  unfold localTrap at h; split at h <;> cases h <;> rfl
theorem globalTrap_grp {o p t} (h : globalTrap o p = some t) : t.grp = .memory := by
  unfold globalTrap at h; split at h <;> cases h <;> rfl

theorem hookBefore_grp {n m b t imm} (h : hookBefore n m b = some (t, imm)) : t.grp = b.grp := by
  unfold hookBefore at h
  split at h <;> simp only [Option.some.injEq, Prod.mk.injEq, Option.map_eq_some_iff, Option.bind_eq_some_iff,
    reduceCtorEq] at h
  all_goals first
    | (obtain ⟨rfl, _⟩ := h; rfl)
    | (obtain ⟨x, ⟨y, _, hy⟩, rfl, _⟩ := h
       first | exact localTrap_grp hy | exact globalTrap_grp hy)

theorem hookAfter_grp {m b t imm} (h : hookAfter m b = some (t, imm)) : t.grp = b.grp := by
  unfold hookAfter at h
  split at h <;> simp only [Option.some.injEq, Prod.mk.injEq, Option.map_eq_some_iff, Option.bind_eq_some_iff,
    reduceCtorEq] at h
  all_goals first
    | (obtain ⟨rfl, _⟩ := h; rfl)
    | (obtain ⟨x, hy, rfl, _⟩ := h; exact constTrap_grp hy)
    | (obtain ⟨x, ⟨y, _, hy⟩, rfl, _⟩ := h
       first | exact localTrap_grp hy | exact globalTrap_grp hy)

theorem hookReplace_grp {b t imm} (h : hookReplace b = some (t, imm)) : t.grp = b.grp := by
  unfold hookReplace at h
  split at h <;> simp only [Option.some.injEq, Prod.mk.injEq, Option.map_eq_some_iff, reduceCtorEq] at h
  all_goals first
    | (obtain ⟨rfl, _⟩ := h; rfl)
    | (obtain ⟨x, hy, rfl, _⟩ := h
       first | exact unaryTrap_grp hy | exact binaryTrap_grp hy | exact loadTrap_grp hy | exact storeTrap_grp hy)

theorem expandI_basic (σ : Sel) (n : Nat) (m : Meta) (b : Basic) (hm : m.flag = false) :
    expandI σ n (.basic m b) =
      hooked σ m (hookBefore n m b) ++ orReplaced σ m b ++ hooked σ m (hookAfter m b) := by
  rw [expandI.eq_def]; simp [hm]

theorem expandI_basic_flag (σ : Sel) (n : Nat) (m : Meta) (b : Basic) (hm : m.flag = true) :
    expandI σ n (.basic m b) = [.basic m b] := by
  rw [expandI.eq_def]; simp [hm]

/-- A hook of one module leaves the instructions of other modules alone. -/
theorem expandI_other (h : Trap) (k n : Nat) (m : Meta) (b : Basic) (hg : h.grp ≠ b.grp) :
    expandI (.single h k) n (.basic m b) = [.basic m b] := by
  cases hm : m.flag
  · rw [expandI_basic _ _ _ _ hm]
    have e1 : hooked (.single h k) m (hookBefore n m b) = [] := by
      rw [hooked_single]; split
      · rfl
      · rename_i t imm e; rw [if_neg]; intro ht; exact hg (ht ▸ hookBefore_grp e)
    have e2 : hooked (.single h k) m (hookAfter m b) = [] := by
      rw [hooked_single]; split
      · rfl
      · rename_i t imm e; rw [if_neg]; intro ht; exact hg (ht ▸ hookAfter_grp e)
    have e3 : orReplaced (.single h k) m b = [.basic m b] := by
      rw [orReplaced_single]; split
      · rfl
      · rename_i t imm e; rw [if_neg]; intro ht; exact hg (ht ▸ hookReplace_grp e)
    rw [e1, e2, e3]; rfl
  · exact expandI_basic_flag _ _ _ _ hm

@[simp] theorem hooked_none (σ : Sel) (m : Meta) : hooked σ m none = [] := rfl

/-! ## block_loop -/

/-- The hook served by a target of `block_loop.rs`. -/
def BlockLoopKind.trap : BlockLoopKind → Trap
  | .blockPre => .preBlock | .blockPost => .postBlock | .loopPre => .preLoop | .loopPost => .postLoop
  | .select => .select

theorem BlockLoopKind.trap_grp (k : BlockLoopKind) : k.trap.grp = .blockLoop := by cases k <;> rfl

theorem hooked_single_some {m : Meta} {h : Trap} {k : Nat} (t : Trap) (imm : List Basic) :
    hooked (.single h k) m (some (t, imm)) = if t = h then hookCall m imm k else [] := by
  rw [hooked_single]

theorem BlockLoop.transform_ok (k : BlockLoopKind) (trap : Nat) :
    (∀ i : TI, i.Fits → ∀ n, BlockLoop.transformI k trap i = .ok (expandI (.single k.trap trap) n i)) ∧
    (∀ l : List TI, TI.FitsL l → ∀ n, BlockLoop.transform k trap l = .ok (expandL (.single k.trap trap) n l)) := by
  apply TI.induct
  · intro m b hf n
    cases hm : m.flag
    · have hi := (hf hm).1
      by_cases hg : b.grp = .blockLoop
      · rw [expandI_basic _ _ _ _ hm, BlockLoop.transformI.eq_def]
        dsimp only
        cases b <;> simp only [Basic.grp, reduceCtorEq] at hg
        all_goals cases k <;> simp [hm, hooked_single_some, hookBefore, hookAfter, BlockLoopKind.trap, orReplaced,
          hookReplace, toTrapCall_ok hm hi, placeOriginal_ok hm, placeUntouched_eq, hooked_none]
      · rw [expandI_other _ _ _ _ _ (by rw [k.trap_grp]; exact Ne.symm hg), BlockLoop.transformI.eq_def]
        dsimp only
        simp only [hm, Bool.false_eq_true, if_false]
        split
        · simp [Basic.grp] at hg
        · simp [Basic.grp] at hg
        · rfl
    · rw [expandI_basic_flag _ _ _ _ hm, BlockLoop.transformI.eq_def]
      simp [hm, placeUntouched_eq]
  · intro m t body ih hf n
    rw [TI.Fits.eq_def] at hf
    dsimp only at hf
    rw [BlockLoop.transformI.eq_def, expandI.eq_def]
    dsimp only
    cases hm : m.flag
    · obtain ⟨h1, h2, h3⟩ := hf.1 hm
      cases k <;> simp [hm, blockPrologue_ok hm h1 h2 h3, ih hf.2 n, toTrapCall_ok hm h1, placeOriginal_ok hm,
        placeUntouched_eq, hooked_single_some, BlockLoopKind.trap]
    · simp [ih hf.2 n, placeUntouched_eq]
  · intro m t body ih hf n
    rw [TI.Fits.eq_def] at hf
    dsimp only at hf
    rw [BlockLoop.transformI.eq_def, expandI.eq_def]
    dsimp only
    cases hm : m.flag
    · obtain ⟨h1, h2, h3⟩ := hf.1 hm
      cases k <;> simp [hm, blockPrologue_ok hm h1 h2 h3, ih hf.2 n, toTrapCall_ok hm h1, placeOriginal_ok hm,
        placeUntouched_eq, hooked_single_some, BlockLoopKind.trap]
    · simp [ih hf.2 n, placeUntouched_eq]
  · intro m t thn ih hf n
    rw [TI.Fits.eq_def] at hf
    rw [BlockLoop.transformI.eq_def, expandI.eq_def]
    dsimp only at hf ⊢
    cases hm : m.flag
    · cases k <;> simp [hm, ih hf.2 n, placeUntouched_eq, hooked_single_some, BlockLoopKind.trap, Sel.single]
    · simp [ih hf.2 n, placeUntouched_eq]
  · intro m t thn els ih1 ih2 hf n
    rw [TI.Fits.eq_def] at hf
    rw [BlockLoop.transformI.eq_def, expandI.eq_def]
    dsimp only at hf ⊢
    cases hm : m.flag
    · cases k <;> simp [hm, ih1 hf.2.1 n, ih2 hf.2.2 (n + (TI.tablesL thn).length), placeUntouched_eq, hooked_single_some,
        BlockLoopKind.trap]
    · simp [ih1 hf.2.1 n, ih2 hf.2.2 (n + (TI.tablesL thn).length), placeUntouched_eq]
  · intro _ n; simp [BlockLoop.transform, expandL]
  · intro i l hi hl hf n
    rw [TI.FitsL.eq_def] at hf
    rw [BlockLoop.transform.eq_def, expandL.eq_def]
    simp [hi hf.1 n, hl hf.2 (n + i.tables.length)]

/-! ## function_call_indirect -/

/-- The hook served by a target of `function_call_indirect.rs`. -/
def CallKind.trap : CallKind → Trap
  | .pre => .preTrapCall | .post => .postTrapCall | .indirectPre => .preTrapCallIndirect
  | .indirectPost => .postTrapCallIndirect

theorem CallKind.trap_grp (k : CallKind) : k.trap.grp = .call := by cases k <;> rfl

theorem Calls.transform_ok (k : CallKind) (trap : Nat) :
    (∀ i : TI, i.Fits → ∀ n, Calls.transformI k trap i = .ok (expandI (.single k.trap trap) n i)) ∧
    (∀ l : List TI, TI.FitsL l → ∀ n, Calls.transform k trap l = .ok (expandL (.single k.trap trap) n l)) := by
  apply TI.induct
  · intro m b hf n
    cases hm : m.flag
    · have hi := (hf hm).1
      have hx := (hf hm).2
      by_cases hg : b.grp = .call
      · rw [expandI_basic _ _ _ _ hm, Calls.transformI.eq_def]
        dsimp only
        cases b <;> simp only [Basic.grp, reduceCtorEq] at hg
        all_goals
          dsimp only at hx
          cases k <;> simp [hm, hooked_single_some, hookBefore, hookAfter, CallKind.trap, orReplaced, constI32_ok hm,
            hookReplace, toTrapCall_ok hm hi, placeOriginal_ok hm, placeUntouched_eq, toI32_ok hx, hookCall_cons, cI32]
      · rw [expandI_other _ _ _ _ _ (by rw [k.trap_grp]; exact Ne.symm hg), Calls.transformI.eq_def]
        dsimp only
        simp only [hm, Bool.false_eq_true, if_false]
        split <;> first | rfl | (simp [Basic.grp] at hg; done)
    · rw [expandI_basic_flag _ _ _ _ hm, Calls.transformI.eq_def]
      simp [hm, placeUntouched_eq]
  · intro m t body ih hf n
    rw [TI.Fits.eq_def] at hf
    rw [Calls.transformI.eq_def, expandI.eq_def]
    dsimp only at hf ⊢
    cases hm : m.flag
    · cases k <;> simp [hm, ih hf.2 n, placeUntouched_eq, hooked_single_some, CallKind.trap]
    · simp [ih hf.2 n, placeUntouched_eq]
  · intro m t body ih hf n
    rw [TI.Fits.eq_def] at hf
    rw [Calls.transformI.eq_def, expandI.eq_def]
    dsimp only at hf ⊢
    cases hm : m.flag
    · cases k <;> simp [hm, ih hf.2 n, placeUntouched_eq, hooked_single_some, CallKind.trap]
    · simp [ih hf.2 n, placeUntouched_eq]
  · intro m t thn ih hf n
    rw [TI.Fits.eq_def] at hf
    rw [Calls.transformI.eq_def, expandI.eq_def]
    dsimp only at hf ⊢
    cases hm : m.flag
    · cases k <;> simp [hm, ih hf.2 n, placeUntouched_eq, hooked_single_some, CallKind.trap, Sel.single]
    · simp [ih hf.2 n, placeUntouched_eq]
  · intro m t thn els ih1 ih2 hf n
    rw [TI.Fits.eq_def] at hf
    rw [Calls.transformI.eq_def, expandI.eq_def]
    dsimp only at hf ⊢
    cases hm : m.flag
    · cases k <;> simp [hm, ih1 hf.2.1 n, ih2 hf.2.2 (n + (TI.tablesL thn).length), placeUntouched_eq, hooked_single_some,
        CallKind.trap]
    · simp [ih1 hf.2.1 n, ih2 hf.2.2 (n + (TI.tablesL thn).length), placeUntouched_eq]
  · intro _ n; simp [Calls.transform, expandL]
  · intro i l hi hl hf n
    rw [TI.FitsL.eq_def] at hf
    rw [Calls.transform.eq_def, expandL.eq_def]
    simp [hi hf.1 n, hl hf.2 (n + i.tables.length)]

/-! ## simple_operations -/

/-- The hook served by a target of `simple_operations.rs`. -/
def SimpleKind.trap : SimpleKind → Trap
  | .drop => .dropTrap
  | .return => .returnTrap
  | .constI32 => .constI32Trap
  | .constF32 => .constF32Trap
  | .constI64 => .constI64Trap
  | .constF64 => .constF64Trap
  | .unaryI32ToI32 => .unaryI32ToI32
  | .unaryI64ToI32 => .unaryI64ToI32
  | .unaryI64ToI64 => .unaryI64ToI64
  | .unaryF32ToF32 => .unaryF32ToF32
  | .unaryF64ToF64 => .unaryF64ToF64
  | .unaryF32ToI32 => .unaryF32ToI32
  | .unaryF64ToI32 => .unaryF64ToI32
  | .unaryI32ToI64 => .unaryI32ToI64
  | .unaryF32ToI64 => .unaryF32ToI64
  | .unaryF64ToI64 => .unaryF64ToI64
  | .unaryI32ToF32 => .unaryI32ToF32
  | .unaryI64ToF32 => .unaryI64ToF32
  | .unaryF64ToF32 => .unaryF64ToF32
  | .unaryI32ToF64 => .unaryI32ToF64
  | .unaryI64ToF64 => .unaryI64ToF64
  | .unaryF32ToF64 => .unaryF32ToF64
  | .binaryI32I32toI32 => .binaryI32I32ToI32
  | .binaryI64I64toI32 => .binaryI64I64ToI32
  | .binaryF32F32toI32 => .binaryF32F32ToI32
  | .binaryF64F64toI32 => .binaryF64F64ToI32
  | .binaryI64I64toI64 => .binaryI64I64ToI64
  | .binaryF32F32toF32 => .binaryF32F32ToF32
  | .binaryF64F64toF64 => .binaryF64F64ToF64

theorem SimpleKind.trap_grp (k : SimpleKind) : k.trap.grp = .simple := by cases k <;> rfl

theorem unaryMatch_eq (k : SimpleKind) (op : UnaryOp) : unaryMatch k op = decide (unaryTrap op.sig = some k.trap) := by
  cases k <;> cases op <;> rfl

theorem binaryMatch_eq (k : SimpleKind) (op : BinaryOp) : binaryMatch k op = decide (binaryTrap op.sig = some k.trap) := by
  cases k <;> cases op <;> rfl

theorem Simple.transform_ok (k : SimpleKind) (trap : Nat) :
    (∀ i : TI, i.Fits → ∀ n, Simple.transformI k trap i = .ok (expandI (.single k.trap trap) n i)) ∧
    (∀ l : List TI, TI.FitsL l → ∀ n, Simple.transform k trap l = .ok (expandL (.single k.trap trap) n l)) := by
  apply TI.induct
  · intro m b hf n
    cases hm : m.flag
    · have hi := (hf hm).1
      by_cases hg : b.grp = .simple
      · rw [expandI_basic _ _ _ _ hm]
        cases b <;> simp only [Basic.grp, reduceCtorEq] at hg
        case ret =>
          rw [Simple.transformI.eq_def]
          cases k <;> simp [hm, hooked_single_some, hookBefore, hookAfter, SimpleKind.trap, orReplaced,
            hookReplace, toTrapCall_ok hm hi, placeOriginal_ok hm, placeUntouched_eq]
        case drop =>
          rw [Simple.transformI.eq_def]
          cases k <;> simp [hm, hooked_single_some, hookBefore, hookAfter, SimpleKind.trap, orReplaced,
            hookReplace, toTrapCall_ok hm hi, placeOriginal_ok hm, placeUntouched_eq]
        case const v =>
          rw [Simple.transformI.eq_def]
          cases v <;> cases k <;> simp [hm, hooked_single_some, hookBefore, hookAfter, SimpleKind.trap, orReplaced,
            hookReplace, toTrapCall_ok hm hi, placeOriginal_ok hm, placeUntouched_eq, Val.type, constTrap]
        case unary op =>
          have e : Simple.transformI k trap (.basic m (.unary op)) =
              if unaryMatch k op then .ok (hookCall m [.const (.i32 op.serialize)] trap) else .ok [.basic m (.unary op)] := by
            rw [Simple.transformI.eq_def]
            cases k <;> simp [hm, constI32_ok hm, toTrapCall_ok hm hi, hookCall_cons, placeUntouched_eq]
          rw [e, unaryMatch_eq]
          simp only [hookBefore, hookAfter, hooked_none, orReplaced_single, hookReplace]
          cases ht : unaryTrap op.sig with
          | none => simp
          | some t => by_cases h : t = k.trap <;> simp [h]
        case binary op =>
          have e : Simple.transformI k trap (.basic m (.binary op)) =
              if binaryMatch k op then .ok (hookCall m [.const (.i32 op.serialize)] trap) else .ok [.basic m (.binary op)] := by
            rw [Simple.transformI.eq_def]
            cases k <;> simp [hm, constI32_ok hm, toTrapCall_ok hm hi, hookCall_cons, placeUntouched_eq]
          rw [e, binaryMatch_eq]
          simp only [hookBefore, hookAfter, hooked_none, orReplaced_single, hookReplace]
          cases ht : binaryTrap op.sig with
          | none => simp
          | some t => by_cases h : t = k.trap <;> simp [h]
      · rw [expandI_other _ _ _ _ _ (by rw [k.trap_grp]; exact Ne.symm hg), Simple.transformI.eq_def]
        dsimp only
        simp only [hm, Bool.false_eq_true, if_false]
        split <;> first | rfl | (simp [Basic.grp] at hg; done)
    · rw [expandI_basic_flag _ _ _ _ hm, Simple.transformI.eq_def]
      simp [hm, placeUntouched_eq]
  · intro m t body ih hf n
    rw [TI.Fits.eq_def] at hf
    rw [Simple.transformI.eq_def, expandI.eq_def]
    dsimp only at hf ⊢
    cases hm : m.flag
    · cases k <;> simp [hm, ih hf.2 n, placeUntouched_eq, hooked_single_some, SimpleKind.trap]
    · simp [ih hf.2 n, placeUntouched_eq]
  · intro m t body ih hf n
    rw [TI.Fits.eq_def] at hf
    rw [Simple.transformI.eq_def, expandI.eq_def]
    dsimp only at hf ⊢
    cases hm : m.flag
    · cases k <;> simp [hm, ih hf.2 n, placeUntouched_eq, hooked_single_some, SimpleKind.trap]
    · simp [ih hf.2 n, placeUntouched_eq]
  · intro m t thn ih hf n
    rw [TI.Fits.eq_def] at hf
    rw [Simple.transformI.eq_def, expandI.eq_def]
    dsimp only at hf ⊢
    cases hm : m.flag
    · cases k <;> simp [hm, ih hf.2 n, placeUntouched_eq, hooked_single_some, SimpleKind.trap, Sel.single]
    · simp [ih hf.2 n, placeUntouched_eq]
  · intro m t thn els ih1 ih2 hf n
    rw [TI.Fits.eq_def] at hf
    rw [Simple.transformI.eq_def, expandI.eq_def]
    dsimp only at hf ⊢
    cases hm : m.flag
    · cases k <;> simp [hm, ih1 hf.2.1 n, ih2 hf.2.2 (n + (TI.tablesL thn).length), placeUntouched_eq, hooked_single_some,
        SimpleKind.trap]
    · simp [ih1 hf.2.1 n, ih2 hf.2.2 (n + (TI.tablesL thn).length), placeUntouched_eq]
  · intro _ n; simp [Simple.transform, expandL]
  · intro i l hi hl hf n
    rw [TI.FitsL.eq_def] at hf
    rw [Simple.transform.eq_def, expandL.eq_def]
    simp [hi hf.1 n, hl hf.2 (n + i.tables.length)]

/-! ## memory -/

/-- The hook served by a target of `memory.rs`. -/
def MemoryKind.trap : MemoryKind → Trap
  | .memorySize => .memorySize
  | .memoryGrow => .memoryGrow
  | .localGetI32 => .localGetI32
  | .localSetI32 => .localSetI32
  | .localTeeI32 => .localTeeI32
  | .globalGetI32 => .globalGetI32
  | .globalSetI32 => .globalSetI32
  | .localGetF32 => .localGetF32
  | .localSetF32 => .localSetF32
  | .localTeeF32 => .localTeeF32
  | .globalGetF32 => .globalGetF32
  | .globalSetF32 => .globalSetF32
  | .localGetI64 => .localGetI64
  | .localSetI64 => .localSetI64
  | .localTeeI64 => .localTeeI64
  | .globalGetI64 => .globalGetI64
  | .globalSetI64 => .globalSetI64
  | .localGetF64 => .localGetF64
  | .localSetF64 => .localSetF64
  | .localTeeF64 => .localTeeF64
  | .globalGetF64 => .globalGetF64
  | .globalSetF64 => .globalSetF64
  | .f32Store => .f32Store
  | .f64Store => .f64Store
  | .i32Store => .i32Store
  | .i64Store => .i64Store
  | .f32Load => .f32Load
  | .f64Load => .f64Load
  | .i32Load => .i32Load
  | .i64Load => .i64Load

theorem MemoryKind.trap_grp (k : MemoryKind) : k.trap.grp = .memory := by cases k <;> rfl

theorem storeTable_eq (k : MemoryKind) (op : StoreOp) :
    storeTable.contains (k, op) = decide (storeTrap op.ty = some k.trap) := by
  cases k <;> cases op <;> rfl

theorem loadTable_eq (k : MemoryKind) (op : LoadOp) :
    loadTable.contains (k, op) = decide (loadTrap op.ty = some k.trap) := by
  cases k <;> cases op <;> rfl

/-- What `accessHook` offers to an access, in terms of the specification. -/
theorem accessHook_eq (k : MemoryKind) (b : Basic) (t : FuncType) :
    accessHook k b t = match b with
      | .loc .get i => if (InferredTy.reads (.reachable t)).bind (localTrap .get) = some k.trap then some (.after i) else none
      | .glob .get i => if (InferredTy.reads (.reachable t)).bind (globalTrap .get) = some k.trap then some (.after i) else none
      | .loc .set i => if (InferredTy.writes (.reachable t)).bind (localTrap .set) = some k.trap then some (.before i) else none
      | .loc .tee i => if (InferredTy.tees (.reachable t)).bind (localTrap .tee) = some k.trap then some (.before i) else none
      | .glob .set i => if (InferredTy.writes (.reachable t)).bind (globalTrap .set) = some k.trap then some (.before i) else none
      | _ => none := by
  cases b
  case loc op i =>
    obtain ⟨ins, outs⟩ := t
    cases op
    · rcases ins with _ | ⟨a, r⟩
      · rcases outs with _ | ⟨b, _ | ⟨b', r'⟩⟩
        · cases k <;> rfl
        · rcases b with _ | _ | _ | _ | r <;> cases k <;> rfl
        · cases k <;> (try rfl) <;> (rcases b with _ | _ | _ | _ | r <;> rfl)
      · cases k <;> rfl
    · rcases ins with _ | ⟨a, _ | ⟨a', r⟩⟩
      · cases k <;> rfl
      · rcases outs with _ | ⟨b, r'⟩
        · rcases a with _ | _ | _ | _ | r <;> cases k <;> rfl
        · cases k <;> (try rfl) <;> (rcases a with _ | _ | _ | _ | r <;> rfl)
      · cases k <;> (try rfl) <;> (rcases a with _ | _ | _ | _ | r <;> rfl)
    · rcases ins with _ | ⟨a, _ | ⟨a', r⟩⟩
      · cases k <;> rfl
      · rcases outs with _ | ⟨b, _ | ⟨b', r'⟩⟩
        · cases k <;> (try rfl) <;> (rcases a with _ | _ | _ | _ | r <;> rfl)
        · rcases a with _ | _ | _ | _ | ⟨_ | _⟩ <;> rcases b with _ | _ | _ | _ | ⟨_ | _⟩ <;> cases k <;> rfl
        · cases k <;> (try rfl) <;> (rcases a with _ | _ | _ | _ | r <;> (try rfl) <;> rcases b with _ | _ | _ | _ | r <;> rfl)
      · cases k <;> (try rfl) <;> (rcases a with _ | _ | _ | _ | r <;> rfl)
  case glob op i =>
    obtain ⟨ins, outs⟩ := t
    cases op
    · rcases ins with _ | ⟨a, r⟩
      · rcases outs with _ | ⟨b, _ | ⟨b', r'⟩⟩
        · cases k <;> rfl
        · rcases b with _ | _ | _ | _ | r <;> cases k <;> rfl
        · cases k <;> (try rfl) <;> (rcases b with _ | _ | _ | _ | r <;> rfl)
      · cases k <;> rfl
    · rcases ins with _ | ⟨a, _ | ⟨a', r⟩⟩
      · cases k <;> rfl
      · rcases outs with _ | ⟨b, r'⟩
        · rcases a with _ | _ | _ | _ | r <;> cases k <;> rfl
        · cases k <;> (try rfl) <;> (rcases a with _ | _ | _ | _ | r <;> rfl)
      · cases k <;> (try rfl) <;> (rcases a with _ | _ | _ | _ | r <;> rfl)
  all_goals (unfold accessHook; split <;> first | rfl | contradiction)

/-- `Memory.transformI` on instructions that are neither memory operators nor accesses. -/
theorem Memory.transform_ok (k : MemoryKind) (trap : Nat) :
    (∀ i : TI, i.Fits → ∀ n, Memory.transformI k trap i = .ok (expandI (.single k.trap trap) n i)) ∧
    (∀ l : List TI, TI.FitsL l → ∀ n, Memory.transform k trap l = .ok (expandL (.single k.trap trap) n l)) := by
  apply TI.induct
  · intro m b hf n
    cases hm : m.flag
    · have hi := (hf hm).1
      -- the last group of arms of the match
      have other : (∀ i, b ≠ .memorySize i) → (∀ i, b ≠ .memoryGrow i) → (∀ o a, b ≠ .store o a) →
          (∀ o a, b ≠ .load o a) → Memory.transformI k trap (.basic m b) =
            match m.ty with
            | .reachable t =>
              match accessHook k b t with
              | some (.after i) => .ok ([.basic m b] ++ hookCall m [cI64 i] trap)
              | some (.before i) => .ok (hookCall m [cI64 i] trap ++ [.basic m b])
              | none => .ok [.basic m b]
            | .unreachable => .ok [.basic m b] := by
        intro h1 h2 h3 h4
        rw [Memory.transformI.eq_def]
        simp only [hm, Bool.false_eq_true, if_false]
        split
        · exact absurd rfl (h1 _)
        · exact absurd rfl (h2 _)
        · exact absurd rfl (h3 _ _)
        · exact absurd rfl (h4 _ _)
        · cases m.ty with
          | unreachable => rfl
          | reachable t =>
            dsimp only
            rcases accessHook k b t with _ | ⟨_ | _⟩ <;>
              simp [placeOriginal_ok hm, constI64_ok hm, toTrapCall_ok hm hi, hookCall_cons, cI64, u32ToI64,
                placeUntouched_eq]
      rw [expandI_basic _ _ _ _ hm]
      cases b
      case memorySize i =>
        rw [Memory.transformI.eq_def]
        cases k <;> simp [hm, hooked_single_some, hookBefore, hookAfter, MemoryKind.trap, orReplaced, constI64_ok hm,
          hookReplace, toTrapCall_ok hm hi, placeOriginal_ok hm, placeUntouched_eq, hookCall_cons, cI64, u32ToI64, accessHook] <;>
          (split <;> rfl)
      case memoryGrow i =>
        rw [Memory.transformI.eq_def]
        cases k <;> simp [hm, hooked_single_some, hookBefore, hookAfter, MemoryKind.trap, orReplaced, constI64_ok hm,
          hookReplace, toTrapCall_ok hm hi, placeOriginal_ok hm, placeUntouched_eq, hookCall_cons, cI64, u32ToI64, accessHook,
          Sel.single] <;>
          (split <;> rfl)
      case store op ma =>
        have e : Memory.transformI k trap (.basic m (.store op ma)) =
            if storeTable.contains (k, op) then
              .ok (hookCall m [.const (.i64 (ma.offset.setWidth 64)), .const (.i32 op.serialize)] trap)
            else .ok [.basic m (.store op ma)] := by
          rw [Memory.transformI.eq_def]
          simp [hm, constI32_ok hm, constI64_ok hm, toTrapCall_ok hm hi, hookCall_cons, placeUntouched_eq]
        rw [e, storeTable_eq]
        simp only [hookBefore, hookAfter, hooked_none, orReplaced_single, hookReplace]
        cases ht : storeTrap op.ty with
        | none => simp
        | some t => by_cases h : t = k.trap <;> simp [h]
      case load op ma =>
        have e : Memory.transformI k trap (.basic m (.load op ma)) =
            if loadTable.contains (k, op) then
              .ok (hookCall m [.const (.i64 (ma.offset.setWidth 64)), .const (.i32 op.serialize)] trap)
            else .ok [.basic m (.load op ma)] := by
          rw [Memory.transformI.eq_def]
          simp [hm, constI32_ok hm, constI64_ok hm, toTrapCall_ok hm hi, hookCall_cons, placeUntouched_eq]
        rw [e, loadTable_eq]
        simp only [hookBefore, hookAfter, hooked_none, orReplaced_single, hookReplace]
        cases ht : loadTrap op.ty with
        | none => simp
        | some t => by_cases h : t = k.trap <;> simp [h]
      case loc op i =>
        rw [other (by simp) (by simp) (by simp) (by simp)]
        simp only [accessHook_eq]
        cases hty : m.ty with
        | unreachable => cases op <;> simp [hookBefore, hookAfter, hty, InferredTy.reads, InferredTy.writes, InferredTy.tees,
            orReplaced, hookReplace]
        | reachable t =>
          cases op
          · simp only [hookBefore, hookAfter, hty, orReplaced, hookReplace, hooked_none]
            cases hx : (InferredTy.reads (.reachable t)).bind (localTrap .get) with
            | none => simp
            | some x => by_cases h : x = k.trap <;> simp [h, hooked_single_some]
          · simp only [hookBefore, hookAfter, hty, orReplaced, hookReplace, hooked_none]
            cases hx : (InferredTy.writes (.reachable t)).bind (localTrap .set) with
            | none => simp
            | some x => by_cases h : x = k.trap <;> simp [h, hooked_single_some]
          · simp only [hookBefore, hookAfter, hty, orReplaced, hookReplace, hooked_none]
            cases hx : (InferredTy.tees (.reachable t)).bind (localTrap .tee) with
            | none => simp
            | some x => by_cases h : x = k.trap <;> simp [h, hooked_single_some]
      case glob op i =>
        rw [other (by simp) (by simp) (by simp) (by simp)]
        simp only [accessHook_eq]
        cases hty : m.ty with
        | unreachable => cases op <;> simp [hookBefore, hookAfter, hty, InferredTy.reads, InferredTy.writes, InferredTy.tees,
            orReplaced, hookReplace]
        | reachable t =>
          cases op
          · simp only [hookBefore, hookAfter, hty, orReplaced, hookReplace, hooked_none]
            cases hx : (InferredTy.reads (.reachable t)).bind (globalTrap .get) with
            | none => simp
            | some x => by_cases h : x = k.trap <;> simp [h, hooked_single_some]
          · simp only [hookBefore, hookAfter, hty, orReplaced, hookReplace, hooked_none]
            cases hx : (InferredTy.writes (.reachable t)).bind (globalTrap .set) with
            | none => simp
            | some x => by_cases h : x = k.trap <;> simp [h, hooked_single_some]
      all_goals
        rw [other (by simp) (by simp) (by simp) (by simp), ← expandI_basic _ _ _ _ hm]
        simp only [accessHook_eq]
        first
        | rw [expandI_basic _ _ _ _ hm]
          simp only [hookBefore, hookAfter, orReplaced, hookReplace, hooked_none]
          split <;> rfl
        | rw [expandI_other _ _ _ _ _ (by rw [k.trap_grp]; simp [Basic.grp])]
          split <;> rfl
    · rw [expandI_basic_flag _ _ _ _ hm, Memory.transformI.eq_def]
      simp [hm, placeUntouched_eq]
  · intro m t body ih hf n
    rw [TI.Fits.eq_def] at hf
    rw [Memory.transformI.eq_def, expandI.eq_def]
    dsimp only at hf ⊢
    cases hm : m.flag
    · cases k <;> simp [hm, ih hf.2 n, placeUntouched_eq, hooked_single_some, MemoryKind.trap]
    · simp [ih hf.2 n, placeUntouched_eq]
  · intro m t body ih hf n
    rw [TI.Fits.eq_def] at hf
    rw [Memory.transformI.eq_def, expandI.eq_def]
    dsimp only at hf ⊢
    cases hm : m.flag
    · cases k <;> simp [hm, ih hf.2 n, placeUntouched_eq, hooked_single_some, MemoryKind.trap]
    · simp [ih hf.2 n, placeUntouched_eq]
  · intro m t thn ih hf n
    rw [TI.Fits.eq_def] at hf
    rw [Memory.transformI.eq_def, expandI.eq_def]
    dsimp only at hf ⊢
    cases hm : m.flag
    · cases k <;> simp [hm, ih hf.2 n, placeUntouched_eq, hooked_single_some, MemoryKind.trap, Sel.single]
    · simp [ih hf.2 n, placeUntouched_eq]
  · intro m t thn els ih1 ih2 hf n
    rw [TI.Fits.eq_def] at hf
    rw [Memory.transformI.eq_def, expandI.eq_def]
    dsimp only at hf ⊢
    cases hm : m.flag
    · cases k <;> simp [hm, ih1 hf.2.1 n, ih2 hf.2.2 (n + (TI.tablesL thn).length), placeUntouched_eq, hooked_single_some,
        MemoryKind.trap]
    · simp [ih1 hf.2.1 n, ih2 hf.2.2 (n + (TI.tablesL thn).length), placeUntouched_eq]
  · intro _ n; simp [Memory.transform, expandL]
  · intro i l hi hl hf n
    rw [TI.FitsL.eq_def] at hf
    rw [Memory.transform.eq_def, expandL.eq_def]
    simp [hi hf.1 n, hl hf.2 (n + i.tables.length)]

end Wastrum
