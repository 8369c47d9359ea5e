import Verif.PassCompose
import Verif.NestingSpec
/-!
# Passes: vocabulary for stating properties, and supporting lemmas
-/

set_option linter.unusedSimpArgs false
set_option linter.unusedVariables false

namespace Wastrum

/-- `targets` of `instrument/mod.rs` 244-252 for hooks installed at the given indices. -/
def toolPasses (σ : Sel) : List (TargetKind × Nat) :=
  trapTable.filterMap (fun p => (σ p.1).map (fun k => (p.2, k)))

/-- Nothing in the body is inserted code. -/
def Pristine (l : List TI) : Prop := ∀ x ∈ TI.locsL l, x.2.2.1 = false

/-- Everything in the body is inserted code. -/
def AllInserted (l : List TI) : Prop := ∀ x ∈ TI.locsL l, x.2.2.1 = true

mutual
/-- Delete inserted code from an instruction; an `if/else` marked as inserted is an `if` that got an
`else` branch. -/
def TI.strip : TI → List HI
  | .basic m b => if m.flag then [] else [.basic b]
  | .block _ t body => [.block t (TI.stripL body)]
  | .loop _ t body => [.loop t (TI.stripL body)]
  | .ifThen _ t thn => [.ifThen t (TI.stripL thn)]
  | .ifElse m t thn els =>
    if m.flag then [.ifThen t (TI.stripL thn)] else [.ifElse t (TI.stripL thn) (TI.stripL els)]
/-- Delete inserted code from a body. -/
def TI.stripL : List TI → List HI
  | [] => []
  | i :: is => i.strip ++ TI.stripL is
end

/-- The hook to which an instruction is delegated, if its kind is delegated at all: unary, binary, load,
store and memory.grow. -/
def Basic.delegate : Basic → Option Trap
  | .unary op => unaryTrap op.sig
  | .binary op => binaryTrap op.sig
  | .load op _ => loadTrap op.ty
  | .store op _ => storeTrap op.ty
  | .memoryGrow _ => some .memoryGrow
  | _ => none

/-- The instruction is performed by the analysis instead of the program. -/
def delegated (σ : Sel) (b : Basic) : Bool :=
  match b.delegate with
  | none => false
  | some t => (σ t).isSome

mutual
/-- The program without the delegated instructions. -/
def TI.undelegated (σ : Sel) : TI → List HI
  | .basic _ b => if delegated σ b then [] else [.basic b]
  | .block _ t body => [.block t (TI.undelegatedL σ body)]
  | .loop _ t body => [.loop t (TI.undelegatedL σ body)]
  | .ifThen _ t thn => [.ifThen t (TI.undelegatedL σ thn)]
  | .ifElse _ t thn els => [.ifElse t (TI.undelegatedL σ thn) (TI.undelegatedL σ els)]
/-- The program without the delegated instructions. -/
def TI.undelegatedL (σ : Sel) : List TI → List HI
  | [] => []
  | i :: is => i.undelegated σ ++ TI.undelegatedL σ is
end

/-- The hooks that belong to an instruction, given by the flat instruction at its head and (for accesses to
locals and globals) its inferred type. -/
def headHooks (ty : InferredTy) (i : LInstr) : List Trap :=
  match i with
  | .br _ => [.brTrap]
  | .brIf _ => [.brIfTrap]
  | .brTable _ _ => [.brTableTrap]
  | .call _ => [.preTrapCall, .postTrapCall]
  | .callIndirect _ _ => [.preTrapCallIndirect, .postTrapCallIndirect]
  | .ret => [.returnTrap]
  | .drop => [.dropTrap]
  | .select | .typedSelect _ => [.select]
  | .const v => (constTrap v.type).toList
  | .unary op => (unaryTrap op.sig).toList
  | .binary op => (binaryTrap op.sig).toList
  | .load op _ => (loadTrap op.ty).toList
  | .store op _ => (storeTrap op.ty).toList
  | .memorySize _ => [.memorySize]
  | .memoryGrow _ => [.memoryGrow]
  | .loc .get _ => (ty.reads.bind (localTrap .get)).toList
  | .loc .set _ => (ty.writes.bind (localTrap .set)).toList
  | .loc .tee _ => (ty.tees.bind (localTrap .tee)).toList
  | .glob .get _ => (ty.reads.bind (globalTrap .get)).toList
  | .glob .set _ => (ty.writes.bind (globalTrap .set)).toList
  | _ => []

mutual
/-- The triggering sites of a nested instruction: function index, position, and the hooks it may trigger. -/
def TI.sites : TI → List (Nat × Nat × List Trap)
  | .basic m b => [(m.fidx, m.iidx, headHooks m.ty b.toL)]
  | .block m t body => (m.fidx, m.iidx, [.preBlock, .postBlock]) :: TI.sitesL body
  | .loop m t body => (m.fidx, m.iidx, [.preLoop, .postLoop]) :: TI.sitesL body
  | .ifThen m t thn => (m.fidx, m.iidx, [.ifThenTrap, .ifThenPostTrap]) :: TI.sitesL thn
  | .ifElse m t thn els => (m.fidx, m.iidx, [.ifThenElseTrap, .ifThenElsePostTrap]) :: (TI.sitesL thn ++ TI.sitesL els)
/-- The triggering sites of a body. -/
def TI.sitesL : List TI → List (Nat × Nat × List Trap)
  | [] => []
  | i :: is => i.sites ++ TI.sitesL is
end

/-! ## Lemmas about the tool's table -/

theorem trapTable_trap (p : Trap × TargetKind) (hp : p ∈ trapTable) : p.2.trap = p.1 := by
  have h : ∀ p ∈ trapTable, p.2.trap = p.1 := by decide +kernel
  exact h p hp

theorem trapTable_complete (t : Trap) : ∃ k, (t, k) ∈ trapTable := by
  have h : t ∈ trapTable.map (·.1) := by cases t <;> decide +kernel
  simpa using h

theorem trapTable_nodup : (trapTable.map (·.1)).Nodup := by decide +kernel

instance OrderOK.dec : (l : List Trap) → Decidable (OrderOK l)
  | [] => inferInstanceAs (Decidable True)
  | h :: r =>
    have := OrderOK.dec r
    inferInstanceAs (Decidable ((h = .ifThenPostTrap → Trap.ifThenTrap ∉ r) ∧ OrderOK r))

theorem trapTable_order : OrderOK (trapTable.map (·.1)) := by decide +kernel

theorem OrderOK.sublist {a b : List Trap} (h : a.Sublist b) : OrderOK b → OrderOK a := by
  induction h with
  | slnil => exact id
  | cons x _ ih => exact fun hb => ih hb.2
  | cons_cons x hs ih => exact fun hb => ⟨fun e hm => hb.1 e (hs.subset hm), ih hb.2⟩

theorem toolPasses_traps_sublist (σ : Sel) :
    ((toolPasses σ).map (·.1.trap)).Sublist (trapTable.map (·.1)) := by
  unfold toolPasses
  have h := trapTable_trap
  revert h
  generalize trapTable = l
  induction l with
  | nil => intro _; simp
  | cons p l ih =>
    intro h
    have h1 := h p (by simp)
    have h2 := ih (fun q hq => h q (by simp [hq]))
    rw [List.filterMap_cons]
    cases hs : σ p.1 with
    | none => simpa using h2.cons _
    | some k => simpa [h1] using h2.cons_cons p.1

theorem mem_toolPasses {σ : Sel} {x : TargetKind × Nat} (h : x ∈ toolPasses σ) : σ x.1.trap = some x.2 := by
  simp only [toolPasses, List.mem_filterMap, Option.map_eq_some_iff] at h
  obtain ⟨p, hp, k, hk, rfl⟩ := h
  simpa [trapTable_trap p hp] using hk

theorem setAll_not_mem {σ : Sel} {l : List (Trap × Nat)} {t : Trap} (h : t ∉ l.map (·.1)) : σ.setAll l t = σ t := by
  induction l generalizing σ with
  | nil => rfl
  | cons p l ih =>
    obtain ⟨x, k⟩ := p
    simp only [List.map_cons, List.mem_cons, not_or] at h
    rw [Sel.setAll, ih h.2]
    simp [Sel.set, h.1]

theorem setAll_mem {σ : Sel} {l : List (Trap × Nat)} {t : Trap} {k : Nat} (hn : (l.map (·.1)).Nodup) (h : (t, k) ∈ l) :
    σ.setAll l t = some k := by
  induction l generalizing σ with
  | nil => simp at h
  | cons p l ih =>
    obtain ⟨x, j⟩ := p
    simp only [List.map_cons, List.nodup_cons] at hn
    rcases List.mem_cons.1 h with e | hm
    · cases e
      rw [Sel.setAll, setAll_not_mem hn.1]
      simp [Sel.set]
    · rw [Sel.setAll]; exact ih hn.2 hm

theorem toolPasses_nodup (σ : Sel) : ((toolPasses σ).map (·.1.trap)).Nodup :=
  (toolPasses_traps_sublist σ).nodup trapTable_nodup

theorem setAll_toolPasses (σ : Sel) :
    Sel.setAll .empty ((toolPasses σ).map (fun p => (p.1.trap, p.2))) = σ := by
  funext t
  cases hs : σ t with
  | none =>
    rw [setAll_not_mem]; · rfl
    simp only [List.map_map, List.mem_map, Function.comp_apply, not_exists, not_and]
    intro x hx e
    have := mem_toolPasses hx
    rw [e, hs] at this; simp at this
  | some k =>
    obtain ⟨kind, hk⟩ := trapTable_complete t
    have hm : (kind, k) ∈ toolPasses σ := by
      simp only [toolPasses, List.mem_filterMap, Option.map_eq_some_iff]
      exact ⟨_, hk, k, hs, rfl⟩
    have ht : kind.trap = t := trapTable_trap _ hk
    apply setAll_mem
    · simpa [List.map_map, Function.comp_def] using toolPasses_nodup σ
    · exact List.mem_map.2 ⟨_, hm, by simp [ht]⟩

theorem runPasses_tool (σ : Sel) (body : List TI) (fs : List Func) (h : TI.FitsL body) :
    runPasses (toolPasses σ) body fs = .ok (expandL σ fs.length body, fs ++ helpersFor σ body) := by
  have := runPasses_ok (toolPasses σ) body h fs .empty (toolPasses_nodup σ) (fun _ _ => rfl)
    (OrderOK.sublist (toolPasses_traps_sublist σ) trapTable_order) (fun hc => absurd rfl hc)
  rw [setAll_toolPasses, expand_empty.2] at this
  simpa [helpersFor, Sel.empty] using this

/-! ## Inserted code is inert -/

theorem allInserted_append {a b : List TI} (h : AllInserted (a ++ b)) : AllInserted a ∧ AllInserted b := by
  induction a with
  | nil => exact ⟨by simp [AllInserted, TI.locsL], h⟩
  | cons i a ih =>
    have h1 : AllInserted (a ++ b) := fun x hx => h x (by simp [TI.locsL, hx])
    refine ⟨?_, (ih h1).2⟩
    intro x hx
    simp only [TI.locsL, List.mem_append] at hx
    rcases hx with hx | hx
    · exact h x (by simp [TI.locsL, hx])
    · exact (ih h1).1 x hx

theorem allInserted_inert (σ : Sel) :
    (∀ i : TI, (∀ x ∈ i.locs, x.2.2.1 = true) → i.Fits ∧ i.tables = [] ∧ ∀ n, expandI σ n i = [i]) ∧
    (∀ l : List TI, AllInserted l → TI.FitsL l ∧ TI.tablesL l = [] ∧ ∀ n, expandL σ n l = l) := by
  apply TI.induct
  · intro m b h
    have hm : m.flag = true := by simpa [TI.locs] using h
    refine ⟨by simp [TI.Fits, hm], ?_, fun n => expandI_basic_flag _ _ _ _ hm⟩
    cases b <;> simp [TI.tables, hm]
  · intro m t body ih h
    simp only [TI.locs, List.mem_cons, forall_eq_or_imp] at h
    obtain ⟨h1, h2, h3⟩ := ih h.2
    refine ⟨by simp [TI.Fits, h.1, h1], by simp [TI.tables, h2], fun n => ?_⟩
    rw [expandI.eq_def]; simp [h.1, h3]
  · intro m t body ih h
    simp only [TI.locs, List.mem_cons, forall_eq_or_imp] at h
    obtain ⟨h1, h2, h3⟩ := ih h.2
    refine ⟨by simp [TI.Fits, h.1, h1], by simp [TI.tables, h2], fun n => ?_⟩
    rw [expandI.eq_def]; simp [h.1, h3]
  · intro m t body ih h
    simp only [TI.locs, List.mem_cons, forall_eq_or_imp] at h
    obtain ⟨h1, h2, h3⟩ := ih h.2
    refine ⟨by simp [TI.Fits, h.1, h1], by simp [TI.tables, h2], fun n => ?_⟩
    rw [expandI.eq_def]; simp [h.1, h3]
  · intro m t thn els ih1 ih2 h
    simp only [TI.locs, List.mem_cons, forall_eq_or_imp, List.mem_append] at h
    obtain ⟨h1, h2, h3⟩ := ih1 (fun x hx => h.2 x (.inl hx))
    obtain ⟨g1, g2, g3⟩ := ih2 (fun x hx => h.2 x (.inr hx))
    refine ⟨by simp [TI.Fits, h.1, h1, g1], by simp [TI.tables, h2, g2], fun n => ?_⟩
    rw [expandI.eq_def]; simp [h.1, h3, g3]
  · intro _; simp [TI.FitsL, TI.tablesL, expandL]
  · intro i l hi hl h
    have a1 : ∀ x ∈ i.locs, x.2.2.1 = true := fun x hx => h x (by simp [TI.locsL, hx])
    have a2 : AllInserted l := fun x hx => h x (by simp [TI.locsL, hx])
    obtain ⟨h1, h2, h3⟩ := hi a1
    obtain ⟨g1, g2, g3⟩ := hl a2
    exact ⟨by simp [TI.FitsL, h1, g1], by simp [TI.tablesL, h2, g2], fun n => by simp [expandL, h3, g3]⟩

/-! ## The assertions are never tripped -/

/-- The computation does not fail with the assertion panic. -/
structure NoAssert {α} (x : Except Panic α) : Prop where
  ne : x ≠ .error .assertion

theorem NoAssert.ok {α} (a : α) : NoAssert (.ok a : Except Panic α) := ⟨by simp⟩
theorem NoAssert.pure {α} (a : α) : NoAssert (Pure.pure a : Except Panic α) := ⟨by simp⟩
theorem NoAssert.bind {α β} {x : Except Panic α} {f : α → Except Panic β} (hx : NoAssert x) (hf : ∀ a, NoAssert (f a)) :
    NoAssert (x >>= f) := by
  cases x with
  | ok a => exact hf a
  | error e =>
    cases e with
    | assertion => exact absurd rfl hx.ne
    | conversion => exact ⟨by simp [Bind.bind, Except.bind]⟩
theorem NoAssert.toI32 (n) : NoAssert (toI32 n) := by unfold Wastrum.toI32; split <;> exact ⟨by simp⟩
theorem NoAssert.toI64 (n) : NoAssert (toI64 n) := by unfold Wastrum.toI64; split <;> exact ⟨by simp⟩
theorem NoAssert.instrumentWith {m : Meta} (hm : m.flag = false) (k) : NoAssert (instrumentWith m k) := by
  rw [instrumentWith_ok hm]; exact .ok _
theorem NoAssert.placeOriginal {m : Meta} (hm : m.flag = false) (k) : NoAssert (placeOriginal m k) := by
  rw [placeOriginal_ok hm]; exact .ok _
theorem NoAssert.constI32 {m : Meta} (hm : m.flag = false) (v) : NoAssert (constI32 m v) := by
  rw [constI32_ok hm]; exact .ok _
theorem NoAssert.constI64 {m : Meta} (hm : m.flag = false) (v) : NoAssert (constI64 m v) := by
  rw [constI64_ok hm]; exact .ok _
theorem NoAssert.toTrapCall {m : Meta} (hm : m.flag = false) (k) : NoAssert (toTrapCall m k) := by
  unfold Wastrum.toTrapCall
  exact .bind (.instrumentWith hm _) fun _ => .bind (.toI64 _) fun _ => .bind (.instrumentWith hm _) fun _ =>
    .bind (.instrumentWith hm _) fun _ => .pure _
theorem NoAssert.blockPrologue {m : Meta} (hm : m.flag = false) (t k) : NoAssert (blockPrologue m t k) := by
  unfold Wastrum.blockPrologue
  exact .bind (.toI32 _) fun _ => .bind (.constI32 hm _) fun _ => .bind (.toI32 _) fun _ => .bind (.constI32 hm _) fun _ =>
    .bind (.toTrapCall hm _) fun _ => .pure _
theorem NoAssert.ifPrologue {m : Meta} (hm : m.flag = false) (t k) : NoAssert (ifPrologue m t k) := by
  unfold Wastrum.ifPrologue
  exact .bind (.toI32 _) fun _ => .bind (.constI32 hm _) fun _ => .bind (.toI32 _) fun _ => .bind (.constI32 hm _) fun _ =>
    .bind (.toTrapCall hm _) fun _ => .pure _
theorem NoAssert.brTableEntry (l) : NoAssert (brTableEntry l) := .bind (.toI32 _) fun _ => .pure _
theorem NoAssert.brTableEntries : ∀ ls, NoAssert (brTableEntries ls)
  | [] => .pure _
  | l :: ls => .bind (.brTableEntry l) fun _ => .bind (NoAssert.brTableEntries ls) fun _ => .pure _
theorem NoAssert.brTableReify (l d) : NoAssert (brTableReify l d) := by
  refine .bind ?_ fun _ => .pure _
  unfold Wastrum.brTableBody
  split
  · exact .bind (.toI32 _) fun _ => .pure _
  · exact .bind (.toI32 _) fun _ => .bind (.toI32 _) fun _ => .pure _
  · exact .bind (.brTableEntries _) fun _ => .bind (.toI32 _) fun _ => .pure _

/-- Closes goals that are sequences of steps that cannot trip the assertions. -/
macro "no_assert" hm:term : tactic => `(tactic| repeat' with_reducible first
  | exact NoAssert.pure _
  | exact NoAssert.toI32 _
  | exact NoAssert.brTableReify _ _
  | exact NoAssert.instrumentWith $hm _
  | exact NoAssert.placeOriginal $hm _
  | exact NoAssert.constI32 $hm _
  | exact NoAssert.constI64 $hm _
  | exact NoAssert.toTrapCall $hm _
  | exact NoAssert.blockPrologue $hm _ _
  | exact NoAssert.ifPrologue $hm _ _
  | assumption
  | refine NoAssert.bind ?_ (fun _ => ?_))

theorem BlockLoop.noAssert (k : BlockLoopKind) (trap : Nat) :
    (∀ i : TI, NoAssert (BlockLoop.transformI k trap i)) ∧ (∀ l : List TI, NoAssert (BlockLoop.transform k trap l)) := by
  apply TI.induct
  · intro m b
    rw [BlockLoop.transformI.eq_def]; dsimp only
    cases hm : m.flag
    · simp only [Bool.false_eq_true, if_false]
      split <;> no_assert hm
    · exact .pure _
  · intro m t body ih
    rw [BlockLoop.transformI.eq_def]; dsimp only
    cases hm : m.flag
    · simp only [Bool.false_eq_true, if_false]
      have ih0 := ih
      cases k <;> no_assert hm
    · exact .bind (ih) fun _ => .pure _
  · intro m t body ih
    rw [BlockLoop.transformI.eq_def]; dsimp only
    cases hm : m.flag
    · simp only [Bool.false_eq_true, if_false]
      have ih0 := ih
      cases k <;> no_assert hm
    · exact .bind (ih) fun _ => .pure _
  · intro m t body ih
    rw [BlockLoop.transformI.eq_def]; dsimp only
    exact .bind (ih) fun _ => .pure _
  · intro m t thn els ih1 ih2
    rw [BlockLoop.transformI.eq_def]; dsimp only
    exact .bind ih1 fun _ => .bind ih2 fun _ => .pure _
  · exact .pure _
  · intro i l hi hl
    rw [BlockLoop.transform.eq_def]; dsimp only
    exact .bind (hi) fun _ => .bind (hl) fun _ => .pure _

theorem Calls.noAssert (k : CallKind) (trap : Nat) :
    (∀ i : TI, NoAssert (Calls.transformI k trap i)) ∧ (∀ l : List TI, NoAssert (Calls.transform k trap l)) := by
  apply TI.induct
  · intro m b
    rw [Calls.transformI.eq_def]; dsimp only
    cases hm : m.flag
    · simp only [Bool.false_eq_true, if_false]
      split <;> no_assert hm
    · exact .pure _
  · intro m t body ih
    rw [Calls.transformI.eq_def]; dsimp only
    exact .bind (ih) fun _ => .pure _
  · intro m t body ih
    rw [Calls.transformI.eq_def]; dsimp only
    exact .bind (ih) fun _ => .pure _
  · intro m t body ih
    rw [Calls.transformI.eq_def]; dsimp only
    exact .bind (ih) fun _ => .pure _
  · intro m t thn els ih1 ih2
    rw [Calls.transformI.eq_def]; dsimp only
    exact .bind ih1 fun _ => .bind ih2 fun _ => .pure _
  · exact .pure _
  · intro i l hi hl
    rw [Calls.transform.eq_def]; dsimp only
    exact .bind (hi) fun _ => .bind (hl) fun _ => .pure _

theorem Simple.noAssert (k : SimpleKind) (trap : Nat) :
    (∀ i : TI, NoAssert (Simple.transformI k trap i)) ∧ (∀ l : List TI, NoAssert (Simple.transform k trap l)) := by
  apply TI.induct
  · intro m b
    rw [Simple.transformI.eq_def]; dsimp only
    cases hm : m.flag
    · simp only [Bool.false_eq_true, if_false]
      split <;> (try split) <;> no_assert hm
    · exact .pure _
  · intro m t body ih
    rw [Simple.transformI.eq_def]; dsimp only
    exact .bind (ih) fun _ => .pure _
  · intro m t body ih
    rw [Simple.transformI.eq_def]; dsimp only
    exact .bind (ih) fun _ => .pure _
  · intro m t body ih
    rw [Simple.transformI.eq_def]; dsimp only
    exact .bind (ih) fun _ => .pure _
  · intro m t thn els ih1 ih2
    rw [Simple.transformI.eq_def]; dsimp only
    exact .bind ih1 fun _ => .bind ih2 fun _ => .pure _
  · exact .pure _
  · intro i l hi hl
    rw [Simple.transform.eq_def]; dsimp only
    exact .bind (hi) fun _ => .bind (hl) fun _ => .pure _

theorem Memory.noAssert (k : MemoryKind) (trap : Nat) :
    (∀ i : TI, NoAssert (Memory.transformI k trap i)) ∧ (∀ l : List TI, NoAssert (Memory.transform k trap l)) := by
  apply TI.induct
  · intro m b
    rw [Memory.transformI.eq_def]; dsimp only
    cases hm : m.flag
    · simp only [Bool.false_eq_true, if_false]
      split <;> (try split) <;> (try split) <;> no_assert hm
    · exact .pure _
  · intro m t body ih
    rw [Memory.transformI.eq_def]; dsimp only
    exact .bind (ih) fun _ => .pure _
  · intro m t body ih
    rw [Memory.transformI.eq_def]; dsimp only
    exact .bind (ih) fun _ => .pure _
  · intro m t body ih
    rw [Memory.transformI.eq_def]; dsimp only
    exact .bind (ih) fun _ => .pure _
  · intro m t thn els ih1 ih2
    rw [Memory.transformI.eq_def]; dsimp only
    exact .bind ih1 fun _ => .bind ih2 fun _ => .pure _
  · exact .pure _
  · intro i l hi hl
    rw [Memory.transform.eq_def]; dsimp only
    exact .bind (hi) fun _ => .bind (hl) fun _ => .pure _

theorem Branch.noAssert (k : BranchKind) (trap : Nat) :
    (∀ i : TI, ∀ fs, NoAssert (Branch.transformI k trap i fs)) ∧ (∀ l : List TI, ∀ fs, NoAssert (Branch.transform k trap l fs)) := by
  apply TI.induct
  · intro m b fs
    rw [Branch.transformI.eq_def]; dsimp only
    cases hm : m.flag
    · simp only [Bool.false_eq_true, if_false]
      split <;> no_assert hm
    · exact .pure _
  · intro m t body ih fs
    rw [Branch.transformI.eq_def]; dsimp only
    exact .bind (ih _) fun _ => .pure _
  · intro m t body ih fs
    rw [Branch.transformI.eq_def]; dsimp only
    exact .bind (ih _) fun _ => .pure _
  · intro m t body ih fs
    rw [Branch.transformI.eq_def]; dsimp only
    cases hm : m.flag
    · simp only [Bool.false_eq_true, if_false]
      have ih0 := ih fs
      cases k <;> no_assert hm
    · exact .bind (ih _) fun _ => .pure _
  · intro m t thn els ih1 ih2 fs
    rw [Branch.transformI.eq_def]; dsimp only
    cases hm : m.flag
    · simp only [Bool.false_eq_true, if_false]
      have ih0 := ih1 fs
      cases k <;> no_assert hm <;> exact ih2 _
    · exact .bind (ih1 _) fun _ => .bind (ih2 _) fun _ => .pure _
  · intro fs; exact .pure _
  · intro i l hi hl fs
    rw [Branch.transform.eq_def]; dsimp only
    exact .bind (hi _) fun _ => .bind (hl _) fun _ => .pure _

theorem TargetKind.noAssert (k : TargetKind) (trap : Nat) (l : List TI) (fs : List Func) : NoAssert (k.transform trap l fs) := by
  cases k with
  | blockLoop k => exact .bind ((BlockLoop.noAssert k trap).2 l) fun _ => .pure _
  | branch k => exact (Branch.noAssert k trap).2 l fs
  | call k => exact .bind ((Calls.noAssert k trap).2 l) fun _ => .pure _
  | simple k => exact .bind ((Simple.noAssert k trap).2 l) fun _ => .pure _
  | memory k => exact .bind ((Memory.noAssert k trap).2 l) fun _ => .pure _

theorem runPasses_noAssert : ∀ (ts : List (TargetKind × Nat)) (l : List TI) (fs : List Func), NoAssert (runPasses ts l fs)
  | [], _, _ => .pure _
  | (k, trap) :: ts, l, fs => .bind (TargetKind.noAssert k trap l fs) fun _ => runPasses_noAssert ts _ _

/-! ## Hook calls are located -/

/-- Every call to a function satisfying `H` in the flat code is immediately preceded by two `i64` constants
related to it by `S`. -/
def CallsLocated (H : Nat → Prop) (S : Nat → BitVec 64 → BitVec 64 → Prop) (l : List LInstr) : Prop :=
  ∀ pre k post, l = pre ++ .call k :: post → H k →
    ∃ pre' f i, pre = pre' ++ [.const (.i64 f), .const (.i64 i)] ∧ S k f i

theorem CallsLocated.append {H S a b} (ha : CallsLocated H S a) (hb : CallsLocated H S b) : CallsLocated H S (a ++ b) := by
  intro pre k post e hk
  rcases List.append_eq_append_iff.1 e with ⟨c, e1, e2⟩ | ⟨c, e1, e2⟩
  · -- the call lies in `b`
    obtain ⟨p', f, i, h1, h2⟩ := hb _ _ _ e2 hk
    exact ⟨a ++ p', f, i, by rw [e1, h1]; simp, h2⟩
  · cases c with
    | nil =>
      simp at e1 e2
      obtain ⟨p', f, i, h1, h2⟩ := hb [] k post e2.symm hk
      simp at h1
    | cons x c =>
      simp only [List.cons_append, List.cons.injEq] at e2
      obtain ⟨rfl, rfl⟩ := e2
      exact ha _ _ _ e1 hk

theorem CallsLocated.nil {H S} : CallsLocated H S [] := by intro pre k post e; simp at e

theorem CallsLocated.single {H S} {x : LInstr} (hx : ∀ k, x = .call k → ¬ H k) : CallsLocated H S [x] := by
  intro pre k post e hk
  cases pre with
  | nil => simp at e; exact absurd hk (hx k e.1)
  | cons y pre => simp at e

theorem CallsLocated.cons {H S} {x : LInstr} {l} (hx : ∀ k, x = .call k → ¬ H k) (hl : CallsLocated H S l) :
    CallsLocated H S (x :: l) := by
  simpa using (CallsLocated.single hx).append hl

end Wastrum
