import Verif.ExMem
/-!
# Another program that accesses memory, for examples (C70)
-/

set_option linter.unusedSimpArgs false
set_option linter.unusedVariables false

namespace Wastrum

variable {A : Type}

/-- `main(p)` writes 7 to `p` with the store `st` and returns what the load `op` finds at `p`. -/
def exHeap (st : StoreOp) (op : LoadOp) : Module where
  functions := [⟨⟨[.i32], [.i32]⟩, .present ⟨[], [.loc .get 0, .const (.i32 7), .store st ⟨0, 0⟩, .loc .get 0, .load op ⟨0, 0⟩, .fin]⟩, ["main"]⟩]
  tables := []
  elements := []
  memories := [⟨1, none, none, []⟩]
  globals := []
  datas := []
  start := none

variable {st : StoreOp} {op : LoadOp}

theorem exHeap_small : SmallModule (exHeap st op) where
  functions := by simp [exHeap]
  arity := by simp [exHeap]
  length := by
    simp only [exHeap, List.mem_cons, List.not_mem_nil, or_false, forall_eq]
    simp
  body := by
    simp only [exHeap, List.mem_cons, List.not_mem_nil, or_false, forall_eq]
    simp [LInstr.Small]

theorem exHeap_valid (hst : st.ty = .i32) (hop : op.ty = .i32) : ValidModule (exHeap st op) where
  functions := by
    intro f hf c hc
    simp only [exHeap, List.mem_cons, List.not_mem_nil, or_false] at hf
    subst hf
    simp only [FuncCode.present.injEq] at hc; subst hc
    refine .straight (bs := [.loc .get 0, .const (.i32 7), .store st ⟨0, 0⟩, .loc .get 0, .load op ⟨0, 0⟩]) rfl ?_
    exact .cons (.basic ⟨.i32, rfl, [], rfl, rfl⟩) (.cons (.basic ⟨_, rfl, rfl⟩) (.cons (.basic ⟨Nat.zero_lt_one, [], by rw [hst]; rfl, rfl⟩)
        (.cons (.basic ⟨.i32, rfl, _, rfl, rfl⟩) (.ofBasic ⟨Nat.zero_lt_one, [], rfl, by rw [hop]; rfl⟩))))
  elements := by simp [exHeap]
  start := by simp [exHeap]
  exports := List.nodup_cons.2 ⟨by simp [exHeap], List.nodup_nil⟩

theorem exHeap_targets : bodyTargets (exHeap st op) none = [0] := rfl

theorem exHeap_annotated (hst : st.ty = .i32) (hop : op.ty = .i32) : ∀ i ∈ bodyTargets (exHeap st op) none, ∀ f, (exHeap st op).functions[i]? = some f →
    WellAnnotated (exHeap st op) f (bodyOf exTypedChecker (exHeap st op) i) := by
  rw [exHeap_targets]
  intro i hi f hf c hc
  simp only [List.mem_cons, List.not_mem_nil, or_false] at hi
  subst hi
  cases hf; cases hc
  have e : bodyOf exTypedChecker (exHeap st op) 0 =
        [.basic ⟨0, 0, .reachable ⟨[], [.i32]⟩, false⟩ (.loc .get 0), .basic ⟨0, 1, .unreachable, false⟩ (.const (.i32 7)),
          .basic ⟨0, 2, .unreachable, false⟩ (.store st ⟨0, 0⟩), .basic ⟨0, 3, .reachable ⟨[], [.i32]⟩, false⟩ (.loc .get 0),
          .basic ⟨0, 4, .unreachable, false⟩ (.load op ⟨0, 0⟩)] := rfl
  rw [e]
  have ok : ∀ t, (InferredTy.reachable ⟨[], [.i32]⟩).reads = some t → [ValType.i32][0]? = some t := by
    rintro t ht; cases ht; rfl
  exact .cons (.basic ⟨.i32, rfl, [], rfl, rfl⟩ ok) (.cons (.basic ⟨_, rfl, rfl⟩ trivial) (.cons (.basic ⟨Nat.zero_lt_one, [], by rw [hst]; rfl, rfl⟩ trivial)
      (.cons (.basic ⟨.i32, rfl, _, rfl, rfl⟩ ok) (.cons (.basic ⟨Nat.zero_lt_one, [], rfl, by rw [hop]; rfl⟩ trivial) .nil))))

theorem exHeap_raises : ∀ i ∈ bodyTargets (exHeap st op) none, ∃ b, raiseTarget exTypedChecker (exHeap st op) i = .ok b := by
  rw [exHeap_targets]
  intro i hi
  simp only [List.mem_cons, List.not_mem_nil, or_false] at hi
  subst hi
  exact ⟨_, rfl⟩

theorem exHeap_instruments : ∃ r, Instruments exTypedChecker exMemIface none (exHeap st op) r := instruments_of_ok (by simp [exHeap]) exHeap_small exHeap_raises

theorem exHeap_noImports {f ns name} (hf : f ∈ (exHeap st op).functions) (hc : f.code = .imported ns name) : False := by
  simp only [exHeap, List.mem_cons, List.not_mem_nil, or_false] at hf
  subst hf
  cases hc

theorem exHeap_offsets : ∀ i ∈ bodyTargets (exHeap st op) none, ∀ f c, (exHeap st op).functions[i]? = some f → f.code = .present c →
    OnlyCode (OffsetsAre exMemIface fun o => o = 0) c.body := by
  rw [exHeap_targets]
  intro i hi f c hf hc
  simp only [List.mem_cons, List.not_mem_nil, or_false] at hi
  subst hi
  cases hf; cases hc
  intro b hb t k info hd ht
  simp only [List.mem_cons, List.not_mem_nil, or_false] at hb
  cases b <;> first | trivial | skip
  all_goals simp [Basic.toL] at hb; obtain ⟨rfl, rfl⟩ := hb; rfl

theorem exHeapStore_ok : StoreOK (exHeap st op).ctx exMemStore where
  globals := .nil
  mems := rfl
  tables := rfl
  tableElems := by intro e he; cases he
  datas := rfl
  elems := rfl
  elemElems := by intro e he; cases he
  pages := by
    intro x hx
    simp only [exMemStore, List.mem_cons, List.not_mem_nil, or_false] at hx
    subst hx
    exact ⟨by decide, by decide⟩

end Wastrum
