import Verif.WaspThms

/-!
# Which libraries a generated AssemblyScript program includes (C50)
-/

namespace Wastrum.Wasp

/-- Advice on conditions: of conditionals, branches and `select`. -/
def IsChoice (a : Advice) : Prop := ∃ b, (∃ c, a = .plain (.ifThen c) b ∨ a = .plain (.ifThenElse c) b ∨ a = .plain (.select c) b) ∨ ∃ c d, a = .plain (.brIf c d) b ∨ a = .plain (.brTable c d) b

/-- Advice on calls, direct or indirect. -/
def IsCall (a : Advice) : Prop := ∃ b, (∃ q f, a = .plain (.call q f) b) ∨ (∃ t i, a = .plain (.callIndirectPre t i) b) ∨ ∃ t, a = .plain (.callIndirectPost t) b

/-- **C50 (no library without need).** The generated program includes the library for `apply` exactly if it has generic `apply` advice, the one for conditions exactly if it has advice on conditionals, branches or
`select`, and the one for calls exactly if it has advice on calls. -/
theorem C50_libraries_exactly_if_needed (r : List Advice) :
    (.lib .genericApply ∈ program r ↔ ∃ a ∈ r, IsGeneric a) ∧ (.lib .ifs ∈ program r ↔ ∃ a ∈ r, IsChoice a) ∧ (.lib .call ∈ program r ↔ ∃ a ∈ r, IsCall a) := by
  have piece : ∀ l, ASPiece.lib l ∉ r.map Advice.piece := by
    intro l h
    obtain ⟨a, _, e⟩ := List.mem_map.1 h
    rcases a with c | ⟨s, b⟩ | ⟨t, b⟩
    · cases e
    · cases s <;> cases e
    · cases e
  refine ⟨?_, ?_, ?_⟩
  · have : .lib .genericApply ∈ program r ↔ instrumentsGenericApply r = true := by
      unfold program
      simp only [List.mem_append, piece, or_false]
      cases instrumentsGenericApply r <;> cases instrumentsIf r <;> cases instrumentsCall r <;> simp
    rw [this, instrumentsGenericApply, List.any_eq_true]
    refine exists_congr fun a => and_congr_right fun _ => ?_
    rcases a with c | ⟨s, b⟩ | ⟨t, b⟩
    · simp [IsGeneric]
    · cases s <;> simp [IsGeneric]
    · simp [IsGeneric]
  · have : .lib .ifs ∈ program r ↔ instrumentsIf r = true := by
      unfold program
      simp only [List.mem_append, piece, or_false]
      cases instrumentsGenericApply r <;> cases instrumentsIf r <;> cases instrumentsCall r <;> simp
    rw [this, instrumentsIf, List.any_eq_true]
    refine exists_congr fun a => and_congr_right fun _ => ?_
    rcases a with c | ⟨s, b⟩ | ⟨t, b⟩
    · simp [IsChoice]
    · simp [IsChoice]
    · cases t <;> simp [IsChoice]
  · have : .lib .call ∈ program r ↔ instrumentsCall r = true := by
      unfold program
      simp only [List.mem_append, piece, or_false]
      cases instrumentsGenericApply r <;> cases instrumentsIf r <;> cases instrumentsCall r <;> simp
    rw [this, instrumentsCall, List.any_eq_true]
    refine exists_congr fun a => and_congr_right fun _ => ?_
    rcases a with c | ⟨s, b⟩ | ⟨t, b⟩
    · simp [IsCall]
    · simp [IsCall]
    · cases t <;> simp [IsCall]

-- C50 (no library without need): a program with `br_if` advice and a typed `apply` advice includes the library for conditions, and neither of the others.
example : let r : List Advice := [.plain (.brIf "c" "l") "..", .apply (.spe false "f" [⟨"a", .i32⟩] [⟨"b", .f64⟩]) ".."]
    .lib .ifs ∈ program r ∧ .lib .genericApply ∉ program r ∧ .lib .call ∉ program r := by
  refine ⟨(C50_libraries_exactly_if_needed _).2.1.2 ⟨_, .head _, _, .inr ⟨_, _, .inl rfl⟩⟩, fun h => ?_, fun h => ?_⟩
  · obtain ⟨a, ha, _, _, _, _, _, e⟩ := (C50_libraries_exactly_if_needed _).1.1 h
    simp [e] at ha
  · obtain ⟨a, ha, b, h⟩ := (C50_libraries_exactly_if_needed _).2.2.1 h
    simp only [List.mem_cons, List.not_mem_nil, or_false] at ha
    rcases ha with rfl | rfl <;> simp at h

end Wastrum.Wasp
