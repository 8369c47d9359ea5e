import Verif.NativeThms
import Verif.StackThms
/-!
# WebAssembly's arithmetic meets what the theorems about the stack library assume (`StackNum`)
-/

namespace Wastrum

open NumSpec

theorem standard_wrap (x : BitVec 64) : NumSpec.wrap 32 x = x.setWidth 32 := by
  apply BitVec.eq_of_toNat_eq
  simp [NumSpec.wrap]

theorem standard_extend (x : BitVec 32) : NumSpec.extendU 64 x = x.setWidth 64 := by
  apply BitVec.eq_of_toNat_eq
  simp [NumSpec.extendU]

/-- The arithmetic of the WebAssembly specification is one the theorems about the stack library apply to, whatever its floating-point operators are. -/
theorem standardNum_stack (O : FloatOps) : StackNum (standardNum O) where
  mul x y := congrArg (fun b => some (Val.i32 b)) (mul_eq x y)
  sub x y := congrArg (fun b => some (Val.i32 b)) (sub_eq x y)
  gtU x y := by
    show some (Val.i32 (NumSpec.bool _)) = _
    by_cases h : y.toNat < x.toNat <;> simp [NumSpec.bool, h]
  eq x y := by
    show some (Val.i32 (NumSpec.bool _)) = _
    by_cases h : x = y
    · subst h; simp [NumSpec.bool]
    · have h' : ¬ x.toNat = y.toNat := fun e => h (BitVec.eq_of_toNat_eq e)
      simp [NumSpec.bool, h, h']
  wrap x := congrArg (fun b => some (Val.i32 b)) (standard_wrap x)
  extend x := congrArg (fun b => some (Val.i64 b)) (standard_extend x)
  f32bits _ := rfl
  f64bits _ := rfl
  bitsF32 _ := rfl
  bitsF64 _ := rfl

-- C26, C29 with WebAssembly's own arithmetic, whatever its floating-point operators: the arguments `7` and `9.0` (a bit pattern) put in a fresh
-- buffer for a call of type `[i32 f64] → [i64]` are read back; allocating the buffer does not trap with 16 pages.
example (O : FloatOps) : ∃ (p : BitVec 32) (s : Store Unit),
    lib (standardNum O) exSigs 65537 5 ("allocate_" ++ mangledName ⟨[.i32, .f64], [.i64]⟩) [.i32 7, .num (.f64 9)] (libStart 16) = .ok [.i32 p] s ∧
    lib (standardNum O) exSigs 65537 5 ("load_arg" ++ Nat.repr 1 ++ "_" ++ mangledName ⟨[.i32, .f64], [.i64]⟩) [.i32 p] s = .ok [.num (.f64 9)] s := by
  have hN := standardNum_stack O
  have h0 : Reachable (standardNum O) exSigs 65537 (0 + 5) 16 ([], libStart 16) := .start
  obtain ⟨⟨p, s1, e1⟩ | ⟨s1, e1⟩, _⟩ := C26_allocation_succeeds_or_traps (args := [.i32 7, .f64 9]) hN (Nat.le_refl _) exSigs_small (by decide) (by decide) h0
    (t := ⟨[.i32, .f64], [.i64]⟩) (by simp [exSigs]) rfl
  · exact ⟨p, s1, e1, C29_arguments_arrive (d := 0) hN (Nat.le_refl _) exSigs_small (by decide) (by decide) h0 (t := ⟨[.i32, .f64], [.i64]⟩) (by simp [exSigs]) (args := [.i32 7, .f64 9]) rfl e1 (i := 1) rfl⟩
  · have := (C26_traps_only_when_full hN (Nat.le_refl _) exSigs_small (by decide) (by decide) h0 (by simp [exSigs]) rfl).1 e1
    simp [FuncType.slots] at this

end Wastrum
