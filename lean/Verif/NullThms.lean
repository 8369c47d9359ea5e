/-
What the stack libraries do when memory runs out (C54).
-/
import Verif.SrcThms

set_option linter.unusedVariables false
set_option linter.unusedSimpArgs false

namespace Wastrum

/-- What an allowed history must come to in a library that fails safely: what the specification says, or a trap. -/
def FailsSafely (out : Outcome) (obs : List Val) : Prop := out = .seen obs ∨ out = .trap

/-- **C54**, WebAssembly text. Partial: the property speaks of all three libraries; the one in Rust violates it (`C54_rust_fails_unsafely`). -/
theorem C54_wat_fails_safely_partial {N : Num} (hN : StackNum N) {sigs : List FuncType} (hs : SmallSigs sigs) (hr : ∀ t ∈ sigs, t.RefFree) {L d limit : Nat} (hL : 65537 ≤ L)
    (h1 : 1 ≤ limit) (h2 : limit ≤ 65536) (ops : List BufOp) (as : List AbsBuf) (obs : List Val) (h : specRun sigs ops [] = some (as, obs)) :
    FailsSafely (execRun (watFace N sigs L (d + 5)) ops [] (libStart limit)) obs :=
  (C52_wat_history hN hs hr hL h1 h2 h).imp_right And.left

/-- **C54**, AssemblyScript. Partial in the same sense. -/
theorem C54_assemblyscript_fails_safely_partial {sigs : List FuncType} (hs : SmallSigs sigs) {pages limit : Nat} (h1 : 1 ≤ pages) (h2 : pages ≤ limit) (h3 : limit ≤ 65536)
    (ops : List BufOp) (as : List AbsBuf) (obs : List Val) (h : specRun sigs ops [] = some (as, obs)) :
    FailsSafely (execRun (asFace sigs) ops [] (asStart pages limit)) obs :=
  (C52_assemblyscript_history hs h1 h2 h3 h).imp_right And.left

section
variable {α : Type} {A : Allocator α} {junk : Mem → Nat → Nat} {sigs : List FuncType}

/-- **C54 fails for Rust.** If the allocator has no memory for the values of a call that has arguments, the library writes them through the null pointer. -/
theorem C54_rust_null_values {t : FuncType} (ht : t ∈ sigs) {args : List Val} (hargs : args.map Val.type = t.inputs) (hn : t.inputs ≠ []) (hb : t.slots < 8192) {s : RState α}
    (hA : (A.alloc (8 * t.slots) 8 s.heap s.mem).1 = 0) : rustCall A junk sigs (allocateValuesName t) args s = .ub := by
  have hl := mapTypes hargs
  have h0 : t.slots ≠ 0 := by
    have := List.length_pos_iff.2 hn
    simp only [FuncType.slots]; omega
  have h1 : rustFn A junk sigs 4 ("allocate_" ++ countName t.results.length t.inputs.length) [] (args.map Val.union) s = .ub := by
    have hP := prim_allocate_values (A := A) (junk := junk) (sigs := sigs) (d := 2) (s := s) (p := 0) h0 hb (by rw [← hA])
    simp only [FuncType.slots] at h0 hb hP
    have hf : rustAllocateGeneric t.results.length t.inputs.length = ⟨false, "allocate_" ++ countName t.results.length t.inputs.length, [],
        (List.range t.inputs.length).map (fun n => (argVar n, "WasmValue")), "usize",
        .bind "frame_ptr" (.call "stack_allocate_values" [] [.int (t.results.length + t.inputs.length)]) ::
          (List.range t.inputs.length).map (fun n => .run (.call "wastrumentation_memory_store" [] [.var "frame_ptr", .var (argVar n), .int (t.results.length + n)])),
        some (.atom (.var "frame_ptr"))⟩ := by rw [rustAllocateGeneric, if_neg h0]
    rw [show ("allocate_" ++ countName t.results.length t.inputs.length) = (rustAllocateGeneric t.results.length t.inputs.length).name from by rw [hf],
      rust_generic ht (by simp [rustGeneric]), hf]
    rw [SFn.run, if_pos ⟨rfl, by simp [hl]⟩]
    simp only [names_range, runStmts, SExpr.eval, evalAtoms, SAtom.eval, List.map_nil, hP]
    have hr : List.range t.inputs.length = 0 :: (List.range (t.inputs.length - 1)).map (· + 1) := by
      obtain ⟨k, hk⟩ : ∃ k, t.inputs.length = k + 1 := ⟨t.inputs.length - 1, by have := List.length_pos_iff.2 hn; omega⟩
      rw [hk, List.range_succ_eq_map]; simp
    have hv : args[0]? = some (args[0]'(by have := List.length_pos_iff.2 hn; omega)) := List.getElem?_eq_getElem _
    have hx : (argVar 0 == "frame_ptr") = false := argVar_ne (by decide) 0
    have hlk := lookup_args' (n := t.inputs.length) (xs := args.map Val.union) (i := 0) (x := (args[0]'(by have := List.length_pos_iff.2 hn; omega)).union)
      (by simp [hl]) (by simp only [List.getElem?_map, hv, Option.map_some])
    rw [hr]
    simp only [List.map_cons, runStmts, SExpr.eval, evalAtoms, SAtom.eval, List.lookup_cons, BEq.rfl, hx, hlk, List.map_nil]
    rw [rustFn, srcCall_prim (r := .ub)]
    rfl
  rw [show allocateValuesName t = (rustAllocate t).name from rfl, rust_special ht (by simp [rustSpecial]) rfl, SFn.run,
    if_pos ⟨rfl, by simp [rustAllocate, hl]⟩]
  simp only [rustAllocate, names_mapIdx, runStmts, SExpr.eval, List.map_nil]
  rw [← hargs, eval_constructors (vs := args)]
  · rw [hargs]; simp only [h1]
  · intro i v hv
    exact lookup_args' (x := .num v) (by simp) (by simp [hv])

/-- **C54 fails for Rust.** If the call has results only, the null pointer is handed out as the address of its buffer. -/
theorem C54_rust_null_handed_out {t : FuncType} (ht : t ∈ sigs) (hn : t.inputs = []) (h0 : t.slots ≠ 0) (hb : t.slots < 8192) {s : RState α}
    (hA : (A.alloc (8 * t.slots) 8 s.heap s.mem).1 = 0) : ∃ s', rustCall A junk sigs (allocateValuesName t) [] s = .ok (.num (.i32 0)) s' := by
  have h1 : ∃ s', rustFn A junk sigs 4 ("allocate_" ++ countName t.results.length t.inputs.length) [] [] s = .ok (.num (.i32 0)) s' := by
    have hP := prim_allocate_values (A := A) (junk := junk) (sigs := sigs) (d := 2) (s := s) (p := 0) h0 hb (by rw [← hA])
    simp only [FuncType.slots] at h0 hb hP
    have hf : rustAllocateGeneric t.results.length t.inputs.length = ⟨false, "allocate_" ++ countName t.results.length t.inputs.length, [],
        [], "usize", [.bind "frame_ptr" (.call "stack_allocate_values" [] [.int (t.results.length + t.inputs.length)])], some (.atom (.var "frame_ptr"))⟩ := by
      rw [rustAllocateGeneric, if_neg h0]; simp [hn]
    rw [show ("allocate_" ++ countName t.results.length t.inputs.length) = (rustAllocateGeneric t.results.length t.inputs.length).name from by rw [hf],
      rust_generic ht (by simp [rustGeneric]), hf]
    rw [SFn.run, if_pos ⟨rfl, rfl⟩]
    simp only [runStmts, SExpr.eval, evalAtoms, SAtom.eval, List.map_nil, hP]
    exact ⟨_, rfl⟩
  obtain ⟨s', h1⟩ := h1
  refine ⟨s', ?_⟩
  rw [show allocateValuesName t = (rustAllocate t).name from rfl, rust_special ht (by simp [rustSpecial]) rfl, SFn.run,
    if_pos ⟨rfl, by simp [rustAllocate, hn]⟩]
  simp only [rustAllocate, hn, List.mapIdx_nil, List.map_nil, List.zip_nil_left, runStmts, SExpr.eval, evalAtoms]
  rw [← hn, h1]

/-- **C54 fails for Rust.** If the allocator has no memory for the type codes of a call, they are written through the null pointer. -/
theorem C54_rust_null_types {t : FuncType} (ht : t ∈ sigs) (h0 : t.slots ≠ 0) (hb : t.slots < 8192) {s : RState α}
    (hA : (A.alloc (4 * t.slots) 4 s.heap s.mem).1 = 0) : rustCall A junk sigs (allocateTypesName t) [] s = .ub := by
  have h1 : ∃ s', rustFn A junk sigs 4 ("allocate_signature_types_buffer_" ++ countName t.results.length t.inputs.length) [] [] s = .ok (.num (.i32 0)) s' := by
    rw [show ("allocate_signature_types_buffer_" ++ countName t.results.length t.inputs.length) = (rustAllocateTypesGeneric t.results.length t.inputs.length).name from rfl,
      rust_generic ht (by simp [rustGeneric])]
    have hP := prim_allocate_types (A := A) (junk := junk) (sigs := sigs) (d := 2) (s := s) (p := 0) (n := t.slots) (fun h => absurd h h0) hb (by rw [← hA])
    rw [SFn.run, if_pos ⟨rfl, rfl⟩]
    simp only [rustAllocateTypesGeneric, List.map_nil, List.zip_nil_left, runStmts, SExpr.eval, evalAtoms, SAtom.eval]
    exact ⟨_, hP⟩
  obtain ⟨s', h1⟩ := h1
  rw [show allocateTypesName t = (rustAllocateTypes t).name from rfl, rust_special ht (by simp [rustSpecial]) rfl, SFn.run, if_pos ⟨rfl, rfl⟩]
  obtain ⟨v, l, hv⟩ : ∃ v l, t.results ++ t.inputs = v :: l := by
    cases h : t.results ++ t.inputs with
    | nil => exact absurd (by simpa [FuncType.slots] using congrArg List.length h) h0
    | cons v l => exact ⟨v, l, rfl⟩
  simp only [rustAllocateTypes, List.map_nil, List.zip_nil_left, runStmts, SExpr.eval, evalAtoms, h1, hv, List.mapIdx_cons, SAtom.eval, List.lookup_cons, BEq.rfl,
    variantValue_eq, Option.map_some]
  rw [rustFn, srcCall_prim (r := .ub)]
  rfl

/-- **C54 fails for Rust.** For a call without arguments and results the library asks the allocator for a block of size zero, which `GlobalAlloc` leaves
undefined; it is saved only by an allocator that supports such requests. -/
theorem C54_rust_zero_size {t : FuncType} (ht : t ∈ sigs) (h0 : t.slots = 0) (hz : A.zero = false) (s : RState α) :
    rustCall A junk sigs (allocateTypesName t) [] s = .ub := by
  have h1 : rustFn A junk sigs 4 ("allocate_signature_types_buffer_" ++ countName t.results.length t.inputs.length) [] [] s = .ub := by
    rw [show ("allocate_signature_types_buffer_" ++ countName t.results.length t.inputs.length) = (rustAllocateTypesGeneric t.results.length t.inputs.length).name from rfl,
      rust_generic ht (by simp [rustGeneric])]
    rw [SFn.run, if_pos ⟨rfl, rfl⟩]
    simp only [rustAllocateTypesGeneric, List.map_nil, List.zip_nil_left, runStmts, SExpr.eval, evalAtoms, SAtom.eval]
    rw [show t.results.length + t.inputs.length = 0 from h0, rustFn, srcCall_prim (r := .ub)]
    simp only [rustPrim, hz]
    rfl
  rw [show allocateTypesName t = (rustAllocateTypes t).name from rfl, rust_special ht (by simp [rustSpecial]) rfl, SFn.run, if_pos ⟨rfl, rfl⟩]
  simp only [rustAllocateTypes, List.map_nil, List.zip_nil_left, runStmts, SExpr.eval, evalAtoms, h1]

end

/-- **C54 fails for Rust**: an allocator that keeps its contract, and one allowed operation, after which the library neither shows what the specification says nor traps. -/
theorem C54_rust_fails_unsafely (junk : Mem → Nat → Nat) :
    ∃ (A : Allocator Nat) (I : List Block → Nat → Mem → Prop), AllocatorOk A I ∧ ∃ s : RState Nat, I [] s.heap s.mem ∧
      ∃ sigs ops as obs, SmallSigs sigs ∧ specRun sigs ops [] = some (as, obs) ∧ ¬ FailsSafely (execRun (rustFace A junk sigs) ops [] s) obs := by
  refine ⟨bumpAllocator, BumpInv, bump_ok, ⟨65536, ⟨1, 1, fun _ => 0⟩⟩, ?_, [⟨[.i32], []⟩], [.allocateValues ⟨[.i32], []⟩ [.i32 5]], _, _, ?_, rfl, ?_⟩
  · refine ⟨by decide, by decide, by decide, by decide, fun b hb => by simp at hb, .nil⟩
  · intro t ht; rw [List.mem_singleton.1 ht]; decide
  · have h := C54_rust_null_values (A := bumpAllocator) (junk := junk) (sigs := [⟨[.i32], []⟩]) (t := ⟨[.i32], []⟩) (args := [.i32 5]) (s := ⟨65536, ⟨1, 1, fun _ => 0⟩⟩)
      (by simp) rfl (by simp) (by decide) (by decide)
    rintro (h' | h') <;>
      simp only [execRun, BufOp.exec, rustFace, faceOf, h] at h' <;> cases h'

-- without memory to spare, the same operation traps in the library in AssemblyScript
example : execRun (asFace [⟨[.i32], []⟩]) [.allocateValues ⟨[.i32], []⟩ [.i32 5]] [] (asStart 1 1) = .trap := by decide +kernel

-- and two operations later in the history, a call with results only reads through the null pointer it was given
example : execRun (rustFace bumpAllocator (fun _ _ => 0) [⟨[], [.i32]⟩]) [.allocateValues ⟨[], [.i32]⟩ []] [] ⟨65536, ⟨1, 1, fun _ => 0⟩⟩ = .seen [] ∧
    execRun (rustFace bumpAllocator (fun _ _ => 0) [⟨[], [.i32]⟩]) [.allocateValues ⟨[], [.i32]⟩ [], .storeRets 0 [.i32 1]] [] ⟨65536, ⟨1, 1, fun _ => 0⟩⟩ = .bad := by
  decide +kernel

-- with an allocator that does not support empty blocks, the types of a call without arguments and results
example : execRun (rustFace { bumpAllocator with zero := false } (fun _ _ => 0) [⟨[], []⟩]) [.allocateTypes ⟨[], []⟩] [] ⟨8, ⟨1, 1, fun _ => 0⟩⟩ = .bad := by
  decide +kernel

end Wastrum
