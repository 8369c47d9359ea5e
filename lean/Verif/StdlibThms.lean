import Verif.Stdlib
import Verif.TransparencyThms
/-!
# The analysis library and the shipped forwarding analysis (C17, C21, C22, C48)
-/

set_option linter.unusedSimpArgs false
set_option linter.unusedVariables false

namespace Wastrum

variable {W A : Type}

/-! ## C17 -/

theorem unaryRows_serialize : ∀ r ∈ unaryRows, r.op.serialize = r.code := by decide +kernel
theorem binaryRows_serialize : ∀ r ∈ binaryRows, r.op.serialize = r.code := by decide +kernel

theorem loadArms_serialize : ∀ r ∈ loadArms, r.2.serialize = r.1 := by decide +kernel
theorem storeArms_serialize : ∀ r ∈ storeArms, r.2.serialize = r.1 := by decide +kernel

/-- **C17 (unary).** For every 32-bit code: the library decodes it to an operator iff it is the code the tool passes for
that operator. (So the codes round-trip, are distinct, and all others are rejected.) -/
theorem C17_unary_codes (c : BitVec 32) (op : UnaryOp) : UnaryOp.ofCode c = some op ↔ op.serialize = c := by
  constructor
  · intro h
    simp only [UnaryOp.ofCode, Option.map_eq_some_iff] at h
    obtain ⟨r, hr, rfl⟩ := h
    have h1 := List.find?_some hr
    have h2 := unaryRows_serialize r (List.mem_of_find?_eq_some hr)
    rw [h2]; simpa using h1
  · rintro rfl; cases op <;> decide +kernel

/-- **C17 (binary).** -/
theorem C17_binary_codes (c : BitVec 32) (op : BinaryOp) : BinaryOp.ofCode c = some op ↔ op.serialize = c := by
  constructor
  · intro h
    simp only [BinaryOp.ofCode, Option.map_eq_some_iff] at h
    obtain ⟨r, hr, rfl⟩ := h
    have h1 := List.find?_some hr
    have h2 := binaryRows_serialize r (List.mem_of_find?_eq_some hr)
    rw [h2]; simpa using h1
  · rintro rfl; cases op <;> decide +kernel

/-- **C17 (loads).** -/
theorem C17_load_codes (c : BitVec 32) (op : LoadOp) : LoadOp.ofCode c = some op ↔ op.serialize = c := by
  constructor
  · intro h
    simp only [LoadOp.ofCode, Option.map_eq_some_iff] at h
    obtain ⟨r, hr, rfl⟩ := h
    have h1 := List.find?_some hr
    have h2 := loadArms_serialize r (List.mem_of_find?_eq_some hr)
    rw [h2]; simpa using h1
  · rintro rfl; cases op <;> decide +kernel

/-- **C17 (stores).** -/
theorem C17_store_codes (c : BitVec 32) (op : StoreOp) : StoreOp.ofCode c = some op ↔ op.serialize = c := by
  constructor
  · intro h
    simp only [StoreOp.ofCode, Option.map_eq_some_iff] at h
    obtain ⟨r, hr, rfl⟩ := h
    have h1 := List.find?_some hr
    have h2 := storeArms_serialize r (List.mem_of_find?_eq_some hr)
    rw [h2]; simpa using h1
  · rintro rfl; cases op <;> decide +kernel

/-- **C17 (distinct codes).** Distinct operators of the same kind are passed as distinct codes. -/
theorem C17_codes_distinct : (∀ a b : UnaryOp, a.serialize = b.serialize → a = b) ∧ (∀ a b : BinaryOp, a.serialize = b.serialize → a = b) ∧
    (∀ a b : LoadOp, a.serialize = b.serialize → a = b) ∧ (∀ a b : StoreOp, a.serialize = b.serialize → a = b) := by
  refine ⟨fun a b h => ?_, fun a b h => ?_, fun a b h => ?_, fun a b h => ?_⟩
  · have h1 := (C17_unary_codes _ a).2 rfl
    rw [(C17_unary_codes _ b).2 h.symm] at h1; cases h1; rfl
  · have h1 := (C17_binary_codes _ a).2 rfl
    rw [(C17_binary_codes _ b).2 h.symm] at h1; cases h1; rfl
  · have h1 := (C17_load_codes _ a).2 rfl
    rw [(C17_load_codes _ b).2 h.symm] at h1; cases h1; rfl
  · have h1 := (C17_store_codes _ a).2 rfl
    rw [(C17_store_codes _ b).2 h.symm] at h1; cases h1; rfl

example : UnaryOp.ofCode UnaryOp.i64Extend32S.serialize = some .i64Extend32S ∧ UnaryOp.ofCode 61 = none ∧ BinaryOp.ofCode 0 = none ∧
    UnaryOp.ofCode 0xffffffff = none := by decide +kernel

/-- The library's `apply` is the operator (of the WebAssembly specification) on operands of its type, and panics otherwise. -/
theorem UnaryOp.apply_eq (N : Num) (op : UnaryOp) (v : Val) : op.apply N v = if v.type = op.sig.1 then N.unary op v else none := by
  have h1 : ∃ r, unaryRows.find? (fun r => r.op == op) = some r ∧ r.inTy = op.sig.1 ∧ r.outTy = op.sig.2 ∧
      UnaryOp.all.find? (fun o => o.mnemonic == r.asm) = some op := by
    cases op <;> exact ⟨_, rfl, rfl, rfl, by decide +kernel⟩
  obtain ⟨r, hr, hi, ho, ha⟩ := h1
  simp only [UnaryOp.apply, hr, Option.bind_some, hi, ho, asmUnary, ha]
  split
  · cases hu : N.unary op v with
    | none => rfl
    | some w => simp [N.unary_type op v w hu]
  · rfl

@[inherit_doc UnaryOp.apply_eq] theorem BinaryOp.apply_eq (N : Num) (op : BinaryOp) (v w : Val) :
    op.apply N v w = if v.type = op.sig.1 ∧ w.type = op.sig.1 then N.binary op v w else none := by
  have h1 : ∃ r, binaryRows.find? (fun r => r.op == op) = some r ∧ r.lTy = op.sig.1 ∧ r.rTy = op.sig.1 ∧ r.outTy = op.sig.2 ∧
      BinaryOp.all.find? (fun o => o.mnemonic == r.asm) = some op := by
    cases op <;> exact ⟨_, rfl, rfl, rfl, rfl, by decide +kernel⟩
  obtain ⟨r, hr, hi, hi2, ho, ha⟩ := h1
  simp only [BinaryOp.apply, hr, Option.bind_some, hi, hi2, ho, asmBinary, ha]
  split
  · cases hu : N.binary op v w with
    | none => rfl
    | some x => simp [N.binary_type op v w x hu]
  · rfl

/-! ## The exported functions of the library -/

/-- **C49.** For every hook, the library's `advice!` exports a function of exactly the name and type the tool imports for it. -/
theorem C49_library_exports_what_is_imported (t : Trap) : stdSig t = (t.exportName, t.args, t.results) := by cases t <;> rfl

example : stdSig .brTableTrap = ("specialized_br_table", [.i32, .i32, .i32, .i64, .i64], [.i32]) := rfl

theorem RVal.of_i32 {v : RVal} (h : v.type = .i32) : ∃ x, v = .num (.i32 x) := by
  rcases v with v | ⟨r, a⟩
  · cases v <;> first | exact ⟨_, rfl⟩ | cases h
  · cases h
theorem RVal.of_i64 {v : RVal} (h : v.type = .i64) : ∃ x, v = .num (.i64 x) := by
  rcases v with v | ⟨r, a⟩
  · cases v <;> first | exact ⟨_, rfl⟩ | cases h
  · cases h

theorem map_type_nil {l : List RVal} (h : l.map RVal.type = []) : l = [] := by simpa using h
theorem map_type_cons {l : List RVal} {t ts} (h : l.map RVal.type = t :: ts) : ∃ v r, l = v :: r ∧ v.type = t ∧ r.map RVal.type = ts := by
  cases l with
  | nil => cases h
  | cons v r => simp only [List.map_cons, List.cons.injEq] at h; exact ⟨v, r, rfl, h.1, h.2⟩

theorem stdEntry_unary {p t} (h : unaryTrap p = some t) {v : Val} (hv : v.type = p.1) (c : BitVec 32) (f i : BitVec 64) :
    stdEntry t [.num v, .i32 c, .i64 f, .i64 i] = (UnaryOp.ofCode c).map fun op => .unary op v (.new f i) := by
  obtain ⟨a, b⟩ := p
  unfold unaryTrap at h
  split at h <;> rename_i heq <;> cases h <;> cases heq <;> cases v <;> first | (cases hv; done) | rfl

theorem stdEntry_binary {p t} (h : binaryTrap p = some t) {v w : Val} (hv : v.type = p.1) (hw : w.type = p.1) (c : BitVec 32) (f i : BitVec 64) :
    stdEntry t [.num v, .num w, .i32 c, .i64 f, .i64 i] = (BinaryOp.ofCode c).map fun op => .binary op v w (.new f i) := by
  obtain ⟨a, b⟩ := p
  unfold binaryTrap at h
  split at h <;> rename_i heq <;> cases h <;> cases heq <;> cases v <;> first | (cases hv; done) | (cases w <;> first | (cases hw; done) | rfl)

theorem stdEntry_load {p t} (h : loadTrap p = some t) (x : BitVec 32) (o : BitVec 64) (c : BitVec 32) (f i : BitVec 64) :
    stdEntry t [.i32 x, .i64 o, .i32 c, .i64 f, .i64 i] = (LoadOp.ofCode c).map fun op => .load x o op (.new f i) := by
  unfold loadTrap at h
  split at h <;> cases h <;> rfl

theorem stdEntry_store {p t} (h : storeTrap p = some t) {v : Val} (hv : v.type = p) (x : BitVec 32) (o : BitVec 64) (c : BitVec 32) (f i : BitVec 64) :
    stdEntry t [.i32 x, .num v, .i64 o, .i32 c, .i64 f, .i64 i] = (StoreOp.ofCode c).map fun op => .store x v o op (.new f i) := by
  unfold storeTrap at h
  split at h <;> cases h <;> cases v <;> first | (cases hv; done) | rfl

/-! ## C22 -/

set_option maxHeartbeats 2000000 in
/-- **C22 is false (finding), exactly how.** For every hook and whatever it is called with: the number the tool passes as the
function index is what the library's `instruction_index()` returns, and the number of the instruction is what
`function_index()` returns. (`advice!` calls `Location::new(funct_index, instr_index)`; the parameters of `Location::new`
are in the other order, `lib.rs` 101.) -/
theorem C22_accessors_are_swapped (t : Trap) (shown : List RVal) (f i : BitVec 64) (a : Advice)
    (h : stdEntry t (shown ++ [.i64 f, .i64 i]) = some a) : a.location.instructionIndex = f ∧ a.location.functionIndex = i := by
  have key : ∀ args, stdEntry t args = some a → args.drop (args.length - 2) = [.i64 a.location.instructionIndex, .i64 a.location.functionIndex] := by
    clear h
    intro args h
    unfold stdEntry at h
    cases t <;> dsimp only at h <;> split at h
    all_goals first
      | (simp only [Option.some.injEq] at h; subst h; rfl)
      | (simp only [Option.map_eq_some_iff] at h; obtain ⟨_, _, rfl⟩ := h; rfl)
      | cases h
  have := key _ h
  simp only [List.length_append, List.length_cons, List.length_nil, Nat.zero_add, Nat.add_sub_cancel, List.drop_left] at this
  cases this
  exact ⟨rfl, rfl⟩

/-- **C22 is false (finding).** -/
theorem C22_not_under_the_right_names : ¬ ∀ (t : Trap) (shown : List RVal) (f i : Nat) (a : Advice),
    stdEntry t (shown ++ [nI64 f, nI64 i]) = some a →
      a.location.functionIndex = BitVec.ofNat 64 f ∧ a.location.instructionIndex = BitVec.ofNat 64 i := by
  intro h
  exact absurd (h .dropTrap [] 1 2 _ rfl).1 (by decide)

/-- **C22, partial.** What is missing: the two accessors are exchanged (see `C22_accessors_are_swapped`). What does hold: both
numbers reach the analysis, so reading the two accessors the other way around gives the location of the instruction, for
every hook; and when both indices are the same the accessors are right. -/
theorem C22_location_partial (t : Trap) (shown : List RVal) (f i : Nat) (a : Advice) (h : stdEntry t (shown ++ [nI64 f, nI64 i]) = some a) :
    (a.location.instructionIndex, a.location.functionIndex) = (BitVec.ofNat 64 f, BitVec.ofNat 64 i) ∧
    (f = i → a.location.functionIndex = BitVec.ofNat 64 f ∧ a.location.instructionIndex = BitVec.ofNat 64 i) := by
  obtain ⟨h1, h2⟩ := C22_accessors_are_swapped t shown _ _ a h
  exact ⟨by rw [h1, h2], by rintro rfl; exact ⟨h2, h1⟩⟩

example : stdEntry .ifThenElseTrap ([.i32 5, .i32 0, .i32 1] ++ [nI64 3, nI64 8]) = some (.ifThenElse 5 0 1 ⟨3, 8⟩) := rfl

/-! ## C21 -/

theorem i64ToI32_small {x : BitVec 32} (h : x.toNat < 2 ^ 31) : i64ToI32 (x.setWidth 64) = some x := by
  have e : (x.setWidth 64).toInt = x.toNat := by
    rw [BitVec.toInt_eq_toNat_of_lt]
    · simp only [BitVec.toNat_setWidth]; omega
    · simp only [BitVec.toNat_setWidth]; omega
  unfold i64ToI32
  rw [e, if_pos (by omega)]
  simp

theorem i64ToI32_large {x : BitVec 32} (h : 2 ^ 31 ≤ x.toNat) : i64ToI32 (x.setWidth 64) = none := by
  have e : (x.setWidth 64).toInt = x.toNat := by
    rw [BitVec.toInt_eq_toNat_of_lt]
    · simp only [BitVec.toNat_setWidth]; omega
    · simp only [BitVec.toNat_setWidth]; omega
  unfold i64ToI32
  rw [e, if_neg (by omega)]

theorem LoadOp.callee_eq (op : LoadOp) : op.callee = op.baseName := by cases op <;> rfl
theorem StoreOp.callee_eq (op : StoreOp) : op.callee = (op.baseName, op.ty) := by cases op <;> rfl

/-- **C21 (loads), partial.** When the tool hands the library a load at address `x` with static offset `o` below `2^31`, the body
of the advice gets that address, offset and operator, and performing the operation calls the base function exported for
that very operator with the same address and offset. What is missing: offsets of `2^31` and more, for which it is false
(`C21_large_offsets_panic`). -/
theorem C21_load_partial (op : LoadOp) (t : Trap) (h : loadTrap op.ty = some t) (x o : BitVec 32) (f i : Nat) (ho : o.toNat < 2 ^ 31) :
    ∃ l, stdEntry t [.i32 x, .i64 (o.setWidth 64), .i32 op.serialize, nI64 f, nI64 i] = some (.load x (o.setWidth 64) op l) ∧
      ∀ base call (s : Store W), op.perform base call x (o.setWidth 64) s = callBase base call op.baseName [.i32 x, .i32 o] s := by
  refine ⟨_, (stdEntry_load h _ _ _ _ _).trans (by rw [(C17_load_codes _ op).2 rfl]; rfl), fun base call s => ?_⟩
  simp only [LoadOp.perform, i64ToI32_small ho, op.callee_eq]

/-- **C21 (stores), partial.** Same as `C21_load_partial`. -/
theorem C21_store_partial (op : StoreOp) (t : Trap) (h : storeTrap op.ty = some t) (x o : BitVec 32) (v : Val) (hv : v.type = op.ty) (f i : Nat)
    (ho : o.toNat < 2 ^ 31) :
    ∃ l, stdEntry t [.i32 x, .num v, .i64 (o.setWidth 64), .i32 op.serialize, nI64 f, nI64 i] = some (.store x v (o.setWidth 64) op l) ∧
      ∀ base call (s : Store W), op.perform base call x v (o.setWidth 64) s = callBase base call op.baseName [.i32 x, .num v, .i32 o] s := by
  refine ⟨_, (stdEntry_store h hv _ _ _ _ _).trans (by rw [(C17_store_codes _ op).2 rfl]; rfl), fun base call s => ?_⟩
  simp only [StoreOp.perform, i64ToI32_small ho, op.callee_eq, hv, if_true]

/-- **C21 is false for large offsets (finding).** For every operator and every static offset of at least `2^31`, the library panics
instead of performing the operation (`i64` to `i32` conversion in `memory.rs` 112 and 165), whatever the address is. -/
theorem C21_large_offsets_panic (o : BitVec 32) (ho : 2 ^ 31 ≤ o.toNat) :
    (∀ (op : LoadOp) x base call (s : Store W), op.perform base call x (o.setWidth 64) s = .trap s) ∧
    (∀ (op : StoreOp) x v base call (s : Store W), op.perform base call x v (o.setWidth 64) s = .trap s) := by
  constructor
  · intro op x base call s; simp only [LoadOp.perform, i64ToI32_large ho]
  · intro op x v base call s; simp only [StoreOp.perform, i64ToI32_large ho]

example : loadTrap LoadOp.i64Load16S.ty = some .i64Load ∧ (0x7fffffff : BitVec 32).toNat < 2 ^ 31 ∧ 2 ^ 31 ≤ (0x80000000 : BitVec 32).toNat := by decide

end Wastrum
