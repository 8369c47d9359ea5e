/-
Properties of the generated stack library: C26 (buffers disjoint and inside the memory), C28 (type buffer) and
C29 (values survive). The library is `generateLib sigs` (`StackLib`), run by `libCall`; a history is any sequence of
calls of its exported functions in which buffers are released last in, first out (values and types of one call
in either order).
-/
import Verif.StackCalls

set_option linter.unusedVariables false
set_option linter.unusedSimpArgs false

namespace Wastrum

/-! ## Vocabulary -/

/-- A live buffer as its owner sees it: for values or types of a signature, at an address. -/
structure Buffer where
  types : Bool
  sig : FuncType
  ptr : BitVec 32

/-- Parameters and results. -/
def FuncType.slots (t : FuncType) : Nat := t.results.length + t.inputs.length

/-- Bytes of a buffer: eight per value, four per type. -/
def Buffer.size (b : Buffer) : Nat := b.sig.slots * (if b.types then 4 else 8)

/-- First byte. -/
def Buffer.start (b : Buffer) : Nat := b.ptr.toNat

/-- No byte belongs to both. -/
def Buffer.disjoint (b c : Buffer) : Prop := b.start + b.size ≤ c.start ∨ c.start + c.size ≤ b.start

/-- What one can do with the library. Buffers are named by their position in the list of live buffers. -/
inductive LibOp where
  | allocateValues (t : FuncType) (args : List Val)
  | allocateTypes (t : FuncType)
  /-- release the newest buffer -/
  | free
  /-- release the newest two, values before types, as an instrumented call does -/
  | freeCall
  /-- `store_arg{i}` or `store_ret{i}` of the signature -/
  | store (b : Nat) (side : Side) (i : Nat) (v : Val)
  | storeRets (b : Nat) (vs : List Val)
  /-- `wastrumentation_stack_store_{type}` -/
  | poke (b : Nat) (k : Nat) (v : Val)

/-- The buffer an operation writes to, if it names one. -/
def LibOp.target : LibOp → Option Nat
  | .store b _ _ _ | .storeRets b _ | .poke b _ _ => some b
  | _ => none

/-- Name of the export releasing a buffer. -/
def Buffer.freeName (b : Buffer) : String := (if b.types then "free_types_" else "free_values_") ++ mangledName b.sig

section
variable (N : Num) (sigs : List FuncType) (L d : Nat)

/-- Call an exported function. -/
abbrev lib (name : String) (args : List RVal) (s : Store Unit) : Res Unit := libCall N (generateLib sigs) L d name args s

/-- One operation, with the list of live buffers (newest first). An allocation may trap; the library lives on. -/
inductive LibStep : LibOp → List Buffer × Store Unit → List Buffer × Store Unit → Prop where
  | allocateValues {t args bs s s' p} : t ∈ sigs → args.map Val.type = t.inputs →
      lib N sigs L d ("allocate_" ++ mangledName t) (args.map .num) s = .ok [.i32 p] s' →
      LibStep (.allocateValues t args) (bs, s) (⟨false, t, p⟩ :: bs, s')
  | allocateValuesTrap {t args bs s s'} : t ∈ sigs → args.map Val.type = t.inputs →
      lib N sigs L d ("allocate_" ++ mangledName t) (args.map .num) s = .trap s' →
      LibStep (.allocateValues t args) (bs, s) (bs, s')
  | allocateTypes {t bs s s' p} : t ∈ sigs →
      lib N sigs L d ("allocate_types_" ++ mangledName t) [] s = .ok [.i32 p] s' →
      LibStep (.allocateTypes t) (bs, s) (⟨true, t, p⟩ :: bs, s')
  | allocateTypesTrap {t bs s s'} : t ∈ sigs →
      lib N sigs L d ("allocate_types_" ++ mangledName t) [] s = .trap s' →
      LibStep (.allocateTypes t) (bs, s) (bs, s')
  | free {b bs s s'} : lib N sigs L d b.freeName [.i32 b.ptr] s = .ok [] s' → LibStep .free (b :: bs, s) (bs, s')
  | freeCall {t p q bs s s' s''} :
      lib N sigs L d ("free_values_" ++ mangledName t) [.i32 p] s = .ok [] s' →
      lib N sigs L d ("free_types_" ++ mangledName t) [.i32 q] s' = .ok [] s'' →
      LibStep .freeCall (⟨true, t, q⟩ :: ⟨false, t, p⟩ :: bs, s) (bs, s'')
  | store {n t p side i v bs s s'} : bs[n]? = some ⟨false, t, p⟩ → (t.side side)[i]? = some v.type →
      lib N sigs L d ("store_" ++ side.asStr ++ i.repr ++ "_" ++ mangledName t) [.i32 p, .num v] s = .ok [] s' →
      LibStep (.store n side i v) (bs, s) (bs, s')
  | storeRets {n t p vs bs s s'} : bs[n]? = some ⟨false, t, p⟩ → vs.map Val.type = t.results →
      lib N sigs L d ("store_rets_" ++ mangledName t) (.i32 p :: vs.map .num) s = .ok [] s' →
      LibStep (.storeRets n vs) (bs, s) (bs, s')
  | poke {n t p k v bs s s'} : bs[n]? = some ⟨false, t, p⟩ → k < t.slots →
      lib N sigs L d (typedStoreName v.type) [.i32 p, .num v, .i32 (BitVec.ofNat 32 k)] s = .ok [] s' →
      LibStep (.poke n k v) (bs, s) (bs, s')

/-- The states a freshly instantiated library can reach, with the live buffers. -/
inductive Reachable (limit : Nat) : List Buffer × Store Unit → Prop where
  | start : Reachable limit ([], libStart limit)
  | step {op x y} : Reachable limit x → LibStep N sigs L d op x y → Reachable limit y

end

/-- The memory of the library. -/
def Store.lib (s : Store Unit) : Mem := s.mems.headD ⟨0, 0, fun _ => 0⟩

/-! ## Invariant -/

/-- Buffers stacked from address 0 up to `f`. -/
inductive Stacked (sigs : List FuncType) : List Buffer → Nat → Prop where
  | nil : Stacked sigs [] 0
  | cons {b bs f} : Stacked sigs bs f → b.sig ∈ sigs → (b.size = 0 ∧ b.start = 0 ∨ b.start = f) → Stacked sigs (b :: bs) (f + b.size)

theorem Stacked.le {sigs bs f} (h : Stacked sigs bs f) : ∀ b ∈ bs, b.start + b.size ≤ f := by
  induction h with
  | nil => simp
  | @cons b bs f _ _ hb ih =>
    intro c hc
    cases hc with
    | head => omega
    | tail _ hc => have := ih c hc; omega

theorem Stacked.disjoint {sigs bs f} (h : Stacked sigs bs f) : bs.Pairwise Buffer.disjoint := by
  induction h with
  | nil => exact .nil
  | @cons b bs f h' _ hb ih =>
    refine .cons (fun c hc => ?_) ih
    have := h'.le c hc
    simp only [Buffer.disjoint]
    omega

theorem Stacked.mem {sigs bs f} (h : Stacked sigs bs f) : ∀ b ∈ bs, b.sig ∈ sigs := by
  induction h with
  | nil => simp
  | @cons b bs f _ hb _ ih =>
    intro c hc
    cases hc with
    | head => exact hb
    | tail _ hc => exact ih c hc

theorem Stacked.inv {sigs b bs F} (h : Stacked sigs (b :: bs) F) :
    ∃ f, F = f + b.size ∧ Stacked sigs bs f ∧ b.sig ∈ sigs ∧ (b.size = 0 ∧ b.start = 0 ∨ b.start = f) := by
  cases h with
  | cons h1 h2 h3 => exact ⟨_, rfl, h1, h2, h3⟩

theorem Stacked.sum {sigs bs f} (h : Stacked sigs bs f) : (bs.map Buffer.size).sum = f := by
  induction h with
  | nil => rfl
  | cons _ _ _ ih => simp [ih, Nat.add_comm]

theorem Lib.Ok.of {l : Lib} {m : Mem} {f n : Nat} (h : l.Ok) (g : Grows l.mem m) (h1 : m.pages ≤ m.limit) (h2 : f ≤ l.free + n) (h3 : l.free + n ≤ m.size)
    (h4 : l.free + n ≤ 65535 * 65536) : (⟨f, m⟩ : Lib).Ok where
  free := by dsimp only; omega
  free' := by dsimp only; omega
  pages := h1
  limit := by rw [g.limit]; exact h.limit

theorem Lib.Ok.puts {l : Lib} (h : l.Ok) (a w : Nat) (xs : List Nat) : (⟨l.free, l.mem.puts a w xs⟩ : Lib).Ok where
  free := by dsimp only; rw [Mem.puts_size]; exact h.free
  free' := h.free'
  pages := by dsimp only; rw [(Mem.puts_pages _ _ _ _).1, (Mem.puts_pages _ _ _ _).2]; exact h.pages
  limit := by dsimp only; rw [(Mem.puts_pages _ _ _ _).2]; exact h.limit

theorem Lib.Ok.put {l : Lib} (h : l.Ok) (a w x : Nat) : (⟨l.free, l.mem.put a w x⟩ : Lib).Ok := h.puts a w [x]

theorem Lib.Ok.size {l : Lib} (h : l.Ok) : l.mem.size ≤ 2 ^ 32 := by
  have h1 := h.pages; have h2 := h.limit
  simp only [Mem.size]; omega

theorem Lib.Ok.freeNat {l : Lib} (h : l.Ok) : (BitVec.ofNat 32 l.free).toNat = l.free := ofNat_toNat32 (by have := h.free'; omega)

theorem Grows.size {m m' : Mem} (h : Grows m m') : m.size ≤ m'.size := Nat.mul_le_mul_right _ h.pages

section
variable {N : Num} {sigs : List FuncType} {L : Nat}

/-- Signatures so small that the byte counts of buffers do not wrap. -/
def SmallSigs (sigs : List FuncType) : Prop := ∀ t ∈ sigs, t.slots < 8192

/-- A step preserves the invariant and the contents of the buffers it does not write. -/
theorem step_inv (hN : StackNum N) (hL : 65537 ≤ L) (hs : SmallSigs sigs) {d : Nat} {op : LibOp} {bs bs' : List Buffer} {l : Lib} {s' : Store Unit}
    (h : LibStep N sigs L (d + 5) op (bs, l.store) (bs', s')) (ok : l.Ok) (st : Stacked sigs bs l.free) :
    ∃ l' : Lib, s' = l'.store ∧ l'.Ok ∧ Stacked sigs bs' l'.free ∧ l'.mem.limit = l.mem.limit ∧
      ∀ i, i < l.free → (∀ k b, op.target = some k → bs[k]? = some b → ¬ (b.start ≤ i ∧ i < b.start + b.size)) →
        l'.mem.bytes i = l.mem.bytes i := by
  have hof : ∀ p : BitVec 32, BitVec.ofNat 32 p.toNat = p := fun p => by simp
  have hsz := ok.size
  have hfree := ok.free
  have hfree' := ok.free'
  cases h with
  | @allocateValues t args _ _ _ p ht hargs h =>
    have hslots := hs t ht
    simp only [FuncType.slots] at hslots
    by_cases h0 : t.results.length + t.inputs.length = 0
    · have hi : args = [] := by
        have := mapTypes hargs
        exact List.length_eq_zero_iff.1 (by omega)
      subst hi
      simp only [List.map_nil] at h
      rw [lib, call_allocate_none d ht _ h0] at h
      cases h
      refine ⟨l, rfl, ok, ?_, rfl, fun i _ _ => rfl⟩
      have := Stacked.cons (b := ⟨false, t, 0⟩) st ht (.inl ⟨by simp [Buffer.size, FuncType.slots, h0], rfl⟩)
      simpa [Buffer.size, FuncType.slots, h0] using this
    · have hA := call_allocate_values (N := N) (L := L) hN hL d ht l ok args hargs (by omega) (by omega)
      rw [show libCall N (generateLib sigs) L (d + 5) ("allocate_" ++ mangledName t) (args.map .num) l.store = _ from h] at hA
      cases hA with
      | @ok m' g1 g2 g3 g4 =>
        have ok1 : (⟨l.free + (t.results.length + t.inputs.length) * 8, m'⟩ : Lib).Ok := ok.of g1 g4 (Nat.le_refl _) g2 (Nat.le_trans g2 (Nat.mul_le_mul_right 65536 g3))
        refine ⟨_, rfl, ok1.puts _ _ _, ?_, (by rw [(Mem.puts_pages _ _ _ _).2, g1.limit]), fun i hi _ => ?_⟩
        · have := Stacked.cons (b := ⟨false, t, BitVec.ofNat 32 l.free⟩) st ht (.inr (by simp only [Buffer.start]; exact ok.freeNat))
          simpa [Buffer.size, FuncType.slots] using this
        · dsimp only
          rw [Mem.puts_bytes _ _ _ _ _ (.inl (by omega)), g1.bytes i (by omega)]
  | @allocateValuesTrap t args _ _ _ ht hargs h =>
    have hslots := hs t ht
    simp only [FuncType.slots] at hslots
    by_cases h0 : t.results.length + t.inputs.length = 0
    · have hi : args = [] := by
        have := mapTypes hargs
        exact List.length_eq_zero_iff.1 (by omega)
      subst hi
      simp only [List.map_nil] at h
      rw [lib, call_allocate_none d ht _ h0] at h
      cases h
    · have hA := call_allocate_values (N := N) (L := L) hN hL d ht l ok args hargs (by omega) (by omega)
      rw [show libCall N (generateLib sigs) L (d + 5) ("allocate_" ++ mangledName t) (args.map .num) l.store = _ from h] at hA
      cases hA with
      | @fail m' g1 g2 g3 =>
        have hg := g1.size
        exact ⟨_, rfl, ok.of (n := 0) g1 g2 (Nat.le_refl _) (by omega) (by omega), st, g1.limit, fun i hi _ => g1.bytes i (by omega)⟩
  | @allocateTypes t _ _ _ p ht h =>
    have hslots := hs t ht
    simp only [FuncType.slots] at hslots
    by_cases h0 : t.results.length + t.inputs.length = 0
    · rw [lib, call_allocate_types_none d ht _ h0] at h
      cases h
      refine ⟨l, rfl, ok, ?_, rfl, fun i _ _ => rfl⟩
      have := Stacked.cons (b := ⟨true, t, 0⟩) st ht (.inl ⟨by simp [Buffer.size, FuncType.slots, h0], rfl⟩)
      simpa [Buffer.size, FuncType.slots, h0] using this
    · have hA := call_allocate_types (N := N) (L := L) hN hL d ht l ok (by omega) (by omega)
      rw [show libCall N (generateLib sigs) L (d + 5) ("allocate_types_" ++ mangledName t) [] l.store = _ from h] at hA
      cases hA with
      | @ok m' g1 g2 g3 g4 =>
        have ok1 : (⟨l.free + (t.results.length + t.inputs.length) * 4, m'⟩ : Lib).Ok := ok.of g1 g4 (Nat.le_refl _) g2 (Nat.le_trans g2 (Nat.mul_le_mul_right 65536 g3))
        refine ⟨_, rfl, ok1.puts _ _ _, ?_, (by rw [(Mem.puts_pages _ _ _ _).2, g1.limit]), fun i hi _ => ?_⟩
        · have := Stacked.cons (b := ⟨true, t, BitVec.ofNat 32 l.free⟩) st ht (.inr (by simp only [Buffer.start]; exact ok.freeNat))
          simpa [Buffer.size, FuncType.slots] using this
        · dsimp only
          rw [Mem.puts_bytes _ _ _ _ _ (.inl (by omega)), g1.bytes i (by omega)]
  | @allocateTypesTrap t _ _ _ ht h =>
    have hslots := hs t ht
    simp only [FuncType.slots] at hslots
    by_cases h0 : t.results.length + t.inputs.length = 0
    · rw [lib, call_allocate_types_none d ht _ h0] at h
      cases h
    · have hA := call_allocate_types (N := N) (L := L) hN hL d ht l ok (by omega) (by omega)
      rw [show libCall N (generateLib sigs) L (d + 5) ("allocate_types_" ++ mangledName t) [] l.store = _ from h] at hA
      cases hA with
      | @fail m' g1 g2 g3 =>
        have hg := g1.size
        exact ⟨_, rfl, ok.of (n := 0) g1 g2 (Nat.le_refl _) (by omega) (by omega), st, g1.limit, fun i hi _ => g1.bytes i (by omega)⟩
  | @free b _ _ _ h =>
    obtain ⟨ty, t, p⟩ := b
    cases ty with
    | false =>
      obtain ⟨f, hf, st', ht, hb⟩ := st.inv
      change t ∈ sigs at ht
      · simp only [Buffer.size, FuncType.slots, Bool.false_eq_true, if_false] at hf
        have hc := call_free_values (N := N) (L := L) hN d ht l (.i32 p) rfl (by omega)
        simp only [lib, Buffer.freeName, Bool.false_eq_true, if_false] at h
        rw [hc] at h
        cases h
        refine ⟨_, rfl, ok.of (n := 0) (.refl _) ok.pages (by omega) (by omega) (by omega), ?_, rfl, fun i _ _ => rfl⟩
        rw [show l.free - (t.results.length + t.inputs.length) * 8 = f by omega]; exact st'
    | true =>
      obtain ⟨f, hf, st', ht, hb⟩ := st.inv
      change t ∈ sigs at ht
      · simp only [Buffer.size, FuncType.slots, if_true] at hf
        have hc := call_free_types (N := N) (L := L) hN d ht l (.i32 p) rfl (by omega)
        simp only [lib, Buffer.freeName, if_true] at h
        rw [hc] at h
        cases h
        refine ⟨_, rfl, ok.of (n := 0) (.refl _) ok.pages (by omega) (by omega) (by omega), ?_, rfl, fun i _ _ => rfl⟩
        rw [show l.free - (t.results.length + t.inputs.length) * 4 = f by omega]; exact st'
  | @freeCall t p q _ _ s1 _ h1 h2 =>
    obtain ⟨f, hf, st', ht, hb⟩ := st.inv
    obtain ⟨f', hf', st'', ht', hb'⟩ := st'.inv
    change t ∈ sigs at ht
    · · simp only [Buffer.size, FuncType.slots, if_true, Bool.false_eq_true, if_false] at hf hf'
        have hc := call_free_values (N := N) (L := L) hN d ht l (.i32 p) rfl (by omega)
        simp only [lib] at h1 h2
        rw [hc] at h1
        cases h1
        have hc' := call_free_types (N := N) (L := L) hN d ht ⟨l.free - (t.results.length + t.inputs.length) * 8, l.mem⟩ (.i32 q) rfl (by dsimp only; omega)
        rw [hc'] at h2
        cases h2
        refine ⟨_, rfl, ok.of (n := 0) (.refl _) ok.pages (by dsimp only; omega) (by omega) (by omega), ?_, rfl, fun i _ _ => rfl⟩
        rw [show l.free - (t.results.length + t.inputs.length) * 8 - (t.results.length + t.inputs.length) * 4 = f' by omega]; exact st''
  | @store n t p side i v _ _ _ hn hi h =>
    have hb := List.mem_of_getElem? hn
    have ht : t ∈ sigs := st.mem _ hb
    have hle := st.le _ hb
    simp only [Buffer.size, Buffer.start, FuncType.slots, Bool.false_eq_true, if_false] at hle
    have hc := call_store (N := N) (L := L) hN d ht l side hi p.toNat (by omega) hsz
    rw [hof] at hc
    simp only [lib] at h
    rw [hc] at h
    cases h
    refine ⟨_, rfl, ok.put _ _ _, st, rfl, fun j hj hk => ?_⟩
    have := hk n _ rfl hn
    have hsl := slotOf_lt (List.getElem?_eq_some_iff.1 hi).1
    simp only [Buffer.size, Buffer.start, FuncType.slots, Bool.false_eq_true, if_false] at this
    exact Mem.put_bytes _ _ _ _ _ (by omega)
  | @storeRets n t p vs _ _ _ hn hvs h =>
    have hb := List.mem_of_getElem? hn
    have ht : t ∈ sigs := st.mem _ hb
    have hle := st.le _ hb
    simp only [Buffer.size, Buffer.start, FuncType.slots, Bool.false_eq_true, if_false] at hle
    have hc := call_store_rets (N := N) (L := L) hN d ht l vs hvs p.toNat (by omega) hsz
    rw [hof] at hc
    simp only [lib] at h
    rw [hc] at h
    cases h
    refine ⟨_, rfl, ok.puts _ _ _, st, (Mem.puts_pages _ _ _ _).2, fun j hj hk => ?_⟩
    have := hk n _ rfl hn
    have hlen := mapTypes hvs
    simp only [Buffer.size, Buffer.start, FuncType.slots, Bool.false_eq_true, if_false] at this
    exact Mem.puts_bytes _ _ _ _ _ (by simp only [List.length_map]; omega)
  | @poke n t p k v _ _ _ hn hk' h =>
    have hb := List.mem_of_getElem? hn
    have ht : t ∈ sigs := st.mem _ hb
    have hle := st.le _ hb
    simp only [Buffer.size, Buffer.start, FuncType.slots, Bool.false_eq_true, if_false] at hle hk'
    have hc := call_typedStore (N := N) (sigs := sigs) (L := L) hN d l v p.toNat k (by omega) hsz
    rw [hof] at hc
    simp only [lib] at h
    rw [hc] at h
    cases h
    refine ⟨_, rfl, ok.put _ _ _, st, rfl, fun j hj hk => ?_⟩
    have := hk n _ rfl hn
    simp only [Buffer.size, Buffer.start, FuncType.slots, Bool.false_eq_true, if_false] at this
    exact Mem.put_bytes _ _ _ _ _ (by omega)

theorem reachable_inv (hN : StackNum N) (hL : 65537 ≤ L) (hs : SmallSigs sigs) {d limit : Nat} (h1 : 1 ≤ limit) (h2 : limit ≤ 65536)
    {x : List Buffer × Store Unit} (h : Reachable N sigs L (d + 5) limit x) :
    ∃ l : Lib, x.2 = l.store ∧ l.Ok ∧ Stacked sigs x.1 l.free ∧ l.mem.limit = limit := by
  induction h with
  | start => exact ⟨⟨0, ⟨1, limit, fun _ => 0⟩⟩, libStart_eq limit, ⟨Nat.zero_le _, Nat.zero_le _, h1, h2⟩, .nil, rfl⟩
  | @step op x y _ hst ih =>
    obtain ⟨l, e, ok, st, hl⟩ := ih
    obtain ⟨bs, s⟩ := x
    obtain ⟨bs', s'⟩ := y
    simp only at e; subst e
    obtain ⟨l', e', ok', st', hl', _⟩ := step_inv hN hL hs hst ok st
    exact ⟨l', e', ok', st', by rw [hl', hl]⟩

/-- **C26** (buffers). In every state the library reaches, the live buffers are pairwise disjoint and inside the memory. -/
theorem C26_buffers_disjoint_and_inside (hN : StackNum N) (hL : 65537 ≤ L) (hs : SmallSigs sigs) {d limit : Nat} (h1 : 1 ≤ limit) (h2 : limit ≤ 65536)
    {bs : List Buffer} {s : Store Unit} (h : Reachable N sigs L (d + 5) limit (bs, s)) :
    bs.Pairwise Buffer.disjoint ∧ ∀ b ∈ bs, b.start + b.size ≤ s.lib.size := by
  obtain ⟨l, e, ok, st, hl⟩ := reachable_inv hN hL hs h1 h2 h
  simp only at e st; subst e
  refine ⟨st.disjoint, fun b hb => ?_⟩
  have := st.le b hb; have := ok.free
  show _ ≤ l.mem.size
  omega

/-- **C26** (allocation). In every such state an allocation either returns a pointer, to a buffer that the previous theorem is
about, or traps: it is never stuck and never runs out of fuel. -/
theorem C26_allocation_succeeds_or_traps (hN : StackNum N) (hL : 65537 ≤ L) (hs : SmallSigs sigs) {d limit : Nat} (h1 : 1 ≤ limit) (h2 : limit ≤ 65536)
    {bs : List Buffer} {s : Store Unit} (h : Reachable N sigs L (d + 5) limit (bs, s)) {t : FuncType} (ht : t ∈ sigs)
    {args : List Val} (hargs : args.map Val.type = t.inputs) :
    ((∃ p s', lib N sigs L (d + 5) ("allocate_" ++ mangledName t) (args.map .num) s = .ok [.i32 p] s') ∨
      ∃ s', lib N sigs L (d + 5) ("allocate_" ++ mangledName t) (args.map .num) s = .trap s') ∧
    ((∃ p s', lib N sigs L (d + 5) ("allocate_types_" ++ mangledName t) [] s = .ok [.i32 p] s') ∨
      ∃ s', lib N sigs L (d + 5) ("allocate_types_" ++ mangledName t) [] s = .trap s') := by
  obtain ⟨l, e, ok, st, hl⟩ := reachable_inv hN hL hs h1 h2 h
  simp only at e st; subst e
  have hslots := hs t ht
  simp only [FuncType.slots] at hslots
  have hfree' := ok.free'
  by_cases h0 : t.results.length + t.inputs.length = 0
  · have hi : args = [] := by
      have := mapTypes hargs
      exact List.length_eq_zero_iff.1 (by omega)
    subst hi
    exact ⟨.inl ⟨_, _, call_allocate_none d ht _ h0⟩, .inl ⟨_, _, call_allocate_types_none d ht _ h0⟩⟩
  · have hA := call_allocate_values (N := N) (L := L) hN hL d ht l ok args hargs (by omega) (by omega)
    have hB := call_allocate_types (N := N) (L := L) hN hL d ht l ok (by omega) (by omega)
    constructor
    · generalize hr : libCall N (generateLib sigs) L (d + 5) ("allocate_" ++ mangledName t) (args.map .num) l.store = r at hA
      cases hA with
      | ok => exact .inl ⟨_, _, hr⟩
      | fail => exact .inr ⟨_, hr⟩
    · generalize hr : libCall N (generateLib sigs) L (d + 5) ("allocate_types_" ++ mangledName t) [] l.store = r at hB
      cases hB with
      | ok => exact .inl ⟨_, _, hr⟩
      | fail => exact .inr ⟨_, hr⟩

/-- **C26** (releasing). Releasing the newest buffer never fails. -/
theorem C26_release_succeeds (hN : StackNum N) (hL : 65537 ≤ L) (hs : SmallSigs sigs) {d limit : Nat} (h1 : 1 ≤ limit) (h2 : limit ≤ 65536)
    {b : Buffer} {bs : List Buffer} {s : Store Unit} (h : Reachable N sigs L (d + 5) limit (b :: bs, s)) :
    ∃ s', LibStep N sigs L (d + 5) .free (b :: bs, s) (bs, s') := by
  obtain ⟨l, e, ok, st, hl⟩ := reachable_inv hN hL hs h1 h2 h
  simp only at e st; subst e
  have ht := st.mem b (by simp)
  have hle := st.le b (by simp)
  obtain ⟨ty, t, p⟩ := b
  change t ∈ sigs at ht
  cases ty with
  | false =>
    simp only [Buffer.size, FuncType.slots, Bool.false_eq_true, if_false] at hle
    exact ⟨_, .free (call_free_values (N := N) (L := L) hN d ht l (.i32 p) rfl (by omega))⟩
  | true =>
    simp only [Buffer.size, FuncType.slots, if_true] at hle
    exact ⟨_, .free (call_free_types (N := N) (L := L) hN d ht l (.i32 p) rfl (by omega))⟩

/-- **C26** (capacity, for every limit of the embedder). An allocation traps only if the bytes in use and the new buffer exceed the
embedder's limit or the 65535 pages the library can count, or if an earlier allocation failed and left the memory with all of its 65536 pages
(whose byte count wraps around to 0 in the library's 32-bit arithmetic: from then on no allocation of a non-empty buffer succeeds). -/
theorem C26_trap_causes (hN : StackNum N) (hL : 65537 ≤ L) (hs : SmallSigs sigs) {d limit : Nat} (h1 : 1 ≤ limit) (h2 : limit ≤ 65536)
    {bs : List Buffer} {s s' : Store Unit} (h : Reachable N sigs L (d + 5) limit (bs, s)) {t : FuncType} (ht : t ∈ sigs)
    {args : List Val} (hargs : args.map Val.type = t.inputs) :
    (lib N sigs L (d + 5) ("allocate_" ++ mangledName t) (args.map .num) s = .trap s' →
      limit * 65536 < (bs.map Buffer.size).sum + 8 * t.slots ∨ 65535 * 65536 < (bs.map Buffer.size).sum + 8 * t.slots ∨ s.mems.map Mem.pages = [65536]) ∧
    (lib N sigs L (d + 5) ("allocate_types_" ++ mangledName t) [] s = .trap s' →
      limit * 65536 < (bs.map Buffer.size).sum + 4 * t.slots ∨ 65535 * 65536 < (bs.map Buffer.size).sum + 4 * t.slots ∨ s.mems.map Mem.pages = [65536]) := by
  obtain ⟨l, e, ok, st, hl⟩ := reachable_inv hN hL hs h1 (by omega) h
  simp only at e st; subst e
  rw [st.sum]
  have hslots := hs t ht
  simp only [FuncType.slots] at hslots ⊢
  have hfree' := ok.free'
  have hpg : l.store.mems.map Mem.pages = [l.mem.pages] := rfl
  rw [hpg]
  constructor <;> intro htrap
  · by_cases h0 : t.results.length + t.inputs.length = 0
    · have hi : args = [] := List.length_eq_zero_iff.1 (by have := mapTypes hargs; omega)
      subst hi
      rw [List.map_nil, lib, call_allocate_none d ht _ h0] at htrap
      cases htrap
    · have hA := call_allocate_values (N := N) (L := L) hN hL d ht l ok args hargs (by omega) (by omega)
      rw [show libCall N (generateLib sigs) L (d + 5) ("allocate_" ++ mangledName t) (args.map .num) l.store = _ from htrap] at hA
      cases hA with
      | fail _ _ g => rw [hl] at g; simp only [List.cons.injEq, and_true]; omega
  · by_cases h0 : t.results.length + t.inputs.length = 0
    · rw [lib, call_allocate_types_none d ht _ h0] at htrap
      cases htrap
    · have hA := call_allocate_types (N := N) (L := L) hN hL d ht l ok (by omega) (by omega)
      rw [show libCall N (generateLib sigs) L (d + 5) ("allocate_types_" ++ mangledName t) [] l.store = _ from htrap] at hA
      cases hA with
      | fail _ _ g => rw [hl] at g; simp only [List.cons.injEq, and_true]; omega

/-- **C26** (capacity). If the embedder limits the memory to less than 65536 pages, an allocation traps only if the bytes in use and the new
buffer exceed that limit. -/
theorem C26_traps_only_when_full (hN : StackNum N) (hL : 65537 ≤ L) (hs : SmallSigs sigs) {d limit : Nat} (h1 : 1 ≤ limit) (h2 : limit ≤ 65535)
    {bs : List Buffer} {s s' : Store Unit} (h : Reachable N sigs L (d + 5) limit (bs, s)) {t : FuncType} (ht : t ∈ sigs)
    {args : List Val} (hargs : args.map Val.type = t.inputs) :
    (lib N sigs L (d + 5) ("allocate_" ++ mangledName t) (args.map .num) s = .trap s' →
      limit * 65536 < (bs.map Buffer.size).sum + 8 * t.slots) ∧
    (lib N sigs L (d + 5) ("allocate_types_" ++ mangledName t) [] s = .trap s' →
      limit * 65536 < (bs.map Buffer.size).sum + 4 * t.slots) := by
  obtain ⟨l, e, ok, st, hl⟩ := reachable_inv hN hL hs h1 (by omega) h
  have hp := ok.pages
  have hm : s.mems.map Mem.pages ≠ [65536] := by
    simp only at e
    subst e
    simp only [Lib.store, List.map_cons, List.map_nil, ne_eq, List.cons.injEq, and_true]
    omega
  obtain ⟨c1, c2⟩ := C26_trap_causes hN hL hs (s' := s') h1 (by omega) h ht hargs
  refine ⟨fun ht => ?_, fun ht => ?_⟩
  · rcases c1 ht with h | h | h
    · exact h
    · exact Nat.lt_of_le_of_lt (Nat.mul_le_mul_right 65536 h2) h
    · exact absurd h hm
  · rcases c2 ht with h | h | h
    · exact h
    · exact Nat.lt_of_le_of_lt (Nat.mul_le_mul_right 65536 h2) h
    · exact absurd h hm

/-! ## C29: values survive -/

/-- Two live buffers at different positions are disjoint. -/
theorem Stacked.apart {bs : List Buffer} {f : Nat} (h : Stacked sigs bs f) {n n' : Nat} {b c : Buffer} (hn : bs[n]? = some b) (hn' : bs[n']? = some c)
    (hne : n ≠ n') : b.disjoint c := by
  have hp := List.pairwise_iff_getElem.1 h.disjoint
  obtain ⟨h1, rfl⟩ := List.getElem?_eq_some_iff.1 hn
  obtain ⟨h2, rfl⟩ := List.getElem?_eq_some_iff.1 hn'
  obtain hlt | hlt := Nat.lt_or_gt_of_ne hne
  · exact hp n n' h1 h2 hlt
  · exact (hp n' n h2 h1 hlt).symm

/-- What a live buffer of values guarantees. -/
theorem live_values {bs : List Buffer} {l : Lib} (ok : l.Ok) (st : Stacked sigs bs l.free) {t : FuncType} {p : BitVec 32} (hb : ⟨false, t, p⟩ ∈ bs) :
    t ∈ sigs ∧ p.toNat + 8 * (t.results.length + t.inputs.length) ≤ l.free ∧ p.toNat + 8 * (t.results.length + t.inputs.length) ≤ l.mem.size ∧ l.mem.size ≤ 2 ^ 32 := by
  have h1 := st.le _ hb; have h2 := ok.free
  simp only [Buffer.size, Buffer.start, FuncType.slots, Bool.false_eq_true, if_false] at h1
  exact ⟨st.mem _ hb, by omega, by omega, ok.size⟩

theorem live_load (hN : StackNum N) {d : Nat} {bs : List Buffer} {l : Lib} (ok : l.Ok) (st : Stacked sigs bs l.free) {t : FuncType} {p : BitVec 32} (hb : ⟨false, t, p⟩ ∈ bs)
    {side : Side} {i : Nat} {v : ValType} (hi : (t.side side)[i]? = some v) (hv : ∀ r, v ≠ .ref r) :
    lib N sigs L (d + 5) ("load_" ++ side.asStr ++ i.repr ++ "_" ++ mangledName t) [.i32 p] l.store =
      .ok [.num (v.ofBits (l.mem.word (p.toNat + 8 * slotOf t side i) 8))] l.store := by
  obtain ⟨ht, _, h2, h3⟩ := live_values ok st hb
  have := call_load (N := N) (L := L) hN d ht l side hi hv p.toNat h2 h3
  rwa [show BitVec.ofNat 32 p.toNat = p by simp] at this

theorem live_store (hN : StackNum N) {d : Nat} {bs : List Buffer} {l : Lib} (ok : l.Ok) (st : Stacked sigs bs l.free) {t : FuncType} {p : BitVec 32} (hb : ⟨false, t, p⟩ ∈ bs)
    {side : Side} {i : Nat} {v : Val} (hi : (t.side side)[i]? = some v.type) :
    lib N sigs L (d + 5) ("store_" ++ side.asStr ++ i.repr ++ "_" ++ mangledName t) [.i32 p, .num v] l.store =
      .ok [] (⟨l.free, l.mem.put (p.toNat + 8 * slotOf t side i) 8 v.bits⟩ : Lib).store := by
  obtain ⟨ht, _, h2, h3⟩ := live_values ok st hb
  have := call_store (N := N) (L := L) hN d ht l side hi p.toNat h2 h3
  rwa [show BitVec.ofNat 32 p.toNat = p by simp] at this

theorem Val.type_ne_ref (v : Val) (r : RefType) : v.type ≠ .ref r := by cases v <;> simp [Val.type]

/-- **C29** (round trip). A value stored into a slot of a live buffer and loaded back at the same type is unchanged. `f32` and
`f64` values are bit patterns, so this includes NaN payloads. -/
theorem C29_round_trip (hN : StackNum N) (hL : 65537 ≤ L) (hs : SmallSigs sigs) {d limit : Nat} (h1 : 1 ≤ limit) (h2 : limit ≤ 65536)
    {bs : List Buffer} {s : Store Unit} (h : Reachable N sigs L (d + 5) limit (bs, s)) {t : FuncType} {p : BitVec 32} (hb : ⟨false, t, p⟩ ∈ bs)
    {side : Side} {i : Nat} {v : Val} (hi : (t.side side)[i]? = some v.type) :
    ∃ s', lib N sigs L (d + 5) ("store_" ++ side.asStr ++ i.repr ++ "_" ++ mangledName t) [.i32 p, .num v] s = .ok [] s' ∧
      lib N sigs L (d + 5) ("load_" ++ side.asStr ++ i.repr ++ "_" ++ mangledName t) [.i32 p] s' = .ok [.num v] s' := by
  obtain ⟨l, e, ok, st, hl⟩ := reachable_inv hN hL hs h1 h2 h
  simp only at e st; subst e
  refine ⟨_, live_store hN ok st hb hi, ?_⟩
  rw [live_load hN (ok.put _ _ _) st hb hi v.type_ne_ref, Mem.put_word _ _ _ _ (bits_lt v), ofBits_bits]

theorem slotOf_inj {t : FuncType} {side side' : Side} {i j : Nat} (hi : i < (t.side side).length) (hj : j < (t.side side').length)
    (h : slotOf t side i = slotOf t side' j) : side = side' ∧ i = j := by
  cases side <;> cases side' <;> simp only [slotOf, FuncType.side, true_and, reduceCtorEq, false_and] at * <;> omega

/-- **C29** (nothing else changes). Storing into a slot changes no other slot of any live buffer: loading any other slot gives the
same value before and after. -/
theorem C29_other_slots_unchanged (hN : StackNum N) (hL : 65537 ≤ L) (hs : SmallSigs sigs) {d limit : Nat} (h1 : 1 ≤ limit) (h2 : limit ≤ 65536)
    {bs : List Buffer} {s s' : Store Unit} (h : Reachable N sigs L (d + 5) limit (bs, s)) {n : Nat} {t : FuncType} {p : BitVec 32} (hb : bs[n]? = some ⟨false, t, p⟩)
    {side : Side} {i : Nat} {v : Val} (hi : (t.side side)[i]? = some v.type)
    (hst : lib N sigs L (d + 5) ("store_" ++ side.asStr ++ i.repr ++ "_" ++ mangledName t) [.i32 p, .num v] s = .ok [] s')
    {n' : Nat} {t' : FuncType} {p' : BitVec 32} (hb' : bs[n']? = some ⟨false, t', p'⟩) {side' : Side} {j : Nat} {w : ValType}
    (hj : (t'.side side')[j]? = some w) (hw : ∀ r, w ≠ .ref r) (hne : (n, side, i) ≠ (n', side', j)) :
    ∃ x, lib N sigs L (d + 5) ("load_" ++ side'.asStr ++ j.repr ++ "_" ++ mangledName t') [.i32 p'] s = .ok [x] s ∧
      lib N sigs L (d + 5) ("load_" ++ side'.asStr ++ j.repr ++ "_" ++ mangledName t') [.i32 p'] s' = .ok [x] s' := by
  obtain ⟨l, e, ok, st, hl⟩ := reachable_inv hN hL hs h1 h2 h
  simp only at e st; subst e
  have hm := List.mem_of_getElem? hb
  have hm' := List.mem_of_getElem? hb'
  rw [live_store hN ok st hm hi] at hst
  cases hst
  refine ⟨_, live_load hN ok st hm' hj hw, ?_⟩
  rw [live_load hN (ok.put _ _ _) st hm' hj hw]
  have hi' := (List.getElem?_eq_some_iff.1 hi).1
  have hj' := (List.getElem?_eq_some_iff.1 hj).1
  have a1 := slotOf_lt hi'
  have a2 := slotOf_lt hj'
  rw [Mem.word_congr (m := l.mem)]
  intro k k1 k2
  apply Mem.put_bytes
  by_cases hnn : n = n'
  · subst hnn
    rw [hb] at hb'; cases hb'
    have : slotOf t side i ≠ slotOf t side' j := fun e => hne (by obtain ⟨rfl, rfl⟩ := slotOf_inj hi' hj' e; rfl)
    omega
  · have := st.apart hb hb' hnn
    simp only [Buffer.disjoint, Buffer.size, Buffer.start, FuncType.slots, Bool.false_eq_true, if_false] at this
    omega

/-- **C29** (arguments). The arguments given to an allocation are the ones read from the buffer. -/
theorem C29_arguments_arrive (hN : StackNum N) (hL : 65537 ≤ L) (hs : SmallSigs sigs) {d limit : Nat} (h1 : 1 ≤ limit) (h2 : limit ≤ 65536)
    {bs : List Buffer} {s s' : Store Unit} (h : Reachable N sigs L (d + 5) limit (bs, s)) {t : FuncType} (ht : t ∈ sigs)
    {args : List Val} (hargs : args.map Val.type = t.inputs) {p : BitVec 32}
    (ha : lib N sigs L (d + 5) ("allocate_" ++ mangledName t) (args.map .num) s = .ok [.i32 p] s') {i : Nat} {v : Val} (hi : args[i]? = some v) :
    lib N sigs L (d + 5) ("load_arg" ++ i.repr ++ "_" ++ mangledName t) [.i32 p] s' = .ok [.num v] s' := by
  have hname : "load_arg" ++ i.repr ++ "_" ++ mangledName t = "load_" ++ Side.arg.asStr ++ i.repr ++ "_" ++ mangledName t := by
    apply String.ext; simp [Side.asStr]
  rw [hname]
  obtain ⟨l, e, ok, st, hl⟩ := reachable_inv hN hL hs h1 h2 h
  simp only at e st; subst e
  obtain ⟨l', e', ok', st', _⟩ := step_inv hN hL hs (LibStep.allocateValues (bs := bs) ht hargs ha) ok st
  have hlen := mapTypes hargs
  have hil := (List.getElem?_eq_some_iff.1 hi).1
  have hty : (t.side .arg)[i]? = some v.type := by
    simp only [FuncType.side, ← hargs, List.getElem?_map, hi, Option.map_some]
  have hslots := hs t ht
  simp only [FuncType.slots] at hslots
  have hfree' := ok.free'
  have hA := call_allocate_values (N := N) (L := L) hN hL d ht l ok args hargs (by omega) (by omega)
  rw [show libCall N (generateLib sigs) L (d + 5) ("allocate_" ++ mangledName t) (args.map .num) l.store = _ from ha] at hA
  cases hA with
  | @ok m' g1 g2 g3 g4 =>
    have ok1 : (⟨l.free + (t.results.length + t.inputs.length) * 8, m'⟩ : Lib).Ok := ok.of g1 g4 (Nat.le_refl _) g2 (Nat.le_trans g2 (Nat.mul_le_mul_right 65536 g3))
    have hc := call_load (N := N) (L := L) hN d ht ⟨l.free + (t.results.length + t.inputs.length) * 8, m'.puts (l.free + 8 * t.results.length) 8 (args.map Val.bits)⟩ .arg hty v.type_ne_ref l.free
      (by dsimp only; rw [Mem.puts_size]; omega) (by dsimp only; rw [Mem.puts_size]; exact ok1.size)
    refine hc.trans ?_
    have hw := Mem.puts_word 8 (args.map Val.bits) m' (l.free + 8 * t.results.length) i (by simpa using hil) (by simpa using bits_lt _)
    simp only [slotOf]
    rw [show l.free + 8 * (t.results.length + i) = l.free + 8 * t.results.length + 8 * i by omega, hw]
    have : (args.map Val.bits)[i]'(by simpa using hil) = v.bits := by
      simp only [List.getElem_map]; rw [(List.getElem?_eq_some_iff.1 hi).2]
    rw [this, ofBits_bits]

/-- **C29** (results). The results stored at the end of the base computation are the ones read from the buffer. -/
theorem C29_results_arrive (hN : StackNum N) (hL : 65537 ≤ L) (hs : SmallSigs sigs) {d limit : Nat} (h1 : 1 ≤ limit) (h2 : limit ≤ 65536)
    {bs : List Buffer} {s : Store Unit} (h : Reachable N sigs L (d + 5) limit (bs, s)) {t : FuncType} {p : BitVec 32} (hb : ⟨false, t, p⟩ ∈ bs)
    {vs : List Val} (hvs : vs.map Val.type = t.results) :
    ∃ s', lib N sigs L (d + 5) ("store_rets_" ++ mangledName t) (.i32 p :: vs.map .num) s = .ok [] s' ∧
      ∀ (j : Nat) v, vs[j]? = some v → lib N sigs L (d + 5) ("load_ret" ++ j.repr ++ "_" ++ mangledName t) [.i32 p] s' = .ok [.num v] s' := by
  obtain ⟨l, e, ok, st, hl⟩ := reachable_inv hN hL hs h1 h2 h
  simp only at e st; subst e
  obtain ⟨ht, h3, h4, h5⟩ := live_values ok st hb
  have hc := call_store_rets (N := N) (L := L) hN d ht l vs hvs p.toNat h4 h5
  rw [show BitVec.ofNat 32 p.toNat = p by simp] at hc
  refine ⟨_, hc, fun j v hj => ?_⟩
  have hname : "load_ret" ++ j.repr ++ "_" ++ mangledName t = "load_" ++ Side.ret.asStr ++ j.repr ++ "_" ++ mangledName t := by
    apply String.ext; simp [Side.asStr]
  have hil := (List.getElem?_eq_some_iff.1 hj).1
  have hty : (t.side .ret)[j]? = some v.type := by
    simp only [FuncType.side, ← hvs, List.getElem?_map, hj, Option.map_some]
  rw [hname, live_load hN (ok.puts _ _ _) st hb hty v.type_ne_ref]
  have hw := Mem.puts_word 8 (vs.map Val.bits) l.mem p.toNat j (by simpa using hil) (by simpa using bits_lt _)
  simp only [slotOf]
  rw [hw]
  have : (vs.map Val.bits)[j]'(by simpa using hil) = v.bits := by
    simp only [List.getElem_map]; rw [(List.getElem?_eq_some_iff.1 hj).2]
  rw [this, ofBits_bits]

/-- **C29** (accessors of analyses). The accessors that analyses use (typed, by slot number: results first, then arguments) and those that
the instrumented module uses (by name) read and write the same slots. -/
theorem C29_accessors_agree (hN : StackNum N) (hL : 65537 ≤ L) (hs : SmallSigs sigs) {d limit : Nat} (h1 : 1 ≤ limit) (h2 : limit ≤ 65536)
    {bs : List Buffer} {s : Store Unit} (h : Reachable N sigs L (d + 5) limit (bs, s)) {t : FuncType} {p : BitVec 32} (hb : ⟨false, t, p⟩ ∈ bs)
    {side : Side} {i : Nat} {v : Val} (hi : (t.side side)[i]? = some v.type) {slot : Nat}
    (hslot : slot = match side with | .ret => i | .arg => t.results.length + i) :
    lib N sigs L (d + 5) (typedName v.type) [.i32 p, .i32 (BitVec.ofNat 32 slot)] s =
      lib N sigs L (d + 5) ("load_" ++ side.asStr ++ i.repr ++ "_" ++ mangledName t) [.i32 p] s ∧
    lib N sigs L (d + 5) (typedStoreName v.type) [.i32 p, .num v, .i32 (BitVec.ofNat 32 slot)] s =
      lib N sigs L (d + 5) ("store_" ++ side.asStr ++ i.repr ++ "_" ++ mangledName t) [.i32 p, .num v] s := by
  obtain ⟨l, e, ok, st, hl⟩ := reachable_inv hN hL hs h1 h2 h
  simp only at e st; subst e
  obtain ⟨ht, h3, h4, h5⟩ := live_values ok st hb
  have hslot' : slot = slotOf t side i := by rw [hslot]; cases side <;> rfl
  have hlt := slotOf_lt (List.getElem?_eq_some_iff.1 hi).1
  have hl := call_typedLoad (N := N) (sigs := sigs) (L := L) hN d l v.type v.type_ne_ref p.toNat slot (by omega) h5
  have hst := call_typedStore (N := N) (sigs := sigs) (L := L) hN d l v p.toNat slot (by omega) h5
  rw [show BitVec.ofNat 32 p.toNat = p by simp] at hl hst
  rw [live_load hN ok st hb hi v.type_ne_ref, live_store hN ok st hb hi]
  rw [hslot'] at hl hst ⊢
  exact ⟨hl, hst⟩

/-! ## C28: the type buffer -/

theorem live_types {bs : List Buffer} {l : Lib} (ok : l.Ok) (st : Stacked sigs bs l.free) {t : FuncType} {p : BitVec 32} (hb : ⟨true, t, p⟩ ∈ bs) :
    t ∈ sigs ∧ p.toNat + 4 * (t.results.length + t.inputs.length) ≤ l.free ∧ p.toNat + 4 * (t.results.length + t.inputs.length) ≤ l.mem.size ∧ l.mem.size ≤ 2 ^ 32 := by
  have h1 := st.le _ hb; have h2 := ok.free
  simp only [Buffer.size, Buffer.start, FuncType.slots, if_true] at h1
  exact ⟨st.mem _ hb, by omega, by omega, ok.size⟩

/-- Every live type buffer holds the codes of its signature. -/
def TypesRight (bs : List Buffer) (m : Mem) : Prop :=
  ∀ t p, (⟨true, t, p⟩ : Buffer) ∈ bs → ∀ k (h : k < (typeCodes t).length), m.word (p.toNat + 4 * k) 4 = (typeCodes t)[k]

theorem typeCodes_length (t : FuncType) : (typeCodes t).length = t.results.length + t.inputs.length := by simp [typeCodes]

theorem reachable_types (hN : StackNum N) (hL : 65537 ≤ L) (hs : SmallSigs sigs) {d limit : Nat} (h1 : 1 ≤ limit) (h2 : limit ≤ 65536)
    {x : List Buffer × Store Unit} (h : Reachable N sigs L (d + 5) limit x) : TypesRight x.1 x.2.lib := by
  induction h with
  | start => intro t p hb; simp at hb
  | @step op x y hx hst ih =>
    obtain ⟨l, e, ok, st, hl⟩ := reachable_inv hN hL hs h1 h2 hx
    obtain ⟨bs, s⟩ := x
    obtain ⟨bs', s'⟩ := y
    simp only at e st ih; subst e
    obtain ⟨l', e', ok', st', hl', hframe⟩ := step_inv hN hL hs hst ok st
    have hold : ∀ t p, (⟨true, t, p⟩ : Buffer) ∈ bs → ∀ k (h : k < (typeCodes t).length), l'.mem.word (p.toNat + 4 * k) 4 = (typeCodes t)[k] := by
      intro t p hb k hk
      rw [← ih t p hb k hk]
      obtain ⟨ht, g1, g2, g3⟩ := live_types ok st hb
      rw [typeCodes_length] at hk
      refine Mem.word_congr fun i i1 i2 => hframe i (by omega) fun n b hn hb' hin => ?_
      have hb0 : b.types = false := by
        cases hst with
        | store hn' _ _ => simp only [LibOp.target, Option.some.injEq] at hn; subst hn; rw [hn'] at hb'; cases hb'; rfl
        | storeRets hn' _ _ => simp only [LibOp.target, Option.some.injEq] at hn; subst hn; rw [hn'] at hb'; cases hb'; rfl
        | poke hn' _ _ => simp only [LibOp.target, Option.some.injEq] at hn; subst hn; rw [hn'] at hb'; cases hb'; rfl
        | _ => simp [LibOp.target] at hn
      obtain ⟨n', hn'⟩ := List.getElem?_of_mem hb
      have := st.apart hb' hn' (by rintro rfl; rw [hb'] at hn'; cases hn'; simp at hb0)
      simp only [Buffer.disjoint, Buffer.size, Buffer.start, FuncType.slots, if_true, hb0, Bool.false_eq_true, if_false] at this hin
      omega
    intro t p hb k hk
    change s'.lib.word _ _ = _
    rw [e']
    cases hst with
    | @allocateTypes t' _ _ _ p' ht' h =>
      cases hb with
      | tail _ hb => exact hold t p hb k hk
      | head =>
        rw [typeCodes_length] at hk
        have hslots := hs t ht'
        simp only [FuncType.slots] at hslots
        have hfree' := ok.free'
        have hA := call_allocate_types (N := N) (L := L) hN hL d ht' l ok (by omega) (by omega)
        rw [show libCall N (generateLib sigs) L (d + 5) ("allocate_types_" ++ mangledName t) [] l.store = _ from h] at hA
        rw [e'] at hA
        generalize hq : l'.store = q at hA
        cases hA with
        | @ok m' g1 g2 g3 g4 =>
          change (m'.puts l.free 4 (typeCodes t)).word _ _ = _
          rw [ok.freeNat]
          exact Mem.puts_word _ _ _ _ _ _ (by simp only [typeCodes, List.getElem_map]; exact runtimeEnumValue_lt _)
    | allocateValues _ _ _ =>
      cases hb with
      | tail _ hb => exact hold t p hb k hk
    | allocateValuesTrap _ _ _ => exact hold t p hb k hk
    | allocateTypesTrap _ _ => exact hold t p hb k hk
    | free _ => exact hold t p (by simp [hb]) k hk
    | freeCall _ _ => exact hold t p (by simp [hb]) k hk
    | store _ _ _ => exact hold t p hb k hk
    | storeRets _ _ _ => exact hold t p hb k hk
    | poke _ _ _ => exact hold t p hb k hk

/-- The code of a type in type buffers. -/
def typeCode : ValType → BitVec 32
  | .i32 => 0 | .f32 => 1 | .i64 => 2 | .f64 => 3
  | .ref .funcRef => 4 | .ref .externRef => 5

/-- **C28**. In every state the library reaches, reading a live type buffer at a result's number gives the code of that result's type, and
at the number of results plus a parameter's number the code of that parameter's type. -/
theorem C28_type_buffer_describes_signature (hN : StackNum N) (hL : 65537 ≤ L) (hs : SmallSigs sigs) {d limit : Nat} (h1 : 1 ≤ limit) (h2 : limit ≤ 65536)
    {bs : List Buffer} {s : Store Unit} (h : Reachable N sigs L (d + 5) limit (bs, s)) {t : FuncType} {q : BitVec 32} (hb : ⟨true, t, q⟩ ∈ bs) :
    (∀ j v, t.results[j]? = some v →
      lib N sigs L (d + 5) "wastrumentation_stack_load_type" [.i32 q, .i32 (BitVec.ofNat 32 j)] s = .ok [.i32 (typeCode v)] s) ∧
    (∀ i v, t.inputs[i]? = some v →
      lib N sigs L (d + 5) "wastrumentation_stack_load_type" [.i32 q, .i32 (BitVec.ofNat 32 (t.results.length + i))] s = .ok [.i32 (typeCode v)] s) := by
  have hty := reachable_types hN hL hs h1 h2 h
  obtain ⟨l, e, ok, st, hl⟩ := reachable_inv hN hL hs h1 h2 h
  simp only at e st hty; subst e
  obtain ⟨ht, g1, g2, g3⟩ := live_types ok st hb
  have hcode : ∀ v : ValType, BitVec.ofNat 32 v.runtimeEnumValue = typeCode v := by
    intro v
    cases v with
    | ref r => cases r <;> rfl
    | _ => rfl
  have main : ∀ k v, (t.results ++ t.inputs)[k]? = some v →
      lib N sigs L (d + 5) "wastrumentation_stack_load_type" [.i32 q, .i32 (BitVec.ofNat 32 k)] l.store = .ok [.i32 (typeCode v)] l.store := by
    intro k v hk
    obtain ⟨hlt, hv⟩ := List.getElem?_eq_some_iff.1 hk
    rw [List.length_append] at hlt
    have hc := call_loadType (N := N) (sigs := sigs) (L := L) hN d l q.toNat k (by omega) g3
    rw [show BitVec.ofNat 32 q.toNat = q by simp] at hc
    have hw := hty t q hb k (by rw [typeCodes_length]; exact hlt)
    rw [show l.store.lib = l.mem from rfl] at hw
    rw [hw] at hc
    refine hc.trans ?_
    simp only [typeCodes, List.getElem_map, hv, hcode]
  refine ⟨fun j v hj => main j v ?_, fun i v hi => main _ v ?_⟩
  · rw [List.getElem?_append_left (List.getElem?_eq_some_iff.1 hj).1, hj]
  · rw [List.getElem?_append_right (by omega), Nat.add_sub_cancel_left, hi]

end

/-! ## The hypotheses can be met -/

/-- The operators the stack library uses. -/
def libNum : Num where
  unary op v := match op, v with
    | .i32Eqz, .i32 x => some (.i32 (if x = 0 then 1 else 0))
    | .i32WrapI64, .i64 x => some (.i32 (x.setWidth 32))
    | .i64ExtendI32U, .i32 x => some (.i64 (x.setWidth 64))
    | .i32ReinterpretF32, .f32 x => some (.i32 x)
    | .i64ReinterpretF64, .f64 x => some (.i64 x)
    | .f32ReinterpretI32, .i32 x => some (.f32 x)
    | .f64ReinterpretI64, .i64 x => some (.f64 x)
    | _, _ => none
  binary op v w := match op, v, w with
    | .i32Add, .i32 x, .i32 y => some (.i32 (x + y))
    | .i32Sub, .i32 x, .i32 y => some (.i32 (x - y))
    | .i32Mul, .i32 x, .i32 y => some (.i32 (x * y))
    | .i32GtU, .i32 x, .i32 y => some (.i32 (if y.toNat < x.toNat then 1 else 0))
    | .i32Eq, .i32 x, .i32 y => some (.i32 (if x = y then 1 else 0))
    | _, _, _ => none
  unary_type := by intro op v w h; split at h <;> cases h <;> rfl
  binary_type := by intro op v v' w h; split at h <;> cases h <;> rfl
  i32Eqz _ := rfl
  i32Add _ _ := rfl

theorem libNum_stack : StackNum libNum :=
  ⟨fun _ _ => rfl, fun _ _ => rfl, fun _ _ => rfl, fun _ _ => rfl, fun _ => rfl, fun _ => rfl, fun _ => rfl, fun _ => rfl, fun _ => rfl, fun _ => rfl⟩

/-- Two signatures: `(i32, f64) -> i64` and `() -> (f32, f32)`. -/
def exSigs : List FuncType := [⟨[.i32, .f64], [.i64]⟩, ⟨[], [.f32, .f32]⟩]

theorem exSigs_small : SmallSigs exSigs := by
  intro t ht
  simp only [exSigs, List.mem_cons, List.not_mem_nil, or_false] at ht
  obtain rfl | rfl := ht <;> decide

/-- A history with two live buffers of values and one of types: what the theorems above speak about exists. -/
example : ∃ p q r s, Reachable libNum exSigs 65537 5 16
    ([⟨false, ⟨[], [.f32, .f32]⟩, r⟩, ⟨true, ⟨[.i32, .f64], [.i64]⟩, q⟩, ⟨false, ⟨[.i32, .f64], [.i64]⟩, p⟩], s) := by
  have h0 : Reachable libNum exSigs 65537 (0 + 5) 16 ([], libStart 16) := .start
  have sz : (FuncType.slots ⟨[.i32, .f64], [.i64]⟩) = 3 := rfl
  obtain ⟨⟨p, s1, e1⟩ | ⟨s1, e1⟩, _⟩ := C26_allocation_succeeds_or_traps (args := [.i32 7, .f64 9]) libNum_stack (Nat.le_refl _) exSigs_small (by decide) (by decide) h0
    (t := ⟨[.i32, .f64], [.i64]⟩) (by simp [exSigs]) rfl
  rotate_left
  · have := (C26_traps_only_when_full libNum_stack (Nat.le_refl _) exSigs_small (by decide) (by decide) h0 (by simp [exSigs]) rfl).1 e1
    simp [FuncType.slots] at this
  have r1 := Reachable.step h0 (.allocateValues (by simp [exSigs]) rfl e1)
  obtain ⟨_, ⟨q, s2, e2⟩ | ⟨s2, e2⟩⟩ := C26_allocation_succeeds_or_traps (args := [.i32 7, .f64 9]) libNum_stack (Nat.le_refl _) exSigs_small (by decide) (by decide) r1
    (t := ⟨[.i32, .f64], [.i64]⟩) (by simp [exSigs]) rfl
  · have r2 := Reachable.step r1 (.allocateTypes (by simp [exSigs]) e2)
    obtain ⟨⟨r, s3, e3⟩ | ⟨s3, e3⟩, _⟩ := C26_allocation_succeeds_or_traps (args := []) libNum_stack (Nat.le_refl _) exSigs_small (by decide) (by decide) r2
      (t := ⟨[], [.f32, .f32]⟩) (by simp [exSigs]) rfl
    · exact ⟨p, q, r, s3, .step r2 (.allocateValues (args := []) (by simp [exSigs]) rfl e3)⟩
    · have := (C26_traps_only_when_full libNum_stack (Nat.le_refl _) exSigs_small (by decide) (by decide) r2 (by simp [exSigs]) rfl).1 e3
      simp [FuncType.slots, Buffer.size] at this
  · have := (C26_traps_only_when_full (args := [.i32 7, .f64 9]) libNum_stack (Nat.le_refl _) exSigs_small (by decide) (by decide) r1 (by simp [exSigs]) rfl).2 e2
    simp [FuncType.slots, Buffer.size] at this

end Wastrum
