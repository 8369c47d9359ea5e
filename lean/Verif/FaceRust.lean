/-
The stack library in Rust obeys the laws of `Face` (C52), given an allocator that keeps its contract.
-/
import Verif.RustExec

set_option linter.unusedVariables false
set_option linter.unusedSimpArgs false

namespace Wastrum

/-- The library generated as Rust, as its users see it. -/
def rustFace {α : Type} (A : Allocator α) (junk : Mem → Nat → Nat) (sigs : List FuncType) : Face (RState α) := faceOf (rustCall A junk sigs)

/-- Memory has run out: the allocator would return null. -/
def rustFull {α : Type} (A : Allocator α) (n align : Nat) (s : RState α) : Prop := (A.alloc n align s.heap s.mem).1 = 0

/-- The block of a buffer; buffers of values of the empty signature have none. -/
def Buffer.block (b : Buffer) : Option Block :=
  if b.types = false ∧ b.sig.slots = 0 then none else some ⟨b.ptr.toNat, b.size, if b.types then 4 else 8⟩

/-- The invariant: every live buffer is a block of the allocator. -/
def RustInv {α : Type} (sigs : List FuncType) (I : List Block → α → Mem → Prop) (bs : List Buffer) (s : RState α) : Prop :=
  I (bs.filterMap Buffer.block) s.heap s.mem ∧ ∀ b ∈ bs, b.sig ∈ sigs

theorem Buffer.block_cases (b : Buffer) : (b.block = none ∧ b.size = 0) ∨ ∃ x, b.block = some x ∧ x.addr = b.start ∧ x.size = b.size := by
  by_cases h : b.types = false ∧ b.sig.slots = 0
  · exact .inl ⟨by rw [Buffer.block, if_pos h], by simp [Buffer.size, h.2]⟩
  · exact .inr ⟨⟨b.ptr.toNat, b.size, if b.types then 4 else 8⟩, by rw [Buffer.block, if_neg h], rfl, rfl⟩

theorem keep_of_blocks {bs : List Buffer} {m m' : Mem}
    (h : ∀ b ∈ bs.filterMap Buffer.block, ∀ j, b.addr ≤ j → j < b.addr + b.size → m'.bytes j = m.bytes j) : Keep bs m m' := by
  intro b hb i h1 h2
  rcases b.block_cases with ⟨_, h0⟩ | ⟨x, hx, ha, hs⟩
  · omega
  · exact h x (List.mem_filterMap.2 ⟨b, hb, hx⟩) i (by omega) (by omega)

section
variable {α : Type} {A : Allocator α} {I : List Block → α → Mem → Prop} {junk : Mem → Nat → Nat} {sigs : List FuncType}

/-- Writing values into a buffer keeps the invariant. -/
theorem RustInv.wrote (hA : AllocatorOk A I) {bs : List Buffer} {s : RState α} (hi : RustInv sigs I bs s) {t : FuncType} {p : BitVec 32} (hb : (⟨false, t, p⟩ : Buffer) ∈ bs)
    {m' : Mem} {a : Nat} {vs : List Val} (hw : Wrote s.mem m' a vs) (h1 : p.toNat ≤ a) (h2 : a + 8 * vs.length ≤ p.toNat + 8 * t.slots) : RustInv sigs I bs ⟨s.heap, m'⟩ := by
  refine ⟨hA.write hi.1 hw.pages hw.limit fun j hj => ?_, hi.2⟩
  have hin : a ≤ j ∧ j < a + 8 * vs.length := by
    by_cases hin : a ≤ j ∧ j < a + 8 * vs.length
    · exact hin
    · exact absurd (hw.out j (by omega)) hj
  rcases Buffer.block_cases ⟨false, t, p⟩ with ⟨_, h0⟩ | ⟨x, hx, ha, hs⟩
  · simp only [Buffer.size, Bool.false_eq_true, if_false] at h0; omega
  · simp only [Buffer.size, Buffer.start, Bool.false_eq_true, if_false] at ha hs
    exact ⟨x, List.mem_filterMap.2 ⟨_, hb, hx⟩, by omega, by omega⟩

/-- Where a buffer of values is. -/
theorem RustInv.values (hA : AllocatorOk A I) {bs : List Buffer} {s : RState α} (hi : RustInv sigs I bs s) {t : FuncType} {p : BitVec 32} (hb : (⟨false, t, p⟩ : Buffer) ∈ bs)
    (h0 : t.slots ≠ 0) : p.toNat ≠ 0 ∧ p.toNat % 8 = 0 ∧ p.toNat + 8 * t.slots ≤ s.mem.size := by
  have hx : Buffer.block ⟨false, t, p⟩ = some ⟨p.toNat, t.slots * 8, 8⟩ := by rw [Buffer.block, if_neg (by simp [h0])]; rfl
  have := hA.block hi.1 _ (List.mem_filterMap.2 ⟨_, hb, hx⟩)
  dsimp only at this
  exact ⟨this.1, this.2.1, by omega⟩

/-- Where a buffer of types is. -/
theorem RustInv.types (hA : AllocatorOk A I) {bs : List Buffer} {s : RState α} (hi : RustInv sigs I bs s) {t : FuncType} {p : BitVec 32} (hb : (⟨true, t, p⟩ : Buffer) ∈ bs) :
    p.toNat ≠ 0 ∧ p.toNat % 4 = 0 ∧ p.toNat + 4 * t.slots ≤ s.mem.size := by
  have hx : Buffer.block ⟨true, t, p⟩ = some ⟨p.toNat, t.slots * 4, 4⟩ := by rw [Buffer.block, if_neg (by simp)]; rfl
  have := hA.block hi.1 _ (List.mem_filterMap.2 ⟨_, hb, hx⟩)
  dsimp only at this
  exact ⟨this.1, this.2.1, by omega⟩

theorem rustFace_unit {name : String} {args : List Val} {s s' : RState α} (h : rustCall A junk sigs name args s = .ok .unit s') : rustFace A junk sigs name args s = .ok [] s' := by
  simp only [rustFace, faceOf, h]

theorem rustFace_num {name : String} {args : List Val} {s s' : RState α} {v : Val} (h : rustCall A junk sigs name args s = .ok (.num v) s') :
    rustFace A junk sigs name args s = .ok [v] s' := by
  simp only [rustFace, faceOf, h]

theorem typeCodes_get {t : FuncType} {m : Mem} {p i : Nat} {v : ValType} (h : (t.results ++ t.inputs)[i]? = some v) :
    (m.puts p 4 (typeCodes t)).word (p + 4 * i) 4 = v.runtimeEnumValue := by
  obtain ⟨hi, rfl⟩ := List.getElem?_eq_some_iff.1 h
  have := Mem.puts_word 4 (typeCodes t) m p i (by simpa [typeCodes] using hi) (by simp only [typeCodes, List.getElem_map]; exact runtimeEnumValue_lt _)
  rw [this]; simp only [typeCodes, List.getElem_map]

/-- Releasing the block at the head. -/
theorem rust_release (hA : AllocatorOk A I) (hs : SmallSigs sigs) (hz : A.zero = true ∨ ∀ t ∈ sigs, t.slots ≠ 0) {b : Buffer} {bs : List Buffer} {s : RState α}
    (ht : b.sig ∈ sigs) (hI : I ((b :: bs).filterMap Buffer.block) s.heap s.mem) :
    ∃ h' m', rustFace A junk sigs b.freeOp [.i32 b.ptr] s = .ok [] ⟨h', m'⟩ ∧ I (bs.filterMap Buffer.block) h' m' ∧ Keep bs s.mem m' := by
  obtain ⟨ty, t, p⟩ := b
  have hb := hs t ht
  cases ty with
  | false =>
    by_cases h0 : t.slots = 0
    · have hx : Buffer.block ⟨false, t, p⟩ = none := by rw [Buffer.block, if_pos ⟨rfl, h0⟩]
      rw [List.filterMap_cons_none hx] at hI
      exact ⟨s.heap, s.mem, rustFace_unit (rust_free_values_none ht h0 s p), hI, fun _ _ _ _ _ => rfl⟩
    · have hx : Buffer.block ⟨false, t, p⟩ = some ⟨p.toNat, 8 * t.slots, 8⟩ := by
        rw [Buffer.block, if_neg (by simp [h0])]; simp [Buffer.size, Nat.mul_comm]
      rw [List.filterMap_cons_some hx] at hI
      obtain ⟨h1, h2⟩ := hA.dealloc (h' := (A.dealloc p.toNat (8 * t.slots) 8 s.heap s.mem).1) (m' := (A.dealloc p.toNat (8 * t.slots) 8 s.heap s.mem).2) hI rfl
      exact ⟨_, _, rustFace_unit (rust_free_values ht h0 hb rfl), h1, keep_of_blocks h2⟩
  | true =>
    have hx : Buffer.block ⟨true, t, p⟩ = some ⟨p.toNat, 4 * t.slots, 4⟩ := by
      rw [Buffer.block, if_neg (by simp)]; simp [Buffer.size, Nat.mul_comm]
    rw [List.filterMap_cons_some hx] at hI
    obtain ⟨h1, h2⟩ := hA.dealloc (h' := (A.dealloc p.toNat (4 * t.slots) 4 s.heap s.mem).1) (m' := (A.dealloc p.toNat (4 * t.slots) 4 s.heap s.mem).2) hI rfl
    exact ⟨_, _, rustFace_unit (rust_free_types ht (fun h => hz.resolve_right fun h' => h' t ht h) hb rfl), h1, keep_of_blocks h2⟩

theorem rust_lawful (hA : AllocatorOk A I) (hs : SmallSigs sigs) (hz : A.zero = true ∨ ∀ t ∈ sigs, t.slots ≠ 0) :
    Lawful sigs (rustFace A junk sigs) RState.mem (rustFull A) (RustInv sigs I) where
  apart := by
    rintro bs s ⟨hI, _⟩
    have h := hA.apart hI
    rw [List.pairwise_filterMap] at h
    refine h.imp fun {b c} h => ?_
    rcases b.block_cases with ⟨_, h0⟩ | ⟨x, hx, ha, hb⟩
    · exact .inl h0
    · rcases c.block_cases with ⟨_, h0⟩ | ⟨y, hy, ha', hb'⟩
      · exact .inr (.inl h0)
      · have := h x hx y hy
        simp only [Buffer.apart, Buffer.disjoint]; omega
  allocateValues := by
    rintro bs s t args hi ht hargs
    have hl := mapTypes hargs
    have hb := hs t ht
    by_cases h0 : t.slots = 0
    · have : args = [] := List.length_eq_zero_iff.1 (by simp only [FuncType.slots] at h0; omega)
      subst this
      refine .inr ⟨0, s, rustFace_num (rust_allocate_none ht h0 s), ⟨?_, fun b hb => ?_⟩, fun _ _ _ _ _ => rfl, fun i v h => by simp at h⟩
      · rw [List.filterMap_cons_none (by rw [Buffer.block, if_pos ⟨rfl, h0⟩])]; exact hi.1
      · cases hb with
        | head => exact ht
        | tail _ hb => exact hi.2 b hb
    · generalize hal : A.alloc (8 * t.slots) 8 s.heap s.mem = r
      obtain ⟨p, h', m'⟩ := r
      rcases hA.alloc hi.1 (fun h => absurd h (by omega)) (by simp [layoutOk]; omega) (.inr rfl) hal with hf | ⟨hI, hk⟩
      · exact .inl (by rw [rustFull, hal]; exact hf)
      · have hbk := hA.block hI _ (List.mem_cons_self ..)
        dsimp only at hbk
        obtain ⟨m'', e, hw⟩ := rust_allocate (A := A) (junk := junk) ht hargs h0 hb hal hbk.1 hbk.2.1 hbk.2.2.1 hbk.2.2.2
        have hpn : (BitVec.ofNat 32 p).toNat = p := ofNat_toNat32 hbk.2.2.1
        have hx : Buffer.block ⟨false, t, BitVec.ofNat 32 p⟩ = some ⟨p, 8 * t.slots, 8⟩ := by
          rw [Buffer.block, if_neg (by simp [h0])]; simp [Buffer.size, Nat.mul_comm, hpn]
        have hinv : RustInv sigs I (⟨false, t, BitVec.ofNat 32 p⟩ :: bs) ⟨h', m'⟩ := by
          refine ⟨by rw [List.filterMap_cons_some hx]; exact hI, fun b hb => ?_⟩
          cases hb with
          | head => exact ht
          | tail _ hb => exact hi.2 b hb
        have hap : ∀ b ∈ bs, b.size = 0 ∨ b.start + b.size ≤ p ∨ p + 8 * t.slots ≤ b.start := by
          intro b hb
          have hp := hA.apart hI
          rw [List.pairwise_cons] at hp
          rcases b.block_cases with ⟨_, h0⟩ | ⟨x, hx, ha, hb'⟩
          · exact .inl h0
          · have := hp.1 x (List.mem_filterMap.2 ⟨b, hb, hx⟩)
            dsimp only at this; omega
        refine .inr ⟨_, _, rustFace_num e, hinv.wrote hA (List.mem_cons_self ..) hw (by rw [hpn]; omega) (by rw [hpn, hl]; simp only [FuncType.slots]; omega), ?_, ?_⟩
        · intro b hb i h1 h2
          have h3 := hap b hb
          have h4 := keep_of_blocks hk b hb i h1 h2
          dsimp only
          rw [hw.out i (by simp only [FuncType.slots] at h3; omega), h4]
        · intro i v h
          rw [hpn, Nat.mul_add, ← Nat.add_assoc]
          exact hw.held i v h
  allocateTypes := by
    rintro bs s t hi ht
    have hb := hs t ht
    have hz' : t.slots = 0 → A.zero = true := fun h => hz.resolve_right fun h' => h' t ht h
    generalize hal : A.alloc (4 * t.slots) 4 s.heap s.mem = r
    obtain ⟨p, h', m'⟩ := r
    rcases hA.alloc hi.1 (fun h => hz' (by omega)) (by simp [layoutOk]; omega) (.inl rfl) hal with hf | ⟨hI, hk⟩
    · exact .inl (by rw [rustFull, hal]; exact hf)
    · have hbk := hA.block hI _ (List.mem_cons_self ..)
      dsimp only at hbk
      have e := rust_allocate_types (A := A) (junk := junk) ht hz' hb hal hbk.1 hbk.2.1 hbk.2.2.1 hbk.2.2.2
      have hpn : (BitVec.ofNat 32 p).toNat = p := ofNat_toNat32 hbk.2.2.1
      have hx : Buffer.block ⟨true, t, BitVec.ofNat 32 p⟩ = some ⟨p, 4 * t.slots, 4⟩ := by
        rw [Buffer.block, if_neg (by simp)]; simp [Buffer.size, Nat.mul_comm, hpn]
      have hcl : (typeCodes t).length = t.slots := by simp [typeCodes, FuncType.slots]
      refine .inr ⟨_, _, rustFace_num e, ⟨?_, fun b hb => ?_⟩, ?_, ?_⟩
      · rw [List.filterMap_cons_some hx]
        refine hA.write hI (Mem.puts_pages _ _ _ _).1 (Mem.puts_pages _ _ _ _).2 fun j hj => ⟨_, List.mem_cons_self .., ?_⟩
        dsimp only
        by_cases hin : p ≤ j ∧ j < p + 4 * t.slots
        · exact hin
        · exact absurd (Mem.puts_bytes 4 _ _ _ _ (by rw [hcl]; omega)) hj
      · cases hb with
        | head => exact ht
        | tail _ hb => exact hi.2 b hb
      · intro b hb i h1 h2
        have hp := hA.apart hI
        rw [List.pairwise_cons] at hp
        have h4 := keep_of_blocks hk b hb i h1 h2
        dsimp only
        rcases b.block_cases with ⟨_, h0⟩ | ⟨x, hx, ha, hb'⟩
        · omega
        · have := hp.1 x (List.mem_filterMap.2 ⟨b, hb, hx⟩)
          dsimp only at this
          rw [Mem.puts_bytes 4 _ _ _ _ (by rw [hcl]; omega), h4]
      · intro i v h
        rw [hpn]
        exact typeCodes_get h
  free := by
    rintro b bs s hi
    obtain ⟨h', m', e, hI, hk⟩ := rust_release (junk := junk) hA hs hz (hi.2 b (List.mem_cons_self ..)) hi.1
    exact ⟨_, e, ⟨hI, fun c hc => hi.2 c (List.mem_cons_of_mem _ hc)⟩, hk⟩
  freeCall := by
    rintro t p q bs s hi
    have ht : t ∈ sigs := hi.2 _ (List.mem_cons_self ..)
    have hperm : ((⟨false, t, p⟩ :: ⟨true, t, q⟩ :: bs).filterMap Buffer.block).Perm ((⟨true, t, q⟩ :: ⟨false, t, p⟩ :: bs).filterMap Buffer.block) :=
      (List.Perm.swap _ _ _).filterMap _
    obtain ⟨h1, m1, e1, hI1, hk1⟩ := rust_release (junk := junk) hA hs hz (b := ⟨false, t, p⟩) ht (hA.perm hi.1 hperm.symm)
    obtain ⟨h2, m2, e2, hI2, hk2⟩ := rust_release (junk := junk) hA hs hz (b := ⟨true, t, q⟩) (s := ⟨h1, m1⟩) ht hI1
    refine ⟨_, _, e1, e2, ⟨hI2, fun c hc => hi.2 c (List.mem_cons_of_mem _ (List.mem_cons_of_mem _ hc))⟩, fun b hb i hl hr => ?_⟩
    exact (hk2 b hb i hl hr).trans (hk1 b (List.mem_cons_of_mem _ hb) i hl hr)
  store := by
    rintro bs s t p side i v hi hb hv
    have ht : t ∈ sigs := hi.2 _ hb
    have hlt := slotOf_lt (List.getElem?_eq_some_iff.1 hv).1
    have hsm := hs t ht
    simp only [FuncType.slots] at hsm
    obtain ⟨h0, hp, hin⟩ := hi.values hA hb (by simp only [FuncType.slots]; omega)
    obtain ⟨m', e, hw⟩ := rust_store (A := A) (junk := junk) (s := s) (p := p) ht hv (by omega) (derefable_of (n := t.slots) h0 hp (by simp only [FuncType.slots]; omega) hin)
    refine ⟨_, rustFace_unit e, hi.wrote hA hb hw (by omega) (by simp only [List.length_cons, List.length_nil, FuncType.slots]; omega), hw.held 0 v rfl, fun j hj => hw.out j ?_⟩
    simpa using hj
  storeRets := by
    rintro bs s t p vs hi hb hvs
    have ht : t ∈ sigs := hi.2 _ hb
    have hl := mapTypes hvs
    have hsm := hs t ht
    obtain ⟨m', e, hw⟩ := rust_storeRets (A := A) (junk := junk) (s := s) (p := p) ht hvs (by omega) (fun h0 => hi.values hA hb h0)
    exact ⟨_, rustFace_unit e, hi.wrote hA hb hw (by omega) (by rw [hl]; simp only [FuncType.slots]; omega), hw.held, fun j hj => hw.out j (by rw [hl]; exact hj)⟩
  poke := by
    rintro bs s t p k v hi hb hk
    have ht : t ∈ sigs := hi.2 _ hb
    have hsm := hs t ht
    obtain ⟨h0, hp, hin⟩ := hi.values hA hb (by omega)
    obtain ⟨m', e, hw⟩ := rust_poke (A := A) (junk := junk) (sigs := sigs) (s := s) (p := p) (k := k) v (by omega) (derefable_of (n := t.slots) h0 hp hk hin)
    refine ⟨_, rustFace_unit e, hi.wrote hA hb hw (by omega) (by simp only [List.length_cons, List.length_nil]; omega), hw.held 0 v rfl, fun j hj => hw.out j ?_⟩
    simpa using hj
  load := by
    rintro bs s t p side i v hi hb hv hnr
    have ht : t ∈ sigs := hi.2 _ hb
    have hlt := slotOf_lt (List.getElem?_eq_some_iff.1 hv).1
    have hsm := hs t ht
    simp only [FuncType.slots] at hsm
    obtain ⟨h0, hp, hin⟩ := hi.values hA hb (by simp only [FuncType.slots]; omega)
    exact rustFace_num (rust_load ht hv hnr (by omega) (derefable_of (n := t.slots) h0 hp (by simp only [FuncType.slots]; omega) hin))
  peek := by
    rintro bs s t p k v hi hb hk hnr
    have ht : t ∈ sigs := hi.2 _ hb
    have hsm := hs t ht
    obtain ⟨h0, hp, hin⟩ := hi.values hA hb (by omega)
    exact rustFace_num (rust_peek hnr (by omega) (derefable_of (n := t.slots) h0 hp hk hin))
  loadType := by
    rintro bs s t p k hi hb hk hv
    have ht : t ∈ sigs := hi.2 _ hb
    have hsm := hs t ht
    obtain ⟨h0, hp, hin⟩ := hi.types hA hb
    exact rustFace_num (rust_loadType (by omega) (derefable_of (n := t.slots) h0 hp hk hin) hv)

end

/-! ## An allocator that keeps the contract -/

/-- An allocator that never reuses memory: its state is the first free address. Empty blocks are at address 8. -/
def bumpAllocator : Allocator Nat where
  zero := true
  alloc size _ h m := if size = 0 then (8, h, m) else if h + size + 8 ≤ m.size ∧ m.size ≤ 2 ^ 32 then (h, h + (size + 7) / 8 * 8, m) else (0, h, m)
  dealloc _ _ _ h m := (h, m)

/-- Its invariant. -/
def BumpInv (L : List Block) (h : Nat) (m : Mem) : Prop :=
  m.size ≤ 2 ^ 32 ∧ 8 ≤ m.size ∧ 8 ≤ h ∧ h % 8 = 0 ∧
    (∀ b ∈ L, b.addr ≠ 0 ∧ b.addr % 8 = 0 ∧ b.addr < 2 ^ 32 ∧ (b.align = 4 ∨ b.align = 8) ∧ b.addr + b.size ≤ m.size ∧ (b.size = 0 ∨ b.addr + b.size ≤ h)) ∧
    L.Pairwise fun b c => b.size = 0 ∨ c.size = 0 ∨ b.addr + b.size ≤ c.addr ∨ c.addr + c.size ≤ b.addr

theorem bump_ok : AllocatorOk bumpAllocator BumpInv where
  bound h := h.1
  block h b hb := by
    obtain ⟨h1, h2, h3, h4, h5, h6⟩ := h.2.2.2.2.1 b hb
    refine ⟨h1, ?_, h3, h5⟩
    rcases h4 with e | e <;> rw [e] <;> omega
  apart h := h.2.2.2.2.2
  perm {L L' h m} hi hp := by
    refine ⟨hi.1, hi.2.1, hi.2.2.1, hi.2.2.2.1, fun b hb => hi.2.2.2.2.1 b (hp.mem_iff.2 hb), hp.pairwise hi.2.2.2.2.2 fun {b c} h => ?_⟩
    omega
  write {L h m m'} hi hp _ _ := by
    have hsz : m'.size = m.size := by simp only [Mem.size, hp]
    simp only [BumpInv, hsz]; exact hi
  alloc {L h m size align p h' m'} hi _ _ ha e := by
    simp only [bumpAllocator] at e
    split at e
    · rename_i h0
      cases e
      refine .inr ⟨⟨hi.1, hi.2.1, hi.2.2.1, hi.2.2.2.1, fun b hb => ?_, .cons (fun c hc => .inl h0) hi.2.2.2.2.2⟩, fun _ _ _ _ _ => rfl⟩
      cases hb with
      | head => exact ⟨by simp, by simp, by simp, ha, by dsimp only; have := hi.2.1; omega, .inl h0⟩
      | tail _ hb => exact hi.2.2.2.2.1 b hb
    · split at e
      · rename_i hc
        cases e
        have h1 := hi.2.2.1
        have h2 := hi.2.2.2.1
        refine .inr ⟨⟨hi.1, hi.2.1, by omega, by omega, fun b hb => ?_, .cons (fun c hc => ?_) hi.2.2.2.2.2⟩, fun _ _ _ _ _ => rfl⟩
        · cases hb with
          | head => exact ⟨by dsimp only; omega, h2, by dsimp only; omega, ha, by dsimp only; omega, .inr (by dsimp only; omega)⟩
          | tail _ hb =>
            obtain ⟨g1, g2, g3, g4, g5, g6⟩ := hi.2.2.2.2.1 b hb
            exact ⟨g1, g2, g3, g4, g5, by omega⟩
        · obtain ⟨g1, g2, g3, g4, g5, g6⟩ := hi.2.2.2.2.1 c hc
          dsimp only; omega
      · cases e; exact .inl rfl
  dealloc {b L h m h' m'} hi e := by
    simp only [bumpAllocator] at e
    cases e
    refine ⟨⟨hi.1, hi.2.1, hi.2.2.1, hi.2.2.2.1, fun b hb => hi.2.2.2.2.1 b (List.mem_cons_of_mem _ hb), ?_⟩, fun _ _ _ _ _ => rfl⟩
    have := hi.2.2.2.2.2
    rw [List.pairwise_cons] at this
    exact this.2

end Wastrum
