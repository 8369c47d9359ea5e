/-
The stack library in AssemblyScript obeys the laws of `Face` (C52).
-/
import Verif.AsExec

set_option linter.unusedVariables false
set_option linter.unusedSimpArgs false

namespace Wastrum

/-- The library generated as AssemblyScript, as its users see it. -/
def asFace (sigs : List FuncType) : Face AState := faceOf (asCall sigs)

/-- The invariant: buffers stacked up to the free pointer. -/
def AsInv (sigs : List FuncType) (base limit : Nat) (bs : List Buffer) (s : AState) : Prop := s.Ok base limit ∧ Stacked sigs bs s.free.toNat

section
variable {sigs : List FuncType} {base limit : Nat}

theorem asFace_unit {name : String} {args : List Val} {s s' : AState} (h : asCall sigs name args s = .ok .unit s') : asFace sigs name args s = .ok [] s' := by
  simp only [asFace, faceOf, h]

theorem asFace_num {name : String} {args : List Val} {s s' : AState} {v : Val} (h : asCall sigs name args s = .ok (.num v) s') : asFace sigs name args s = .ok [v] s' := by
  simp only [asFace, faceOf, h]

theorem asFace_trap {name : String} {args : List Val} {s s' : AState} (h : asCall sigs name args s = .trap s') : asFace sigs name args s = .trap s' := by
  simp only [asFace, faceOf, h]

theorem AState.Ok.wrote {s : AState} {base limit : Nat} (ok : s.Ok base limit) {m : Mem} {a : Nat} {vs : List Val} (hw : Wrote s.mem m a vs) : (⟨s.free, s.total, m⟩ : AState).Ok base limit where
  some := ok.some
  total := by dsimp only; rw [hw.pages]; exact ok.total
  free := ok.free
  pages := by dsimp only; rw [hw.pages, hw.limit]; exact ok.pages
  lim := by dsimp only; rw [hw.limit]; exact ok.lim

/-- The free pointer taken back. -/
theorem AState.Ok.back {s : AState} {base limit f : Nat} (ok : s.Ok base limit) {n : BitVec 32} (h : s.free.toNat = f + n.toNat) :
    (⟨s.free - n, s.total, s.mem⟩ : AState).Ok base limit ∧ (s.free - n).toNat = f := by
  have e : (s.free - n).toNat = f := by
    have := s.free.isLt
    rw [BitVec.toNat_sub]; omega
  refine ⟨⟨ok.some, ok.total, ?_, ok.pages, ok.lim⟩, e⟩
  dsimp only
  rw [e]
  exact Nat.le_trans (by omega) ok.free

theorem Wrote.holds_one {m : Mem} {a : Nat} (v : Val) : (m.put a v.width v.bits).Holds a v := by
  have := (Wrote.one m a v).held 0 v rfl
  rwa [show a + 8 * 0 = a from rfl] at this

theorem as_lawful (hs : SmallSigs sigs) : Lawful sigs (asFace sigs) AState.mem asFull (AsInv sigs base limit) where
  apart := by
    rintro bs s ⟨ok, st⟩
    exact st.disjoint.imp fun h => .inr (.inr h)
  allocateValues := by
    rintro bs s t args ⟨ok, st⟩ ht hargs
    by_cases hf : asFull (8 * t.slots) 8 s
    · exact .inl hf
    · obtain ⟨s', e, ok', hfree, m', g, hw⟩ := as_allocate ht hargs (hs t ht) ok hf
      have hsz := ok.size
      refine .inr ⟨_, _, asFace_num e, ⟨ok', ?_⟩, fun b hb i h1 h2 => ?_, fun i v h => ?_⟩
      · have := Stacked.cons (b := ⟨false, t, s.free⟩) st ht (.inr rfl)
        rw [hfree]
        simpa [Buffer.size, Nat.mul_comm] using this
      · have := st.le b hb
        rw [hw.out i (.inl (by omega)), g.bytes i (by omega)]
      · have := hw.held i v h
        rwa [Nat.add_assoc, ← Nat.mul_add] at this
  allocateTypes := by
    rintro bs s t ⟨ok, st⟩ ht
    by_cases hf : asFull (4 * t.slots) 4 s
    · exact .inl hf
    · obtain ⟨s', e, ok', hfree, m', g, hw⟩ := as_allocate_types ht (hs t ht) ok hf
      have hsz := ok.size
      refine .inr ⟨_, _, asFace_num e, ⟨ok', ?_⟩, fun b hb i h1 h2 => ?_, fun i v h => ?_⟩
      · have := Stacked.cons (b := ⟨true, t, s.free⟩) st ht (.inr rfl)
        rw [hfree]
        simpa [Buffer.size, Nat.mul_comm] using this
      · have := st.le b hb
        rw [hw, Mem.puts_bytes _ _ _ _ _ (.inl (by omega)), g.bytes i (by omega)]
      · rw [hw]; exact typeCodes_get h
  free := by
    rintro ⟨ty, t, p⟩ bs s ⟨ok, st⟩
    obtain ⟨f, hf, st', ht, hb⟩ := st.inv
    change t ∈ sigs at ht
    have hs' := hs t ht
    cases ty with
    | false =>
      simp only [Buffer.size, Bool.false_eq_true, if_false] at hf
      obtain ⟨ok', e⟩ := ok.back (f := f) (n := BitVec.ofNat 32 t.slots * 8) (by rw [mul8 hs']; omega)
      exact ⟨_, asFace_unit (as_free_values ht s p), ⟨ok', by dsimp only; rw [e]; exact st'⟩, fun _ _ _ _ _ => rfl⟩
    | true =>
      simp only [Buffer.size, if_true] at hf
      obtain ⟨ok', e⟩ := ok.back (f := f) (n := BitVec.ofNat 32 t.slots * 4) (by rw [mul4 hs']; omega)
      exact ⟨_, asFace_unit (as_free_types ht s p), ⟨ok', by dsimp only; rw [e]; exact st'⟩, fun _ _ _ _ _ => rfl⟩
  freeCall := by
    rintro t p q bs s ⟨ok, st⟩
    obtain ⟨f, hf, st', ht, hb⟩ := st.inv
    obtain ⟨f', hf', st'', ht', hb'⟩ := st'.inv
    change t ∈ sigs at ht
    have hs' := hs t ht
    simp only [Buffer.size, if_true, Bool.false_eq_true, if_false] at hf hf'
    obtain ⟨ok1, e1⟩ := ok.back (f := f' + 4 * t.slots) (n := BitVec.ofNat 32 t.slots * 8) (by rw [mul8 hs']; omega)
    obtain ⟨ok2, e2⟩ := ok1.back (f := f') (n := BitVec.ofNat 32 t.slots * 4) (by dsimp only; rw [mul4 hs', e1])
    exact ⟨_, _, asFace_unit (as_free_values ht s p), asFace_unit (as_free_types ht _ q), ⟨ok2, by dsimp only at e2 ⊢; rw [e2]; exact st''⟩, fun _ _ _ _ _ => rfl⟩
  store := by
    rintro bs s t p side i v ⟨ok, st⟩ hb hi
    have ht : t ∈ sigs := st.mem _ hb
    have hle := st.le _ hb
    have hsz := ok.size
    have hlt : slotOf t side i < t.slots := slotOf_lt (List.getElem?_eq_some_iff.1 hi).1
    simp only [Buffer.size, Buffer.start, Bool.false_eq_true, if_false] at hle
    have hw := Wrote.one s.mem (p.toNat + 8 * slotOf t side i) v
    exact ⟨_, asFace_unit (as_store ht hi ok.size' (by omega)), ⟨ok.wrote hw, st⟩, Wrote.holds_one v, fun j hj => hw.out j hj⟩
  storeRets := by
    rintro bs s t p vs ⟨ok, st⟩ hb hvs
    have ht : t ∈ sigs := st.mem _ hb
    have hle := st.le _ hb
    have hsz := ok.size
    simp only [Buffer.size, Buffer.start, Bool.false_eq_true, if_false] at hle
    obtain ⟨m', e, hw⟩ := as_storeRets ht hvs (p := p) ok.size' (by omega)
    exact ⟨_, asFace_unit e, ⟨ok.wrote hw, st⟩, fun i v h => hw.held i v h, fun j hj => hw.out j (by rw [mapTypes hvs]; exact hj)⟩
  poke := by
    rintro bs s t p k v ⟨ok, st⟩ hb hk
    have hle := st.le _ hb
    have hsz := ok.size
    simp only [Buffer.size, Buffer.start, Bool.false_eq_true, if_false] at hle
    have hw := Wrote.one s.mem (p.toNat + 8 * k) v
    exact ⟨_, asFace_unit (as_poke v ok.size' (by omega)), ⟨ok.wrote hw, st⟩, Wrote.holds_one v, fun j hj => hw.out j hj⟩
  load := by
    rintro bs s t p side i v ⟨ok, st⟩ hb hi hv
    have ht : t ∈ sigs := st.mem _ hb
    have hle := st.le _ hb
    have hsz := ok.size
    have hlt : slotOf t side i < t.slots := slotOf_lt (List.getElem?_eq_some_iff.1 hi).1
    simp only [Buffer.size, Buffer.start, Bool.false_eq_true, if_false] at hle
    exact asFace_num (as_load ht hi hv ok.size' (by omega))
  peek := by
    rintro bs s t p k v ⟨ok, st⟩ hb hk hv
    have hle := st.le _ hb
    have hsz := ok.size
    simp only [Buffer.size, Buffer.start, Bool.false_eq_true, if_false] at hle
    exact asFace_num (as_peek hv ok.size' (by omega))
  loadType := by
    rintro bs s t p k ⟨ok, st⟩ hb hk _
    have hle := st.le _ hb
    have hsz := ok.size
    simp only [Buffer.size, Buffer.start, if_true] at hle
    exact asFace_num (as_loadType ok.size' (by omega))

theorem as_traps (hs : SmallSigs sigs) : TrapsWhenFull sigs (asFace sigs) asFull (AsInv sigs base limit) where
  values := by
    rintro bs s t args ⟨ok, st⟩ ht hargs hf
    obtain ⟨s', e⟩ := as_allocate_trap ht hargs (hs t ht) ok hf
    exact ⟨_, asFace_trap e⟩
  types := by
    rintro bs s t ⟨ok, st⟩ ht hf
    obtain ⟨s', e⟩ := as_allocate_types_trap ht (hs t ht) ok hf
    exact ⟨_, asFace_trap e⟩

theorem as_start {pages : Nat} (h1 : 1 ≤ pages) (h2 : pages ≤ limit) (h3 : limit ≤ 65536) : AsInv sigs pages limit [] (asStart pages limit) :=
  ⟨⟨h1, Nat.zero_add _, Nat.zero_le _, h2, rfl, h3⟩, .nil⟩

end

end Wastrum
