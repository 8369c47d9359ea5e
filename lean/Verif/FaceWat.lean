/-
The stack library in WebAssembly text implements the specification of call buffers (C52).
-/
import Verif.Face
import Verif.ApplyRun

set_option linter.unusedVariables false
set_option linter.unusedSimpArgs false

namespace Wastrum

/-- Numbers among values. -/
def numsOf : List RVal → Option (List Val)
  | [] => some []
  | .num v :: l => (numsOf l).map (v :: ·)
  | .ref .. :: _ => none

/-- The library generated as WebAssembly text, as its users see it. -/
def watFace (N : Num) (sigs : List FuncType) (L d : Nat) : Face (Store Unit) := fun name args s =>
  match libCall N (generateLib sigs) L d name (args.map .num) s with
  | .ok rs s => match numsOf rs with
    | some vs => .ok vs s
    | none => .bad
  | .trap s => .trap s
  | .stuck => .bad
  | .fuel => .bad

/-- Bytes in use: the first global of the library. -/
def Store.used (s : Store Unit) : Nat := match s.globals with
  | .num (.i32 x) :: _ => x.toNat
  | _ => 0

/-- Memory has run out for `n` bytes: with them more bytes would be in use than the limit of the memory, or the last page, allows; or the memory has
grown to 65536 pages, after which the library can count no more. -/
def watFull (n _align : Nat) (s : Store Unit) : Prop :=
  0 < n ∧ (s.lib.limit * 65536 < s.used + n ∨ 65535 * 65536 < s.used + n ∨ s.lib.pages = 65536)

/-- The invariant: buffers stacked up to the free pointer. -/
def WatInv (sigs : List FuncType) (limit : Nat) (bs : List Buffer) (s : Store Unit) : Prop := ∃ l : Lib, s = l.store ∧ l.Ok ∧ l.mem.limit = limit ∧ Stacked sigs bs l.free

theorem Lib.Ok.used {l : Lib} (ok : l.Ok) : l.store.used = l.free := ok.freeNat

section
variable {N : Num} {sigs : List FuncType} {L d limit : Nat}

theorem watFace_ok {name : String} {args vs : List Val} {s s' : Store Unit} (h : libCall N (generateLib sigs) L d name (args.map .num) s = .ok (vs.map .num) s') :
    watFace N sigs L d name args s = .ok vs s' := by
  have : ∀ vs : List Val, numsOf (vs.map .num) = some vs := by
    intro vs; induction vs with
    | nil => rfl
    | cons v vs ih => simp [numsOf, ih]
  simp only [watFace, h, this]

theorem watFace_trap {name : String} {args : List Val} {s s' : Store Unit} (h : libCall N (generateLib sigs) L d name (args.map .num) s = .trap s') :
    watFace N sigs L d name args s = .trap s' := by
  simp only [watFace, h]

theorem storeName_eq {t : FuncType} (h : t.RefFree) (s : Side) (i : Nat) : storeName t s i = "store_" ++ s.asStr ++ i.repr ++ "_" ++ mangledName t := by
  rw [show storeName t s i = (StackOp.store s i).nameFor t from rfl, generateName_eq t h]
  apply String.ext; simp [exportName, StackOp.str]

theorem Mem.put_holds (m : Mem) (a : Nat) (v : Val) : (m.put a 8 v.bits).Holds a v := by
  rw [Mem.Holds, Mem.put_word _ _ _ _ (bits_lt v), ofBits_bits]

theorem Mem.puts_holds (m : Mem) (a : Nat) (vs : List Val) {i : Nat} {v : Val} (h : vs[i]? = some v) : (m.puts a 8 (vs.map Val.bits)).Holds (a + 8 * i) v := by
  obtain ⟨hi, rfl⟩ := List.getElem?_eq_some_iff.1 h
  have := Mem.puts_word 8 (vs.map Val.bits) m a i (by simpa using hi) (by simp only [List.getElem_map]; exact bits_lt _)
  rw [Mem.Holds, this, List.getElem_map, ofBits_bits]

theorem wat_lawful (hN : StackNum N) (hL : 65537 ≤ L) (hs : SmallSigs sigs) (hr : ∀ t ∈ sigs, t.RefFree) :
    Lawful sigs (watFace N sigs L (d + 5)) Store.lib watFull (WatInv sigs limit) where
  apart := by
    rintro bs s ⟨l, rfl, ok, hlim, st⟩
    exact st.disjoint.imp fun h => .inr (.inr h)
  allocateValues := by
    rintro bs s t args ⟨l, rfl, ok, hlim, st⟩ ht hargs
    have hslots := hs t ht
    have hlen := mapTypes hargs
    simp only [FuncType.slots] at hslots
    have hfree' := ok.free'
    have hfree := ok.free
    rw [allocateValuesName_eq (hr t ht)]
    by_cases h0 : t.results.length + t.inputs.length = 0
    · have hi : args = [] := List.length_eq_zero_iff.1 (by omega)
      subst hi
      refine .inr ⟨0, l.store, watFace_ok (vs := [.i32 0]) (call_allocate_none d ht _ h0), ⟨l, rfl, ok, hlim, ?_⟩, fun _ _ _ _ _ => rfl, fun i v h => by simp at h⟩
      have := Stacked.cons (b := ⟨false, t, 0⟩) st ht (.inl ⟨by simp [Buffer.size, FuncType.slots, h0], rfl⟩)
      simpa [Buffer.size, FuncType.slots, h0] using this
    · have hA := call_allocate_values (N := N) (L := L) hN hL d ht l ok args hargs (by omega) (by omega)
      generalize hres : libCall N (generateLib sigs) L (d + 5) ("allocate_" ++ mangledName t) (args.map .num) l.store = res at hA
      cases hA with
      | @ok m' g1 g2 g3 g4 =>
        have ok1 : (⟨l.free + (t.results.length + t.inputs.length) * 8, m'⟩ : Lib).Ok := ok.of g1 g4 (Nat.le_refl _) g2 (Nat.le_trans g2 (Nat.mul_le_mul_right 65536 g3))
        refine .inr ⟨_, _, watFace_ok (vs := [.i32 _]) hres, ⟨_, rfl, ok1.puts _ _ _, by rw [(Mem.puts_pages _ _ _ _).2, g1.limit]; exact hlim, ?_⟩, fun b hb i h1 h2 => ?_, fun i v h => ?_⟩
        · have := Stacked.cons (b := ⟨false, t, BitVec.ofNat 32 l.free⟩) st ht (.inr (by simp only [Buffer.start]; exact ok.freeNat))
          simpa [Buffer.size, FuncType.slots] using this
        · have := st.le b hb
          show (m'.puts (l.free + 8 * t.results.length) 8 (args.map Val.bits)).bytes i = l.mem.bytes i
          rw [Mem.puts_bytes _ _ _ _ _ (.inl (by omega)), g1.bytes i (by omega)]
        · show (m'.puts (l.free + 8 * t.results.length) 8 (args.map Val.bits)).Holds _ v
          rw [ok.freeNat, Nat.mul_add, ← Nat.add_assoc]
          exact Mem.puts_holds _ _ _ h
      | @fail m' g1 g2 g3 =>
        refine .inl ⟨by simp only [FuncType.slots]; omega, ?_⟩
        rw [ok.used]
        show l.mem.limit * 65536 < _ ∨ _ ∨ l.mem.pages = 65536
        simp only [FuncType.slots]
        rw [Nat.mul_comm 8]; exact g3
  allocateTypes := by
    rintro bs s t ⟨l, rfl, ok, hlim, st⟩ ht
    have hslots := hs t ht
    simp only [FuncType.slots] at hslots
    have hfree' := ok.free'
    have hfree := ok.free
    rw [allocateTypesName_eq (hr t ht)]
    by_cases h0 : t.results.length + t.inputs.length = 0
    · refine .inr ⟨0, l.store, watFace_ok (args := []) (vs := [.i32 0]) (call_allocate_types_none d ht _ h0), ⟨l, rfl, ok, hlim, ?_⟩, fun _ _ _ _ _ => rfl, fun i v h => ?_⟩
      · have := Stacked.cons (b := ⟨true, t, 0⟩) st ht (.inl ⟨by simp [Buffer.size, FuncType.slots, h0], rfl⟩)
        simpa [Buffer.size, FuncType.slots, h0] using this
      · have := (List.getElem?_eq_some_iff.1 h).1
        simp only [List.length_append] at this; omega
    · have hA := call_allocate_types (N := N) (L := L) hN hL d ht l ok (by omega) (by omega)
      generalize hres : libCall N (generateLib sigs) L (d + 5) ("allocate_types_" ++ mangledName t) [] l.store = res at hA
      cases hA with
      | @ok m' g1 g2 g3 g4 =>
        have ok1 : (⟨l.free + (t.results.length + t.inputs.length) * 4, m'⟩ : Lib).Ok := ok.of g1 g4 (Nat.le_refl _) g2 (Nat.le_trans g2 (Nat.mul_le_mul_right 65536 g3))
        refine .inr ⟨_, _, watFace_ok (args := []) (vs := [.i32 _]) hres, ⟨_, rfl, ok1.puts _ _ _, by rw [(Mem.puts_pages _ _ _ _).2, g1.limit]; exact hlim, ?_⟩, fun b hb i h1 h2 => ?_, fun i v h => ?_⟩
        · have := Stacked.cons (b := ⟨true, t, BitVec.ofNat 32 l.free⟩) st ht (.inr (by simp only [Buffer.start]; exact ok.freeNat))
          simpa [Buffer.size, FuncType.slots] using this
        · have := st.le b hb
          show (m'.puts l.free 4 (typeCodes t)).bytes i = l.mem.bytes i
          rw [Mem.puts_bytes _ _ _ _ _ (.inl (by omega)), g1.bytes i (by omega)]
        · show (m'.puts l.free 4 (typeCodes t)).word _ 4 = _
          rw [ok.freeNat]
          obtain ⟨hi, rfl⟩ := List.getElem?_eq_some_iff.1 h
          have := Mem.puts_word 4 (typeCodes t) m' l.free i (by simpa [typeCodes] using hi) (by simp only [typeCodes, List.getElem_map]; exact runtimeEnumValue_lt _)
          rw [this]; simp only [typeCodes, List.getElem_map]
      | @fail m' g1 g2 g3 =>
        refine .inl ⟨by simp only [FuncType.slots]; omega, ?_⟩
        rw [ok.used]
        show l.mem.limit * 65536 < _ ∨ _ ∨ l.mem.pages = 65536
        simp only [FuncType.slots]
        rw [Nat.mul_comm 4]; exact g3
  free := by
    rintro ⟨ty, t, p⟩ bs s ⟨l, rfl, ok, hlim, st⟩
    obtain ⟨f, hf, st', ht, hb⟩ := st.inv
    change t ∈ sigs at ht
    have hfree' := ok.free'
    have hfree := ok.free
    cases ty with
    | false =>
      simp only [Buffer.size, FuncType.slots, Bool.false_eq_true, if_false] at hf
      have hc := call_free_values (N := N) (L := L) hN d ht l (.i32 p) rfl (by omega)
      simp only [Buffer.freeOp, Bool.false_eq_true, if_false, freeValuesName_eq (hr t ht)]
      refine ⟨_, watFace_ok (args := [.i32 p]) (vs := []) hc, ⟨_, rfl, ok.of (n := 0) (.refl _) ok.pages (by omega) (by omega) (by omega), hlim, ?_⟩, fun _ _ _ _ _ => rfl⟩
      rw [show l.free - (t.results.length + t.inputs.length) * 8 = f by omega]; exact st'
    | true =>
      simp only [Buffer.size, FuncType.slots, if_true] at hf
      have hc := call_free_types (N := N) (L := L) hN d ht l (.i32 p) rfl (by omega)
      simp only [Buffer.freeOp, if_true, freeTypesName_eq (hr t ht)]
      refine ⟨_, watFace_ok (args := [.i32 p]) (vs := []) hc, ⟨_, rfl, ok.of (n := 0) (.refl _) ok.pages (by omega) (by omega) (by omega), hlim, ?_⟩, fun _ _ _ _ _ => rfl⟩
      rw [show l.free - (t.results.length + t.inputs.length) * 4 = f by omega]; exact st'
  freeCall := by
    rintro t p q bs s ⟨l, rfl, ok, hlim, st⟩
    obtain ⟨f, hf, st', ht, hb⟩ := st.inv
    obtain ⟨f', hf', st'', ht', hb'⟩ := st'.inv
    change t ∈ sigs at ht
    have hfree' := ok.free'
    have hfree := ok.free
    simp only [Buffer.size, FuncType.slots, if_true, Bool.false_eq_true, if_false] at hf hf'
    have hc := call_free_values (N := N) (L := L) hN d ht l (.i32 p) rfl (by omega)
    have hc' := call_free_types (N := N) (L := L) hN d ht ⟨l.free - (t.results.length + t.inputs.length) * 8, l.mem⟩ (.i32 q) rfl (by dsimp only; omega)
    rw [freeTypesName_eq (hr t ht), freeValuesName_eq (hr t ht)]
    refine ⟨_, _, watFace_ok (args := [.i32 p]) (vs := []) hc, watFace_ok (args := [.i32 q]) (vs := []) hc',
      ⟨_, rfl, ok.of (n := 0) (.refl _) ok.pages (by dsimp only; omega) (by omega) (by omega), hlim, ?_⟩, fun _ _ _ _ _ => rfl⟩
    rw [show l.free - (t.results.length + t.inputs.length) * 8 - (t.results.length + t.inputs.length) * 4 = f' by omega]; exact st''
  store := by
    rintro bs s t p side i v ⟨l, rfl, ok, hlim, st⟩ hb hi
    have ht : t ∈ sigs := st.mem _ hb
    have hle := st.le _ hb
    have hfree := ok.free
    simp only [Buffer.size, Buffer.start, FuncType.slots, Bool.false_eq_true, if_false] at hle
    have hc := call_store (N := N) (L := L) hN d ht l side hi p.toNat (by omega) ok.size
    rw [show BitVec.ofNat 32 p.toNat = p by simp] at hc
    rw [storeName_eq (hr t ht)]
    exact ⟨_, watFace_ok (args := [.i32 p, v]) (vs := []) hc, ⟨_, rfl, ok.put _ _ _, hlim, st⟩, Mem.put_holds _ _ _, fun j hj => Mem.put_bytes _ _ _ _ _ hj⟩
  storeRets := by
    rintro bs s t p vs ⟨l, rfl, ok, hlim, st⟩ hb hvs
    have ht : t ∈ sigs := st.mem _ hb
    have hle := st.le _ hb
    have hfree := ok.free
    simp only [Buffer.size, Buffer.start, FuncType.slots, Bool.false_eq_true, if_false] at hle
    have hc := call_store_rets (N := N) (L := L) hN d ht l vs hvs p.toNat (by omega) ok.size
    rw [show BitVec.ofNat 32 p.toNat = p by simp] at hc
    rw [storeRetsName_eq (hr t ht)]
    refine ⟨_, watFace_ok (args := .i32 p :: vs) (vs := []) hc, ⟨_, rfl, ok.puts _ _ _, by rw [(Mem.puts_pages _ _ _ _).2]; exact hlim, st⟩, fun i v h => Mem.puts_holds _ _ _ h, fun j hj => Mem.puts_bytes _ _ _ _ _ ?_⟩
    rw [List.length_map, mapTypes hvs]; exact hj
  poke := by
    rintro bs s t p k v ⟨l, rfl, ok, hlim, st⟩ hb hk
    have hle := st.le _ hb
    have hfree := ok.free
    simp only [Buffer.size, Buffer.start, FuncType.slots, Bool.false_eq_true, if_false] at hle hk
    have hc := call_typedStore (N := N) (sigs := sigs) (L := L) hN d l v p.toNat k (by omega) ok.size
    rw [show BitVec.ofNat 32 p.toNat = p by simp] at hc
    exact ⟨_, watFace_ok (args := [.i32 p, v, .i32 (BitVec.ofNat 32 k)]) (vs := []) hc, ⟨_, rfl, ok.put _ _ _, hlim, st⟩, Mem.put_holds _ _ _, fun j hj => Mem.put_bytes _ _ _ _ _ hj⟩
  load := by
    rintro bs s t p side i v ⟨l, rfl, ok, hlim, st⟩ hb hi hv
    have ht : t ∈ sigs := st.mem _ hb
    have hle := st.le _ hb
    have hfree := ok.free
    simp only [Buffer.size, Buffer.start, FuncType.slots, Bool.false_eq_true, if_false] at hle
    have hc := call_load (N := N) (L := L) hN d ht l side hi hv p.toNat (by omega) ok.size
    rw [show BitVec.ofNat 32 p.toNat = p by simp] at hc
    rw [loadName_eq (hr t ht)]
    exact watFace_ok (args := [.i32 p]) (vs := [_]) hc
  peek := by
    rintro bs s t p k v ⟨l, rfl, ok, hlim, st⟩ hb hk hv
    have hle := st.le _ hb
    have hfree := ok.free
    simp only [Buffer.size, Buffer.start, FuncType.slots, Bool.false_eq_true, if_false] at hle hk
    have hc := call_typedLoad (N := N) (sigs := sigs) (L := L) hN d l v hv p.toNat k (by omega) ok.size
    rw [show BitVec.ofNat 32 p.toNat = p by simp] at hc
    exact watFace_ok (args := [.i32 p, .i32 (BitVec.ofNat 32 k)]) (vs := [_]) hc
  loadType := by
    rintro bs s t p k ⟨l, rfl, ok, hlim, st⟩ hb hk _
    have hle := st.le _ hb
    have hfree := ok.free
    simp only [Buffer.size, Buffer.start, FuncType.slots, if_true] at hle hk
    have hc := call_loadType (N := N) (sigs := sigs) (L := L) hN d l p.toNat k (by omega) ok.size
    rw [show BitVec.ofNat 32 p.toNat = p by simp] at hc
    exact watFace_ok (args := [.i32 p, .i32 (BitVec.ofNat 32 k)]) (vs := [_]) hc

theorem wat_traps (hN : StackNum N) (hL : 65537 ≤ L) (hs : SmallSigs sigs) (hr : ∀ t ∈ sigs, t.RefFree) :
    TrapsWhenFull sigs (watFace N sigs L (d + 5)) watFull (WatInv sigs limit) where
  values := by
    rintro bs s t args ⟨l, rfl, ok, hlim, st⟩ ht hargs ⟨h0, hf⟩
    have hslots := hs t ht
    simp only [FuncType.slots] at hslots h0
    have hfree' := ok.free'
    have hfree := ok.free
    rw [allocateValuesName_eq (hr t ht)]
    rw [ok.used] at hf
    change l.mem.limit * 65536 < _ ∨ _ ∨ l.mem.pages = 65536 at hf
    simp only [FuncType.slots] at hf
    have hA := call_allocate_values (N := N) (L := L) hN hL d ht l ok args hargs (by omega) (by omega)
    generalize hres : libCall N (generateLib sigs) L (d + 5) ("allocate_" ++ mangledName t) (args.map .num) l.store = res at hA
    cases hA with
    | @ok m' g1 g2 g3 g4 =>
      exfalso
      have h1 : m'.size ≤ l.mem.limit * 65536 := by rw [← g1.limit]; exact Nat.mul_le_mul_right _ g4
      have h2 : m'.size ≤ 65535 * 65536 := Nat.mul_le_mul_right _ g3
      have h3 := g1.pages
      omega
    | fail => exact ⟨_, watFace_trap hres⟩
  types := by
    rintro bs s t ⟨l, rfl, ok, hlim, st⟩ ht ⟨h0, hf⟩
    have hslots := hs t ht
    simp only [FuncType.slots] at hslots h0
    have hfree' := ok.free'
    have hfree := ok.free
    rw [allocateTypesName_eq (hr t ht)]
    rw [ok.used] at hf
    change l.mem.limit * 65536 < _ ∨ _ ∨ l.mem.pages = 65536 at hf
    simp only [FuncType.slots] at hf
    have hA := call_allocate_types (N := N) (L := L) hN hL d ht l ok (by omega) (by omega)
    generalize hres : libCall N (generateLib sigs) L (d + 5) ("allocate_types_" ++ mangledName t) [] l.store = res at hA
    cases hA with
    | @ok m' g1 g2 g3 g4 =>
      exfalso
      have h1 : m'.size ≤ l.mem.limit * 65536 := by rw [← g1.limit]; exact Nat.mul_le_mul_right _ g4
      have h2 : m'.size ≤ 65535 * 65536 := Nat.mul_le_mul_right _ g3
      have h3 := g1.pages
      omega
    | fail => exact ⟨_, watFace_trap (args := []) hres⟩

theorem wat_start (h1 : 1 ≤ limit) (h2 : limit ≤ 65536) : WatInv sigs limit [] (libStart limit) :=
  ⟨⟨0, ⟨1, limit, fun _ => 0⟩⟩, rfl, ⟨Nat.zero_le _, Nat.zero_le _, h1, h2⟩, rfl, .nil⟩

end

end Wastrum
