/-
What the exported functions of the generated stack library do, in terms of words in memory. The functions are
those of `StackLib`; `StackExec` gives the shared part.
-/
import Verif.StackExec

set_option linter.unusedVariables false
set_option linter.unusedSimpArgs false

namespace Wastrum

/-- Outcome of an allocation of `n` bytes whose contents are then initialised by `init`. -/
inductive AllocatesWith (l : Lib) (n : Nat) (init : Mem → Mem) : Res Unit → Prop where
  | ok {m' : Mem} : Grows l.mem m' → l.free + n ≤ m'.size → m'.pages ≤ 65535 → m'.pages ≤ m'.limit →
      AllocatesWith l n init (.ok [.i32 (BitVec.ofNat 32 l.free)] (⟨l.free + n, init m'⟩ : Lib).store)
  | fail {m' : Mem} : Grows l.mem m' → m'.pages ≤ m'.limit →
      (l.mem.limit * 65536 < l.free + n ∨ 65535 * 65536 < l.free + n ∨ l.mem.pages = 65536) →
      AllocatesWith l n init (.trap (⟨l.free, m'⟩ : Lib).store)

section
variable {N : Num} {sigs : List FuncType} {L : Nat}

/-! ## Conversions -/

theorem setWidth_ofNat (v : BitVec 32) : v.setWidth 64 = BitVec.ofNat 64 v.toNat := by
  apply BitVec.eq_of_toNat_eq; simp

theorem run_toI64 (hN : StackNum N) (d : Nat) (x : Val) (l : List WI) (st lo : List RVal) (s : Store Unit) :
    runW N sigs L d (watToI64 x.type ++ l) ⟨.num x :: st, lo, s⟩ = runW N sigs L d l ⟨.i64 (BitVec.ofNat 64 x.bits) :: st, lo, s⟩ := by
  cases x with
  | i32 v =>
    simp only [Val.type, watToI64, List.cons_append, List.nil_append, Val.bits]
    rw [runW_un (h1 := rfl) (h := hN.extend _), setWidth_ofNat]
  | i64 v => simp [Val.type, watToI64, Val.bits, RVal.i64]
  | f32 v =>
    simp only [Val.type, watToI64, List.cons_append, List.nil_append, Val.bits]
    rw [runW_un (h1 := rfl) (h := hN.f32bits _), runW_un (h1 := rfl) (h := hN.extend _), setWidth_ofNat]
  | f64 v =>
    simp only [Val.type, watToI64, List.cons_append, List.nil_append, Val.bits]
    rw [runW_un (h1 := rfl) (h := hN.f64bits _)]; simp [RVal.i64]

theorem run_fromI64 (hN : StackNum N) (d n : Nat) (v : ValType) (hv : ∀ r, v ≠ .ref r) (l : List WI) (st lo : List RVal) (s : Store Unit) :
    runW N sigs L d (watFromI64 v ++ l) ⟨.i64 (BitVec.ofNat 64 n) :: st, lo, s⟩ = runW N sigs L d l ⟨.num (v.ofBits n) :: st, lo, s⟩ := by
  have hw : (BitVec.ofNat 64 n).setWidth 32 = BitVec.ofNat 32 n := by
    apply BitVec.eq_of_toNat_eq
    simp only [BitVec.toNat_setWidth, BitVec.toNat_ofNat]
    exact Nat.mod_mod_of_dvd _ (by decide)
  cases v with
  | i32 =>
    simp only [watFromI64, List.cons_append, List.nil_append, ValType.ofBits]
    rw [runW_un (h1 := rfl) (h := hN.wrap _), hw]
  | i64 => simp [watFromI64, ValType.ofBits, RVal.i64]
  | f32 =>
    simp only [watFromI64, List.cons_append, List.nil_append, ValType.ofBits]
    rw [runW_un (h1 := rfl) (h := hN.wrap _), runW_un (h1 := rfl) (h := hN.bitsF32 _), hw]
  | f64 =>
    simp only [watFromI64, List.cons_append, List.nil_append, ValType.ofBits]
    rw [runW_un (h1 := rfl) (h := hN.bitsF64 _)]
  | ref r => exact absurd rfl (hv r)

/-! ## Functions per number of results and arguments -/

/-- A word of eight bytes as the library passes it. -/
abbrev RVal.word (x : Nat) : RVal := .i64 (BitVec.ofNat 64 x)

theorem run_storeArguments (hN : StackNum N) (d : Nat) (r a p free : Nat) (lo : List RVal) (hp : lo[a]? = some (.i32 (BitVec.ofNat 32 p))) (rest : List WI) :
    ∀ (ys : List Nat) (k : Nat) (m : Mem), (∀ i (h : i < ys.length), lo[k + i]? = some (RVal.word ys[i])) → (∀ y ∈ ys, y < 2 ^ 64) →
      p + 8 * (r + k + ys.length) ≤ m.size → m.size ≤ 2 ^ 32 →
      runW N sigs L (d + 1) ((List.range' k ys.length).flatMap (storeArgument r a) ++ rest) ⟨[], lo, (⟨free, m⟩ : Lib).store⟩ =
        runW N sigs L (d + 1) rest ⟨[], lo, (⟨free, m.puts (p + 8 * (r + k)) 8 ys⟩ : Lib).store⟩ := by
  intro ys
  induction ys with
  | nil => intro k m _ _ _ _; simp [Mem.puts]
  | cons y ys ih =>
    intro k m hlo hy hin hsz
    simp only [List.length_cons, List.range'_succ, List.flatMap_cons, storeArgument, List.cons_append, List.nil_append]
    simp only [List.length_cons] at hin
    have h0 := hlo 0 (by simp)
    simp only [Nat.add_zero, List.getElem_cons_zero] at h0
    rw [runW_lget (h := hp), runW_lget (h := h0), runW_i32c]
    change runW N sigs L (d + 1) (.call "wastrumentation_memory_store" :: _) ⟨[.i32 (BitVec.ofNat 32 p), RVal.word y, .i32 (BitVec.ofNat 32 (r + k))].reverse ++ [], lo, _⟩ = _
    rw [runW_call_ok (g := wMemoryStore) (boilerplate_mem (by simp [boilerplate])) rfl _ _ _ _ _ _ rfl
      (call_memStore hN d ⟨free, m⟩ p (r + k) (BitVec.ofNat 64 y) (by dsimp only; omega) hsz) rfl]
    have hb : (BitVec.ofNat 64 y).toNat = y := by simpa using Nat.mod_eq_of_lt (hy y (by simp))
    simp only [hb, List.reverse_nil, List.nil_append]
    have := ih (k + 1) (m.put (p + 8 * (r + k)) 8 y) (fun i hi => by
        have := hlo (i + 1) (by simp only [List.length_cons]; omega)
        rw [show k + 1 + i = k + (i + 1) by omega, this]; simp) (fun z hz => hy z (by simp [hz])) (by rw [Mem.put_size]; omega) (by rw [Mem.put_size]; omega)
    rw [Mem.puts, show p + 8 * (r + k) + 8 = p + 8 * (r + (k + 1)) by omega]
    exact this

theorem genericAllocate_mem {t : FuncType} : genericAllocate t.results.length t.inputs.length ∈ genericFunctions t.results.length t.inputs.length := by
  simp [genericFunctions]

theorem call_genericAllocate (hN : StackNum N) (hL : 65537 ≤ L) (d : Nat) {t : FuncType} (ht : t ∈ sigs) (l : Lib) (ok : l.Ok) (xs : List Nat)
    (hx : xs.length = t.inputs.length) (hxs : ∀ x ∈ xs, x < 2 ^ 64) (h0 : 0 < t.results.length + t.inputs.length)
    (hn : l.free + (t.results.length + t.inputs.length) * 8 < 2 ^ 32) :
    AllocatesWith l ((t.results.length + t.inputs.length) * 8) (·.puts (l.free + 8 * t.results.length) 8 xs)
      (callN N sigs L (d + 4) ("allocate_" ++ countName t.results.length t.inputs.length) (xs.map RVal.word) l.store) := by
  have hA := call_allocateBy (N := N) (sigs := sigs) hN hL d l (t.results.length + t.inputs.length) false ok.pages ok.limit h0 (by simpa using hn)
  simp only [Bool.false_eq_true, if_false] at hA
  rw [callN_succ (g := genericAllocate t.results.length t.inputs.length) (generic_mem ht genericAllocate_mem) (by rw [genericAllocate]; split <;> rfl)]
  generalize hr : t.results.length = r at *
  generalize ha : t.inputs.length = a at *
  have e : genericAllocate r a = ⟨some ("allocate_" ++ countName r a), [], List.replicate a .i64, [.i32], [.i32],
    [i32c (r + a), .call "stack_allocate_values", lset a] ++ (List.range a).flatMap (storeArgument r a) ++ [lget a]⟩ := by
    rw [genericAllocate, if_neg (by omega)]
  rw [e]
  have hgm : wAllocateValues ∈ generateLib sigs := boilerplate_mem (by simp [boilerplate])
  simp only [List.map_cons, List.map_nil, List.cons_append, List.nil_append]
  generalize hres : callN N sigs L (d + 3) "stack_allocate_values" _ l.store = res at hA
  have hset : ((xs.map RVal.word) ++ [ValType.zero .i32]).set a (.i32 (BitVec.ofNat 32 l.free)) = xs.map RVal.word ++ [.i32 (BitVec.ofNat 32 l.free)] := by
    rw [List.set_append_right _ _ (by simp [hx])]
    simp [hx]
  cases hA with
  | @ok m' g1 g2 g3 g4 =>
    rw [runBody_ok (vs := [.i32 (BitVec.ofNat 32 l.free)]) (lo := xs.map RVal.word ++ [.i32 (BitVec.ofNat 32 l.free)])
      (s' := (⟨l.free + (r + a) * 8, m'.puts (l.free + 8 * r) 8 xs⟩ : Lib).store) ?_ rfl]
    · exact .ok g1 g2 g3 g4
    rw [runW_i32c]
    change runW N sigs L (d + 3) _ ⟨[.i32 (BitVec.ofNat 32 (r + a))].reverse ++ [], _, _⟩ = _
    rw [runW_call_ok hgm rfl _ _ _ _ _ _ rfl hres rfl]
    simp only [List.reverse_cons, List.reverse_nil, List.nil_append, List.cons_append, List.append_nil]
    simp only [List.map_cons, List.map_nil] at *
    rw [runW_lset _ _ _ _ _ _ _ (by simp [hx]), hset, List.range_eq_range', ← hx]
    have := run_storeArguments (N := N) (sigs := sigs) (L := L) hN (d + 2) r xs.length l.free (l.free + (r + a) * 8) (xs.map RVal.word ++ [.i32 (BitVec.ofNat 32 l.free)])
      (by simp) [lget xs.length] xs 0 m' (fun i hi => by
        rw [List.getElem?_append_left (by simpa using hi)]; simp [hi]) hxs (by omega) (by simp only [Mem.size]; omega)
    rw [Nat.add_zero, hx] at this
    rw [hx]
    rw [this, runW_lget (v := .i32 (BitVec.ofNat 32 l.free)) (h := by rw [List.getElem?_append_right (by simp [hx])]; simp [hx]), runW_nil]
    rfl
  | @fail m' g1 g2 g3 =>
    rw [runBody_trap (s' := (⟨l.free, m'⟩ : Lib).store)]
    · exact .fail g1 g2 g3
    rw [runW_i32c]
    change runW N sigs L (d + 3) _ ⟨[.i32 (BitVec.ofNat 32 (r + a))].reverse ++ [], _, _⟩ = _
    rw [runW_call_trap hgm rfl _ _ _ _ _ _ rfl hres]

/-- The slot of an argument or result: results first. -/
def slotOf (t : FuncType) : Side → Nat → Nat
  | .arg, i => t.results.length + i
  | .ret, i => i

/-- The types of one side of a signature. -/
def FuncType.side (t : FuncType) : Side → List ValType
  | .arg => t.inputs
  | .ret => t.results

theorem genericLoad_mem {t : FuncType} (side : Side) {i : Nat} (h : i < (t.side side).length) :
    genericLoad t.results.length t.inputs.length side i (slotOf t side i) ∈ genericFunctions t.results.length t.inputs.length := by
  cases side <;> simp only [genericFunctions, genericLoadStore, List.mem_append, List.mem_cons, List.mem_map, List.mem_range, slotOf, FuncType.side] at h ⊢
  · exact .inl (.inr (.inl (.inl (.inr ⟨i, h, rfl⟩))))
  · exact .inl (.inr (.inl (.inl (.inl ⟨i, h, rfl⟩))))

theorem genericStore_mem {t : FuncType} (side : Side) {i : Nat} (h : i < (t.side side).length) :
    genericStore t.results.length t.inputs.length side i (slotOf t side i) ∈ genericFunctions t.results.length t.inputs.length := by
  cases side <;> simp only [genericFunctions, genericLoadStore, List.mem_append, List.mem_cons, List.mem_map, List.mem_range, slotOf, FuncType.side] at h ⊢
  · exact .inl (.inr (.inr ⟨i, h, rfl⟩))
  · exact .inl (.inr (.inl (.inr ⟨i, h, rfl⟩)))

theorem slotOf_lt {t : FuncType} {side : Side} {i : Nat} (h : i < (t.side side).length) : slotOf t side i < t.results.length + t.inputs.length := by
  cases side <;> simp only [slotOf, FuncType.side] at * <;> omega

theorem call_genericLoad (hN : StackNum N) (d : Nat) {t : FuncType} (ht : t ∈ sigs) (l : Lib) (side : Side) {i : Nat} (hi : i < (t.side side).length) (p : Nat)
    (hin : p + 8 * (t.results.length + t.inputs.length) ≤ l.mem.size) (hsz : l.mem.size ≤ 2 ^ 32) :
    callN N sigs L (d + 2) ("load_" ++ side.asStr ++ i.repr ++ "_" ++ countName t.results.length t.inputs.length) [.i32 (BitVec.ofNat 32 p)] l.store =
      .ok [RVal.word (l.mem.word (p + 8 * slotOf t side i) 8)] l.store := by
  have hs := slotOf_lt hi
  rw [callN_succ (generic_mem ht (genericLoad_mem side hi)) rfl]
  refine runBody_ok (lo := [.i32 (BitVec.ofNat 32 p)]) ?_ rfl
  simp only [genericLoad, List.map_nil, List.append_nil]
  rw [runW_lget (h := rfl), runW_i32c]
  change runW N sigs L (d + 1) _ ⟨[.i32 (BitVec.ofNat 32 p), .i32 (BitVec.ofNat 32 _)].reverse ++ [], _, _⟩ = _
  rw [runW_call_ok (g := wMemoryLoad) (boilerplate_mem (by simp [boilerplate])) rfl _ _ _ _ _ _ rfl (call_memLoad hN d l p _ (by omega) hsz) rfl, runW_nil]
  rfl

theorem call_genericStore (hN : StackNum N) (d : Nat) {t : FuncType} (ht : t ∈ sigs) (l : Lib) (side : Side) {i : Nat} (hi : i < (t.side side).length) (p x : Nat)
    (hx : x < 2 ^ 64) (hin : p + 8 * (t.results.length + t.inputs.length) ≤ l.mem.size) (hsz : l.mem.size ≤ 2 ^ 32) :
    callN N sigs L (d + 2) ("store_" ++ side.asStr ++ i.repr ++ "_" ++ countName t.results.length t.inputs.length) [.i32 (BitVec.ofNat 32 p), RVal.word x] l.store =
      .ok [] (⟨l.free, l.mem.put (p + 8 * slotOf t side i) 8 x⟩ : Lib).store := by
  have hs := slotOf_lt hi
  rw [callN_succ (generic_mem ht (genericStore_mem side hi)) rfl]
  refine runBody_ok (lo := [.i32 (BitVec.ofNat 32 p), RVal.word x]) ?_ rfl
  simp only [genericStore, List.map_nil, List.append_nil]
  rw [runW_lget (h := rfl), runW_lget (h := rfl), runW_i32c]
  change runW N sigs L (d + 1) _ ⟨[.i32 (BitVec.ofNat 32 p), RVal.word x, .i32 (BitVec.ofNat 32 _)].reverse ++ [], _, _⟩ = _
  rw [runW_call_ok (g := wMemoryStore) (boilerplate_mem (by simp [boilerplate])) rfl _ _ _ _ _ _ rfl (call_memStore hN d l p _ _ (by omega) hsz) rfl, runW_nil]
  have hb : (BitVec.ofNat 64 x).toNat = x := by simpa using Nat.mod_eq_of_lt hx
  rw [hb]; rfl

theorem call_genericFree (hN : StackNum N) (d : Nat) {t : FuncType} (ht : t ∈ sigs) (l : Lib) (p : RVal) (hp : p.type = .i32)
    (h : (t.results.length + t.inputs.length) * 8 ≤ l.free) :
    callN N sigs L (d + 3) ("free_values_" ++ countName t.results.length t.inputs.length) [p] l.store =
      .ok [] (⟨l.free - (t.results.length + t.inputs.length) * 8, l.mem⟩ : Lib).store := by
  rw [callN_succ (g := genericFree t.results.length t.inputs.length) (generic_mem ht (by simp [genericFunctions])) (by rw [genericFree]; split <;> rfl)]
  by_cases h0 : t.results.length + t.inputs.length = 0
  · have e : ∀ r a, r + a = 0 → genericFree r a = ⟨some ("free_values_" ++ countName r a), [], [.i32], [], [], []⟩ := fun r a h => by rw [genericFree, if_pos h]
    rw [e _ _ h0]
    refine runBody_ok (lo := [p]) ?_ rfl
    rw [runW_nil, h0]; simp
  · have e : ∀ r a, r + a ≠ 0 → genericFree r a = ⟨some ("free_values_" ++ countName r a), [], [.i32], [], [],
      [lget 0, i32c (r + a), .call "stack_deallocate_values"]⟩ := fun r a h => by rw [genericFree, if_neg h]
    rw [e _ _ h0]
    refine runBody_ok (lo := [p]) ?_ rfl
    simp only [List.map_nil, List.append_nil]
    rw [runW_lget (h := rfl), runW_i32c]
    change runW N sigs L (d + 2) _ ⟨[p, .i32 (BitVec.ofNat 32 _)].reverse ++ [], _, _⟩ = _
    have hd := call_deallocateBy (N := N) (sigs := sigs) (L := L) hN d l p (t.results.length + t.inputs.length) false hp (by simpa using h)
    simp only [Bool.false_eq_true, if_false] at hd
    rw [runW_call_ok (g := wDeallocateValues) (boilerplate_mem (by simp [boilerplate])) rfl _ _ _ _ _ _
      (by simp only [wDeallocateValues, List.map_cons, List.map_nil, hp]; rfl) hd rfl, runW_nil]
    rfl

/-! ## Functions per signature -/

theorem run_pushWords (hN : StackNum N) (d : Nat) (lo : List RVal) (s : Store Unit) (rest : List WI) : ∀ (ys : List Val) (k : Nat) (st : List RVal),
    (∀ i (h : i < ys.length), lo[k + i]? = some (.num ys[i])) →
    runW N sigs L d (((ys.map Val.type).mapIdx fun i v => lget (k + i) :: watToI64 v).flatten ++ rest) ⟨st, lo, s⟩ =
      runW N sigs L d rest ⟨(ys.map fun y => RVal.word y.bits).reverse ++ st, lo, s⟩ := by
  intro ys
  induction ys with
  | nil => intro k st _; simp
  | cons y ys ih =>
    intro k st h
    have h0 := h 0 (by simp)
    simp only [Nat.add_zero, List.getElem_cons_zero] at h0
    simp only [List.map_cons, List.mapIdx_cons, List.flatten_cons, List.cons_append, Nat.add_zero, List.append_assoc]
    rw [runW_lget (h := h0), run_toI64 hN]
    have := ih (k + 1) (RVal.word y.bits :: st) (fun i hi => by
      have := h (i + 1) (by simp only [List.length_cons]; omega)
      rw [show k + 1 + i = k + (i + 1) by omega, this]; simp)
    simp only [show ∀ i, k + 1 + i = k + (i + 1) by intro i; omega] at this
    rw [this]
    simp

theorem bits_lt64 (v : Val) : v.bits < 2 ^ 64 := bits_lt v

theorem values_word_types (xs : List Nat) : (xs.map RVal.word).map RVal.type = List.replicate xs.length .i64 := by
  induction xs with
  | nil => rfl
  | cons x xs ih => simp only [List.map_cons, List.length_cons, List.replicate_succ, ih]; rfl

theorem mapTypes {args : List Val} {ts : List ValType} (h : args.map Val.type = ts) : args.length = ts.length := by
  rw [← h, List.length_map]

/-- The exported allocation of values. -/
theorem call_allocate_values (hN : StackNum N) (hL : 65537 ≤ L) (d : Nat) {t : FuncType} (ht : t ∈ sigs) (l : Lib) (ok : l.Ok) (args : List Val)
    (hargs : args.map Val.type = t.inputs) (h0 : 0 < t.results.length + t.inputs.length)
    (hn : l.free + (t.results.length + t.inputs.length) * 8 < 2 ^ 32) :
    AllocatesWith l ((t.results.length + t.inputs.length) * 8) (·.puts (l.free + 8 * t.results.length) 8 (args.map Val.bits))
      (libCall N (generateLib sigs) L (d + 5) ("allocate_" ++ mangledName t) (args.map .num) l.store) := by
  have hlen := mapTypes hargs
  rw [libCall_succ (g := specialAllocate t) (special_mem ht (by simp [specialFunctions])) (by simp [specialAllocate])]
  have hA := call_genericAllocate (N := N) (L := L) hN hL d ht l ok (args.map Val.bits) (by simp [hlen])
    (by simp only [List.mem_map]; rintro x ⟨v, _, rfl⟩; exact bits_lt64 v) h0 hn
  have hrun : ∀ rest, runW N sigs L (d + 4) ((t.inputs.mapIdx fun i v => lget i :: watToI64 v).flatten ++ rest) ⟨[], args.map .num, l.store⟩ =
      runW N sigs L (d + 4) rest ⟨((args.map Val.bits).map RVal.word).reverse ++ [], args.map .num, l.store⟩ := by
    intro rest
    have := run_pushWords (N := N) (sigs := sigs) (L := L) hN (d + 4) (args.map .num) l.store rest args 0 [] (fun i h => by simp [h])
    simp only [Nat.zero_add, hargs] at this
    rw [this, List.map_map]; rfl
  simp only [specialAllocate, List.map_nil, List.append_nil]
  generalize hres : callN N sigs L (d + 4) _ _ l.store = res at hA
  have hgm := generic_mem ht (genericAllocate_mem (t := t))
  have hid : (genericAllocate t.results.length t.inputs.length).id = some ("allocate_" ++ countName t.results.length t.inputs.length) := by rw [genericAllocate]; split <;> rfl
  have hpar : ((args.map Val.bits).map RVal.word).map RVal.type = (genericAllocate t.results.length t.inputs.length).params := by
    rw [values_word_types, genericAllocate, if_neg (by omega), List.length_map, hlen]
  cases hA with
  | @ok m' g1 g2 g3 g4 =>
    rw [runBody_ok (vs := [.i32 (BitVec.ofNat 32 l.free)]) (lo := args.map .num) (s' := (⟨l.free + (t.results.length + t.inputs.length) * 8, m'.puts (l.free + 8 * t.results.length) 8 (args.map Val.bits)⟩ : Lib).store) ?_ rfl]
    · exact .ok g1 g2 g3 g4
    simp only [List.map_nil, List.append_nil]
    rw [hrun, runW_call_ok hgm hid _ _ _ _ _ _ hpar hres (by rw [genericAllocate, if_neg (by omega)]; rfl), runW_nil]; rfl
  | @fail m' g1 g2 g3 =>
    rw [runBody_trap (s' := (⟨l.free, m'⟩ : Lib).store)]
    · exact .fail g1 g2 g3
    simp only [List.map_nil, List.append_nil]
    rw [hrun, runW_call_trap hgm hid _ _ _ _ _ _ hpar hres]

/-- Without results and parameters there is no buffer. -/
theorem call_allocate_none (d : Nat) {t : FuncType} (ht : t ∈ sigs) (s : Store Unit) (h0 : t.results.length + t.inputs.length = 0) :
    libCall N (generateLib sigs) L (d + 5) ("allocate_" ++ mangledName t) [] s = .ok [.i32 0] s := by
  rw [libCall_succ (g := specialAllocate t) (special_mem ht (by simp [specialFunctions])) (by simp [specialAllocate])]
  refine runBody_ok (lo := []) ?_ rfl
  have hi : t.inputs = [] := List.length_eq_zero_iff.1 (by omega)
  have hr : t.results = [] := List.length_eq_zero_iff.1 (by omega)
  simp only [specialAllocate, List.map_nil, List.append_nil, hi, List.mapIdx_nil, List.flatten_nil, List.nil_append]
  have hgm := generic_mem ht (genericAllocate_mem (t := t))
  have e : genericAllocate t.results.length t.inputs.length = ⟨some ("allocate_" ++ countName 0 0), [], [], [.i32], [], [i32c 0]⟩ := by
    rw [hi, hr]; rfl
  rw [e] at hgm
  rw [hr]
  change runW N sigs L (d + 4) [.call ("allocate_" ++ countName 0 0)] ⟨[].reverse ++ [], _, _⟩ = _
  rw [runW_call_ok hgm rfl _ _ _ _ _ _ rfl (vs := [.i32 0]) (s' := s) ?_ rfl, runW_nil]
  · rfl
  · rw [callN_succ hgm rfl]
    refine runBody_ok (lo := []) ?_ rfl
    simp only [List.map_nil, List.append_nil]
    rw [runW_i32c, runW_nil]; rfl

theorem specialLoad_mem' {t : FuncType} {side : Side} {i : Nat} {v : ValType} (h : (t.side side)[i]? = some v) : specialLoad t side i v ∈ specialFunctions t :=
  specialLoad_mem t side i v (by cases side <;> exact h)
theorem specialStore_mem' {t : FuncType} {side : Side} {i : Nat} {v : ValType} (h : (t.side side)[i]? = some v) : specialStore t side i v ∈ specialFunctions t :=
  specialStore_mem t side i v (by cases side <;> exact h)

/-- The exported load of one argument or result. -/
theorem call_load (hN : StackNum N) (d : Nat) {t : FuncType} (ht : t ∈ sigs) (l : Lib) (side : Side) {i : Nat} {v : ValType} (hi : (t.side side)[i]? = some v)
    (hv : ∀ r, v ≠ .ref r) (p : Nat)
    (hin : p + 8 * (t.results.length + t.inputs.length) ≤ l.mem.size) (hsz : l.mem.size ≤ 2 ^ 32) :
    libCall N (generateLib sigs) L (d + 5) ("load_" ++ side.asStr ++ i.repr ++ "_" ++ mangledName t) [.i32 (BitVec.ofNat 32 p)] l.store =
      .ok [.num (v.ofBits (l.mem.word (p + 8 * slotOf t side i) 8))] l.store := by
  have hi' := (List.getElem?_eq_some_iff.1 hi).1
  rw [libCall_succ (g := specialLoad t side i v) (special_mem ht (specialLoad_mem' hi)) (by simp [specialLoad])]
  refine runBody_ok (lo := [.i32 (BitVec.ofNat 32 p)]) ?_ rfl
  simp only [specialLoad, List.map_nil, List.append_nil, List.cons_append, List.nil_append]
  rw [runW_lget (h := rfl)]
  change runW N sigs L (d + 4) _ ⟨[.i32 (BitVec.ofNat 32 p)].reverse ++ [], _, _⟩ = _
  rw [runW_call_ok (generic_mem ht (genericLoad_mem side hi')) rfl _ _ _ _ _ _ rfl (call_genericLoad hN (d + 2) ht l side hi' p hin hsz) rfl]
  have := run_fromI64 (N := N) (sigs := sigs) (L := L) hN (d + 4) (l.mem.word (p + 8 * slotOf t side i) 8) v hv [] [] [.i32 (BitVec.ofNat 32 p)] l.store
  rw [List.append_nil] at this
  simp only [List.reverse_cons, List.reverse_nil, List.nil_append, List.cons_append]
  rw [this, runW_nil]

/-- The exported store of one argument or result. -/
theorem call_store (hN : StackNum N) (d : Nat) {t : FuncType} (ht : t ∈ sigs) (l : Lib) (side : Side) {i : Nat} {v : Val} (hi : (t.side side)[i]? = some v.type)
    (p : Nat) (hin : p + 8 * (t.results.length + t.inputs.length) ≤ l.mem.size) (hsz : l.mem.size ≤ 2 ^ 32) :
    libCall N (generateLib sigs) L (d + 5) ("store_" ++ side.asStr ++ i.repr ++ "_" ++ mangledName t) [.i32 (BitVec.ofNat 32 p), .num v] l.store =
      .ok [] (⟨l.free, l.mem.put (p + 8 * slotOf t side i) 8 v.bits⟩ : Lib).store := by
  have hi' := (List.getElem?_eq_some_iff.1 hi).1
  rw [libCall_succ (g := specialStore t side i v.type) (special_mem ht (specialStore_mem' hi)) (by simp [specialStore])]
  refine runBody_ok (lo := [.i32 (BitVec.ofNat 32 p), .num v]) ?_ rfl
  simp only [specialStore, List.map_nil, List.append_nil, List.cons_append, List.nil_append]
  rw [runW_lget (h := rfl), runW_lget (h := rfl), run_toI64 hN]
  change runW N sigs L (d + 4) _ ⟨[.i32 (BitVec.ofNat 32 p), RVal.word v.bits].reverse ++ [], _, _⟩ = _
  rw [runW_call_ok (generic_mem ht (genericStore_mem side hi')) rfl _ _ _ _ _ _ rfl (call_genericStore hN (d + 2) ht l side hi' p _ (bits_lt64 v) hin hsz) rfl, runW_nil]
  rfl

theorem run_storeResults (hN : StackNum N) (d : Nat) {t : FuncType} (ht : t ∈ sigs) (p free : Nat) (lo : List RVal) (hp : lo[0]? = some (.i32 (BitVec.ofNat 32 p))) :
    ∀ (ys : List Val) (k : Nat) (m : Mem), (∀ i (h : i < ys.length), lo[k + i + 1]? = some (.num ys[i])) → k + ys.length ≤ t.results.length →
      p + 8 * (t.results.length + t.inputs.length) ≤ m.size → m.size ≤ 2 ^ 32 →
      runW N sigs L (d + 2) (((ys.map Val.type).mapIdx fun i v => storeResult t (k + i) v).flatten) ⟨[], lo, (⟨free, m⟩ : Lib).store⟩ =
        .norm ⟨[], lo, (⟨free, m.puts (p + 8 * k) 8 (ys.map Val.bits)⟩ : Lib).store⟩ := by
  intro ys
  induction ys with
  | nil => intro k m _ _ _ _; simp [runW_nil, Mem.puts]
  | cons y ys ih =>
    intro k m hlo hk hin hsz
    simp only [List.length_cons] at hk
    have h0 := hlo 0 (by simp)
    simp only [Nat.add_zero, List.getElem_cons_zero] at h0
    simp only [List.map_cons, List.mapIdx_cons, List.flatten_cons, List.cons_append, List.nil_append, Nat.add_zero, List.append_assoc, storeResult]
    rw [runW_lget (h := hp), runW_lget (h := h0), run_toI64 hN]
    change runW N sigs L (d + 2) _ ⟨[.i32 (BitVec.ofNat 32 p), RVal.word y.bits].reverse ++ [], _, _⟩ = _
    have hi' : k < (t.side .ret).length := by simp only [FuncType.side]; omega
    have hc := call_genericStore (N := N) (L := L) hN d ht ⟨free, m⟩ .ret hi' p y.bits (bits_lt64 y) hin hsz
    rw [show "store_" ++ Side.ret.asStr ++ k.repr ++ "_" ++ countName t.results.length t.inputs.length = "store_ret" ++ k.repr ++ "_" ++ countName t.results.length t.inputs.length by
      apply String.ext; simp [Side.asStr]] at hc
    rw [runW_call_ok (generic_mem ht (genericStore_mem .ret hi')) (by simp only [genericStore]; congr 1) _ _ _ _ _ _ rfl hc rfl]
    have := ih (k + 1) (m.put (p + 8 * k) 8 y.bits) (fun i hi => by
        have := hlo (i + 1) (by simp only [List.length_cons]; omega)
        rw [show k + 1 + i = k + (i + 1) by omega, this]; simp) (by omega) (by rw [Mem.put_size]; omega) (by rw [Mem.put_size]; omega)
    rw [Mem.puts, show p + 8 * k + 8 = p + 8 * (k + 1) by omega]
    simp only [storeResult, List.cons_append, List.nil_append, show ∀ i, k + 1 + i = k + (i + 1) by intro i; omega, List.reverse_nil, slotOf] at this ⊢
    exact this

/-- The exported store of all results. -/
theorem call_store_rets (hN : StackNum N) (d : Nat) {t : FuncType} (ht : t ∈ sigs) (l : Lib) (vs : List Val) (hvs : vs.map Val.type = t.results)
    (p : Nat) (hin : p + 8 * (t.results.length + t.inputs.length) ≤ l.mem.size) (hsz : l.mem.size ≤ 2 ^ 32) :
    libCall N (generateLib sigs) L (d + 5) ("store_rets_" ++ mangledName t) (.i32 (BitVec.ofNat 32 p) :: vs.map .num) l.store =
      .ok [] (⟨l.free, l.mem.puts p 8 (vs.map Val.bits)⟩ : Lib).store := by
  rw [libCall_succ (g := specialStoreRets t) (special_mem ht (by simp [specialFunctions])) (by simp [specialStoreRets])]
  refine runBody_ok (lo := .i32 (BitVec.ofNat 32 p) :: vs.map .num) ?_ rfl
  simp only [specialStoreRets, List.map_nil, List.append_nil]
  have := run_storeResults (N := N) (L := L) hN (d + 2) ht p l.free (.i32 (BitVec.ofNat 32 p) :: vs.map .num) rfl vs 0 l.mem
    (fun i h => by simp [h]) (by rw [mapTypes hvs]; omega) hin hsz
  simp only [Nat.zero_add, hvs, Nat.mul_zero, Nat.add_zero] at this
  exact this

/-- The exported release of values. -/
theorem call_free_values (hN : StackNum N) (d : Nat) {t : FuncType} (ht : t ∈ sigs) (l : Lib) (p : RVal) (hp : p.type = .i32)
    (h : (t.results.length + t.inputs.length) * 8 ≤ l.free) :
    libCall N (generateLib sigs) L (d + 5) ("free_values_" ++ mangledName t) [p] l.store =
      .ok [] (⟨l.free - (t.results.length + t.inputs.length) * 8, l.mem⟩ : Lib).store := by
  rw [libCall_succ (g := specialFree t) (special_mem ht (by simp [specialFunctions])) (by simp [specialFree])]
  refine runBody_ok (lo := [p]) ?_ rfl
  simp only [specialFree, List.map_nil, List.append_nil]
  rw [runW_lget (h := rfl)]
  change runW N sigs L (d + 4) _ ⟨[p].reverse ++ [], _, _⟩ = _
  have hgf : ∀ r a, (genericFree r a).params = [.i32] ∧ (genericFree r a).results = [] ∧ (genericFree r a).id = some ("free_values_" ++ countName r a) := by
    intro r a; rw [genericFree]; split <;> exact ⟨rfl, rfl, rfl⟩
  rw [runW_call_ok (g := genericFree t.results.length t.inputs.length) (generic_mem ht (by simp [genericFunctions])) (hgf _ _).2.2 _ _ _ _ _ _
    (by rw [(hgf _ _).1, List.map_cons, hp]; rfl) (call_genericFree hN (d + 1) ht l p hp h) (by rw [(hgf _ _).2.1]; rfl), runW_nil]
  rfl

/-- The type codes in the order of the buffer: results first. -/
def typeCodes (t : FuncType) : List Nat := (t.results ++ t.inputs).map ValType.runtimeEnumValue

theorem runtimeEnumValue_lt (v : ValType) : v.runtimeEnumValue < 256 ^ 4 := by
  cases v with
  | ref r => cases r <;> decide
  | _ => decide

theorem run_typeStores (hN : StackNum N) (d p free : Nat) (lo : List RVal) (hp : lo[0]? = some (.i32 (BitVec.ofNat 32 p))) (rest : List WI) :
    ∀ (ts : List ValType) (k : Nat) (m : Mem), p + 4 * (k + ts.length) ≤ m.size → m.size ≤ 2 ^ 32 →
      runW N sigs L (d + 1) ((ts.mapIdx fun i v => storeTypeAt (k + i) v).flatten ++ rest) ⟨[], lo, (⟨free, m⟩ : Lib).store⟩ =
        runW N sigs L (d + 1) rest ⟨[], lo, (⟨free, m.puts (p + 4 * k) 4 (ts.map ValType.runtimeEnumValue)⟩ : Lib).store⟩ := by
  intro ts
  induction ts with
  | nil => intro k m _ _; simp [Mem.puts]
  | cons v ts ih =>
    intro k m hin hsz
    simp only [List.length_cons] at hin
    simp only [List.map_cons, List.mapIdx_cons, List.flatten_cons, List.cons_append, List.nil_append, Nat.add_zero, List.append_assoc, storeTypeAt]
    rw [runW_lget (h := hp), runW_i32c, runW_i32c]
    change runW N sigs L (d + 1) _ ⟨[.i32 (BitVec.ofNat 32 p), .i32 (BitVec.ofNat 32 k), .i32 (BitVec.ofNat 32 v.runtimeEnumValue)].reverse ++ [], _, _⟩ = _
    rw [runW_call_ok (g := wStoreType) (boilerplate_mem (by simp [boilerplate])) rfl _ _ _ _ _ _ rfl
      (call_storeType hN d ⟨free, m⟩ p k _ (runtimeEnumValue_lt v) (by dsimp only; omega) hsz) rfl]
    have := ih (k + 1) (m.put (p + 4 * k) 4 v.runtimeEnumValue) (by rw [Mem.put_size]; omega) (by rw [Mem.put_size]; omega)
    rw [Mem.puts, show p + 4 * k + 4 = p + 4 * (k + 1) by omega]
    simp only [storeTypeAt, List.cons_append, List.nil_append, show ∀ i, k + 1 + i = k + (i + 1) by intro i; omega, List.reverse_nil] at this ⊢
    exact this

theorem Mem.puts_append (w : Nat) : ∀ (xs ys : List Nat) (m : Mem) (a : Nat), m.puts a w (xs ++ ys) = (m.puts a w xs).puts (a + w * xs.length) w ys := by
  intro xs
  induction xs with
  | nil => intro ys m a; simp [Mem.puts]
  | cons x xs ih =>
    intro ys m a
    simp only [List.cons_append, Mem.puts, ih, List.length_cons, Nat.mul_succ]
    congr 1; omega

/-- The exported allocation of types. -/
theorem call_allocate_types (hN : StackNum N) (hL : 65537 ≤ L) (d : Nat) {t : FuncType} (ht : t ∈ sigs) (l : Lib) (ok : l.Ok)
    (h0 : 0 < t.results.length + t.inputs.length) (hn : l.free + (t.results.length + t.inputs.length) * 4 < 2 ^ 32) :
    AllocatesWith l ((t.results.length + t.inputs.length) * 4) (·.puts l.free 4 (typeCodes t))
      (libCall N (generateLib sigs) L (d + 5) ("allocate_types_" ++ mangledName t) [] l.store) := by
  have hA := call_allocateBy (N := N) (sigs := sigs) hN hL (d + 1) l (t.results.length + t.inputs.length) true ok.pages ok.limit h0 (by simpa using hn)
  simp only [if_true] at hA
  have hmem : (⟨none, ["allocate_types_" ++ mangledName t], [], [.i32], [.i32],
      [i32c (t.results.length + t.inputs.length), .call "stack_allocate_types", lset 0] ++ typeStores t ++ [lget 0]⟩ : WatFunc) ∈ specialFunctions t := by
    simp [specialFunctions, specialTypes, h0]
  rw [libCall_succ (special_mem ht hmem) (by simp)]
  have hgm : wAllocateTypes ∈ generateLib sigs := boilerplate_mem (by simp [boilerplate])
  simp only [List.map_cons, List.map_nil, List.cons_append, List.nil_append]
  generalize hres : callN N sigs L (d + 1 + 3) "stack_allocate_types" _ l.store = res at hA
  cases hA with
  | @ok m' g1 g2 g3 g4 =>
    rw [runBody_ok (vs := [.i32 (BitVec.ofNat 32 l.free)]) (lo := [.i32 (BitVec.ofNat 32 l.free)])
      (s' := (⟨l.free + (t.results.length + t.inputs.length) * 4, m'.puts l.free 4 (typeCodes t)⟩ : Lib).store) ?_ rfl]
    · exact .ok g1 g2 g3 g4
    rw [runW_i32c]
    change runW N sigs L (d + 4) _ ⟨[.i32 (BitVec.ofNat 32 _)].reverse ++ [], _, _⟩ = _
    rw [runW_call_ok hgm rfl _ _ _ _ _ _ rfl hres rfl]
    simp only [List.reverse_cons, List.reverse_nil, List.nil_append, List.cons_append, List.append_nil]
    rw [runW_lset _ _ _ _ _ _ _ (by simp)]
    simp only [List.map_nil, List.map_cons, List.set_cons_zero, typeStores, List.append_assoc]
    have hs : m'.size ≤ 2 ^ 32 := by simp only [Mem.size]; omega
    have h1 := run_typeStores (N := N) (sigs := sigs) (L := L) hN (d + 3) l.free (l.free + (t.results.length + t.inputs.length) * 4) [.i32 (BitVec.ofNat 32 l.free)] rfl
      ((t.inputs.mapIdx fun i v => storeTypeAt (t.results.length + i) v).flatten ++ [lget 0]) t.results 0 m' (by omega) hs
    simp only [Nat.zero_add, Nat.mul_zero, Nat.add_zero] at h1
    have h2 := run_typeStores (N := N) (sigs := sigs) (L := L) hN (d + 3) l.free (l.free + (t.results.length + t.inputs.length) * 4) [.i32 (BitVec.ofNat 32 l.free)] rfl
      [lget 0] t.inputs t.results.length (m'.puts l.free 4 (t.results.map ValType.runtimeEnumValue)) (by rw [Mem.puts_size]; omega) (by rw [Mem.puts_size]; omega)
    rw [h1, h2, runW_lget (h := rfl), runW_nil, typeCodes, List.map_append, Mem.puts_append, List.length_map]
  | @fail m' g1 g2 g3 =>
    rw [runBody_trap (s' := (⟨l.free, m'⟩ : Lib).store)]
    · exact .fail g1 g2 g3
    rw [runW_i32c]
    change runW N sigs L (d + 4) _ ⟨[.i32 (BitVec.ofNat 32 _)].reverse ++ [], _, _⟩ = _
    rw [runW_call_trap hgm rfl _ _ _ _ _ _ rfl hres]

theorem call_allocate_types_none (d : Nat) {t : FuncType} (ht : t ∈ sigs) (s : Store Unit) (h0 : t.results.length + t.inputs.length = 0) :
    libCall N (generateLib sigs) L (d + 5) ("allocate_types_" ++ mangledName t) [] s = .ok [.i32 0] s := by
  have hmem : (⟨none, ["allocate_types_" ++ mangledName t], [], [.i32], [], [i32c 0]⟩ : WatFunc) ∈ specialFunctions t := by
    simp [specialFunctions, specialTypes, h0]
  rw [libCall_succ (special_mem ht hmem) (by simp)]
  refine runBody_ok (lo := []) ?_ rfl
  simp only [List.map_nil, List.append_nil]
  rw [runW_i32c, runW_nil]; rfl

/-- The exported release of types. -/
theorem call_free_types (hN : StackNum N) (d : Nat) {t : FuncType} (ht : t ∈ sigs) (l : Lib) (p : RVal) (hp : p.type = .i32)
    (h : (t.results.length + t.inputs.length) * 4 ≤ l.free) :
    libCall N (generateLib sigs) L (d + 5) ("free_types_" ++ mangledName t) [p] l.store =
      .ok [] (⟨l.free - (t.results.length + t.inputs.length) * 4, l.mem⟩ : Lib).store := by
  by_cases h0 : t.results.length + t.inputs.length = 0
  · have hmem : (⟨none, ["free_types_" ++ mangledName t], [.i32], [], [], []⟩ : WatFunc) ∈ specialFunctions t := by
      simp [specialFunctions, specialTypes, h0]
    rw [libCall_succ (special_mem ht hmem) (by simp)]
    refine runBody_ok (lo := [p]) ?_ rfl
    rw [runW_nil, h0]; simp
  · have h0' : 0 < t.results.length + t.inputs.length := by omega
    have hmem : (⟨none, ["free_types_" ++ mangledName t], [.i32], [], [], [lget 0, i32c (t.results.length + t.inputs.length), .call "stack_deallocate_types"]⟩ : WatFunc) ∈ specialFunctions t := by
      simp [specialFunctions, specialTypes, h0']
    rw [libCall_succ (special_mem ht hmem) (by simp)]
    refine runBody_ok (lo := [p]) ?_ rfl
    simp only [List.map_nil, List.append_nil]
    rw [runW_lget (h := rfl), runW_i32c]
    change runW N sigs L (d + 4) _ ⟨[p, .i32 (BitVec.ofNat 32 _)].reverse ++ [], _, _⟩ = _
    have hd := call_deallocateBy (N := N) (sigs := sigs) (L := L) hN (d + 2) l p (t.results.length + t.inputs.length) true hp (by simpa using h)
    simp only [if_true] at hd
    rw [runW_call_ok (g := wDeallocateTypes) (boilerplate_mem (by simp [boilerplate])) rfl _ _ _ _ _ _
      (by simp only [wDeallocateTypes, List.map_cons, List.map_nil, hp]; rfl) hd rfl, runW_nil]
    rfl

/-! ## Functions for analyses -/

/-- Name of the typed accessor. -/
def typedName : ValType → String
  | .i32 => "wastrumentation_stack_load_i32"
  | .i64 => "wastrumentation_stack_load_i64"
  | .f32 => "wastrumentation_stack_load_f32"
  | .f64 => "wastrumentation_stack_load_f64"
  | .ref _ => ""
/-- Name of the typed accessor. -/
def typedStoreName : ValType → String
  | .i32 => "wastrumentation_stack_store_i32"
  | .i64 => "wastrumentation_stack_store_i64"
  | .f32 => "wastrumentation_stack_store_f32"
  | .f64 => "wastrumentation_stack_store_f64"
  | .ref _ => ""

theorem call_typedLoad (hN : StackNum N) (d : Nat) (l : Lib) (v : ValType) (hv : ∀ r, v ≠ .ref r) (p k : Nat)
    (hin : p + 8 * k + 8 ≤ l.mem.size) (hsz : l.mem.size ≤ 2 ^ 32) :
    libCall N (generateLib sigs) L (d + 5) (typedName v) [.i32 (BitVec.ofNat 32 p), .i32 (BitVec.ofNat 32 k)] l.store =
      .ok [.num (v.ofBits (l.mem.word (p + 8 * k) 8))] l.store := by
  have hmem : (⟨none, [typedName v], [.i32, .i32], [v], [], [lget 0, lget 1, .call "wastrumentation_memory_load"] ++ watFromI64 v⟩ : WatFunc) ∈ wLoads := by
    cases v with
    | ref r => exact absurd rfl (hv r)
    | i32 => simp [wLoads, typedName, watFromI64]
    | i64 => simp [wLoads, typedName, watFromI64]
    | f32 => simp [wLoads, typedName, watFromI64]
    | f64 => simp [wLoads, typedName, watFromI64]
  rw [libCall_succ (boilerplate_mem (by simp only [boilerplate, List.mem_append]; exact .inl (.inr hmem))) (by simp)]
  refine runBody_ok (lo := [.i32 (BitVec.ofNat 32 p), .i32 (BitVec.ofNat 32 k)]) ?_ rfl
  simp only [List.map_nil, List.append_nil, List.cons_append, List.nil_append]
  rw [runW_lget (h := rfl), runW_lget (h := rfl)]
  change runW N sigs L (d + 4) _ ⟨[.i32 (BitVec.ofNat 32 p), .i32 (BitVec.ofNat 32 k)].reverse ++ [], _, _⟩ = _
  rw [runW_call_ok (g := wMemoryLoad) (boilerplate_mem (by simp [boilerplate])) rfl _ _ _ _ _ _ rfl (call_memLoad hN (d + 3) l p k hin hsz) rfl]
  have := run_fromI64 (N := N) (sigs := sigs) (L := L) hN (d + 4) (l.mem.word (p + 8 * k) 8) v hv [] [] [.i32 (BitVec.ofNat 32 p), .i32 (BitVec.ofNat 32 k)] l.store
  rw [List.append_nil] at this
  simp only [List.reverse_cons, List.reverse_nil, List.nil_append, List.cons_append]
  rw [this, runW_nil]

theorem call_typedStore (hN : StackNum N) (d : Nat) (l : Lib) (v : Val) (p k : Nat)
    (hin : p + 8 * k + 8 ≤ l.mem.size) (hsz : l.mem.size ≤ 2 ^ 32) :
    libCall N (generateLib sigs) L (d + 5) (typedStoreName v.type) [.i32 (BitVec.ofNat 32 p), .num v, .i32 (BitVec.ofNat 32 k)] l.store =
      .ok [] (⟨l.free, l.mem.put (p + 8 * k) 8 v.bits⟩ : Lib).store := by
  have hmem : (⟨none, [typedStoreName v.type], [.i32, v.type, .i32], [], [], [lget 0, lget 1] ++ watToI64 v.type ++ [lget 2, .call "wastrumentation_memory_store"]⟩ : WatFunc) ∈ wStores := by
    cases v with
    | i32 => simp [wStores, typedStoreName, watToI64, Val.type]
    | i64 => simp [wStores, typedStoreName, watToI64, Val.type]
    | f32 => simp [wStores, typedStoreName, watToI64, Val.type]
    | f64 => simp [wStores, typedStoreName, watToI64, Val.type]
  rw [libCall_succ (boilerplate_mem (by simp only [boilerplate, List.mem_append]; exact .inr hmem)) (by simp)]
  refine runBody_ok (lo := [.i32 (BitVec.ofNat 32 p), .num v, .i32 (BitVec.ofNat 32 k)]) ?_ rfl
  simp only [List.map_nil, List.append_nil, List.cons_append, List.nil_append]
  rw [runW_lget (h := rfl), runW_lget (h := rfl), run_toI64 hN, runW_lget (h := rfl)]
  change runW N sigs L (d + 4) _ ⟨[.i32 (BitVec.ofNat 32 p), RVal.word v.bits, .i32 (BitVec.ofNat 32 k)].reverse ++ [], _, _⟩ = _
  rw [runW_call_ok (g := wMemoryStore) (boilerplate_mem (by simp [boilerplate])) rfl _ _ _ _ _ _ rfl (call_memStore hN (d + 3) l p k _ hin hsz) rfl, runW_nil]
  have hb : (BitVec.ofNat 64 v.bits).toNat = v.bits := by simpa using Nat.mod_eq_of_lt (bits_lt64 v)
  rw [hb]; rfl

theorem call_loadType (hN : StackNum N) (d : Nat) (l : Lib) (p k : Nat) (hin : p + 4 * k + 4 ≤ l.mem.size) (hsz : l.mem.size ≤ 2 ^ 32) :
    libCall N (generateLib sigs) L (d + 5) "wastrumentation_stack_load_type" [.i32 (BitVec.ofNat 32 p), .i32 (BitVec.ofNat 32 k)] l.store =
      .ok [.i32 (BitVec.ofNat 32 (l.mem.word (p + 4 * k) 4))] l.store := by
  rw [libCall_succ (g := wLoadType) (boilerplate_mem (by simp [boilerplate])) (by simp [wLoadType])]
  exact run_loadType hN (d + 4) l p k hin hsz

end

end Wastrum
