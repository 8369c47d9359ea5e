/-
The stack library as its users see it: a specification of call buffers without addresses, and what a library
has to guarantee to implement it (C52).
-/
import Verif.StackThms

set_option linter.unusedVariables false
set_option linter.unusedSimpArgs false

namespace Wastrum

/-! ## Specification: buffers without addresses -/

/-- A live buffer as a user thinks of it: of values, with what is known of each slot (results first), or of types. -/
structure AbsBuf where
  types : Bool
  sig : FuncType
  slots : List (Option Val)

/-- What a user does with call buffers; buffers are named by their position in the list of live buffers, newest first. -/
inductive BufOp where
  /-- what an instrumented call does first: a buffer holding the arguments -/
  | allocateValues (t : FuncType) (args : List Val)
  /-- a buffer with the codes of the types -/
  | allocateTypes (t : FuncType)
  /-- release the newest buffer -/
  | free
  /-- release the newest two, values before types, as an instrumented call does -/
  | freeCall
  /-- write argument or result `i` by name -/
  | store (b : Nat) (side : Side) (i : Nat) (v : Val)
  /-- write all results -/
  | storeRets (b : Nat) (vs : List Val)
  /-- write slot `k` through the accessors of analyses -/
  | poke (b : Nat) (k : Nat) (v : Val)
  /-- read argument or result `i` by name -/
  | load (b : Nat) (side : Side) (i : Nat)
  /-- read slot `k`, at a type, through the accessors of analyses -/
  | peek (b : Nat) (k : Nat) (v : ValType)
  /-- read the code of a type -/
  | loadType (b : Nat) (k : Nat)

/-- The slots of a fresh buffer: results unknown, then the arguments. -/
def freshSlots (t : FuncType) (args : List Val) : List (Option Val) :=
  List.replicate t.results.length none ++ args.map some

/-- The code of a type, as analyses know it. -/
def typeCodeOf : ValType → Val
  | .i32 => .i32 0 | .f32 => .i32 1 | .i64 => .i32 2 | .f64 => .i32 3 | .ref .funcRef => .i32 4 | .ref .externRef => .i32 5

/-- What an operation does to the live buffers, and what it lets the user see. `none`: not allowed (no such buffer, wrong type, a slot
read that was not written, or written at another type). -/
def BufOp.spec (sigs : List FuncType) : BufOp → List AbsBuf → Option (List AbsBuf × List Val)
  | .allocateValues t args, bs =>
    if t ∈ sigs ∧ args.map Val.type = t.inputs then some (⟨false, t, freshSlots t args⟩ :: bs, []) else none
  | .allocateTypes t, bs => if t ∈ sigs then some (⟨true, t, []⟩ :: bs, []) else none
  | .free, _ :: bs => some (bs, [])
  | .free, [] => none
  | .freeCall, b :: c :: bs => if b.types = true ∧ c.types = false ∧ b.sig = c.sig then some (bs, []) else none
  | .freeCall, _ => none
  | .store n side i v, bs => match bs[n]? with
    | some ⟨false, t, sl⟩ => if (t.side side)[i]? = some v.type then some (bs.set n ⟨false, t, sl.set (slotOf t side i) (some v)⟩, []) else none
    | _ => none
  | .storeRets n vs, bs => match bs[n]? with
    | some ⟨false, t, sl⟩ => if vs.map Val.type = t.results then some (bs.set n ⟨false, t, vs.map some ++ sl.drop vs.length⟩, []) else none
    | _ => none
  | .poke n k v, bs => match bs[n]? with
    | some ⟨false, t, sl⟩ => if k < t.slots then some (bs.set n ⟨false, t, sl.set k (some v)⟩, []) else none
    | _ => none
  | .load n side i, bs => match bs[n]? with
    | some ⟨false, t, sl⟩ => match sl[slotOf t side i]? with
      | some (some v) => if (t.side side)[i]? = some v.type then some (bs, [v]) else none
      | _ => none
    | _ => none
  | .peek n k ty, bs => match bs[n]? with
    | some ⟨false, t, sl⟩ => match sl[k]? with
      | some (some v) => if v.type = ty then some (bs, [v]) else none
      | _ => none
    | _ => none
  | .loadType n k, bs => match bs[n]? with
    | some ⟨true, t, _⟩ => match (t.results ++ t.inputs)[k]? with
      | some v => some (bs, [typeCodeOf v])
      | none => none
    | _ => none

/-- A history: what is seen, if every operation is allowed. -/
def specRun (sigs : List FuncType) : List BufOp → List AbsBuf → Option (List AbsBuf × List Val)
  | [], bs => some (bs, [])
  | op :: ops, bs => match op.spec sigs bs with
    | none => none
    | some (bs, vs) => match specRun sigs ops bs with
      | none => none
      | some (bs, ws) => some (bs, vs ++ ws)

/-! ## Libraries -/

/-- What a call of an exported function gives: results, a trap, or something that must never happen (undefined behaviour, a type error). -/
inductive FRes (σ : Type) where
  | ok (vs : List Val) (s : σ)
  | trap (s : σ)
  | bad

/-- A library: its exported functions. -/
abbrev Face (σ : Type) := String → List Val → σ → FRes σ

/-- The name under which a buffer is released. -/
def Buffer.freeOp (b : Buffer) : String := if b.types then freeTypesName b.sig else freeValuesName b.sig

/-- The calls an operation makes, on buffers at addresses. `none`: not allowed. -/
def BufOp.exec {σ : Type} (F : Face σ) : BufOp → List Buffer → σ → Option (List Buffer × FRes σ)
  | .allocateValues t args, bs, s => match F (allocateValuesName t) args s with
    | .ok [.i32 p] s => some (⟨false, t, p⟩ :: bs, .ok [] s)
    | .ok _ _ => none
    | r => some (bs, r)
  | .allocateTypes t, bs, s => match F (allocateTypesName t) [] s with
    | .ok [.i32 p] s => some (⟨true, t, p⟩ :: bs, .ok [] s)
    | .ok _ _ => none
    | r => some (bs, r)
  | .free, b :: bs, s => some (bs, F b.freeOp [.i32 b.ptr] s)
  | .free, [], _ => none
  | .freeCall, b :: c :: bs, s => match F c.freeOp [.i32 c.ptr] s with
    | .ok [] s => some (bs, F b.freeOp [.i32 b.ptr] s)
    | .ok _ _ => none
    | r => some (bs, r)
  | .freeCall, _, _ => none
  | .store n side i v, bs, s => bs[n]?.map fun b => (bs, F (storeName b.sig side i) [.i32 b.ptr, v] s)
  | .storeRets n vs, bs, s => bs[n]?.map fun b => (bs, F (storeRetsName b.sig) (.i32 b.ptr :: vs) s)
  | .poke n k v, bs, s => bs[n]?.map fun b => (bs, F (typedStoreName v.type) [.i32 b.ptr, v, .i32 (BitVec.ofNat 32 k)] s)
  | .load n side i, bs, s => bs[n]?.map fun b => (bs, F (loadName b.sig side i) [.i32 b.ptr] s)
  | .peek n k ty, bs, s => bs[n]?.map fun b => (bs, F (typedName ty) [.i32 b.ptr, .i32 (BitVec.ofNat 32 k)] s)
  | .loadType n k, bs, s => bs[n]?.map fun b => (bs, F "wastrumentation_stack_load_type" [.i32 b.ptr, .i32 (BitVec.ofNat 32 k)] s)

/-- The outcome of a history: everything seen, a trap, or something that must not happen. -/
inductive Outcome where
  | seen (vs : List Val)
  | trap
  | bad
  deriving DecidableEq, Repr

/-- Run a history. -/
def execRun {σ : Type} (F : Face σ) : List BufOp → List Buffer → σ → Outcome
  | [], _, _ => .seen []
  | op :: ops, bs, s => match op.exec F bs s with
    | none => .bad
    | some (_, .bad) => .bad
    | some (_, .trap _) => .trap
    | some (bs, .ok vs s) => match execRun F ops bs s with
      | .seen ws => .seen (vs ++ ws)
      | r => r

/-- The bytes, and their alignment, an operation asks for. -/
def BufOp.needs : BufOp → Option (Nat × Nat)
  | .allocateValues t _ => some (8 * t.slots, 8)
  | .allocateTypes t => some (4 * t.slots, 4)
  | _ => none

/-- Some operation of a history asks for memory when there is none (`full`: so many bytes, so aligned, are not to be had). -/
def RunsOut {σ : Type} (F : Face σ) (full : Nat → Nat → σ → Prop) : List BufOp → List Buffer → σ → Prop
  | [], _, _ => False
  | op :: ops, bs, s => (∃ n a, op.needs = some (n, a) ∧ full n a s) ∨
    ∃ bs' vs s', op.exec F bs s = some (bs', .ok vs s') ∧ RunsOut F full ops bs' s'

/-! ## What a library guarantees -/

/-- The eight bytes at an address hold a value. -/
def Mem.Holds (m : Mem) (a : Nat) (v : Val) : Prop := v.type.ofBits (m.word a 8) = v

theorem Mem.Holds.congr {m m' : Mem} {a : Nat} {v : Val} (h : m.Holds a v) (hb : ∀ i, a ≤ i → i < a + 8 → m'.bytes i = m.bytes i) : m'.Holds a v := by
  rw [Mem.Holds, Mem.word_congr hb]; exact h

/-- Bytes of live buffers are the same. -/
def Keep (bs : List Buffer) (m m' : Mem) : Prop := ∀ b ∈ bs, ∀ i, b.start ≤ i → i < b.start + b.size → m'.bytes i = m.bytes i

/-- No byte belongs to both (an empty buffer has none, wherever it is). -/
def Buffer.apart (b c : Buffer) : Prop := b.size = 0 ∨ c.size = 0 ∨ b.disjoint c

/-- Laws of a library, for an invariant `Inv` relating live buffers and states; `full` says when memory has run out. -/
structure Lawful {σ : Type} (sigs : List FuncType) (F : Face σ) (mem : σ → Mem) (full : Nat → Nat → σ → Prop) (Inv : List Buffer → σ → Prop) : Prop where
  apart : ∀ {bs s}, Inv bs s → bs.Pairwise Buffer.apart
  allocateValues : ∀ {bs s t args}, Inv bs s → t ∈ sigs → args.map Val.type = t.inputs →
    full (8 * t.slots) 8 s ∨
    ∃ p s', F (allocateValuesName t) args s = .ok [.i32 p] s' ∧ Inv (⟨false, t, p⟩ :: bs) s' ∧ Keep bs (mem s) (mem s') ∧
      ∀ i v, args[i]? = some v → (mem s').Holds (p.toNat + 8 * (t.results.length + i)) v
  allocateTypes : ∀ {bs s t}, Inv bs s → t ∈ sigs →
    full (4 * t.slots) 4 s ∨
    ∃ p s', F (allocateTypesName t) [] s = .ok [.i32 p] s' ∧ Inv (⟨true, t, p⟩ :: bs) s' ∧ Keep bs (mem s) (mem s') ∧
      ∀ i v, (t.results ++ t.inputs)[i]? = some v → (mem s').word (p.toNat + 4 * i) 4 = v.runtimeEnumValue
  free : ∀ {b bs s}, Inv (b :: bs) s → ∃ s', F b.freeOp [.i32 b.ptr] s = .ok [] s' ∧ Inv bs s' ∧ Keep bs (mem s) (mem s')
  freeCall : ∀ {t p q bs s}, Inv (⟨true, t, q⟩ :: ⟨false, t, p⟩ :: bs) s → ∃ s' s'',
    F (freeValuesName t) [.i32 p] s = .ok [] s' ∧ F (freeTypesName t) [.i32 q] s' = .ok [] s'' ∧ Inv bs s'' ∧ Keep bs (mem s) (mem s'')
  store : ∀ {bs s t p side i v}, Inv bs s → ⟨false, t, p⟩ ∈ bs → (t.side side)[i]? = some v.type →
    ∃ s', F (storeName t side i) [.i32 p, v] s = .ok [] s' ∧ Inv bs s' ∧ (mem s').Holds (p.toNat + 8 * slotOf t side i) v ∧
      ∀ j, (j < p.toNat + 8 * slotOf t side i ∨ p.toNat + 8 * slotOf t side i + 8 ≤ j) → (mem s').bytes j = (mem s).bytes j
  storeRets : ∀ {bs s t p vs}, Inv bs s → ⟨false, t, p⟩ ∈ bs → vs.map Val.type = t.results →
    ∃ s', F (storeRetsName t) (.i32 p :: vs) s = .ok [] s' ∧ Inv bs s' ∧ (∀ i v, vs[i]? = some v → (mem s').Holds (p.toNat + 8 * i) v) ∧
      ∀ j, (j < p.toNat ∨ p.toNat + 8 * t.results.length ≤ j) → (mem s').bytes j = (mem s).bytes j
  poke : ∀ {bs s t p k v}, Inv bs s → ⟨false, t, p⟩ ∈ bs → k < t.slots →
    ∃ s', F (typedStoreName v.type) [.i32 p, v, .i32 (BitVec.ofNat 32 k)] s = .ok [] s' ∧ Inv bs s' ∧ (mem s').Holds (p.toNat + 8 * k) v ∧
      ∀ j, (j < p.toNat + 8 * k ∨ p.toNat + 8 * k + 8 ≤ j) → (mem s').bytes j = (mem s).bytes j
  load : ∀ {bs s t p side i v}, Inv bs s → ⟨false, t, p⟩ ∈ bs → (t.side side)[i]? = some v → (∀ r, v ≠ .ref r) →
    F (loadName t side i) [.i32 p] s = .ok [v.ofBits ((mem s).word (p.toNat + 8 * slotOf t side i) 8)] s
  peek : ∀ {bs s t p k v}, Inv bs s → ⟨false, t, p⟩ ∈ bs → k < t.slots → (∀ r, v ≠ .ref r) →
    F (typedName v) [.i32 p, .i32 (BitVec.ofNat 32 k)] s = .ok [v.ofBits ((mem s).word (p.toNat + 8 * k) 8)] s
  loadType : ∀ {bs s t p k}, Inv bs s → ⟨true, t, p⟩ ∈ bs → k < t.slots → (mem s).word (p.toNat + 4 * k) 4 ≤ 5 →
    F "wastrumentation_stack_load_type" [.i32 p, .i32 (BitVec.ofNat 32 k)] s = .ok [.i32 (BitVec.ofNat 32 ((mem s).word (p.toNat + 4 * k) 4))] s

/-! ## Lawful libraries implement the specification -/

/-- A buffer in memory is what the user thinks it is. -/
structure Agrees (m : Mem) (a : AbsBuf) (b : Buffer) : Prop where
  types : a.types = b.types
  sig : a.sig = b.sig
  length : b.types = false → a.slots.length = b.sig.slots
  values : b.types = false → ∀ k v, a.slots[k]? = some (some v) → m.Holds (b.start + 8 * k) v
  codes : b.types = true → ∀ k v, (b.sig.results ++ b.sig.inputs)[k]? = some v → m.word (b.start + 4 * k) 4 = v.runtimeEnumValue

theorem Agrees.keep {m m' : Mem} {a : AbsBuf} {b : Buffer} (h : Agrees m a b) (hk : ∀ i, b.start ≤ i → i < b.start + b.size → m'.bytes i = m.bytes i) :
    Agrees m' a b where
  types := h.types
  sig := h.sig
  length := h.length
  values hb k v e := by
    have hl := h.length hb
    have hk' := (List.getElem?_eq_some_iff.1 e).1
    refine (h.values hb k v e).congr fun i h1 h2 => hk i (by omega) ?_
    simp only [Buffer.size, hb, Bool.false_eq_true, if_false]; omega
  codes hb k v e := by
    have hk' := (List.getElem?_eq_some_iff.1 e).1
    rw [← h.codes hb k v e]
    refine Mem.word_congr fun i h1 h2 => hk i (by omega) ?_
    simp only [Buffer.size, hb, if_true, FuncType.slots, List.length_append] at hk' ⊢; omega

/-- All live buffers agree. -/
def AgreeAll (m : Mem) (as : List AbsBuf) (bs : List Buffer) : Prop := as.length = bs.length ∧ ∀ (n : Nat) a b, as[n]? = some a → bs[n]? = some b → Agrees m a b

theorem AgreeAll.keep {m m' : Mem} {as : List AbsBuf} {bs : List Buffer} (h : AgreeAll m as bs) (hk : Keep bs m m') : AgreeAll m' as bs :=
  ⟨h.1, fun n a b ha hb => (h.2 n a b ha hb).keep (hk b (List.mem_of_getElem? hb))⟩

theorem AgreeAll.tail {m : Mem} {a : AbsBuf} {as : List AbsBuf} {b : Buffer} {bs : List Buffer} (h : AgreeAll m (a :: as) (b :: bs)) : AgreeAll m as bs :=
  ⟨by simpa using h.1, fun n x y hx hy => h.2 (n + 1) x y (by simpa using hx) (by simpa using hy)⟩

theorem AgreeAll.cons {m : Mem} {a : AbsBuf} {as : List AbsBuf} {b : Buffer} {bs : List Buffer} (h : AgreeAll m as bs) (hab : Agrees m a b) :
    AgreeAll m (a :: as) (b :: bs) := by
  refine ⟨by simp [h.1], fun n x y hx hy => ?_⟩
  cases n with
  | zero => simp at hx hy; subst hx; subst hy; exact hab
  | succ n => exact h.2 n x y (by simpa using hx) (by simpa using hy)

/-- The buffer at a position. -/
theorem AgreeAll.at {m : Mem} {as : List AbsBuf} {bs : List Buffer} (h : AgreeAll m as bs) {n : Nat} {a : AbsBuf} (ha : as[n]? = some a) :
    ∃ p, bs[n]? = some ⟨a.types, a.sig, p⟩ ∧ Agrees m a ⟨a.types, a.sig, p⟩ := by
  have hn : n < bs.length := by rw [← h.1]; exact (List.getElem?_eq_some_iff.1 ha).1
  have e : bs[n]? = some bs[n] := List.getElem?_eq_getElem hn
  have g := h.2 n a bs[n] ha e
  refine ⟨bs[n].ptr, ?_, ?_⟩ <;> rw [g.types, g.sig]
  · exact e
  · exact g

theorem freshSlots_get {t : FuncType} {args : List Val} {k : Nat} {v : Val} (h : (freshSlots t args)[k]? = some (some v)) :
    ∃ i, k = t.results.length + i ∧ args[i]? = some v := by
  simp only [freshSlots] at h
  by_cases hk : k < t.results.length
  · rw [List.getElem?_append_left (by simpa using hk), List.getElem?_replicate] at h
    simp [hk] at h
  · rw [List.getElem?_append_right (by simpa using hk)] at h
    simp only [List.length_replicate, List.getElem?_map, Option.map_eq_some_iff, Option.some.injEq, exists_eq_right] at h
    exact ⟨k - t.results.length, by omega, h⟩

theorem typeCodeOf_eq (v : ValType) : Val.i32 (BitVec.ofNat 32 v.runtimeEnumValue) = typeCodeOf v := by
  cases v with
  | ref r => cases r <;> rfl
  | _ => rfl

theorem runtimeEnumValue_le (v : ValType) : v.runtimeEnumValue ≤ 5 := by
  cases v with
  | ref r => cases r <;> decide
  | _ => decide

section
variable {σ : Type} {sigs : List FuncType} {F : Face σ} {mem : σ → Mem} {full : Nat → Nat → σ → Prop} {Inv : List Buffer → σ → Prop}

/-- Two live buffers at different positions are apart. -/
theorem pairwise_apart {bs : List Buffer} (h : bs.Pairwise Buffer.apart) {n n' : Nat} {b c : Buffer} (hn : bs[n]? = some b) (hn' : bs[n']? = some c) (hne : n ≠ n') :
    b.apart c := by
  have hsym : ∀ x y : Buffer, x.apart y → y.apart x := fun x y h => by
    simp only [Buffer.apart, Buffer.disjoint] at *; omega
  obtain ⟨h1, rfl⟩ := List.getElem?_eq_some_iff.1 hn
  obtain ⟨h2, rfl⟩ := List.getElem?_eq_some_iff.1 hn'
  rw [List.pairwise_iff_getElem] at h
  rcases Nat.lt_or_gt_of_ne hne with hlt | hlt
  · exact h n n' h1 h2 hlt
  · exact hsym _ _ (h n' n h2 h1 hlt)

/-- Writing inside one buffer of values leaves the others alone. -/
theorem AgreeAll.write {m m' : Mem} {as : List AbsBuf} {bs : List Buffer} (h : AgreeAll m as bs) (hap : bs.Pairwise Buffer.apart) {n : Nat} {t : FuncType} {p : BitVec 32}
    {sl : List (Option Val)} (ha : as[n]? = some ⟨false, t, sl⟩) (hb : bs[n]? = some ⟨false, t, p⟩) {lo hi : Nat} (hhi : hi ≤ t.slots)
    (hout : ∀ j, (j < p.toNat + 8 * lo ∨ p.toNat + 8 * hi ≤ j) → m'.bytes j = m.bytes j)
    {sl' : List (Option Val)} (hl : sl'.length = sl.length) (hsame : ∀ k, (k < lo ∨ hi ≤ k) → sl'[k]? = sl[k]?)
    (hnew : ∀ k v, lo ≤ k → k < hi → sl'[k]? = some (some v) → m'.Holds (p.toNat + 8 * k) v) :
    AgreeAll m' (as.set n ⟨false, t, sl'⟩) bs := by
  refine ⟨by simp [h.1], fun n' x y hx hy => ?_⟩
  by_cases hne : n = n'
  · subst hne
    rw [hb] at hy; cases hy
    have hlt := (List.getElem?_eq_some_iff.1 ha).1
    rw [List.getElem?_set_self hlt] at hx; cases hx
    have g := h.2 n _ _ ha hb
    refine ⟨rfl, rfl, fun _ => by rw [hl]; exact g.length rfl, fun _ k v e => ?_, fun hc => by simp at hc⟩
    by_cases hk : lo ≤ k ∧ k < hi
    · exact hnew k v hk.1 hk.2 e
    · have hk' : k < lo ∨ hi ≤ k := by omega
      rw [hsame k hk'] at e
      exact (g.values rfl k v e).congr fun i h1 h2 => hout i (by simp only [Buffer.start] at h1 h2; omega)
  · rw [List.getElem?_set_ne hne] at hx
    refine (h.2 n' x y hx hy).keep fun i h1 h2 => hout i ?_
    have := pairwise_apart hap hb hy hne
    simp only [Buffer.apart, Buffer.disjoint, Buffer.start, Buffer.size, Bool.false_eq_true, if_false] at this h1 h2
    omega

/-- An allowed operation does what the specification says, or asks for memory when there is none. -/
theorem Lawful.step (law : Lawful sigs F mem full Inv) {op : BufOp} {as as' : List AbsBuf} {obs : List Val} {bs : List Buffer} {s : σ}
    (hspec : op.spec sigs as = some (as', obs)) (hi : Inv bs s) (ha : AgreeAll (mem s) as bs) :
    (∃ n a, op.needs = some (n, a) ∧ full n a s) ∨
    ∃ bs' s', op.exec F bs s = some (bs', .ok obs s') ∧ Inv bs' s' ∧ AgreeAll (mem s') as' bs' := by
  cases op with
  | allocateValues t args =>
    simp only [BufOp.spec] at hspec
    split at hspec
    · rename_i hc
      cases hspec
      rcases law.allocateValues hi hc.1 hc.2 with hf | ⟨p, s', e, hi', hk, hv⟩
      · exact .inl ⟨_, _, rfl, hf⟩
      · refine .inr ⟨_, s', by simp only [BufOp.exec, e], hi', (ha.keep hk).cons ?_⟩
        have hlen := mapTypes hc.2
        refine ⟨rfl, rfl, fun _ => by simp [freshSlots, FuncType.slots, hlen], fun _ k v e => ?_, fun hc => by simp at hc⟩
        obtain ⟨i, rfl, e'⟩ := freshSlots_get e
        exact hv i v e'
    · cases hspec
  | allocateTypes t =>
    simp only [BufOp.spec] at hspec
    split at hspec
    · rename_i hc
      cases hspec
      rcases law.allocateTypes hi hc with hf | ⟨p, s', e, hi', hk, hv⟩
      · exact .inl ⟨_, _, rfl, hf⟩
      · refine .inr ⟨_, s', by simp only [BufOp.exec, e], hi', (ha.keep hk).cons ?_⟩
        exact ⟨rfl, rfl, fun hc => by simp at hc, fun hc => by simp at hc, fun _ k v e => hv k v e⟩
    · cases hspec
  | free =>
    cases as with
    | nil => simp [BufOp.spec] at hspec
    | cons a as =>
      simp only [BufOp.spec, Option.some.injEq, Prod.mk.injEq] at hspec
      obtain ⟨rfl, rfl⟩ := hspec
      cases bs with
      | nil => simp [AgreeAll] at ha
      | cons b bs =>
        obtain ⟨s', e, hi', hk⟩ := law.free hi
        exact .inr ⟨bs, s', by simp only [BufOp.exec, e], hi', ha.tail.keep hk⟩
  | freeCall =>
    match as, hspec with
    | a :: a' :: as, hspec =>
      simp only [BufOp.spec] at hspec
      split at hspec
      · rename_i hc
        cases hspec
        match bs, ha, hi with
        | b :: c :: bs, ha, hi =>
          have g1 := ha.2 0 a b rfl rfl
          have g2 := ha.2 1 a' c rfl rfl
          obtain ⟨ty1, t, q⟩ := b
          obtain ⟨ty2, t', p⟩ := c
          have e1 : ty1 = true := by rw [← hc.1]; exact g1.types.symm
          have e2 : ty2 = false := by rw [← hc.2.1]; exact g2.types.symm
          have e3 : t' = t := by
            have h1 := g1.sig; have h2 := g2.sig
            dsimp only at h1 h2
            rw [← h1, ← h2, hc.2.2]
          subst e1; subst e2; subst e3
          obtain ⟨s', s'', h1, h2, hi', hk⟩ := law.freeCall hi
          refine .inr ⟨bs, s'', ?_, hi', ha.tail.tail.keep hk⟩
          simp only [BufOp.exec, Buffer.freeOp, Bool.false_eq_true, if_false, if_true, h1, h2]
        | [b], ha, _ => simp [AgreeAll] at ha
        | [], ha, _ => simp [AgreeAll] at ha
      · cases hspec
    | [a], hspec => simp [BufOp.spec] at hspec
    | [], hspec => simp [BufOp.spec] at hspec
  | store n side i v =>
    simp only [BufOp.spec] at hspec
    split at hspec
    · rename_i t sl hn
      split at hspec
      · rename_i hc
        cases hspec
        obtain ⟨p, hb, g⟩ := ha.at hn
        dsimp only at hb g
        obtain ⟨s', e, hi', hv, hout⟩ := law.store (side := side) (i := i) (v := v) hi (List.mem_of_getElem? hb) hc
        have hsl := slotOf_lt (List.getElem?_eq_some_iff.1 hc).1
        refine .inr ⟨bs, s', by simp only [BufOp.exec, hb, Option.map_some, e], hi', ?_⟩
        refine ha.write (law.apart hi) hn hb (lo := slotOf t side i) (hi := slotOf t side i + 1) (by simp only [FuncType.slots]; omega)
          (fun j hj => hout j (by omega)) (by simp) (fun k hk => ?_) (fun k w h1 h2 e => ?_)
        · rw [List.getElem?_set_ne (by omega)]
        · have : k = slotOf t side i := by omega
          subst this
          have hl := g.length rfl
          simp only [FuncType.slots] at hl
          rw [List.getElem?_set_self (by omega)] at e
          simp only [Option.some.injEq] at e
          subst e; exact hv
      · cases hspec
    · cases hspec
  | storeRets n vs =>
    simp only [BufOp.spec] at hspec
    split at hspec
    · rename_i t sl hn
      split at hspec
      · rename_i hc
        cases hspec
        obtain ⟨p, hb, g⟩ := ha.at hn
        dsimp only at hb g
        obtain ⟨s', e, hi', hv, hout⟩ := law.storeRets hi (List.mem_of_getElem? hb) hc
        have hlen := mapTypes hc
        have hl := g.length rfl
        simp only [FuncType.slots] at hl
        refine .inr ⟨bs, s', by simp only [BufOp.exec, hb, Option.map_some, e], hi', ?_⟩
        refine ha.write (law.apart hi) hn hb (lo := 0) (hi := t.results.length) (by simp only [FuncType.slots]; omega)
          (fun j hj => hout j (by omega)) (by simp; omega) (fun k hk => ?_) (fun k w h1 h2 e => ?_)
        · rw [List.getElem?_append_right (by simp; omega), List.getElem?_drop]
          congr 1; simp; omega
        · rw [List.getElem?_append_left (by simp; omega)] at e
          simp only [List.getElem?_map, Option.map_eq_some_iff, Option.some.injEq, exists_eq_right] at e
          exact hv k w e
      · cases hspec
    · cases hspec
  | poke n k v =>
    simp only [BufOp.spec] at hspec
    split at hspec
    · rename_i t sl hn
      split at hspec
      · rename_i hc
        cases hspec
        obtain ⟨p, hb, g⟩ := ha.at hn
        dsimp only at hb g
        obtain ⟨s', e, hi', hv, hout⟩ := law.poke (v := v) hi (List.mem_of_getElem? hb) hc
        refine .inr ⟨bs, s', by simp only [BufOp.exec, hb, Option.map_some, e], hi', ?_⟩
        refine ha.write (law.apart hi) hn hb (lo := k) (hi := k + 1) (by omega)
          (fun j hj => hout j (by omega)) (by simp) (fun k' hk => ?_) (fun k' w h1 h2 e => ?_)
        · rw [List.getElem?_set_ne (by omega)]
        · have : k' = k := by omega
          subst this
          have hl := g.length rfl
          dsimp only at hl
          rw [List.getElem?_set_self (by omega)] at e
          simp only [Option.some.injEq] at e
          subst e; exact hv
      · cases hspec
    · cases hspec
  | load n side i =>
    simp only [BufOp.spec] at hspec
    split at hspec
    · rename_i t sl hn
      split at hspec
      · rename_i v hs
        split at hspec
        · rename_i hc
          cases hspec
          obtain ⟨p, hb, g⟩ := ha.at hn
          dsimp only at hb g
          have e := law.load hi (List.mem_of_getElem? hb) hc (Val.type_ne_ref v)
          have hv := g.values rfl _ _ hs
          simp only [Mem.Holds, Buffer.start] at hv
          rw [hv] at e
          exact .inr ⟨bs, s, by simp only [BufOp.exec, hb, Option.map_some, e], hi, ha⟩
        · cases hspec
      · cases hspec
    · cases hspec
  | peek n k ty =>
    simp only [BufOp.spec] at hspec
    split at hspec
    · rename_i t sl hn
      split at hspec
      · rename_i v hs
        split at hspec
        · rename_i hc
          cases hspec
          obtain ⟨p, hb, g⟩ := ha.at hn
          dsimp only at hb g
          have hl := g.length rfl
          dsimp only at hl
          have hk := (List.getElem?_eq_some_iff.1 hs).1
          subst hc
          have e := law.peek (k := k) hi (List.mem_of_getElem? hb) (by omega) (Val.type_ne_ref v)
          have hv := g.values rfl _ _ hs
          simp only [Mem.Holds, Buffer.start] at hv
          rw [hv] at e
          exact .inr ⟨bs, s, by simp only [BufOp.exec, hb, Option.map_some, e], hi, ha⟩
        · cases hspec
      · cases hspec
    · cases hspec
  | loadType n k =>
    simp only [BufOp.spec] at hspec
    split at hspec
    · rename_i t sl hn
      split at hspec
      · rename_i v hs
        cases hspec
        obtain ⟨p, hb, g⟩ := ha.at hn
        dsimp only at hb g
        have hk := (List.getElem?_eq_some_iff.1 hs).1
        have hv := g.codes rfl k v hs
        simp only [Buffer.start] at hv
        have e := law.loadType (k := k) hi (List.mem_of_getElem? hb) (by simpa [FuncType.slots] using hk) (by rw [hv]; exact runtimeEnumValue_le v)
        rw [hv, typeCodeOf_eq] at e
        exact .inr ⟨bs, s, by simp only [BufOp.exec, hb, Option.map_some, e], hi, ha⟩
      · cases hspec
    · cases hspec

/-- Every allowed history shows what the specification says, unless it asks for memory when there is none. -/
theorem Lawful.run (law : Lawful sigs F mem full Inv) : ∀ {ops : List BufOp} {as as' : List AbsBuf} {obs : List Val} {bs : List Buffer} {s : σ},
    specRun sigs ops as = some (as', obs) → Inv bs s → AgreeAll (mem s) as bs → execRun F ops bs s = .seen obs ∨ RunsOut F full ops bs s := by
  intro ops
  induction ops with
  | nil => intro as as' obs bs s h _ _; cases h; exact .inl rfl
  | cons op ops ih =>
    intro as as' obs bs s h hi ha
    simp only [specRun] at h
    cases h1 : op.spec sigs as with
    | none => rw [h1] at h; cases h
    | some x =>
      obtain ⟨as1, vs⟩ := x
      rw [h1] at h; dsimp only at h
      cases h2 : specRun sigs ops as1 with
      | none => rw [h2] at h; cases h
      | some y =>
        obtain ⟨as2, ws⟩ := y
        rw [h2] at h; cases h
        rcases law.step h1 hi ha with hf | ⟨bs', s', e, hi', ha'⟩
        · exact .inr (.inl hf)
        · rcases ih h2 hi' ha' with r | r
          · left; simp only [execRun, e, r]
          · exact .inr (.inr ⟨_, _, _, e, r⟩)

/-- A library in which asking for memory when there is none traps. -/
structure TrapsWhenFull (sigs : List FuncType) (F : Face σ) (full : Nat → Nat → σ → Prop) (Inv : List Buffer → σ → Prop) : Prop where
  values : ∀ {bs s t args}, Inv bs s → t ∈ sigs → args.map Val.type = t.inputs → full (8 * t.slots) 8 s → ∃ s', F (allocateValuesName t) args s = .trap s'
  types : ∀ {bs s t}, Inv bs s → t ∈ sigs → full (4 * t.slots) 4 s → ∃ s', F (allocateTypesName t) [] s = .trap s'

/-- In such a library every allowed history shows what the specification says, or traps. -/
theorem Lawful.run_traps (law : Lawful sigs F mem full Inv) (tr : TrapsWhenFull sigs F full Inv) :
    ∀ {ops : List BufOp} {as as' : List AbsBuf} {obs : List Val} {bs : List Buffer} {s : σ},
    specRun sigs ops as = some (as', obs) → Inv bs s → AgreeAll (mem s) as bs →
    execRun F ops bs s = .seen obs ∨ execRun F ops bs s = .trap ∧ RunsOut F full ops bs s := by
  intro ops
  induction ops with
  | nil => intro as as' obs bs s h _ _; cases h; exact .inl rfl
  | cons op ops ih =>
    intro as as' obs bs s h hi ha
    simp only [specRun] at h
    cases h1 : op.spec sigs as with
    | none => rw [h1] at h; cases h
    | some x =>
      obtain ⟨as1, vs⟩ := x
      rw [h1] at h; dsimp only at h
      cases h2 : specRun sigs ops as1 with
      | none => rw [h2] at h; cases h
      | some y =>
        obtain ⟨as2, ws⟩ := y
        rw [h2] at h; cases h
        rcases law.step h1 hi ha with ⟨n, a, hn, hf⟩ | ⟨bs', s', e, hi', ha'⟩
        · refine .inr ⟨?_, .inl ⟨n, a, hn, hf⟩⟩
          cases op <;> simp only [BufOp.needs, Option.some.injEq, Prod.mk.injEq, reduceCtorEq] at hn
          · obtain ⟨rfl, rfl⟩ := hn
            simp only [BufOp.spec] at h1
            split at h1
            · rename_i hc
              obtain ⟨s', e⟩ := tr.values hi hc.1 hc.2 hf
              simp only [execRun, BufOp.exec, e]
            · cases h1
          · obtain ⟨rfl, rfl⟩ := hn
            simp only [BufOp.spec] at h1
            split at h1
            · rename_i hc
              obtain ⟨s', e⟩ := tr.types hi hc hf
              simp only [execRun, BufOp.exec, e]
            · cases h1
        · rcases ih h2 hi' ha' with r | r
          · left; simp only [execRun, e, r]
          · exact .inr ⟨by simp only [execRun, e, r.1], .inr ⟨_, _, _, e, r.2⟩⟩

end

end Wastrum
