import Verif.AsValues
import Verif.WaspThms
/-!
# Theorems about analyses written in Wasp (C80)
-/

set_option linter.unusedSimpArgs false
set_option linter.unusedVariables false

namespace Wastrum

variable {W A : Type}

/-! ## What the advice reads -/

/-- The width of a number, in bytes. -/
def ValType.numBytes : ValType → Nat
  | .i64 | .f64 => 8
  | _ => 4

/-- The values of one side in the buffer at `p`. -/
def DynValues.held (t : FuncType) (p : Nat) (m : Mem) : DynValues → List Val
  | .args _ => m.args t p
  | .ress _ => m.ress t p

theorem DynValues.held_eq (t : FuncType) (p : Nat) (m : Mem) (d : DynValues) : d.held t p m = m.vals p (d.at t).1 (d.at t).2 := by cases d <;> rfl

/-- The library's answers are determined by the value in the slot. -/
theorem ofBits_narrow {v v' : ValType} {n : Nat} (hv : ∀ r, v' ≠ .ref r) (h : v.numBytes ≤ v'.numBytes) : v.ofBits n = v.ofBits (v'.ofBits n).bits := by
  cases v' with
  | ref r => exact absurd rfl (hv r)
  | i32 | f32 =>
    cases v <;> simp [ValType.numBytes] at h <;> simp only [ValType.ofBits, Val.bits, BitVec.toNat_ofNat, Val.i32.injEq, Val.f32.injEq] <;> apply BitVec.eq_of_toNat_eq <;>
      simp only [BitVec.toNat_ofNat] <;> omega
  | i64 | f64 =>
    cases v <;> simp only [ValType.ofBits, Val.bits, BitVec.toNat_ofNat, Val.i32.injEq, Val.i64.injEq, Val.f32.injEq, Val.f64.injEq] <;> apply BitVec.eq_of_toNat_eq <;>
      simp only [BitVec.toNat_ofNat] <;> omega

theorem AsType.accessor_some {T : AsType} (h : 4 ≤ T.size) : T.accessor = some T.wasm := by cases T <;> first | rfl | (exact absurd h (by decide))
theorem AsType.accessor_none {T : AsType} (h : ¬ 4 ≤ T.size) : T.accessor = none := by cases T <;> first | rfl | (exact absurd (by decide) h)
theorem AsType.size_wasm {T : AsType} (h : 4 ≤ T.size) : T.wasm.numBytes = T.size := by cases T <;> first | rfl | (exact absurd h (by decide))

section
variable {K : LibLink} {t : FuncType} {p q : Nat} {l : Lib} {s : Store (World W A)} {d : DynValues}

theorem DynValues.Of.reads (hd : d.Of t p q) (hK : K.Good) (hr : t.RefFree) (hn : t.slots < 8192) (ok : l.Ok) (hs : s.getLib = l.store) (hin : p + 8 * t.slots ≤ l.mem.size)
    {i : Nat} {x : Val} (hx : (d.held t p l.mem)[i]? = some x) :
    (d.at t).2[i]? = some x.type ∧ ∀ T : AsType,
      (4 ≤ T.size → T.size ≤ x.type.numBytes → K.get T (BitVec.ofNat 32 i) d s = .ok (T.wasm.ofBits x.bits) s) ∧
      (4 ≤ T.size → ∃ y : Val, y.type = T.wasm ∧ K.get T (BitVec.ofNat 32 i) d s = .ok y s) ∧
      (¬ 4 ≤ T.size → K.get T (BitVec.ofNat 32 i) d s = .trap s) := by
  rw [DynValues.held_eq] at hx
  have hlt := (List.getElem?_eq_some_iff.1 hx).1
  rw [Mem.vals_length] at hlt
  have hg : (d.at t).2[i]? = some (d.at t).2[i] := List.getElem?_eq_getElem hlt
  have hb := hd.bound
  rw [Mem.vals_get _ _ _ _ _ _ hg] at hx
  have hv : ∀ r, (d.at t).2[i] ≠ .ref r := by
    refine hr.both _ ?_
    have : (d.at t).2[i] ∈ (d.at t).2 := List.getElem_mem hlt
    rcases hd with rfl | rfl
    · exact List.mem_append_right _ this
    · exact List.mem_append_left _ this
  have hxe := Option.some.inj hx
  have hxt : x.type = (d.at t).2[i] := by rw [← hxe]; exact ofBits_type hv _
  refine ⟨by rw [hg, hxt], fun T => ?_⟩
  rw [(hd.access hn hlt).1 T]
  have hl : ∀ h : 4 ≤ T.size, K.asLoad T (BitVec.ofNat 32 p) (BitVec.ofNat 32 ((d.at t).1 + i)) s = .ok (T.wasm.ofBits (l.mem.word (p + 8 * ((d.at t).1 + i)) 8)) s :=
    fun h => LibLink.asLoad_ok hK ok hs (AsType.accessor_some h) (by omega)
  refine ⟨fun h h' => ?_, fun h => ?_, fun h => ?_⟩
  · rw [hl h, ofBits_narrow hv (by rw [AsType.size_wasm h, ← hxt]; exact h'), hxe]
  · exact ⟨_, ofBits_type (AsType.accessor_wasm (AsType.accessor_some h)).2 _, hl h⟩
  · simp only [LibLink.asLoad, AsType.accessor_none h, Act.panic]

theorem DynValues.Of.readsType (hd : d.Of t p q) (hK : K.Good) (hn : t.slots < 8192) (ok : l.Ok) (hs : s.getLib = l.store) (hin : q + 4 * t.slots ≤ l.mem.size)
    (hty : l.mem.Types q (t.results ++ t.inputs)) {i : Nat} {v : ValType} (hv : (d.at t).2[i]? = some v) :
    K.getType (BitVec.ofNat 32 i) d s = .ok (BitVec.ofNat 32 v.runtimeEnumValue) s := by
  have hlt := (List.getElem?_eq_some_iff.1 hv).1
  have hb := hd.bound
  rw [(hd.access hn hlt).2.2, LibLink.asLoadType_ok hK ok hs (by omega)]
  rw [hty _ v]
  rcases hd with rfl | rfl
  · simp only [DynValues.at] at hv ⊢
    rw [List.getElem?_append_right (by omega), Nat.add_sub_cancel_left, hv]
  · simp only [DynValues.at] at hv hlt ⊢
    rw [Nat.zero_add, List.getElem?_append_left hlt, hv]

end

/-- **Specification.** The code by which an analysis written in Wasp recognises a type. -/
def TypeCode : ValType → BitVec 32 → Prop := fun v c => (v = .i32 ∧ c = 0) ∨ (v = .f32 ∧ c = 1) ∨ (v = .i64 ∧ c = 2) ∨ (v = .f64 ∧ c = 3)

theorem typeCode_of {v : ValType} (hv : ∀ r, v ≠ .ref r) : TypeCode v (BitVec.ofNat 32 v.runtimeEnumValue) := by
  cases v with
  | ref r => exact absurd rfl (hv r)
  | _ => simp [TypeCode, ValType.runtimeEnumValue]

/-- **Specification.** `values` gives access to the values `xs`, of a state `s`: it has their number, their types and the values themselves,
asked for by any type as wide as the value (or by a narrower one, of at least 32 bits, that gets the lower half). Types of fewer bits and positions
that do not exist trap. -/
structure Presents (K : LibLink) (values : DynValues) (xs : List Val) (s : Store (World W A)) : Prop where
  length : values.length = BitVec.ofNat 32 xs.length
  type : ∀ i x, xs[i]? = some x → ∃ c, TypeCode x.type c ∧ K.getType (BitVec.ofNat 32 i) values s = .ok c s
  same : ∀ i x, xs[i]? = some x → ∀ T : AsType, 4 ≤ T.size → T.wasm = x.type → K.get T (BitVec.ofNat 32 i) values s = .ok x s
  other : ∀ i x, xs[i]? = some x → ∀ T : AsType, 4 ≤ T.size → T.size ≤ x.type.numBytes → K.get T (BitVec.ofNat 32 i) values s = .ok (T.wasm.ofBits x.bits) s
  narrow : ∀ i x, xs[i]? = some x → ∀ T : AsType, T.size < 4 → K.get T (BitVec.ofNat 32 i) values s = .trap s
  outside : ∀ b : BitVec 32, b.toInt < 0 ∨ xs.length ≤ b.toInt → (∀ T, K.get T b values s = .trap s) ∧ (∀ T x, K.set T b x values s = .trap s) ∧ K.getType b values s = .trap s

theorem DynValues.Of.presents {K : LibLink} {t : FuncType} {p q : Nat} {l : Lib} {s : Store (World W A)} {d : DynValues} (hd : d.Of t p q) (hK : K.Good) (hr : t.RefFree) (hn : t.slots < 8192)
    (ok : l.Ok) (hs : s.getLib = l.store) (hin : p + 8 * t.slots ≤ l.mem.size) (hin4 : q + 4 * t.slots ≤ l.mem.size) (hty : l.mem.Types q (t.results ++ t.inputs)) :
    Presents K d (d.held t p l.mem) s := by
  have hlen : (d.held t p l.mem).length = (d.at t).2.length := by rw [DynValues.held_eq, Mem.vals_length]
  refine ⟨?_, fun i x hx => ?_, fun i x hx T h4 hT => ?_, fun i x hx T h4 hT => ?_, fun i x hx T h4 => ?_, fun b hb => ?_⟩
  · rw [hlen]; rcases hd with rfl | rfl <;> rfl
  · have h1 := (hd.reads hK hr hn ok hs hin hx).1
    refine ⟨_, typeCode_of (v := x.type) (by cases x <;> simp [Val.type]), hd.readsType hK hn ok hs hin4 hty h1⟩
  · have := ((hd.reads hK hr hn ok hs hin hx).2 T).1 h4 (by rw [← hT, AsType.size_wasm h4]; exact Nat.le_refl _)
    rw [this, hT, ofBits_bits]
  · exact ((hd.reads hK hr hn ok hs hin hx).2 T).1 h4 hT
  · exact ((hd.reads hK hr hn ok hs hin hx).2 T).2.2 (by omega)
  · exact hd.outside hn (by rw [← hlen]; exact hb) s

theorem Prepared.q_after {l l1 : Lib} {t : FuncType} {xs p q} (hP : Prepared l t xs p q l1) : q = p + 8 * t.slots := by
  have h1 := hP.p_eq
  have h2 := hP.q_eq
  split at h1 <;> simp_all

theorem Prepared.below {l l1 l2 : Lib} {t : FuncType} {xs p q} (hP : Prepared l t xs p q l1) (ok : l2.Ok) (hf : l2.free = l1.free) (hb : ∀ k < l1.free, l2.mem.bytes k = l1.mem.bytes k) :
    q + 4 * t.slots ≤ l2.mem.size ∧ l2.mem.Types q (t.results ++ t.inputs) := by
  have h1 := hP.alloc.free
  have h2 := hP.q_eq
  have h3 := ok.free
  refine ⟨by split at h2 <;> omega, fun k v hv => ?_⟩
  have hk := (List.getElem?_eq_some_iff.1 hv).1
  rw [List.length_append] at hk
  have hsl : t.slots = t.results.length + t.inputs.length := rfl
  rw [← hP.types k v hv]
  refine Mem.word_congr fun i hi1 hi2 => hb i ?_
  split at h2 <;> omega

/-- **C80 (reading).** In the advice around a call with arguments `xs`, `arguments` presents `xs`; after the call has been resumed (the stack
allocator being back and the type buffer being as it was, which is C27), `results` presents the results. -/
theorem C80_presents_arguments_and_results {K : LibLink} (hK : K.Good) {t : FuncType} (hr : t.RefFree) (hn : t.slots < 8192) {l l1 : Lib} {xs : List Val} {p q : Nat}
    (hP : Prepared l t xs p q l1) {s : Store (World W A)} :
    (s.getLib = l1.store → Presents K (.args (asHandle t p q)) xs s) ∧
    (∀ l2 : Lib, s.getLib = l2.store → l2.Ok → l2.free = l1.free → (∀ k, q ≤ k → k < l1.free → l2.mem.bytes k = l1.mem.bytes k) →
      Presents K (.ress (asHandle t p q)) (l2.mem.ress t p) s) := by
  constructor
  · intro hs
    have := DynValues.Of.presents (d := .args (asHandle t p q)) (.inl rfl) hK hr hn hP.alloc.ok hs hP.values_in hP.types_in hP.types
    rwa [show DynValues.held t p l1.mem (.args (asHandle t p q)) = l1.mem.args t p from rfl, hP.args] at this
  · intro l2 hs ok hf hb
    have h1 := hP.alloc.free
    have h2 := hP.q_eq
    have h3 := ok.free
    have h4 := hP.p_eq
    refine DynValues.Of.presents (d := .ress (asHandle t p q)) (.inr rfl) hK hr hn ok hs (by split at h4 <;> omega) (by split at h2 <;> omega) fun k v hv => ?_
    have hk := (List.getElem?_eq_some_iff.1 hv).1
    rw [List.length_append] at hk
    have hsl : t.slots = t.results.length + t.inputs.length := rfl
    rw [← hP.types k v hv]
    refine Mem.word_congr fun i hi1 hi2 => hb i (by omega) ?_
    split at h2 <;> omega

/-! ## What it changes -/

/-- A piece of the analysis' code that, run on the buffers of a call of a function of type `t` (the values at `p`, followed by the types), replaces the
arguments `xs` by `φ xs` and the results `ys` by `ψ ys` and changes nothing else. -/
def EditsTyped (t : FuncType) (p : Nat) (a : Act (World W A) Unit) (φ ψ : List Val → List Val) : Prop :=
  ∀ (l : Lib) (s : Store (World W A)), l.Ok → s.getLib = l.store → p + 12 * t.slots ≤ l.mem.size → l.mem.Types (p + 8 * t.slots) (t.results ++ t.inputs) →
    ∃ m', a s = .ok () (s.setLib (⟨l.free, m'⟩ : Lib).store) ∧ l.mem.OnlyIn m' p (p + 8 * t.slots) ∧
      m'.args t p = φ (l.mem.args t p) ∧ m'.ress t p = ψ (l.mem.ress t p)

theorem Edits.typed {t : FuncType} {p : Nat} {a : Act (World W A) Unit} {φ ψ} (h : Edits t p a φ ψ) : EditsTyped t p a φ ψ :=
  fun l s ok hs hin _ => h l s ok hs (by omega)

section
variable {K : LibLink} {t : FuncType} {p : Nat}

theorem EditsTyped.seq {a b : Act (World W A) Unit} {φ ψ φ' ψ'} (ha : EditsTyped t p a φ ψ) (hb : EditsTyped t p b φ' ψ') :
    EditsTyped t p (do a; b) (φ' ∘ φ) (ψ' ∘ ψ) := by
  intro l s ok hs hin hty
  obtain ⟨m1, e1, o1, a1, r1⟩ := ha l s ok hs hin hty
  obtain ⟨m2, e2, o2, a2, r2⟩ := hb ⟨l.free, m1⟩ (s.setLib _) (o1.ok ok) (Store.getLib_setLib _ _) (by rw [show (⟨l.free, m1⟩ : Lib).mem = m1 from rfl, o1.size]; exact hin)
    (fun k v hv => by rw [← hty k v hv]; exact Mem.word_congr fun i h1 h2 => o1.bytes i (by omega))
  refine ⟨m2, ?_, o1.trans o2, ?_, ?_⟩
  · simp only [bind, Act.bind, e1, e2, Store.setLib_setLib]
  · rw [a2, Function.comp, ← a1]
  · rw [r2, Function.comp, ← r1]

/-- `set` on the arguments. -/
theorem EditsTyped.setArgs (hK : K.Good) (hn : t.slots < 8192) {T : AsType} {i : Nat} {x : Val} (hT : T.accessor = some x.type) (hx : t.inputs[i]? = some x.type) {q : Nat} :
    EditsTyped (W := W) (A := A) t p (K.set T (BitVec.ofNat 32 i) x (.args (asHandle t p q))) (·.set i x) id := by
  intro l s ok hs hin hty
  have hi := (List.getElem?_eq_some_iff.1 hx).1
  have hsl : t.slots = t.results.length + t.inputs.length := rfl
  have hd : DynValues.Of t p q (.args (asHandle t p q)) := .inl rfl
  rw [(hd.access (W := W) (A := A) (K := K) hn hi).2.1 T x, LibLink.asStore_ok hK ok hs hT (by simp only [DynValues.at]; omega)]
  refine ⟨_, rfl, (Mem.put_onlyIn _ _ _ _).mono (by omega) (by simp only [DynValues.at]; omega), Mem.vals_put _ _ _ hx, ?_⟩
  exact Mem.vals_put_other _ _ _ _ _ _ (by simp only [DynValues.at]; omega)

/-- `set` on the results. -/
theorem EditsTyped.setRess (hK : K.Good) (hn : t.slots < 8192) {T : AsType} {i : Nat} {x : Val} (hT : T.accessor = some x.type) (hx : t.results[i]? = some x.type) {q : Nat} :
    EditsTyped (W := W) (A := A) t p (K.set T (BitVec.ofNat 32 i) x (.ress (asHandle t p q))) id (·.set i x) := by
  intro l s ok hs hin hty
  have hi := (List.getElem?_eq_some_iff.1 hx).1
  have hsl : t.slots = t.results.length + t.inputs.length := rfl
  have hd : DynValues.Of t p q (.ress (asHandle t p q)) := .inr rfl
  rw [(hd.access (W := W) (A := A) (K := K) hn hi).2.1 T x, LibLink.asStore_ok hK ok hs hT (by simp only [DynValues.at]; omega)]
  refine ⟨_, rfl, (Mem.put_onlyIn _ _ _ _).mono (by omega) (by simp only [DynValues.at]; omega), ?_, Mem.vals_put _ _ 0 hx⟩
  exact Mem.vals_put_other _ _ _ _ _ _ (by simp only [DynValues.at]; omega)

/-- One round of `set_values_to_zero`. -/
theorem zeroValue_eq {l : Lib} {s : Store (World W A)} {d : DynValues} (hK : K.Good) (hr : t.RefFree) (hn : t.slots < 8192) (hd : d.Of t p (p + 8 * t.slots)) (ok : l.Ok) (hs : s.getLib = l.store)
    (hin : p + 12 * t.slots ≤ l.mem.size) (hty : l.mem.Types (p + 8 * t.slots) (t.results ++ t.inputs)) {i : Nat} {v : ValType} (hv : (d.at t).2[i]? = some v) :
    ∃ T : AsType, T.accessor = some v ∧ K.zeroValue d (BitVec.ofNat 32 i) s = K.set T (BitVec.ofNat 32 i) (zeroVal v) d s := by
  have e := hd.readsType hK hn ok hs (by omega) hty hv
  have hnr : ∀ r, v ≠ .ref r := by
    refine hr.both _ ?_
    have := List.mem_of_getElem? hv
    rcases hd with rfl | rfl
    · exact List.mem_append_right _ this
    · exact List.mem_append_left _ this
  simp only [LibLink.zeroValue, bind, Act.bind, e]
  cases v with
  | ref r => exact absurd rfl (hnr r)
  | i32 => exact ⟨.i32, rfl, rfl⟩
  | f32 => exact ⟨.f32, rfl, rfl⟩
  | i64 => exact ⟨.i64, rfl, rfl⟩
  | f64 => exact ⟨.f64, rfl, rfl⟩

end

/-- **Specification.** Zero of the same type. -/
def Val.zeroed : Val → Val
  | .i32 _ => .i32 0
  | .i64 _ => .i64 0
  | .f32 _ => .f32 0
  | .f64 _ => .f64 0

theorem zeroVal_type {v : ValType} (hv : ∀ r, v ≠ .ref r) : (zeroVal v).type = v := by
  cases v with
  | ref r => exact absurd rfl (hv r)
  | _ => rfl

/-- Zeros from position `i` on. -/
def zeroFrom (i : Nat) (xs : List Val) : List Val := xs.take i ++ (xs.drop i).map Val.zeroed

theorem zeroFrom_step {i : Nat} {xs : List Val} {x : Val} (h : xs[i]? = some x) : zeroFrom (i + 1) (xs.set i x.zeroed) = zeroFrom i xs := by
  have hi := (List.getElem?_eq_some_iff.1 h).1
  have hx := (List.getElem?_eq_some_iff.1 h).2
  simp only [zeroFrom]
  rw [List.drop_eq_getElem_cons hi, hx, List.map_cons]
  rw [List.drop_set_of_lt (by omega), List.take_succ_eq_append_getElem (by simpa using hi)]
  simp [List.take_set_of_le]

section
variable {K : LibLink} {t : FuncType} {p : Nat}

theorem zeroVal_eq {x : Val} {v : ValType} (h : x.type = v) : zeroVal v = x.zeroed := by subst h; cases x <;> rfl

theorem zeroLoop_args (hK : K.Good) (hr : t.RefFree) (hn : t.slots < 8192) : ∀ (n i : Nat), i + n = t.inputs.length →
    EditsTyped (W := W) (A := A) t p (K.zeroLoop (.args (asHandle t p (p + 8 * t.slots))) i n) (zeroFrom i) id
  | 0, i, h => by
    intro l s ok hs hin hty
    obtain ⟨m', e, o, a, r⟩ := (Edits.nothing (W := W) (A := A) (t := t) (p := p)).typed l s ok hs hin hty
    refine ⟨m', e, o, ?_, r⟩
    have hl : (l.mem.args t p).length = i := by rw [Mem.args, Mem.vals_length]; omega
    rw [a, id, zeroFrom, ← hl]; simp
  | n + 1, i, h => by
    intro l s ok hs hin hty
    have hg : t.inputs[i]? = some t.inputs[i] := List.getElem?_eq_getElem (by omega)
    have hnr : ∀ r, t.inputs[i] ≠ .ref r := hr.both _ (List.mem_append_right _ (List.getElem_mem _))
    obtain ⟨T, hT, e⟩ := zeroValue_eq (W := W) (A := A) (d := .args (asHandle t p (p + 8 * t.slots))) hK hr hn (.inl rfl) ok hs hin hty hg
    have hz := zeroVal_type hnr
    have key := (EditsTyped.setArgs (W := W) (A := A) (p := p) (q := p + 8 * t.slots) hK hn (T := T) (i := i) (x := zeroVal t.inputs[i]) (by rw [hz]; exact hT) (by rw [hz]; exact hg)).seq
      (zeroLoop_args hK hr hn n (i + 1) (by omega)) l s ok hs hin hty
    obtain ⟨m', e', o, a, r⟩ := key
    refine ⟨m', ?_, o, ?_, r⟩
    · rw [← e']
      simp only [LibLink.zeroLoop, bind, Act.bind, e]
    · rw [a, Function.comp]
      have hx : (l.mem.args t p)[i]? = some (t.inputs[i].ofBits (l.mem.word (p + 8 * (t.results.length + i)) 8)) := Mem.vals_get _ _ _ _ _ _ hg
      rw [zeroVal_eq (ofBits_type hnr (l.mem.word (p + 8 * (t.results.length + i)) 8))]
      exact zeroFrom_step hx

theorem zeroLoop_ress (hK : K.Good) (hr : t.RefFree) (hn : t.slots < 8192) : ∀ (n i : Nat), i + n = t.results.length →
    EditsTyped (W := W) (A := A) t p (K.zeroLoop (.ress (asHandle t p (p + 8 * t.slots))) i n) id (zeroFrom i)
  | 0, i, h => by
    intro l s ok hs hin hty
    obtain ⟨m', e, o, a, r⟩ := (Edits.nothing (W := W) (A := A) (t := t) (p := p)).typed l s ok hs hin hty
    refine ⟨m', e, o, a, ?_⟩
    have hl : (l.mem.ress t p).length = i := by rw [Mem.ress, Mem.vals_length]; omega
    rw [r, id, zeroFrom, ← hl]; simp
  | n + 1, i, h => by
    intro l s ok hs hin hty
    have hg : t.results[i]? = some t.results[i] := List.getElem?_eq_getElem (by omega)
    have hnr : ∀ r, t.results[i] ≠ .ref r := hr.both _ (List.mem_append_left _ (List.getElem_mem _))
    obtain ⟨T, hT, e⟩ := zeroValue_eq (W := W) (A := A) (d := .ress (asHandle t p (p + 8 * t.slots))) hK hr hn (.inr rfl) ok hs hin hty hg
    have hz := zeroVal_type hnr
    have key := (EditsTyped.setRess (W := W) (A := A) (p := p) (q := p + 8 * t.slots) hK hn (T := T) (i := i) (x := zeroVal t.results[i]) (by rw [hz]; exact hT) (by rw [hz]; exact hg)).seq
      (zeroLoop_ress hK hr hn n (i + 1) (by omega)) l s ok hs hin hty
    obtain ⟨m', e', o, a, r⟩ := key
    refine ⟨m', ?_, o, a, ?_⟩
    · rw [← e']
      simp only [LibLink.zeroLoop, bind, Act.bind, e]
    · rw [r, Function.comp]
      have hx : (l.mem.ress t p)[i]? = some (t.results[i].ofBits (l.mem.word (p + 8 * (0 + i)) 8)) := Mem.vals_get _ _ _ _ _ _ hg
      rw [zeroVal_eq (ofBits_type hnr (l.mem.word (p + 8 * (0 + i)) 8))]
      exact zeroFrom_step hx

/-- `set_values_to_zero`. -/
theorem setValuesToZero_edits (hK : K.Good) (hr : t.RefFree) (hn : t.slots < 8192) :
    EditsTyped (W := W) (A := A) t p (K.setValuesToZero (.args (asHandle t p (p + 8 * t.slots)))) (·.map Val.zeroed) id ∧
    EditsTyped (W := W) (A := A) t p (K.setValuesToZero (.ress (asHandle t p (p + 8 * t.slots)))) id (·.map Val.zeroed) := by
  have e : zeroFrom 0 = (·.map Val.zeroed) := by funext xs; simp [zeroFrom]
  have hsl : t.slots = t.results.length + t.inputs.length := rfl
  constructor
  · have := zeroLoop_args (W := W) (A := A) (p := p) hK hr hn t.inputs.length 0 (by omega)
    rw [e] at this
    simp only [LibLink.setValuesToZero, DynValues.length, asHandle] at this ⊢
    rw [toInt_small (by omega)]
    exact this
  · have := zeroLoop_ress (W := W) (A := A) (p := p) hK hr hn t.results.length 0 (by omega)
    rw [e] at this
    simp only [LibLink.setValuesToZero, DynValues.length, asHandle] at this ⊢
    rw [toInt_small (by omega)]
    exact this

end

/-- **C80 (writing).** An advice that edits the arguments, resumes the call, and edits the results, by code that relies on the types it is told:
function `i`'s uninstrumented copy is called with the edited arguments (`φ xs` for arguments `xs`), and the caller receives the edited results
(`ψ vs` for results `vs`). The stack allocator is back where it was.

About the run of the copy it is assumed that it leaves the stack allocator where it found it and what lies below it as it was (this is C27). Out of
memory in the stack library (`Full`) is excluded: such calls trap. -/
theorem C80_edits_reach_callee_and_caller {C iface ts m r ge cb} (hs : SmallModule m) (hsa : iface.StandardApply) (h : Instruments C iface ts m r)
    (hg : iface.generic = some (ge, cb)) :
    ∃ (copy : Nat → Nat) (base : Nat) (r0 : Instrumented), Instruments C { iface with generic := none } ts m r0 ∧
      (∃ f, r.module.functions[base]? = some f ∧ f.exports = [cb.name]) ∧
      (∀ i ∈ applyTargets m ts, ∀ f0, r0.module.functions[i]? = some f0 → r.module.functions[copy i]? = some { f0 with exports := [] }) ∧
      ∀ (W A : Type) (H : Imports (World W A)) (K : LibLink) (N : Num) (L : Nat), r.librarySignatures = some K.sigs → SmallSigs K.sigs → K.Good → HasLib K H →
        ∀ i ∈ applyTargets m ts, ∀ f, m.functions[i]? = some f →
        ∀ (pre post : FuncType → Nat → Nat → Act (World W A) Unit) (φ χ χ' ψ : List Val → List Val),
          Surrounds base pre post (H analysisModule ge.name) →
          (∀ p, EditsTyped f.type p (pre f.type p (p + 8 * f.type.slots)) φ χ) → (∀ p, EditsTyped f.type p (post f.type p (p + 8 * f.type.slots)) χ' ψ) →
        ∀ (d : Nat) (l : Lib) (s : Store (World W A)) (xs : List Val), l.Ok → s.getLib = l.store → SegmentsIntact m r s → xs.map Val.type = f.type.inputs →
          ¬ Full l (12 * f.type.slots) →
          let call := callF N (machineOf H r.module.functions) L
          ∃ lc : Lib, lc.Ok ∧ lc.free = l.free + 12 * f.type.slots ∧ lc.mem.limit = l.mem.limit ∧ (∀ k < l.free, lc.mem.bytes k = l.mem.bytes k) ∧
            match call (d + 1) (copy i) ((φ xs).map .num) (s.setLib lc.store) with
            | .ok vs s2 => ∀ (ys : List Val) (l2 : Lib), vs = ys.map .num → ys.map Val.type = f.type.results → s2.getLib = l2.store → l2.Ok → l2.free = lc.free →
                (∀ k < lc.free, l2.mem.bytes k = lc.mem.bytes k) →
                ∃ l3 : Lib, call (d + 5) i (xs.map .num) s = .ok ((ψ ys).map .num) (s2.setLib l3.store) ∧ l3.Ok ∧ l3.free = l.free ∧
                  l3.mem.limit = l2.mem.limit ∧ (∀ k < l.free, l3.mem.bytes k = l2.mem.bytes k)
            | .trap s2 => call (d + 5) i (xs.map .num) s = .trap s2
            | .fuel => call (d + 5) i (xs.map .num) s = .fuel
            | .stuck => call (d + 5) i (xs.map .num) s = .stuck := by
  obtain ⟨slot, copy, base, r0, hr0, hbase, hinj, hcopy, hmain⟩ := C25_index_resumes_function hs hsa h hg
  refine ⟨copy, base, r0, hr0, hbase, hcopy, ?_⟩
  intro W A H K N L hsig hsm hK hlib i hi f hf pre post φ χ χ' ψ hH hpre hpost d l s xs ok hsl hseg hx hfull call
  obtain ⟨f', hf', hu, _⟩ := mem_applyTargets.1 hi
  rw [hf, Option.some.injEq] at hf'
  subst hf'
  have hr : f.type.RefFree := usesReferenceTypes_false.1 hu
  have hn : f.type.slots < 8192 := by
    obtain ⟨order, fs, sigs, hooks, cp, hA⟩ := applied hs h hg
    obtain ⟨j, hj⟩ := List.getElem?_of_mem ((hA.mem i).2 hi)
    obtain ⟨g, hg', ht, _⟩ := hA.own hf
    have h1 := (hA.at.target j i g hj hg').1
    have h2 : sigs = K.sigs := by have := hA.sigs_eq; rw [hsig] at this; exact (Option.some.inj this).symm
    subst h2
    rw [← ht]
    exact hsm _ h1
  obtain ⟨p, q, l1, cp, _, hP, hans⟩ := (hmain W A H K N L hsig hsm hK hlib i hi f hf (d + 3) l s ok hsl).1 xs hx hfull
  have hq := hP.q_after
  subst hq
  have hin12 : p + 12 * f.type.slots ≤ l1.mem.size := by have := hP.types_in; omega
  -- before resuming
  obtain ⟨m1, e1, o1, a1, r1⟩ := hpre p l1 (s.setLib l1.store) hP.alloc.ok (Store.getLib_setLib _ _) hin12 hP.types
  have ok1 : (⟨l1.free, m1⟩ : Lib).Ok := o1.ok hP.alloc.ok
  have hin1 : p + 8 * f.type.slots ≤ (⟨l1.free, m1⟩ : Lib).mem.size := by dsimp only; rw [o1.size]; exact hP.values_in
  rw [hP.args] at a1
  have hbelow : ∀ k, k < l.free → f.type.slots = 0 ∨ k < p := by
    intro k hk
    have := hP.p_eq
    split at this
    · exact .inl (by assumption)
    · exact .inr (by omega)
  refine ⟨⟨l1.free, m1⟩, ok1, hP.alloc.free, o1.limit.trans hP.alloc.limit, fun k hk => ?_, ?_⟩
  · rw [← hP.alloc.below k hk]
    refine o1.bytes k ?_
    rcases hbelow k hk with h0 | h0 <;> omega
  have hres := (hmain W A H K N L hsig hsm hK hlib i hi f hf d ⟨l1.free, m1⟩ (s.setLib (⟨l1.free, m1⟩ : Lib).store) ok1 rfl).2 hseg p hin1
  rw [show (⟨l1.free, m1⟩ : Lib).mem = m1 from rfl, a1] at hres
  -- the advice
  have hask := hH (callF N (machineOf H r.module.functions) L (d + 3)) f.type (slot i) i p (p + 8 * f.type.slots) cp l l1 xs (s.setLib l1.store) hr hn hP (Store.getLib_setLib _ _)
  simp only [bind, Act.bind, e1, Store.setLib_setLib] at hask
  rw [hask] at hans
  clear hask
  simp only [WasmFunction.apply, bind, Act.bind] at hans
  show match callF N (machineOf H r.module.functions) L (d + 1) (copy i) ((φ xs).map .num) (s.setLib (⟨l1.free, m1⟩ : Lib).store) with
    | .ok vs s2 => _
    | .trap s2 => _
    | .fuel => _
    | .stuck => _
  cases hc : callF N (machineOf H r.module.functions) L (d + 1) (copy i) ((φ xs).map .num) (s.setLib (⟨l1.free, m1⟩ : Lib).store) with
  | ok vs s2 =>
    rw [hc] at hres
    dsimp only
    intro ys l2 hvs hty hs2 ok2 hf2 hb2
    have hf2' : l2.free = l1.free := hf2
    have hin2 : p + 8 * f.type.slots ≤ l2.mem.size := by
      have h1 := hP.alloc.free
      have h2 := ok2.free
      have h3 := hP.p_eq
      split at h3 <;> omega
    have hin2' : p + 12 * f.type.slots ≤ l2.mem.size := by
      have h1 := hP.alloc.free
      have h2 := ok2.free
      have h3 := hP.p_eq
      split at h3 <;> omega
    obtain ⟨m2, e2, rs2, o2⟩ := hres.2 ys l2 hvs hty hs2 ok2 hin2
    have ht2 : m2.Types (p + 8 * f.type.slots) (f.type.results ++ f.type.inputs) := by
      intro k v hv
      have hk := (List.getElem?_eq_some_iff.1 hv).1
      rw [List.length_append] at hk
      have hsl' : f.type.slots = f.type.results.length + f.type.inputs.length := rfl
      rw [← hP.types k v hv]
      refine Mem.word_congr fun j hj1 hj2 => ?_
      rw [o2.bytes j (by omega), hb2 j ?_]
      · exact o1.bytes j (by omega)
      · have h1 := hP.alloc.free
        have h3 := hP.p_eq
        split at h3 <;> omega
    obtain ⟨m3, e3, o3, a3, r3⟩ := hpost p ⟨l2.free, m2⟩ (s2.setLib (⟨l2.free, m2⟩ : Lib).store) (o2.ok ok2) rfl (by dsimp only; rw [o2.size]; exact hin2') ht2
    dsimp only at r3
    rw [rs2] at r3
    rw [e2] at hans
    simp only [Res.toEff, pure, e3, Store.setLib_setLib, Eff.done] at hans
    have ok2' : (⟨l2.free, m2⟩ : Lib).Ok := o2.ok ok2
    have ok3 : (⟨l2.free, m3⟩ : Lib).Ok := Mem.OnlyIn.ok (l := ⟨l2.free, m2⟩) ok2' o3
    have hfin := hans ⟨l2.free, m3⟩ rfl ok3 hf2
    dsimp only at hfin
    rw [r3] at hfin
    refine ⟨⟨l.free, m3⟩, ?_, ⟨?_, ok.free', ok3.pages, ok3.limit⟩, rfl, o3.limit.trans o2.limit, fun k hk => ?_⟩
    · exact hfin
    · have := ok3.free
      have := hP.alloc.free
      dsimp only at *
      omega
    · dsimp only
      have hb := hbelow k hk
      rw [o3.bytes k (by omega)]
      refine o2.bytes k ?_
      have : f.type.slots = f.type.results.length + f.type.inputs.length := rfl
      omega
  | trap s2 =>
    rw [hc] at hres
    dsimp only [Resumed] at hres
    rw [hres] at hans
    exact hans
  | fuel =>
    rw [hc] at hres
    dsimp only [Resumed] at hres
    rw [hres] at hans
    exact hans
  | stuck =>
    rw [hc] at hres
    dsimp only [Resumed] at hres
    rw [hres] at hans
    exact hans

/-- **C80 (`set_arg_ret_to_zero`).** Under this analysis every intercepted function is called with zeros, of the types of its parameters, whatever it is
called with; and the caller gets zeros, of the types of the results, whatever it returns. -/
theorem C80_zeros_reach_callee_and_caller {C iface ts m r ge cb} (hs : SmallModule m) (hsa : iface.StandardApply) (h : Instruments C iface ts m r)
    (hg : iface.generic = some (ge, cb)) :
    ∃ (copy : Nat → Nat) (base : Nat) (r0 : Instrumented), Instruments C { iface with generic := none } ts m r0 ∧
      (∃ f, r.module.functions[base]? = some f ∧ f.exports = [cb.name]) ∧
      (∀ i ∈ applyTargets m ts, ∀ f0, r0.module.functions[i]? = some f0 → r.module.functions[copy i]? = some { f0 with exports := [] }) ∧
      ∀ (W A : Type) (H : Imports (World W A)) (K : LibLink) (N : Num) (L : Nat), r.librarySignatures = some K.sigs → SmallSigs K.sigs → K.Good → HasLib K H →
        H analysisModule ge.name = asApplyAdvice base (zeroWaspApply K) →
        ∀ i ∈ applyTargets m ts, ∀ f, m.functions[i]? = some f →
        ∀ (d : Nat) (l : Lib) (s : Store (World W A)) (xs : List Val), l.Ok → s.getLib = l.store → SegmentsIntact m r s → xs.map Val.type = f.type.inputs →
          ¬ Full l (12 * f.type.slots) →
          let call := callF N (machineOf H r.module.functions) L
          ∃ lc : Lib, lc.Ok ∧ lc.free = l.free + 12 * f.type.slots ∧ lc.mem.limit = l.mem.limit ∧ (∀ k < l.free, lc.mem.bytes k = l.mem.bytes k) ∧
            match call (d + 1) (copy i) ((xs.map Val.zeroed).map .num) (s.setLib lc.store) with
            | .ok vs s2 => ∀ (ys : List Val) (l2 : Lib), vs = ys.map .num → ys.map Val.type = f.type.results → s2.getLib = l2.store → l2.Ok → l2.free = lc.free →
                (∀ k < lc.free, l2.mem.bytes k = lc.mem.bytes k) →
                ∃ l3 : Lib, call (d + 5) i (xs.map .num) s = .ok ((ys.map Val.zeroed).map .num) (s2.setLib l3.store) ∧ l3.Ok ∧ l3.free = l.free ∧
                  l3.mem.limit = l2.mem.limit ∧ (∀ k < l.free, l3.mem.bytes k = l2.mem.bytes k)
            | .trap s2 => call (d + 5) i (xs.map .num) s = .trap s2
            | .fuel => call (d + 5) i (xs.map .num) s = .fuel
            | .stuck => call (d + 5) i (xs.map .num) s = .stuck := by
  obtain ⟨copy, base, r0, hr0, hbase, hcopy, hmain⟩ := C80_edits_reach_callee_and_caller hs hsa h hg
  refine ⟨copy, base, r0, hr0, hbase, hcopy, ?_⟩
  intro W A H K N L hsig hsm hK hlib hH i hi f hf
  obtain ⟨f', hf', hu, _⟩ := mem_applyTargets.1 hi
  rw [hf, Option.some.injEq] at hf'
  subst hf'
  have hr : f.type.RefFree := usesReferenceTypes_false.1 hu
  have hn : f.type.slots < 8192 := by
    obtain ⟨order, fs, sigs, hooks, cp, hA⟩ := applied hs h hg
    obtain ⟨j, hj⟩ := List.getElem?_of_mem ((hA.mem i).2 hi)
    obtain ⟨g, hg', ht, _⟩ := hA.own hf
    have h1 := (hA.at.target j i g hj hg').1
    have h2 : sigs = K.sigs := by have := hA.sigs_eq; rw [hsig] at this; exact (Option.some.inj this).symm
    subst h2
    rw [← ht]
    exact hsm _ h1
  exact hmain W A H K N L hsig hsm hK hlib i hi f hf _ _ _ id id _
    (by rw [hH]; exact asApply_surrounds base (fun args _ => K.setValuesToZero args) (fun _ results => K.setValuesToZero results))
    (fun p => (setValuesToZero_edits hK hr hn).1) (fun p => (setValuesToZero_edits hK hr hn).2)

/-! ## Advice that leaves the program alone -/

/-- Guest code that changes nothing but the analysis' own state, which it changes as `P` says, and returns something that satisfies `R`. -/
def Own {α : Type} (P : A → A → Prop) (R : α → Prop) (body : Act (W × A) α) : Prop :=
  ∀ (s : Store W) (a : A), ∃ x a', body (s.withAnalysis a) = .ok x (s.withAnalysis a') ∧ R x ∧ P a a'

/-- Runs to its end, or returns a number as true as `given`. -/
def AsTrue (given : BitVec 32) (r : Option (BitVec 32)) : Prop := ∀ y, r = some y → (given = 0 ↔ y = 0)

/-- Runs to its end, or returns `given`. -/
def Unchanged (given : BitVec 32) (r : Option (BitVec 32)) : Prop := ∀ y, r = some y → y = given

/-- **Specification.** The advice for a trap leaves the program alone. -/
def WaspCode.Mild (c : WaspCode (W × A)) (P : A → A → Prop) : Trap → Prop
  | .ifThenTrap => ∀ x, Own P (AsTrue x) (c.ifThen (.new x))
  | .ifThenElseTrap => ∀ x, Own P (AsTrue x) (c.ifThenElse (.new x))
  | .brIfTrap => ∀ x l, Own P (AsTrue x) (c.brIf (.new x) l)
  | .select => ∀ x, Own P (AsTrue x) (c.select (.new x))
  | .brTableTrap => ∀ x d, Own P (Unchanged x) (c.brTable x d)
  | .preTrapCallIndirect => ∀ t x, Own P (Unchanged x) (c.callIndirectPre t x)
  | .preTrapCall => ∀ f, Own P (fun _ => True) (c.callPre f)
  | .postTrapCall => ∀ f, Own P (fun _ => True) (c.callPost f)
  | .postTrapCallIndirect => ∀ t, Own P (fun _ => True) (c.callIndirectPost t)
  | .preBlock => Own P (fun _ => True) c.blockPre
  | .postBlock => Own P (fun _ => True) c.blockPost
  | .preLoop => Own P (fun _ => True) c.loopPre
  | .postLoop => Own P (fun _ => True) c.loopPost
  | _ => True

theorem Own.condition {P : A → A → Prop} {x : BitVec 32} {body : Act (W × A) (Option (BitVec 32))} (h : Own P (AsTrue x) body) {t : Trap} (ht : t.Tests = true) (s : Store W) (a : A) :
    ∃ vs a', SameAnswer t [.i32 x] vs ∧ P a a' ∧ asReturn x body (s.withAnalysis a) = .ok vs (s.withAnalysis a') := by
  obtain ⟨r, a', e, hr, hp⟩ := h s a
  cases r with
  | none => exact ⟨_, a', .refl _ _, hp, by simp only [asReturn, e]⟩
  | some y => exact ⟨_, a', .inr ⟨ht, x, y, rfl, rfl, hr y rfl⟩, hp, by simp only [asReturn, e]⟩

theorem Own.index {P : A → A → Prop} {x : BitVec 32} {body : Act (W × A) (Option (BitVec 32))} (h : Own P (Unchanged x) body) (t : Trap) (s : Store W) (a : A) :
    ∃ vs a', SameAnswer t [.i32 x] vs ∧ P a a' ∧ asReturn x body (s.withAnalysis a) = .ok vs (s.withAnalysis a') := by
  obtain ⟨r, a', e, hr, hp⟩ := h s a
  cases r with
  | none => exact ⟨_, a', .refl _ _, hp, by simp only [asReturn, e]⟩
  | some y =>
    have := hr y rfl
    subst this
    exact ⟨_, a', .refl _ _, hp, by simp only [asReturn, e]⟩

theorem Own.event {P : A → A → Prop} {body : Act (W × A) Unit} (h : Own P (fun _ => True) body) (t : Trap) (s : Store W) (a : A) :
    ∃ vs a', SameAnswer t [] vs ∧ P a a' ∧ (body (s.withAnalysis a)).done = .ok vs (s.withAnalysis a') := by
  obtain ⟨r, a', e, hr, hp⟩ := h s a
  exact ⟨_, a', .refl _ _, hp, by simp only [e, Eff.done]⟩

/-- Arguments of the expected types. -/
theorem args3 {args : List RVal} (h : args.map RVal.type = [.i32, .i64, .i64]) : ∃ a b c, args = [.num (.i32 a), .num (.i64 b), .num (.i64 c)] := by
  rcases args with _ | ⟨a, _ | ⟨b, _ | ⟨c, _ | ⟨d, rest⟩⟩⟩⟩ <;> simp only [List.map_cons, List.map_nil, List.cons.injEq, reduceCtorEq, and_false, and_true] at h
  · obtain ⟨a, rfl⟩ := RVal.of_i32 h.1
    obtain ⟨b, rfl⟩ := RVal.of_i64 h.2.1
    obtain ⟨c, rfl⟩ := RVal.of_i64 h.2.2
    exact ⟨a, b, c, rfl⟩

theorem args2 {args : List RVal} (h : args.map RVal.type = [.i64, .i64]) : ∃ b c, args = [.num (.i64 b), .num (.i64 c)] := by
  rcases args with _ | ⟨b, _ | ⟨c, _ | ⟨d, rest⟩⟩⟩ <;> simp only [List.map_cons, List.map_nil, List.cons.injEq, reduceCtorEq, and_false, and_true] at h
  · obtain ⟨b, rfl⟩ := RVal.of_i64 h.1
    obtain ⟨c, rfl⟩ := RVal.of_i64 h.2
    exact ⟨b, c, rfl⟩

theorem args4 {args : List RVal} (h : args.map RVal.type = [.i32, .i32, .i64, .i64]) : ∃ x a b c, args = [.num (.i32 x), .num (.i32 a), .num (.i64 b), .num (.i64 c)] := by
  match args, h with
  | x :: args, h =>
    simp only [List.map_cons, List.cons.injEq] at h
    obtain ⟨x, rfl⟩ := RVal.of_i32 h.1
    obtain ⟨a, b, c, rfl⟩ := args3 h.2
    exact ⟨x, a, b, c, rfl⟩

theorem args5 {args : List RVal} (h : args.map RVal.type = [.i32, .i32, .i32, .i64, .i64]) : ∃ y x a b c, args = [.num (.i32 y), .num (.i32 x), .num (.i32 a), .num (.i64 b), .num (.i64 c)] := by
  match args, h with
  | x :: args, h =>
    simp only [List.map_cons, List.cons.injEq] at h
    obtain ⟨x, rfl⟩ := RVal.of_i32 h.1
    obtain ⟨y, a, b, c, rfl⟩ := args4 h.2
    exact ⟨x, y, a, b, c, rfl⟩

open Wasp in
/-- The exported functions answer by what they were shown, or a number as true. -/
theorem WaspCode.host_shown {c : WaspCode (W × A)} {P : A → A → Prop} {t : Trap} {x : Wasp.Advice} (hx : Advises x t) (hm : c.Mild P t) (call) {args : List RVal} (s : Store W) (a : A)
    (hty : args.map RVal.type = t.args) :
    ∃ vs a', SameAnswer t (args.take t.results.length) vs ∧ P a a' ∧ c.host t call args (s.withAnalysis a) = .ok vs (s.withAnalysis a') := by
  cases hx
  case ifThen => obtain ⟨x, _, _, _, _, rfl⟩ := args5 hty; exact (hm x).condition rfl s a
  case ifThenElse => obtain ⟨x, _, _, _, _, rfl⟩ := args5 hty; exact (hm x).condition rfl s a
  case brIf => obtain ⟨x, l, _, _, rfl⟩ := args4 hty; exact (hm x l).condition rfl s a
  case brTable => obtain ⟨x, _, d, _, _, rfl⟩ := args5 hty; exact (hm x d).index _ s a
  case callPre => obtain ⟨f, _, _, rfl⟩ := args3 hty; exact (hm f).event _ s a
  case callPost => obtain ⟨f, _, _, rfl⟩ := args3 hty; exact (hm f).event _ s a
  case callIndirectPre => obtain ⟨x, t, _, _, rfl⟩ := args4 hty; exact (hm t x).index _ s a
  case callIndirectPost => obtain ⟨f, _, _, rfl⟩ := args3 hty; exact (hm f).event _ s a
  case blockPre => obtain ⟨_, _, _, _, rfl⟩ := args4 hty; exact Own.event hm _ s a
  case blockPost => obtain ⟨_, _, rfl⟩ := args2 hty; exact Own.event hm _ s a
  case loopPre => obtain ⟨_, _, _, _, rfl⟩ := args4 hty; exact Own.event hm _ s a
  case loopPost => obtain ⟨_, _, rfl⟩ := args2 hty; exact Own.event hm _ s a
  case select => obtain ⟨x, _, _, rfl⟩ := args3 hty; exact (hm x).condition rfl s a

open Wasp in
/-- No advice of a Wasp analysis performs an operation. -/
theorem Wasp.Advises.observes {x : Wasp.Advice} {t : Trap} (h : Advises x t) : t.Observes := by
  cases h <;> exact Trap.observes_of_not_performs rfl

open Wasp in
/-- **C80 (hooks).** The hooks generated for a Wasp analysis forward, if the guest code of each advice the analysis has leaves the program alone. -/
theorem C80_wasp_hooks_forward {prog : List Wasp.Advice} {iface : Interface} (hi : Wasp.interface prog = some iface) {c : WaspCode (W × A)} {P : A → A → Prop} {H : Imports (W × A)} (N : Num)
    (hH : ∀ t, (∃ x ∈ prog, Advises x t) → H analysisModule t.exportName = c.host t ∧ c.Mild P t) : Forwards N iface (fun _ _ => P) H := by
  have hex := (C35_interface_exact_partial prog iface hi).1
  refine ⟨fun t e he _ call args s a hty => ?_, fun t e he b k info hd => ?_⟩
  · obtain ⟨rfl, x, hx, hxt⟩ := (hex t e).1 he
    obtain ⟨h1, h2⟩ := hH t ⟨x, hx, hxt⟩
    rw [show H "WASTRUMENTATION_ANALYSIS" t.export.name = c.host t from h1]
    exact WaspCode.host_shown hxt h2 call s a hty
  · obtain ⟨rfl, x, hx, hxt⟩ := (hex t e).1 he
    exact absurd hd (hxt.observes b k info)

open Wasp in
theorem wasp_standard {prog : List Wasp.Advice} {iface : Interface} (hi : Wasp.interface prog = some iface) : iface.Standard ∧ iface.StandardApply := by
  have hex := C35_interface_exact_partial prog iface hi
  refine ⟨fun t e he => ?_, fun ge cb hg => ?_⟩
  · obtain ⟨rfl, _⟩ := (hex.1 t e).1 he
    exact ⟨rfl, rfl⟩
  · obtain ⟨e, _⟩ := (hex.2 (ge, cb)).1 hg
    obtain ⟨rfl, rfl⟩ := Prod.mk.inj e
    exact ⟨rfl, rfl, rfl, rfl, by decide +kernel⟩

open Wasp in
/-- **C80 (no `apply` advice).** A valid program instrumented for a Wasp analysis without `apply` advice, whose guest code leaves the program alone (the
advice only changes the analysis' own state, and runs to its end or returns what it was given; conditions: any number as true), behaves as the
original: the same results, traps and program states, and it runs forever exactly if the original does. -/
theorem C80_wasp_analysis_transparent {C iface ts m r} {prog : List Wasp.Advice} (hi : Wasp.interface prog = some iface) (hg : ¬ ∃ x ∈ prog, IsGeneric x) (hs : SmallModule m)
    (h : Instruments C iface ts m r) (hv : ValidModule m)
    (hB : ∀ i ∈ bodyTargets m ts, ∀ f, m.functions[i]? = some f → WellAnnotated m f (bodyOf C m i))
    {N : Num} {c : WaspCode (W × A)} {P : A → A → Prop} {H : Imports W} {H' : Imports (W × A)}
    (hH : ∀ t, (∃ x ∈ prog, Advises x t) → H' analysisModule t.exportName = c.host t ∧ c.Mild P t)
    (hI : ImportsAgree m (fun w (p : W × A) => w = p.1) H H')
    {f : Nat} {ty : FuncType} {args : List RVal} {s : Store W} (hf : m.ctx.ftype f = some ty) (hargs : ValsOK m.ctx args ty.inputs)
    (hok : StoreOK m.ctx s) (a : A) :
    (∀ vs s1, (∃ L d, callF N (machineOf H m.functions) L d f args s = .ok vs s1) ↔
      ∃ L d a1, callF N (machineOf H' r.module.functions) L d f args (s.withAnalysis a) = .ok vs (s1.withAnalysis a1)) ∧
    (∀ s1, (∃ L d, callF N (machineOf H m.functions) L d f args s = .trap s1) ↔
      ∃ L d a1, callF N (machineOf H' r.module.functions) L d f args (s.withAnalysis a) = .trap (s1.withAnalysis a1)) ∧
    ((∀ L d, callF N (machineOf H m.functions) L d f args s = .fuel) ↔
      ∀ L d, callF N (machineOf H' r.module.functions) L d f args (s.withAnalysis a) = .fuel) := by
  have hgen : iface.generic = none := by
    cases e : iface.generic with
    | none => rfl
    | some g => exact absurd (((C35_interface_exact_partial prog iface hi).2 g).1 e).2 hg
  exact C10_same_behaviour hs (wasp_standard hi).1 hgen h hv hB (C80_wasp_hooks_forward hi N hH) hI hf hargs hok a

open Wasp in
/-- The assumptions about a program linked with a Wasp analysis that resumes the calls it intercepts. -/
structure WaspResuming (prog : List Wasp.Advice) (ts : Option (List Nat)) (m : Module) (r : Instrumented) (K : LibLink) (base : Nat) (T : List Table)
    (X : List (RefType × List (Option Nat))) (B : Nat) (c : WaspCode (World W A))
    (apply : AsFunction → Act (World W A) Unit → DynValues → DynValues → Act (World W A) Unit) (H : Imports W) (H' : Imports (World W A)) : Prop where
  /-- the stack library linked is the one generated for the instrumented module -/
  sigs : r.librarySignatures = some K.sigs
  small : SmallSigs K.sigs
  good : K.Good
  lib : HasLib K H'
  /-- the exported functions of the analysis are those generated around its guest code, which leaves the program and the stack library alone -/
  hooks : ∀ t, (∃ x ∈ prog, Advises x t) → H' analysisModule t.exportName = c.host t ∧ c.Mild (fun a a' => a'.2 = a.2) t
  /-- the `apply` advice resumes the call, looking at it before and after -/
  applies : H' analysisModule interfaceGenericApply.1.name = asApplyAdvice base apply
  resumes : ∃ pre post : DynValues → DynValues → Act (World W A) Unit, (apply = fun _ call args results => do pre args results; call; post args results) ∧
    ∀ i ∈ applyTargets m ts, ∀ f, m.functions[i]? = some f → ∀ p q,
      Looks f.type p q (pre (.args (asHandle f.type p q)) (.ress (asHandle f.type p q))) ∧ Looks f.type p q (post (.args (asHandle f.type p q)) (.ress (asHandle f.type p q)))
  imports : ImportsAgreeBeside m T X H H'
  /-- no frame takes more than `B` bytes -/
  frame : ∀ t ∈ K.sigs, 12 * t.slots ≤ B

open Wasp in
/-- **C80 (with `apply` advice).** A valid program instrumented for a Wasp analysis that resumes the calls it intercepts and otherwise leaves the program
alone returns the same results and traps alike, in the same program states, as the original, and the stack allocator is back where it was; and conversely.
(Bounds as in C23.) -/
theorem C80_wasp_resuming_transparent {C iface ts m r} {prog : List Wasp.Advice} (hi : Wasp.interface prog = some iface) (hg : ∃ x ∈ prog, IsGeneric x) (hs : SmallModule m)
    (h : Instruments C iface ts m r) (hv : ValidModule m)
    (hB : ∀ i ∈ bodyTargets m ts, ∀ f, m.functions[i]? = some f → WellAnnotated m f (bodyOf C m i)) :
    ∃ base : Nat, (∃ f, r.module.functions[base]? = some f ∧ f.exports = ["call_base"]) ∧
      ∀ (W A : Type) (K : LibLink) (N : Num) (T : List Table) (X : List (RefType × List (Option Nat))) (B : Nat) (c : WaspCode (World W A)) apply (H : Imports W) (H' : Imports (World W A)),
        WaspResuming prog ts m r K base T X B c apply H H' →
        ∀ (f : Nat) (ty : FuncType) (args : List RVal) (s : Store W) (a : A) (l : Lib),
          m.ctx.ftype f = some ty → ValsOK m.ctx args ty.inputs → StoreOK m.ctx s →
          l.Ok → l.mem.pages < 65536 → SegmentsIntact m r (s.extend T X (s.world, a, l.store)) →
        ∀ (L d : Nat), l.free + d * B ≤ l.mem.limit * 65536 → l.free + d * B ≤ 65535 * 65536 →
          let original := callF N (machineOf H m.functions) L
          let instrumented := callF N (machineOf H' r.module.functions) L
          let s' := s.extend T X (s.world, a, l.store)
          (∀ vs s1, original d f args s = .ok vs s1 →
            ∃ a1 l1, instrumented (5 * d + 1) f args s' = .ok vs (s1.extend T X (s1.world, a1, l1.store)) ∧ Lib.Ok l1 ∧ l1.free = l.free ∧ l1.mem.limit = l.mem.limit) ∧
          (∀ s1, original d f args s = .trap s1 → ∃ a1 st1, instrumented (5 * d + 1) f args s' = .trap (s1.extend T X (s1.world, a1, st1))) ∧
          (∀ vs s1', instrumented d f args s' = .ok vs s1' →
            ∃ s1 a1 l1, original d f args s = .ok vs s1 ∧ s1' = s1.extend T X (s1.world, a1, l1.store) ∧ Lib.Ok l1 ∧ l1.free = l.free ∧ l1.mem.limit = l.mem.limit) ∧
          (∀ s1', instrumented d f args s' = .trap s1' → ∃ s1 a1 st1, original d f args s = .trap s1 ∧ s1' = s1.extend T X (s1.world, a1, st1)) ∧
          original d f args s ≠ .stuck ∧ instrumented d f args s' ≠ .stuck := by
  obtain ⟨hst, hsa⟩ := wasp_standard hi
  have hgen := ((C35_interface_exact_partial prog iface hi).2 interfaceGenericApply).2 ⟨rfl, hg⟩
  obtain ⟨base, hb, hmain⟩ := C23_resuming_is_transparent (ge := interfaceGenericApply.1) (cb := interfaceGenericApply.2) hs hst hsa h hgen hv hB
  refine ⟨base, hb, fun W A K N T X B c apply H H' hR => hmain W A K N T X B H H' ?_⟩
  obtain ⟨pre, post, happ, hlook⟩ := hR.resumes
  exact ⟨hR.sigs, hR.small, hR.good, hR.lib, ⟨_, C80_wasp_hooks_forward hi N hR.hooks, fun _ _ _ _ h => h⟩,
    ⟨_, _, by rw [hR.applies, happ]; exact asApply_surrounds base pre post, hlook⟩, hR.imports, hR.frame⟩

/-! ### The analyses of the test suite -/

/-- **C80 (`forward.wasp`).** Its guest code leaves the program alone, and does not even change a state of its own. -/
theorem C80_forward_wasp_mild : ∀ t, (forwardWasp : WaspCode (W × A)).Mild (fun a a' => a' = a) t := by
  have cond : ∀ x, Own (W := W) (A := A) (fun a a' => a' = a) (AsTrue x) (sameWay (.new x)) := by
    intro x s a
    by_cases hx : x = 0
    · exact ⟨_, a, by simp only [sameWay, AsCondition.new, hx, if_true, Bool.false_eq_true, if_false]; rfl, by intro y hy; cases hy; simp [hx], rfl⟩
    · exact ⟨_, a, by simp only [sameWay, AsCondition.new, hx, if_true, if_false]; rfl, by intro y hy; cases hy; exact iff_of_false hx (by decide), rfl⟩
  intro t
  cases t
  case ifThenTrap => exact cond
  case ifThenElseTrap => exact cond
  case brIfTrap => exact fun x _ => cond x
  case brTableTrap => exact fun x d s a => ⟨_, a, rfl, by intro y hy; cases hy; rfl, rfl⟩
  case preTrapCallIndirect => exact fun t x s a => ⟨_, a, rfl, by intro y hy; cases hy; rfl, rfl⟩
  all_goals first
    | exact trivial
    | exact fun s a => ⟨(), a, rfl, trivial, rfl⟩
    | exact fun _ s a => ⟨(), a, rfl, trivial, rfl⟩
    | exact fun _ s a => ⟨none, a, rfl, (fun y hy => nomatch hy), rfl⟩
    | exact fun _ _ s a => ⟨none, a, rfl, (fun y hy => nomatch hy), rfl⟩

/-- **C80 (`call_stack.wasp`).** Its guest code leaves the program and the stack library alone. -/
theorem C80_call_stack_wasp_mild : ∀ t, (callStackWasp : WaspCode (World W CallDepths)).Mild (fun a a' => a'.2 = a.2) t := by
  intro t
  cases t
  case preTrapCall => exact fun f s a => ⟨_, (_, a.2), rfl, trivial, rfl⟩
  case postTrapCall => exact fun f s a => ⟨_, (_, a.2), rfl, trivial, rfl⟩
  all_goals first
    | exact trivial
    | exact fun s a => ⟨(), a, rfl, trivial, rfl⟩
    | exact fun _ s a => ⟨(), a, rfl, trivial, rfl⟩
    | exact fun _ s a => ⟨none, a, rfl, (fun y hy => nomatch hy), rfl⟩
    | exact fun _ _ s a => ⟨none, a, rfl, (fun y hy => nomatch hy), rfl⟩

/-- **C80 (`apply` advice).** Code that reads arguments or results within their bounds, at types of 32 or 64 bits, or their types, only looks. -/
theorem C80_reading_looks {K : LibLink} (hK : K.Good) {t : FuncType} (hr : t.RefFree) (hn : t.slots < 8192) {p q : Nat} {d : DynValues} (hd : d.Of t p q) {i : Nat} (hi : i < (d.at t).2.length) :
    (∀ T : AsType, 4 ≤ T.size → Looks (W := W) (A := A) t p q (K.get T (BitVec.ofNat 32 i) d)) ∧ Looks (W := W) (A := A) t p q (K.getType (BitVec.ofNat 32 i) d) := by
  have hb := hd.bound
  constructor
  · intro T hT l s ok hs hin hin4
    rw [(hd.access hn hi).1 T, LibLink.asLoad_ok hK ok hs (AsType.accessor_some hT) (by omega)]
    exact ⟨_, s.world.2.1, rfl⟩
  · intro l s ok hs hin hin4
    rw [(hd.access hn hi).2.2, LibLink.asLoadType_ok hK ok hs (by omega)]
    exact ⟨_, s.world.2.1, rfl⟩

/-! ## Programs meeting the hypotheses -/

/-- `call_stack.wasp`, without the text of its guest code. -/
def callStackProg : List Wasp.Advice :=
  [.global "..", .plain (.call .pre "f") "..", .plain (.call .post "f") "..", .apply (.gen .mutableDynamic "func" "args" "results") ".."]

/-- Its interface. -/
def exWaspIface : Interface := (Wasp.interface callStackProg).getD ⟨none, fun _ => none⟩

/-- The example program instrumented for it. -/
def exWaspResumed : Instrumented := ((instrument exTypedChecker id id exWaspIface none exModule).toOption).getD ⟨exModule, none⟩

theorem exWaspResumed_instruments : Instruments exTypedChecker exWaspIface none exModule exWaspResumed := by
  have h : (match instrument exTypedChecker id id exWaspIface none exModule with | .ok _ => true | .error _ => false) = true := by decide +kernel
  refine ⟨id, id, fun _ => .rfl, fun _ => .rfl, ?_⟩
  unfold exWaspResumed
  split at h
  · rename_i r hr; rw [hr]; rfl
  · simp at h

/-- The library generated for it. -/
def exWaspLink : LibLink := ⟨libNum, (exWaspResumed.librarySignatures).getD [], 65537, 5⟩

theorem exWaspLink_good : exWaspLink.Good := ⟨libNum_stack, by decide, by decide⟩

theorem exWaspLink_sigs : exWaspLink.sigs = [⟨[.i32], []⟩, ⟨[.i32, .i32], [.i32]⟩, ⟨[.i32], [.i32]⟩] := by decide +kernel

/-- The embedder: the stack library, a Wasp analysis, and the embedder's `print`. -/
def exWaspHost (c : WaspCode (World (List RVal) A)) (apply : AsFunction → Act (World (List RVal) A) Unit → DynValues → DynValues → Act (World (List RVal) A) Unit) (base : Nat) :
    Imports (World (List RVal) A) := fun ns name =>
  if ns = stackModule then libHost exWaspLink.N exWaspLink.sigs exWaspLink.L exWaspLink.d name
  else if ns = analysisModule then
    if name = interfaceGenericApply.1.name then asApplyAdvice base apply
    else match [Trap.preTrapCall, .postTrapCall].find? fun t => t.exportName == name with
    | some t => c.host t
    | none => fun _ _ _ => .stuck
  else exImports.besideTool 1 0 ns name

/-- The table the tool has added, after instantiation. -/
def exWaspTable : Table := ⟨.funcRef, [some 35, some 37, some 39], 3⟩

theorem exWasp_resuming (base : Nat) :
    WaspResuming callStackProg none exModule exWaspResumed exWaspLink base [exWaspTable] [] 36 callStackWasp callStackWaspApply exImports (exWaspHost callStackWasp callStackWaspApply base) where
  sigs := by decide +kernel
  small := by
    rw [exWaspLink_sigs]
    intro t ht
    simp only [List.mem_cons, List.not_mem_nil, or_false] at ht
    obtain rfl | rfl | rfl := ht <;> decide
  good := exWaspLink_good
  lib := fun name => rfl
  hooks := by
    rintro t ⟨x, hx, ha⟩
    have ht : t = .preTrapCall ∨ t = .postTrapCall := by
      simp only [callStackProg, List.mem_cons, List.not_mem_nil, or_false] at hx
      rcases hx with rfl | rfl | rfl | rfl <;> cases ha <;> simp
    refine ⟨?_, C80_call_stack_wasp_mild t⟩
    have e1 : t.exportName ≠ interfaceGenericApply.1.name := by rcases ht with rfl | rfl <;> decide +kernel
    have e2 : List.find? (fun u => u.exportName == t.exportName) [Trap.preTrapCall, .postTrapCall] = some t := by rcases ht with rfl | rfl <;> decide +kernel
    have e3 : ("WASTRUMENTATION_ANALYSIS" : String) ≠ stackModule := by decide
    simp only [exWaspHost, e1, e2, e3, if_false, analysisModule, if_true]
  applies := rfl
  resumes := ⟨fun _ _ => updateState _, fun _ _ => updateState _, rfl, fun i hi f hf p q => ⟨Looks.update _, Looks.update _⟩⟩
  imports := by
    refine .plain _ _ fun f hf ns name hc => ?_
    simp only [exModule, List.mem_cons, List.not_mem_nil, or_false] at hf
    rcases hf with rfl | rfl | rfl | rfl <;> cases hc
    exact ⟨⟨fun _ _ => rfl, fun call args s ha hs => .inl ⟨_, _, rfl, .nil, hs.world rfl rfl rfl rfl rfl⟩⟩, rfl⟩
  frame := by
    rw [exWaspLink_sigs]
    intro t ht
    simp only [List.mem_cons, List.not_mem_nil, or_false] at ht
    obtain rfl | rfl | rfl := ht <;> decide

theorem exWaspResumed_intact {A : Type} (s : Store (List RVal)) (hs : s.tables.length = 1) (w : World (List RVal) A) :
    SegmentsIntact exModule exWaspResumed (s.extend [exWaspTable] [] w) := by
  have h : exWaspResumed.module.elements = [⟨.funcRef, [[.refFunc 35, .fin], [.refFunc 37, .fin], [.refFunc 39, .fin]], .active 1 [.const (.i32 0), .fin]⟩] := by
    decide +kernel
  rw [SegmentsIntact, h]
  intro el hel tbl hm k f hk
  simp only [exModule, List.length_nil, List.drop_zero, List.mem_singleton] at hel
  subst hel
  cases hm
  refine ⟨exWaspTable, ?_, ?_⟩
  · simp only [Store.extend]
    rw [List.getElem?_append_right (by omega)]
    simp [hs]
  · dsimp only [exWaspTable] at hk ⊢
    match k with
    | 0 | 1 | 2 => simpa using hk
    | k + 3 => simp at hk

-- C80 (with `apply` advice): all hypotheses hold of the example and `call_stack.wasp`. `main(0, 5)` prints 7 and returns 49, as in the original.
example : ∃ base a1 l1, callF exNum (machineOf (exWaspHost callStackWasp callStackWaspApply base) exWaspResumed.module.functions) 10 51 1 [.i32 0, .i32 5]
      (exStore.extend [exWaspTable] [] ([], {}, exLib.store)) =
    .ok [.i32 49] (Store.extend { exStore with world := [RVal.i32 7] } [exWaspTable] [] ([RVal.i32 7], a1, Lib.store l1)) ∧ l1.free = 0 := by
  obtain ⟨base, _, h⟩ := C80_wasp_resuming_transparent (prog := callStackProg) (iface := exWaspIface) rfl ⟨.apply (.gen .mutableDynamic "func" "args" "results") "..", by simp [callStackProg], ⟨_, _, _, _, _, rfl⟩⟩ exModule_small exWaspResumed_instruments
    exModule_valid exModule_annotated
  obtain ⟨a1, l1, e, _, e1, _⟩ := (h _ _ _ exNum _ _ _ _ _ _ _ (exWasp_resuming base) 1 _ [.i32 0, .i32 5] exStore {} exLib rfl
    (ValsOK.nil.cons rfl (by simp [RVal.OK]) |>.cons rfl (by simp [RVal.OK])) exStore_ok exLib_ok (by decide) (exWaspResumed_intact _ rfl _) 10 10 (by decide) (by decide)).1 _ _ exModule_runs
  exact ⟨base, a1, l1, e, e1⟩

-- What `call_stack.wasp` counts in this run: three applications, at most three deep (`main`, the square, `print`), and two calls.
example : (match callF exNum (machineOf (exWaspHost callStackWasp callStackWaspApply 40) exWaspResumed.module.functions) 10 51 1 [.i32 0, .i32 5]
      (exStore.extend [exWaspTable] [] ([], {}, exLib.store)) with
    | .ok vs s => (vs, s.world.1, s.world.2.1.number_of_applys, s.world.2.1.max_apply_depth, s.world.2.1.apply_stack, s.world.2.1.number_of_calls, s.world.2.1.call_stack)
    | _ => ([], [], 0, 0, 0, 0, 0)) = ([.i32 49], [.i32 7], 3, 3, 0, 2, 0) := by decide +kernel

-- C80 (`set_arg_ret_to_zero`): under this analysis `main(0, 5)` prints 0 and returns 0.
example : (match callF exNum (machineOf (exWaspHost (A := Unit) .idle (zeroWaspApply exWaspLink) 40) exWaspResumed.module.functions) 10 51 1 [.i32 0, .i32 5]
      (exStore.extend [exWaspTable] [] ([], (), exLib.store)) with
    | .ok vs s => (vs, s.world.1)
    | _ => ([], [])) = ([.i32 0], [.i32 0]) := by decide +kernel

-- The hypotheses of the theorem about it hold: the advice is the one exported, and function 1 takes two `i32` to an `i32`.
example : exWaspHost (A := Unit) .idle (zeroWaspApply exWaspLink) 40 analysisModule interfaceGenericApply.1.name = asApplyAdvice 40 (zeroWaspApply exWaspLink) ∧
    exWaspIface.generic = some interfaceGenericApply ∧ applyTargets exModule none = [0, 1, 2] ∧ HasLib exWaspLink (exWaspHost (A := Unit) .idle (zeroWaspApply exWaspLink) 40) ∧
    ¬ Full exLib (12 * FuncType.slots ⟨[.i32, .i32], [.i32]⟩) ∧ (exWaspResumed.module.functions[40]?.map (·.exports)) = some ["call_base"] :=
  ⟨rfl, rfl, by decide +kernel, fun _ => rfl, by simp [Full, exLib, FuncType.slots], by decide +kernel⟩

/-- A Wasp program without `apply` advice. -/
def forwardProg : List Wasp.Advice := [.plain (.ifThenElse "condition") "..", .plain (.call .pre "f") ".."]

/-- Its interface. -/
def exForwardIface : Interface := (Wasp.interface forwardProg).getD ⟨none, fun _ => none⟩

/-- The example program instrumented for it. -/
def exForwarded : Instrumented := ((instrument exTypedChecker id id exForwardIface none exModule).toOption).getD ⟨exModule, none⟩

/-- The embedder: the advice of `forward.wasp`, and the embedder's `print`. -/
def exForwardHost : Imports (List RVal × Unit) := fun ns name =>
  if ns = analysisModule then
    match [Trap.ifThenElseTrap, .preTrapCall].find? fun t => t.exportName == name with
    | some t => forwardWasp.host t
    | none => fun _ _ _ => .stuck
  else exImports.beside Unit ns name

-- C80 (no `apply` advice): all hypotheses hold of the example and the advice of `forward.wasp`. `main(0, 5)` prints 7 and returns 49.
example : ∃ L d, callF exNum (machineOf exForwardHost exForwarded.module.functions) L d 1 [.i32 0, .i32 5] (exStore.withAnalysis ()) =
    .ok [.i32 49] (Store.withAnalysis { exStore with world := [RVal.i32 7] } ()) := by
  have h : Instruments exTypedChecker exForwardIface none exModule exForwarded := by
    have h : (match instrument exTypedChecker id id exForwardIface none exModule with | .ok _ => true | .error _ => false) = true := by decide +kernel
    refine ⟨id, id, fun _ => .rfl, fun _ => .rfl, ?_⟩
    unfold exForwarded
    split at h
    · rename_i r hr; rw [hr]; rfl
    · simp at h
  have hng : ¬ ∃ x ∈ forwardProg, Wasp.IsGeneric x := by
    rintro ⟨x, hx, _, _, _, _, _, rfl⟩
    simp [forwardProg] at hx
  have key := (C80_wasp_analysis_transparent (prog := forwardProg) (iface := exForwardIface) rfl hng exModule_small h exModule_valid exModule_annotated (N := exNum)
    (c := forwardWasp) (P := fun a a' => a' = a) (H := exImports) (H' := exForwardHost) ?_ ?_ (f := 1) (ty := ⟨[.i32, .i32], [.i32]⟩) (args := [.i32 0, .i32 5]) (s := exStore) rfl
    (ValsOK.nil.cons rfl (by simp [RVal.OK]) |>.cons rfl (by simp [RVal.OK])) exStore_ok ()).1
  · obtain ⟨L, d, a1, e⟩ := (key _ _).1 ⟨10, 10, exModule_runs⟩
    exact ⟨L, d, e⟩
  · rintro t ⟨x, hx, ha⟩
    have ht : t = .ifThenElseTrap ∨ t = .preTrapCall := by
      simp only [forwardProg, List.mem_cons, List.not_mem_nil, or_false] at hx
      rcases hx with rfl | rfl <;> cases ha <;> simp
    refine ⟨?_, C80_forward_wasp_mild t⟩
    have e2 : List.find? (fun u => u.exportName == t.exportName) [Trap.ifThenElseTrap, .preTrapCall] = some t := by rcases ht with rfl | rfl <;> decide +kernel
    simp only [exForwardHost, e2, analysisModule, if_true]
  · refine .plain fun f hf ns name hc => ?_
    simp only [exModule, List.mem_cons, List.not_mem_nil, or_false] at hf
    rcases hf with rfl | rfl | rfl | rfl <;> cases hc
    exact ⟨⟨fun _ _ => rfl, fun call args s ha hs => .inl ⟨_, _, rfl, .nil, hs.world rfl rfl rfl rfl rfl⟩⟩, rfl⟩

-- The condition 5 is answered by 1.
example : (forwardWasp : WaspCode (List RVal × Unit)).host .ifThenElseTrap (fun _ _ _ => .stuck) [.i32 5, .i32 0, .i32 1, .num (.i64 0), .num (.i64 0)] (exStore.withAnalysis ()) =
    .ok [.i32 1] (exStore.withAnalysis ()) := rfl

-- Reading: the second of the arguments `(7 : i64, 1.0 : f32)` of a function without results is an `f32`; as an `i32` it is its bits; as an `i16`, or
-- beyond the arguments, the advice traps.
example : ∃ l p q l1, Prepared l ⟨[.i64, .f32], []⟩ [.i64 7, .f32 0x3f800000] p q l1 ∧ ∀ s : Store (World Unit Unit), s.getLib = l1.store →
    exLink.get .f32 (BitVec.ofNat 32 1) (.args (asHandle ⟨[.i64, .f32], []⟩ p q)) s = .ok (.f32 0x3f800000) s ∧
    exLink.get .u32 (BitVec.ofNat 32 1) (.args (asHandle ⟨[.i64, .f32], []⟩ p q)) s = .ok (.i32 0x3f800000) s ∧
    exLink.get .i16 (BitVec.ofNat 32 1) (.args (asHandle ⟨[.i64, .f32], []⟩ p q)) s = .trap s ∧
    exLink.get .i32 (BitVec.ofNat 32 2) (.args (asHandle ⟨[.i64, .f32], []⟩ p q)) s = .trap s := by
  have hP : Prepared exLib ⟨[.i64, .f32], []⟩ [.i64 7, .f32 0x3f800000] 0 16 ⟨24, (((exLib.mem.put 0 8 7).put 8 8 0x3f800000).put 16 4 2).put 20 4 1⟩ := by
    refine ⟨⟨⟨by decide, by decide, by decide, by decide⟩, rfl, rfl, Nat.le_refl _, fun h => h, fun i hi => absurd hi (Nat.not_lt_zero _)⟩, rfl, rfl, by decide +kernel, ?_⟩
    intro k v hv
    match k with
    | 0 | 1 => cases hv; decide +kernel
    | k + 2 => simp at hv
  refine ⟨_, _, _, _, hP, fun s hs => ?_⟩
  have := (C80_presents_arguments_and_results (W := Unit) (A := Unit) exLink_good (by simp [FuncType.RefFree]) (by decide) hP (s := s)).1 hs
  exact ⟨this.same 1 _ rfl .f32 (by decide) rfl, this.other 1 _ rfl .u32 (by decide) (by decide), this.narrow 1 _ rfl .i16 (by decide), (this.outside 2 (.inr (by decide))).1 .i32⟩

end Wastrum
