/-
Running the stack libraries generated as source: lemmas shared by Rust and AssemblyScript.
-/
import Verif.SrcNames
import Verif.FaceWat

set_option linter.unusedVariables false
set_option linter.unusedSimpArgs false

namespace Wastrum

/-! ## Words -/

theorem readLE_split (f : Nat → BitVec 8) : ∀ (n k a : Nat), readLE f a (n + k) = readLE f a n + 256 ^ n * readLE f (a + n) k := by
  intro n
  induction n with
  | zero => intro k a; simp [readLE]
  | succ n ih =>
    intro k a
    rw [show n + 1 + k = (n + k) + 1 by omega]
    simp only [readLE, ih k (a + 1)]
    rw [show a + 1 + n = a + (n + 1) by omega, Nat.mul_add, ← Nat.mul_assoc, Nat.pow_succ, Nat.mul_comm (256 ^ n) 256]
    omega

theorem Mem.word_split (m : Mem) (a : Nat) : m.word a 8 = m.word a 4 + 2 ^ 32 * m.word (a + 4) 4 := by
  have := readLE_split m.bytes 4 4 a
  rw [show (256 : Nat) ^ 4 = 2 ^ 32 by decide] at this
  exact this

theorem ofNat_word8 (m : Mem) (a : Nat) : BitVec.ofNat 32 (m.word a 8) = BitVec.ofNat 32 (m.word a 4) := by
  apply BitVec.eq_of_toNat_eq
  rw [Mem.word_split]
  simp only [BitVec.toNat_ofNat]
  omega

/-- How many bytes a number takes. -/
def Val.width : Val → Nat
  | .i32 _ | .f32 _ => 4
  | .i64 _ | .f64 _ => 8

/-- The memory after writing values one after the other: nothing else has changed. -/
structure Wrote (m m' : Mem) (a : Nat) (vs : List Val) : Prop where
  pages : m'.pages = m.pages
  limit : m'.limit = m.limit
  out : ∀ j, (j < a ∨ a + 8 * vs.length ≤ j) → m'.bytes j = m.bytes j
  held : ∀ i v, vs[i]? = some v → m'.Holds (a + 8 * i) v

theorem Wrote.nil (m : Mem) (a : Nat) : Wrote m m a [] := ⟨rfl, rfl, fun _ _ => rfl, fun i v h => by simp at h⟩

theorem Wrote.snoc {m m' m'' : Mem} {a : Nat} {vs : List Val} {v : Val} (h : Wrote m m' a vs) (h' : Wrote m' m'' (a + 8 * vs.length) [v]) :
    Wrote m m'' a (vs ++ [v]) where
  pages := h'.pages.trans h.pages
  limit := h'.limit.trans h.limit
  out j hj := by
    simp only [List.length_append, List.length_cons, List.length_nil] at hj
    rw [h'.out j (by simp only [List.length_cons, List.length_nil]; omega), h.out j (by omega)]
  held i w e := by
    by_cases hi : i < vs.length
    · rw [List.getElem?_append_left hi] at e
      exact (h.held i w e).congr fun j h1 h2 => h'.out j (by omega)
    · rw [List.getElem?_append_right (by omega)] at e
      have h0 : i - vs.length = 0 := by
        have := (List.getElem?_eq_some_iff.1 e).1; simpa using this
      rw [h0] at e
      have := h'.held 0 w e
      rw [show a + 8 * i = a + 8 * vs.length + 8 * 0 by omega]
      exact this

theorem Wrote.size {m m' : Mem} {a : Nat} {vs : List Val} (h : Wrote m m' a vs) : m'.size = m.size := by simp only [Mem.size, h.pages]

theorem take_succ_of_get {vs : List Val} {i : Nat} {v : Val} (h : vs[i]? = some v) : vs.take (i + 1) = vs.take i ++ [v] := by
  rw [List.take_add_one, h]; rfl

theorem Val.bits_lt_width (v : Val) : v.bits < 256 ^ v.width := by
  cases v with
  | i32 x => have := x.isLt; simp only [Val.bits, Val.width]; omega
  | f32 x => have := x.isLt; simp only [Val.bits, Val.width]; omega
  | i64 x => have := x.isLt; simp only [Val.bits, Val.width]; omega
  | f64 x => have := x.isLt; simp only [Val.bits, Val.width]; omega

/-- A value is held if the bytes of its width are right. -/
theorem Mem.holds_of_word {m : Mem} {a : Nat} {v : Val} (h : m.word a v.width = v.bits) : m.Holds a v := by
  cases v with
  | i32 x => simp only [Mem.Holds, Val.type, ValType.ofBits, ofNat_word8]; simp only [Val.width, Val.bits] at h; rw [h]; simp
  | f32 x => simp only [Mem.Holds, Val.type, ValType.ofBits, ofNat_word8]; simp only [Val.width, Val.bits] at h; rw [h]; simp
  | i64 x => simp only [Mem.Holds, Val.type, ValType.ofBits]; simp only [Val.width, Val.bits] at h; rw [h]; simp
  | f64 x => simp only [Mem.Holds, Val.type, ValType.ofBits]; simp only [Val.width, Val.bits] at h; rw [h]; simp

theorem Val.width_le (v : Val) : v.width ≤ 8 := by cases v <;> simp [Val.width]

/-- Writing one value. -/
theorem Wrote.one (m : Mem) (a : Nat) (v : Val) : Wrote m (m.put a v.width v.bits) a [v] where
  pages := rfl
  limit := rfl
  out j hj := by
    have := v.width_le
    simp only [List.length_cons, List.length_nil] at hj
    exact Mem.put_bytes _ _ _ _ _ (by omega)
  held i w e := by
    have h0 : i = 0 := by have := (List.getElem?_eq_some_iff.1 e).1; simpa using this
    subst h0
    simp only [List.getElem?_cons_zero, Option.some.injEq] at e
    subst e
    exact Mem.holds_of_word (Mem.put_word _ _ _ _ v.bits_lt_width)

/-! ## Environments -/

theorem argVar_inj {i j : Nat} (h : argVar i = argVar j) : i = j := by
  have := congrArg String.toList h
  simp only [argVar, String.toList_append] at this
  exact repr_toList_inj (List.append_cancel_left this)

theorem argVar_ne {x : String} (h : x.toList.head? ≠ some 'a') (n : Nat) : (argVar n == x) = false := by
  rw [beq_eq_false_iff_ne]
  intro e
  apply h
  rw [← e]
  simp [argVar]

/-- Parameters `a0`, `a1`, ... are found. -/
theorem lookup_args : ∀ (xs : List SVal) (k i : Nat), (((List.range' k xs.length).map argVar).zip xs).lookup (argVar (k + i)) = xs[i]? := by
  intro xs
  induction xs with
  | nil => intro k i; simp
  | cons x xs ih =>
    intro k i
    simp only [List.length_cons, List.range'_succ, List.map_cons, List.zip_cons_cons, List.lookup_cons]
    cases i with
    | zero => simp
    | succ i =>
      have : (argVar (k + (i + 1)) == argVar k) = false := by
        rw [beq_eq_false_iff_ne]; intro e; have := argVar_inj e; omega
      rw [this]
      have := ih (k + 1) i
      rw [show k + (i + 1) = k + 1 + i by omega, this]; simp

theorem evalAtoms_of {env : List (String × SVal)} : ∀ {as : List SAtom} {vs : List SVal}, as.length = vs.length →
    (∀ (i : Nat) (a : SAtom), as[i]? = some a → ∃ v, vs[i]? = some v ∧ a.eval env = some v) → evalAtoms env as = some vs := by
  intro as
  induction as with
  | nil => intro vs h _; cases vs with
    | nil => rfl
    | cons => simp at h
  | cons a as ih =>
    intro vs h he
    cases vs with
    | nil => simp at h
    | cons v vs =>
      obtain ⟨w, hw, e⟩ := he 0 a rfl
      simp only [List.getElem?_cons_zero, Option.some.injEq] at hw
      subst hw
      have := ih (vs := vs) (by simpa using h) fun i b hb => by simpa using he (i + 1) b (by simpa using hb)
      simp only [evalAtoms, e, this]

/-! ## Statements -/

/-- Statements that run one after the other, each leading from one stage to the next. -/
theorem runStmts_stages {σ : Type} {call : SCall σ} {tenv : List (String × String)} {env : List (String × SVal)} (P : Nat → σ → Prop) :
    ∀ (es : List SExpr) (k : Nat) (s : σ), (∀ i e s, es[i]? = some e → P (k + i) s → ∃ v s', e.eval call tenv env s = .ok v s' ∧ P (k + i + 1) s') →
      P k s → ∃ s', runStmts call tenv (es.map .run) env s = .ok env s' ∧ P (k + es.length) s' := by
  intro es
  induction es with
  | nil => intro k s _ h; exact ⟨s, rfl, h⟩
  | cons e es ih =>
    intro k s h hP
    obtain ⟨v, s', e1, hP'⟩ := h 0 e s rfl hP
    obtain ⟨s'', e2, hP''⟩ := ih (k + 1) s' (fun i e s he hp => by
      have := h (i + 1) e s (by simpa using he)
      rw [show k + (i + 1) = k + 1 + i by omega] at this
      exact this hp) hP'
    refine ⟨s'', ?_, by rw [show k + (e :: es).length = k + 1 + es.length by simp; omega]; exact hP''⟩
    simp only [List.map_cons, runStmts, e1, e2]

/-! ## Calls -/

section
variable {σ : Type} {prim : String → List String → List SVal → σ → Option (SRes σ SVal)} {fs : List SFn}

theorem srcCall_prim {d : Nat} {name : String} {ts : List String} {args : List SVal} {s : σ} {r : SRes σ SVal} (h : prim name ts args s = some r) :
    srcCall prim fs (d + 1) name ts args s = r := by
  simp only [srcCall, h]

theorem srcCall_fn {d : Nat} {ts : List String} {args : List SVal} {s : σ} {f : SFn} (hp : prim f.name ts args s = none) (hn : (fs.map SFn.name).Nodup) (hf : f ∈ fs) :
    srcCall prim fs (d + 1) f.name ts args s = f.run (srcCall prim fs d) ts args s := by
  simp only [srcCall, hp]
  rw [find_of_nodup hn hf _ (by simp) (fun g hg => by simpa using hg)]

theorem exportCall_fn {d : Nat} {args : List Val} {s : σ} {f : SFn} (hn : (fs.map SFn.name).Nodup) (hf : f ∈ fs) (he : f.exported = true) :
    exportCall prim fs d f.name args s = f.run (srcCall prim fs d) [] (args.map .num) s := by
  simp only [exportCall]
  rw [find_of_nodup hn hf _ (by simp [he]) (fun g hg => by simp at hg; exact hg.2)]

end

/-- The library as its users see it: numbers in, at most one number out. -/
def faceOf {σ : Type} (call : String → List Val → σ → SRes σ SVal) : Face σ := fun name args s =>
  match call name args s with
  | .ok .unit s => .ok [] s
  | .ok (.num v) s => .ok [v] s
  | .ok (.union ..) _ => .bad
  | .trap s => .trap s
  | .ub => .bad
  | .stuck => .bad

end Wastrum
