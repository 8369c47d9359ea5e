import Verif.TaintThms

/-!
# How `taint` would carry marks through an expression (C78)

Nothing is ever marked (`C78_taint`), as nothing introduces a mark. What is said here is that the bookkeeping would carry one: from any state of the analysis, whichever variables are marked in it.
-/

namespace Wastrum

/-- An expression made of constants, local variables, operations and `select`, with the values and locations the analysis is told on a run of it (`k` is the condition of `select`, `c` the expression it comes from). -/
inductive TaintExpr where
  | const (v : Val) (l : Location)
  | var (i : BitVec 64) (v : Val) (l : Location)
  | unary (op : UnaryOp) (e : TaintExpr) (v : Val) (l : Location)
  | binary (op : BinaryOp) (e e' : TaintExpr) (v w : Val) (l : Location)
  | select (e e' c : TaintExpr) (k : BitVec 32) (l : Location)

/-- What the analysis is told on a run of the expression: the operands first, in order, then the operation. -/
def TaintExpr.events : TaintExpr → List Advice
  | .const v l => [.const v l]
  | .var i v l => [.loc v i .get l]
  | .unary op e v l => e.events ++ [.unary op v l]
  | .binary op e e' v w l => e.events ++ e'.events ++ [.binary op v w l]
  | .select e e' c k l => e.events ++ e'.events ++ c.events ++ [.select k l]

/-- **Specification.** The expression depends on a marked variable (`marked`): through operands, and through the operand that is selected, but not through the condition. -/
def TaintExpr.Depends (marked : BitVec 64 → Prop) : TaintExpr → Prop
  | .const _ _ => False
  | .var i _ _ => marked i
  | .unary _ e _ _ => e.Depends marked
  | .binary _ e e' _ _ _ => e.Depends marked ∨ e'.Depends marked
  | .select e e' _ k _ => if k ≠ 0 then e.Depends marked else e'.Depends marked

/-- The indices of variables have 32 bits, as in every program. -/
def TaintExpr.Small : TaintExpr → Prop
  | .const _ _ => True
  | .var i _ _ => i.toNat < 2 ^ 32
  | .unary _ e _ _ => e.Small
  | .binary _ e e' _ _ _ => e.Small ∧ e'.Small
  | .select e e' c _ _ => e.Small ∧ e'.Small ∧ c.Small

theorem usize_of_index {i : BitVec 64} (h : i.toNat < 2 ^ 32) : i64ToUsize i = some (i.setWidth 32) ∧ (i.setWidth 32).toNat = i.toNat := by
  have : i.toInt = i.toNat := BitVec.toInt_eq_toNat_of_lt (by omega)
  refine ⟨?_, by rw [BitVec.toNat_setWidth]; omega⟩
  unfold i64ToUsize i64ToU32
  rw [if_pos (by omega)]

theorem taint_run_one (cap : Nat) (a : Advice) (s : TaintState) : (taint cap).run [a] s = taintAdvice cap a s := by
  show ((taintAdvice cap a s).bind some).bind some = _
  cases taintAdvice cap a s <;> rfl

/-- **C78 (marks are carried).** From any state with a block on its stack, the events of an expression leave the state as it was except for one value more in that block; it is marked exactly if the expression
depends on a variable that is marked. -/
theorem C78_expressions_carry_marks (cap : Nat) (e : TaintExpr) (h : e.Small) (vs : List Bool) (blocks : List (List Bool)) (locals : List (Option Bool)) (frames : List TaintFrame) (memory globals : List Bool)
    (returned : Option Bool) :
    ∃ t : Bool, (taint cap).run e.events ⟨⟨vs :: blocks, locals⟩ :: frames, memory, globals, returned⟩ = some ⟨⟨(t :: vs) :: blocks, locals⟩ :: frames, memory, globals, returned⟩ ∧
      (t = true ↔ e.Depends fun i => locals[i.toNat]? = some (some true)) := by
  induction e generalizing vs with
  | const v l => exact ⟨false, by rw [TaintExpr.events, taint_run_one]; rfl, by simp [TaintExpr.Depends]⟩
  | var i v l =>
    obtain ⟨h1, h2⟩ := usize_of_index h
    refine ⟨(locals[i.toNat]?.bind id).getD false, ?_, ?_⟩
    · rw [TaintExpr.events, taint_run_one]
      simp only [taintAdvice, TaintState.localsGet, h1, h2, Option.map_some, TaintState.push]
    · simp only [TaintExpr.Depends]
      cases locals[i.toNat]? with
      | none => simp
      | some o => cases o <;> simp
  | unary op e v l ih =>
    obtain ⟨t, h1, h2⟩ := ih h vs
    refine ⟨t, ?_, h2⟩
    rw [TaintExpr.events, Watcher.run_append, h1, Option.bind_some, taint_run_one]
    rfl
  | binary op e e' v w l ih ih' =>
    obtain ⟨t, h1, h2⟩ := ih h.1 vs
    obtain ⟨t', h1', h2'⟩ := ih' h.2 (t :: vs)
    refine ⟨t || t', ?_, ?_⟩
    · rw [TaintExpr.events, Watcher.run_append, Watcher.run_append, h1, Option.bind_some, h1', Option.bind_some, taint_run_one]
      simp only [taintAdvice, TaintState.pop, TaintState.push, taintJoin, Bool.or_comm]
    · simp only [TaintExpr.Depends, Bool.or_eq_true, h2, h2']
  | select e e' c k l ih ih' ihc =>
    obtain ⟨t, h1, h2⟩ := ih h.1 vs
    obtain ⟨t', h1', h2'⟩ := ih' h.2.1 (t :: vs)
    obtain ⟨b, hb, _⟩ := ihc h.2.2 (t' :: t :: vs)
    refine ⟨if k ≠ 0 then t else t', ?_, ?_⟩
    · rw [TaintExpr.events, Watcher.run_append, Watcher.run_append, Watcher.run_append, h1, Option.bind_some, h1', Option.bind_some, hb, Option.bind_some, taint_run_one]
      by_cases hk : k = 0 <;> simp [taintAdvice, TaintState.pop, TaintState.push, isThen, BRANCH_FAIL, hk]
    · simp only [TaintExpr.Depends]
      split
      · exact h2
      · exact h2'

-- C78 (marks are carried): `x + 1 * y` with `y` (variable 1) marked and `x` (variable 0) not is marked; with nothing marked, it is not.
example :
    let e : TaintExpr := .binary .i32Add (.var 0 (.i32 3) (.new 4 0)) (.binary .i32Mul (.const (.i32 1) (.new 4 1)) (.var 1 (.i32 8) (.new 4 2)) (.i32 1) (.i32 8) (.new 4 3)) (.i32 3) (.i32 8) (.new 4 4)
    (taint 100).run e.events ⟨[⟨[[false]], [some false, some true]⟩], [], [], none⟩ = some ⟨[⟨[[true, false]], [some false, some true]⟩], [], [], none⟩ ∧
    (taint 100).run e.events ⟨[⟨[[true]], [some false, none]⟩], [], [], none⟩ = some ⟨[⟨[[false, true]], [some false, none]⟩], [], [], none⟩ := by
  constructor
  · obtain ⟨t, h, ht⟩ := C78_expressions_carry_marks 100 (.binary .i32Add (.var 0 (.i32 3) (.new 4 0)) (.binary .i32Mul (.const (.i32 1) (.new 4 1)) (.var 1 (.i32 8) (.new 4 2)) (.i32 1) (.i32 8) (.new 4 3))
      (.i32 3) (.i32 8) (.new 4 4)) (by simp [TaintExpr.Small]) [false] [] [some false, some true] [] [] [] none
    have : t = true := ht.2 (by simp [TaintExpr.Depends])
    rw [this] at h
    exact h
  · decide +kernel

theorem vecResize_get {α} (l : List α) {n : Nat} (h : l.length ≤ n) (d : α) (j : Nat) : (vecResize l n d)[j]? = if j < l.length then l[j]? else if j < n then some d else none := by
  unfold vecResize
  rw [List.take_of_length_le h]
  by_cases hj : j < l.length
  · rw [List.getElem?_append_left hj, if_pos hj]
  · rw [List.getElem?_append_right (by omega), if_neg hj, List.getElem?_replicate]
    by_cases h' : j < n
    · rw [if_pos h', if_pos (by omega)]
    · rw [if_neg h', if_neg (by omega)]

/-- **C78 (assignments carry marks; `local.tee` drops one).** From any state with a block on its stack, the events of an expression and of its assignment to a variable `i`, with `local.set` or `local.tee`, leave
the state as it was except for the variable: it is marked exactly if the expression depends on a marked variable; the other variables are marked as before. In particular there is no value more in the block
after `local.tee`, although that instruction leaves its operand on the operand stack: from there on the block is one value short. -/
theorem C78_assignments_carry_marks (cap : Nat) (e : TaintExpr) (h : e.Small) (i : BitVec 64) (hi : i.toNat + 1 < 2 ^ 32) (op : LocalOp) (hop : op ≠ .get) (v : Val) (l : Location)
    (vs : List Bool) (blocks : List (List Bool)) (locals : List (Option Bool)) (frames : List TaintFrame) (memory globals : List Bool) (returned : Option Bool) :
    ∃ locals' : List (Option Bool), (taint cap).run (e.events ++ [.loc v i op l]) ⟨⟨vs :: blocks, locals⟩ :: frames, memory, globals, returned⟩ =
        some ⟨⟨vs :: blocks, locals'⟩ :: frames, memory, globals, returned⟩ ∧
      (locals'[i.toNat]? = some (some true) ↔ e.Depends fun j => locals[j.toNat]? = some (some true)) ∧
      ∀ j, j ≠ i.toNat → (locals'[j]? = some (some true) ↔ locals[j]? = some (some true)) := by
  obtain ⟨t, h1, h2⟩ := C78_expressions_carry_marks cap e h vs blocks locals frames memory globals returned
  obtain ⟨h3, h4⟩ := usize_of_index (i := i) (by omega)
  have h5 : (i.setWidth 32 + 1).toNat = i.toNat + 1 := by
    rw [BitVec.toNat_add, h4]
    show (i.toNat + 1) % 2 ^ 32 = _
    omega
  let grown := if locals.length ≤ i.toNat then vecResize locals (i.toNat + 1) none else locals
  have hlen : i.toNat < grown.length := by
    show i.toNat < (if _ then _ else _ : List (Option Bool)).length
    split
    · simp only [vecResize, List.length_append, List.length_take, List.length_replicate]; omega
    · omega
  refine ⟨grown.set i.toNat (some t), ?_, ?_, ?_⟩
  · rw [Watcher.run_append, h1, Option.bind_some, taint_run_one]
    cases op
    case get => exact absurd rfl hop
    all_goals
      simp only [taintAdvice, TaintState.pop, TaintState.localsSet, h3, h4, h5, Option.bind_some]
      show ((vecSet grown i.toNat (some t)).map _) = _
      rw [vecSet, if_pos hlen]
      rfl
  · rw [List.getElem?_set_self hlen, ← h2]
    simp
  · intro j hj
    rw [List.getElem?_set_ne (Ne.symm hj)]
    show (if _ then _ else _ : List (Option Bool))[j]? = _ ↔ _
    split
    · rename_i hg
      rw [vecResize_get _ (by omega)]
      split
      · exact .rfl
      · rename_i hj'
        rw [List.getElem?_eq_none (by omega)]
        split <;> simp
    · exact .rfl

-- C78 (assignments): `local.tee 3` of the marked variable 1 marks variable 3, and leaves no value.
example : ∃ locals', (taint 100).run ((TaintExpr.var 1 (.i32 8) (.new 4 2)).events ++ [.loc (.i32 8) 3 .tee (.new 4 3)]) ⟨[⟨[[false]], [some false, some true]⟩], [], [], none⟩ =
    some ⟨[⟨[[false]], locals'⟩], [], [], none⟩ ∧ locals'[3]? = some (some true) := by
  obtain ⟨locals', h, ht, _⟩ := C78_assignments_carry_marks 100 (.var 1 (.i32 8) (.new 4 2)) (by simp [TaintExpr.Small]) 3 (by decide) .tee (by decide) (.i32 8) (.new 4 3) [false] [] [some false, some true] [] [] [] none
  exact ⟨locals', h, ht.2 (by simp [TaintExpr.Depends])⟩

end Wastrum
