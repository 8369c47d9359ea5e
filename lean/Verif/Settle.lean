import Verif.Sim
/-!
# Conditions matter only as far as they are tested (supporting definitions and lemmas)

An analysis that is asked about the condition of an `if`, a `br_if` or a `select` may answer by another number. The program
only tests whether the number is zero, so it cannot tell the two apart if both are zero or neither is.
-/

set_option linter.unusedSimpArgs false
set_option linter.unusedVariables false

namespace Wastrum

variable {W : Type}

/-- The hooks that are shown a condition, which the program then tests: `if_then`, `if_then_else`, `br_if` and `select`. -/
def Trap.Tests : Trap → Bool
  | .ifThenTrap | .ifThenElseTrap | .brIfTrap | .select => true
  | _ => false

/-- An answer to a question that leaves the program as it was: the operands it was `given`; or, for a condition, a number that
is as true as the one given. -/
def SameAnswer (t : Trap) (given answer : List RVal) : Prop :=
  answer = given ∨ t.Tests = true ∧ ∃ x y : BitVec 32, given = [.i32 x] ∧ answer = [.i32 y] ∧ (x = 0 ↔ y = 0)

theorem SameAnswer.refl (t : Trap) (vs : List RVal) : SameAnswer t vs vs := .inl rfl

theorem SameAnswer.types {t : Trap} {vs vs' : List RVal} (h : SameAnswer t vs vs') : vs'.map RVal.type = vs.map RVal.type := by
  rcases h with rfl | ⟨_, x, y, rfl, rfl, _⟩ <;> rfl

/-- The configuration in which the condition on top of the operands is the one on top of `st` again, if they are equally true. -/
def settled (st : List RVal) (c : Cfg W) : Cfg W :=
  match st, c.stack with
  | .num (.i32 x) :: _, .num (.i32 y) :: rest => if (x = 0 ↔ y = 0) then { c with stack := .num (.i32 x) :: rest } else c
  | _, _ => c

/-- Ask as `A` does, but keep the conditions if the answers are as true. -/
def settling (A : Asker W) : Asker W where
  ask m t k info c := if t.Tests then (A.ask m t k info c).bind fun c' => .norm (settled c.stack c') else A.ask m t k info c
  perf := A.perf

/-- The condition on top of the operands is only tested. -/
def OnlyTests (f : Cfg W → Out W) : Prop :=
  ∀ (c : Cfg W) x y rest, c.stack = .num (.i32 y) :: rest → (x = (0 : BitVec 32) ↔ y = 0) → f { c with stack := .num (.i32 x) :: rest } = f c

theorem OnlyTests.settled {f : Cfg W → Out W} (h : OnlyTests f) (st : List RVal) (c : Cfg W) : f (settled st c) = f c := by
  unfold Wastrum.settled
  split
  · rename_i x _ y rest hc
    split
    · exact h c x y rest hc ‹_›
    · rfl
  · rfl

theorem OnlyTests.bind {A : Asker W} {f : Cfg W → Out W} (h : OnlyTests f) (m : Meta) (t : Trap) (k : Nat) (info : List RVal) (c : Cfg W) :
    ((settling A).ask m t k info c).bind f = (A.ask m t k info c).bind f := by
  simp only [settling]
  split
  · cases A.ask m t k info c <;> try rfl
    exact h.settled _ _
  · rfl

theorem OnlyTests.branchOn (thn els : Cfg W → Out W) : OnlyTests (branchOn thn els) := by
  intro c x y rest hc h
  unfold Wastrum.branchOn
  simp only [hc]
  by_cases hy : y = 0
  · rw [if_pos hy, if_pos (h.2 hy)]
  · rw [if_neg hy, if_neg (mt h.1 hy)]

theorem OnlyTests.then {f : Cfg W → Out W} (h : OnlyTests f) (g : Cfg W → Out W) : OnlyTests fun c => (f c).bind g := by
  intro c x y rest hc hxy
  show (f _).bind g = (f c).bind g
  rw [h c x y rest hc hxy]

/-- The instructions that test a condition. -/
def Basic.Tests : Basic → Bool
  | .brIf _ | .select | .typedSelect _ => true
  | _ => false

theorem OnlyTests.step (E : Env W) {b : Basic} (hb : b.Tests = true) : OnlyTests (step E b) := by
  intro c x y rest hc h
  cases b <;> try (cases hb; done)
  case brIf l =>
    simp only [Wastrum.step, hc]
    by_cases hy : y = 0
    · rw [if_pos hy, if_pos (h.2 hy)]
    · rw [if_neg hy, if_neg (mt h.1 hy)]
  all_goals
    simp only [Wastrum.step, hc]
    cases rest with
    | nil => rfl
    | cons v rest =>
      cases rest with
      | nil => rfl
      | cons v' rest =>
        dsimp only
        by_cases hy : y = 0
        · simp only [hy, h.2 hy]
        · simp only [hy, mt h.1 hy]

theorem localTrap_tests {op t q} (h : localTrap op t = some q) : q.Tests = false := by
  cases op <;> cases t <;> cases h <;> rfl

theorem globalTrap_tests {op t q} (h : globalTrap op t = some q) : q.Tests = false := by
  cases op <;> cases t <;> cases h <;> rfl

theorem constTrap_tests {t q} (h : constTrap t = some q) : q.Tests = false := by
  cases t <;> cases h <;> rfl

theorem settling_ask {A : Asker W} {t : Trap} (h : t.Tests = false) (m k info c) : (settling A).ask m t k info c = A.ask m t k info c := by
  simp [settling, h]

theorem settling_after (A : Asker W) (m : Meta) (b : Basic) (c : Cfg W) : (settling A).after m b c = A.after m b c := by
  cases b <;> try rfl
  case const v =>
    simp only [Asker.after]
    cases h : constTrap v.type with
    | none => rfl
    | some q => exact settling_ask (constTrap_tests h) _ _ _ _
  case loc op i =>
    cases op <;> try rfl
    simp only [Asker.after]
    cases h : m.ty.reads.bind (localTrap .get) with
    | none => rfl
    | some q =>
      obtain ⟨_, _, h⟩ := Option.bind_eq_some_iff.1 h
      exact settling_ask (localTrap_tests h) _ _ _ _
  case glob op i =>
    cases op <;> try rfl
    simp only [Asker.after]
    cases h : m.ty.reads.bind (globalTrap .get) with
    | none => rfl
    | some q =>
      obtain ⟨_, _, h⟩ := Option.bind_eq_some_iff.1 h
      exact settling_ask (globalTrap_tests h) _ _ _ _

theorem settling_before (A : Asker W) (m : Meta) {b : Basic} (hb : b.Tests = false) (c : Cfg W) : (settling A).before m b c = A.before m b c := by
  cases b <;> try rfl
  case brIf l => cases hb
  case select => cases hb
  case typedSelect l => cases hb
  case loc op i =>
    cases op <;> try rfl
    · simp only [Asker.before]
      cases h : m.ty.writes.bind (localTrap .set) with
      | none => rfl
      | some q =>
        obtain ⟨_, _, h⟩ := Option.bind_eq_some_iff.1 h
        exact settling_ask (localTrap_tests h) _ _ _ _
    · simp only [Asker.before]
      cases h : m.ty.tees.bind (localTrap .tee) with
      | none => rfl
      | some q =>
        obtain ⟨_, _, h⟩ := Option.bind_eq_some_iff.1 h
        exact settling_ask (localTrap_tests h) _ _ _ _
  case glob op i =>
    cases op <;> try rfl
    simp only [Asker.before]
    cases h : m.ty.writes.bind (globalTrap .set) with
    | none => rfl
    | some q =>
      obtain ⟨_, _, h⟩ := Option.bind_eq_some_iff.1 h
      exact settling_ask (globalTrap_tests h) _ _ _ _

theorem settling_basic {A : Asker W} (hA : ∀ m b, b.Tests = true → OnlyTests (A.perf m b)) (m : Meta) (b : Basic) (c : Cfg W) :
    (settling A).basic m b c = A.basic m b c := by
  have ha : (settling A).after m b = A.after m b := by funext c; exact settling_after A m b c
  unfold Asker.basic
  rw [ha]
  cases hb : b.Tests with
  | false => rw [settling_before A m hb]; rfl
  | true =>
    have := (hA m b hb).then (A.after m b)
    cases b <;> try (cases hb; done)
    · exact this.bind m _ _ _ c
    · exact this.bind m _ _ _ c
    · exact this.bind m _ _ _ c

/-- Keeping the conditions makes no difference to the program. -/
theorem gden_settling {A : Asker W} (hA : ∀ m b, b.Tests = true → OnlyTests (A.perf m b)) (L : Nat) :
    (∀ i c, gdenI (settling A) L i c = gdenI A L i c) ∧ ∀ l c, gdenL (settling A) L l c = gdenL A L l c := by
  have key : ∀ {f g : Cfg W → Out W}, (∀ c, f c = g c) → f = g := fun h => funext h
  have e : ∀ {t : Trap}, t.Tests = false → ∀ m k info, (settling A).ask m t k info = A.ask m t k info :=
    fun h m k info => funext fun c => settling_ask h m k info c
  apply TI.induct
  · intro m b c; exact settling_basic hA m b c
  · intro m t body ih c; simp only [gdenI, ih, e (t := .preBlock) rfl, e (t := .postBlock) rfl]
  · intro m t body ih c; simp only [gdenI, ih, e (t := .preLoop) rfl, e (t := .postLoop) rfl]
  · intro m t body ih c
    simp only [gdenI, ih, e (t := .ifThenPostTrap) rfl]
    exact (OnlyTests.branchOn _ _).bind m _ _ _ c
  · intro m t a b iha ihb c
    simp only [gdenI, iha, ihb, e (t := .ifThenElsePostTrap) rfl]
    exact (OnlyTests.branchOn _ _).bind m _ _ _ c
  · intro c; rfl
  · intro i l ihi ihl c; simp only [gdenL, ihi]; congr 1; funext c; exact ihl c

theorem hooking_tests (E : Env W) (σ : Sel) : ∀ m b, b.Tests = true → OnlyTests ((hooking E σ).perf m b) := by
  intro m b hb
  have : (hooking E σ).perf m b = step E b := by
    funext c
    cases b <;> first | rfl | cases hb
  rw [this]
  exact .step E hb

end Wastrum
