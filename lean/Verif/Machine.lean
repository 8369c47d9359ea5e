import Verif.Instrument
import Verif.InstrumentDesc
import Verif.InterposeLemmas
import Verif.BrTable
/-!
# Modules as machines, and programs running under an analysis (specification), with supporting lemmas
-/

set_option linter.unusedSimpArgs false
set_option linter.unusedVariables false

namespace Wastrum

variable {W : Type}

/-- What an embedder provides for every import. -/
abbrev Imports (W : Type) := String → String → Host W

/-- The functions of a module, linked with the embedder's imports. -/
def implOf (H : Imports W) (f : Func) : Impl W :=
  match f.code with
  | .imported ns name => .host (H ns name)
  | .present c => .code c.locals fun E => denFlat E c.body

/-- A list of functions, linked, as a machine. -/
def machineOf (H : Imports W) (fs : List Func) : Machine W := fun i => fs[i]?.map fun f => (f.type, implOf H f)

/-- The program `m` running under an analysis: target functions run with the analysis interposed (`hdenL`), all others
as they are. `added` are further functions behind those of the program (the analysis' hooks among them). -/
def underAnalysis (C : Checker) (m : Module) (targets : List Nat) (H : Imports W) (σ : Sel) (added : List Func) : Machine W := fun i =>
  match m.functions[i]? with
  | some f => match f.code with
    | .imported ns name => some (f.type, .host (H ns name))
    | .present c => some (f.type, .code c.locals fun E =>
        if i ∈ targets then hdenL E σ (bodyOf C m i) else denFlat E c.body)
  | none => machineOf H added (i - m.functions.length)

/-- A machine in which some functions run given bodies with the analysis interposed. -/
def interposed (σ : Sel) (J : Nat → Option (List TI)) (M : Machine W) : Machine W := fun g =>
  match J g, M g with
  | some b, some (ty, .code locals _) => some (ty, .code locals fun E => hdenL E σ b)
  | _, x => x

theorem interposed_type (σ : Sel) (J) (M : Machine W) (g : Nat) : (interposed σ J M g).map (·.1) = (M g).map (·.1) := by
  unfold interposed
  split
  · rename_i h; simp [h]
  · rfl

/-- The conditions under which the functions given by `J` behave as interposed versions of the bodies given by `J`. -/
structure Interposes (fs : List Func) (σ : Sel) (J : Nat → Option (List TI)) : Prop where
  hooks : ∀ t k, σ t = some k → ∃ f, fs[k]? = some f ∧ f.type = ⟨t.args, t.results⟩
  bodies : ∀ g b, J g = some b → Pristine b ∧ ∃ f c n, fs[g]? = some f ∧ f.code = .present c ∧
    c.body = lowerTyped (expandL σ n b) ∧
    (σ .brTableTrap ≠ none → ∀ (j : Nat) p, (TI.tablesL b)[j]? = some p → fs[n + j]? = some (helperFunc p))

/-- The machine of the instrumented functions is the machine of the interposed bodies. -/
theorem callF_interposed {fs : List Func} {σ : Sel} {J : Nat → Option (List TI)} (hI : Interposes fs σ J) (N : Num) (H : Imports W)
    (L d : Nat) : callF N (machineOf H fs) L d = callF N (interposed σ J (machineOf H fs)) L d := by
  induction d with
  | zero => rfl
  | succ d ih =>
    funext g args s
    have hft : (fun g => ((machineOf H fs) g).map (·.1)) = fun g => (interposed σ J (machineOf H fs) g).map (·.1) := by
      funext g; rw [interposed_type]
    cases hJ : J g with
    | none =>
      have e : interposed σ J (machineOf H fs) g = machineOf H fs g := by simp [interposed, hJ]
      simp only [callF, e, ← ih, ← hft]
    | some b =>
      obtain ⟨hp, f, c, n, hf, hc, hbody, hh⟩ := hI.bodies g b hJ
      have e1 : machineOf H fs g = some (f.type, .code c.locals fun E => denFlat E c.body) := by
        simp [machineOf, hf, implOf, hc]
      have e2 : interposed σ J (machineOf H fs) g = some (f.type, .code c.locals fun E => hdenL E σ b) := by
        simp [interposed, hJ, e1]
      simp only [callF, e1, e2, ← ih, ← hft]
      congr 1
      funext cfg
      rw [hbody, denFlat_lowerTyped]
      refine (expand_runs _ σ ?_).2 b hp n ?_ cfg
      · intro t k hk
        obtain ⟨f', hf', ht⟩ := hI.hooks t k hk
        simp [machineOf, hf', ht]
      · intro hbt j p hjp
        have hfh := hh hbt j p hjp
        refine ⟨by simp [machineOf, hfh, helperFunc], ?_⟩
        cases d with
        | zero => exact .inr fun _ _ _ => rfl
        | succ d =>
          refine .inl fun x s => ?_
          simp only [callF, machineOf, hfh, Option.map_some, implOf, helperFunc]
          exact run_helper _ p.1 p.2 [.i32] x s

end Wastrum
