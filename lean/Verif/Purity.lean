import Verif.Instrument
/-!
# The purity analysis

Models `wastrumentation-static-analysis/src/lib.rs`: `immutable_functions` and `is_pure`. The progress messages printed
after every round (line 99) are left out, and so is decoding the binary (`immutable_functions_from_binary`, lines 26-29).
-/

namespace Wastrum

/-- `enum Purity`: lib.rs 6-11. -/
inductive Purity where
  | unknown (body : List TI)
  | pure
  | impure

/-- `enum PurityEstimate`: lib.rs 13-18. -/
inductive Estimate where
  | unknown | pure | impure
  deriving DecidableEq, Repr

/-- `struct AnalysisTargetFunction`: lib.rs 20-24. -/
structure PurityTarget where
  index : Nat
  purity : Purity

/-- Forgetting the body: lib.rs 74-89. -/
def Purity.estimate : Purity → Estimate
  | .unknown _ => .unknown
  | .pure => .pure
  | .impure => .impure

/-- The verdict on a callee, `none` when `expect` panics because it is not among the functions: lib.rs 166-183. -/
def calleeEstimate (all : List PurityTarget) (g : Nat) : Option Estimate :=
  (all.find? fun t => t.index == g).map fun t => t.purity.estimate

/-- The arms of `is_pure` for instructions without a body: lib.rs 145-203. -/
def basicEstimate (index : Nat) (all : List PurityTarget) : Basic → Option Estimate
  | .brTable .. | .br _ | .brIf _ | .unreachable | .nop | .ret | .refNull _ | .refIsNull | .refFunc _ | .drop | .select
  | .typedSelect _ | .const _ | .unary _ | .loc .. | .binary _ => some .pure
  | .call g => if index = g then some .pure else calleeEstimate all g
  | .glob .. | .tableGet _ | .tableSet _ | .tableSize _ | .tableGrow _ | .tableFill _ | .tableCopy .. | .tableInit ..
  | .elemDrop _ | .load .. | .store .. | .memorySize _ | .memoryGrow _ | .memoryFill | .memoryCopy | .memoryInit _
  | .dataDrop _ => some .impure
  | .callIndirect .. => some .impure

/-- The pattern "`Unknown` and `Impure` are returned, `Pure` continues": lib.rs 127-131, 134-143. -/
def whenPure (r s : Option Estimate) : Option Estimate :=
  match r with
  | some .pure => s
  | r => r

mutual
/-- One round of the loop of `is_pure`: lib.rs 123-204. -/
def TI.isPure (index : Nat) (all : List PurityTarget) : TI → Option Estimate
  | .basic _ b => basicEstimate index all b
  | .block _ _ body => TI.isPureL index all body
  | .loop _ _ body => TI.isPureL index all body
  | .ifThen _ _ thn => TI.isPureL index all thn
  | .ifElse _ _ thn els => whenPure (TI.isPureL index all thn) (TI.isPureL index all els)
/-- `is_pure`: lib.rs 118-207; `none` when it panics. -/
def TI.isPureL (index : Nat) (all : List PurityTarget) : List TI → Option Estimate
  | [] => some .pure
  | i :: is => whenPure (i.isPure index all) (TI.isPureL index all is)
end

/-- `map` with a function that may panic. -/
def mapOpt {α β : Type} (f : α → Option β) : List α → Option (List β)
  | [] => some []
  | x :: l => match f x with
    | none => none
    | some y => (mapOpt f l).map (y :: ·)

/-- What a round does to one function: lib.rs 55-71. -/
def PurityTarget.revise (all : List PurityTarget) (t : PurityTarget) : Option PurityTarget :=
  match t.purity with
  | .pure => some t
  | .impure => some t
  | .unknown body => match TI.isPureL t.index all body with
    | none => none
    | some .unknown => some t
    | some .pure => some ⟨t.index, .pure⟩
    | some .impure => some ⟨t.index, .impure⟩

/-- One call of `reiterate_no_more_findings`: lib.rs 51-72. -/
def purityRound (ts : List PurityTarget) : Option (List PurityTarget) := mapOpt (PurityTarget.revise ts) ts

/-- Why the analysis does not answer: it panics, or (in the model only) it is not given enough rounds. -/
inductive PurityErr where
  | panic | fuel
  deriving DecidableEq, Repr

/-- The loop of `immutable_functions` (lib.rs 94-101), for at most the given number of rounds. -/
def purityLoop : Nat → List PurityTarget → Except PurityErr (List PurityTarget)
  | 0, _ => .error .fuel
  | k + 1, ts => match purityRound ts with
    | none => .error .panic
    | some ts' =>
      if ts.map (·.purity.estimate) = ts'.map (·.purity.estimate) then .ok ts' else purityLoop k ts'

/-- The starting point for one function (lib.rs 35-48); `none` when `unwrap` panics because the body does not type-check
or is not well nested. -/
def purityStart (C : Checker) (m : Module) (i : Nat) (f : Func) : Option PurityTarget :=
  match f.code with
  | .present c => match raiseFunction C.check (C.init m f) i c.body with
    | .ok body => some ⟨i, .unknown body⟩
    | .error _ => none
  | .imported .. => some ⟨i, .impure⟩

/-- The initial value of `high_level_functions`: lib.rs 32-49. -/
def purityInit (C : Checker) (m : Module) : Option (List PurityTarget) :=
  mapOpt (fun p : Func × Nat => purityStart C m p.2 p.1) m.functions.zipIdx

/-- `immutable_functions` (lib.rs 31-111), with a bound on the number of rounds. The `HashSet` is represented by the list
of its members. -/
def immutableFunctions (C : Checker) (m : Module) (fuel : Nat) : Except PurityErr (List Nat) :=
  match purityInit C m with
  | none => .error .panic
  | some ts => match purityLoop fuel ts with
    | .error e => .error e
    | .ok ts => .ok ((ts.filter fun t => t.purity.estimate = .pure).map (·.index))

end Wastrum
