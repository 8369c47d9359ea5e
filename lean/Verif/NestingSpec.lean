import Verif.Nesting
/-!
# Nesting: specification vocabulary

Independent of the parsing functions: what a well-bracketed flat body is, what an incomplete one is, and
what the locations of a nested body are.
-/

namespace Wastrum

/-- Neither opens, separates nor closes a construct. -/
def LInstr.isPlain : LInstr → Bool
  | .block _ | .loop _ | .ite _ | .els | .fin => false
  | _ => true

/-- Well-bracketed instruction sequences (the grammar of Wasm expressions without the final `end`). -/
inductive Balanced : List LInstr → Prop where
  | nil : Balanced []
  | plain {i l} : i.isPlain = true → Balanced l → Balanced (i :: l)
  | block {t a b} : Balanced a → Balanced b → Balanced (.block t :: (a ++ .fin :: b))
  | loop {t a b} : Balanced a → Balanced b → Balanced (.loop t :: (a ++ .fin :: b))
  | ifThen {t a b} : Balanced a → Balanced b → Balanced (.ite t :: (a ++ .fin :: b))
  | ifElse {t a b c} : Balanced a → Balanced b → Balanced c →
      Balanced (.ite t :: (a ++ .els :: (b ++ .fin :: c)))

/-- Kinds of constructs that are still open. -/
inductive OpenKind where
  | block | loop | ifThen | ifElse
  deriving DecidableEq, Repr

/-- `Incomplete ks l`: `l` is a prefix of a well-bracketed sequence in which exactly the constructs `ks`
(innermost first) are still open. -/
inductive Incomplete : List OpenKind → List LInstr → Prop where
  | balanced {l} : Balanced l → Incomplete [] l
  | block {ks p t l} : Incomplete ks p → Balanced l → Incomplete (.block :: ks) (p ++ .block t :: l)
  | loop {ks p t l} : Incomplete ks p → Balanced l → Incomplete (.loop :: ks) (p ++ .loop t :: l)
  | ifThen {ks p t l} : Incomplete ks p → Balanced l → Incomplete (.ifThen :: ks) (p ++ .ite t :: l)
  | ifElse {ks p t a l} : Incomplete ks p → Balanced a → Balanced l →
      Incomplete (.ifElse :: ks) (p ++ .ite t :: (a ++ .els :: l))

mutual
/-- Pre-order listing of a nested instruction: function index, position, provenance flag and the flat
instruction that stands at the head of it. -/
def TI.locs : TI → List (Nat × Nat × Bool × LInstr)
  | .basic m b => [(m.fidx, m.iidx, m.flag, b.toL)]
  | .block m t body => (m.fidx, m.iidx, m.flag, .block t) :: TI.locsL body
  | .loop m t body => (m.fidx, m.iidx, m.flag, .loop t) :: TI.locsL body
  | .ifThen m t thn => (m.fidx, m.iidx, m.flag, .ite t) :: TI.locsL thn
  | .ifElse m t thn els => (m.fidx, m.iidx, m.flag, .ite t) :: (TI.locsL thn ++ TI.locsL els)
/-- Pre-order listing of a body. -/
def TI.locsL : List TI → List (Nat × Nat × Bool × LInstr)
  | [] => []
  | i :: is => i.locs ++ TI.locsL is
end

/-- `else` and `end` have no counterpart in the nested form. -/
def LInstr.isHead : LInstr → Bool
  | .els | .fin => false
  | _ => true

/-- The flat body as a list of (function, position, not-inserted, instruction), `else`/`end` removed. -/
def headPositions (fidx : Nat) (body : List LInstr) : List (Nat × Nat × Bool × LInstr) :=
  (body.zipIdx.filter (fun p => p.1.isHead)).map (fun p => (fidx, p.2, false, p.1))

end Wastrum
