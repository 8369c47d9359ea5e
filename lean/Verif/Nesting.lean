import Verif.Syntax
/-!
# Nesting and lowering of function bodies (model)

Models `wastrumentation/src/parse_nesting/high_level_body.rs`,
`wastrumentation/src/parse_nesting/typed_high_level_body.rs` and
`wastrumentation/src/parse_nesting/typed_indexed_instr.rs`.
-/

namespace Wastrum

/-- `LowToHighError`: `parse_nesting/typed_high_level_body_error.rs` 1-17. The payload of
`TypeInference` (a `wasabi_wasm` error value) is dropped. -/
inductive LowToHighError where
  | typeInference | bodyNonEndTermination | ifDidNotPrecedeElse | excessiveEnd | endWithoutParent
  | trivialCastAttempt
  deriving DecidableEq, Repr

/-- How a Rust function of this crate can fail: a returned `Err`, or a panic (`assert!`/`unwrap`). -/
inductive Failure where
  | err (e : LowToHighError) | panic
  deriving DecidableEq, Repr

/-! ## Untyped bodies -/

/-- `enum Entered`: `high_level_body.rs` 138-146. -/
inductive Entered where
  | block (t : FuncType) | loop (t : FuncType) | ifStart (t : FuncType)
  | ifThenElse (t : FuncType) (thn : List HI)
  deriving Repr

/-- The three mutable variables of the loop: `high_level_body.rs` 154-156. Rust pushes and pops at the
end of the vectors; the two stacks are kept top-first here. -/
structure PState where
  entered : List Entered
  bodies : List (List HI)
  cur : List HI
  deriving Repr

/-- One iteration of the loop: `high_level_body.rs` 159-201. -/
def PState.step (s : PState) : LInstr → Except LowToHighError PState
  | .block t => .ok ⟨.block t :: s.entered, s.cur :: s.bodies, []⟩
  | .loop t => .ok ⟨.loop t :: s.entered, s.cur :: s.bodies, []⟩
  | .ite t => .ok ⟨.ifStart t :: s.entered, s.cur :: s.bodies, []⟩
  | .els =>
    match s.entered with
    | .ifStart t :: es => .ok ⟨.ifThenElse t s.cur :: es, s.bodies, []⟩
    | _ => .error .ifDidNotPrecedeElse
  | .fin =>
    match s.entered with
    | [] => .error .excessiveEnd
    | e :: es =>
      let i : HI := match e with
        | .block t => .block t s.cur
        | .loop t => .loop t s.cur
        | .ifStart t => .ifThen t s.cur
        | .ifThenElse t thn => .ifElse t thn s.cur
      match s.bodies with
      | [] => .error .endWithoutParent
      | b :: bs => .ok ⟨es, bs, b ++ [i]⟩
  | i =>
    match i.toBasic with
    | some b => .ok { s with cur := s.cur ++ [.basic b] }
    | none => .error .trivialCastAttempt

/-- The loop: `high_level_body.rs` 158-202 (`?` and `return Err` leave at the first error). -/
def PState.run (s : PState) : List LInstr → Except LowToHighError PState
  | [] => .ok s
  | i :: is => match s.step i with
    | .ok s' => s'.run is
    | .error e => .error e

/-- `impl TryFrom<LowLevelBody> for Body`: `high_level_body.rs` 134-208. The final asserts (204-205)
are the `panic` outcome. -/
def raise (body : List LInstr) : Except Failure (List HI) :=
  match body.getLast? with
  | some .fin =>
    match (PState.mk [] [] []).run body.dropLast with
    | .error e => .error (.err e)
    | .ok s =>
      match s.entered, s.bodies with
      | [], [] => .ok s.cur
      | _, _ => .error .panic
  | _ => .error (.err .bodyNonEndTermination)

mutual
/-- One round of the loop of `from_recurse`: `high_level_body.rs` 223-289. -/
def HI.lower : HI → List LInstr
  | .basic b => [b.toL]
  | .block t body => .block t :: (HI.lowerL body ++ [.fin])
  | .loop t body => .loop t :: (HI.lowerL body ++ [.fin])
  | .ifThen t thn => .ite t :: (HI.lowerL thn ++ [.fin])
  | .ifElse t thn els => .ite t :: (HI.lowerL thn ++ .els :: (HI.lowerL els ++ [.fin]))
/-- `LowLevelBody::from_recurse`: `high_level_body.rs` 220-292. -/
def HI.lowerL : List HI → List LInstr
  | [] => []
  | i :: is => i.lower ++ HI.lowerL is
end

/-- `impl From<Body> for LowLevelBody`: `high_level_body.rs` 210-216. -/
def lower (body : List HI) : List LInstr := HI.lowerL body ++ [.fin]

/-! ## Typed bodies -/

/-- `TypedIndexedInstr`: `typed_indexed_instr.rs` 6-11. -/
structure TII where
  fidx : Nat
  iidx : Nat
  ty : InferredTy
  instr : LInstr
  deriving Repr

/-- `type_inference_index_function`: `typed_indexed_instr.rs` 14-43. The `TypeChecker` of
`wasabi_wasm` is the parameter `check` (a step function on an arbitrary checker state); the error
payload is dropped. `start` is the first index (0 at the call site). -/
def typeInferenceFrom {σ : Type} (check : σ → LInstr → Option (σ × InferredTy)) (fidx : Nat) :
    σ → Nat → List LInstr → Option (List TII)
  | _, _, [] => some []
  | s, start, i :: is =>
    match check s i with
    | none => none
    | some (s', ty) =>
      match typeInferenceFrom check fidx s' (start + 1) is with
      | none => none
      | some rest => some (⟨fidx, start, ty, i⟩ :: rest)

/-- `enum EnteredType`: `typed_high_level_body.rs` 237-242. -/
inductive TEnteredType where
  | block | loop | ifStart | ifThenElse (thn : List TI)
  deriving Repr

/-- `struct Entered`: `typed_high_level_body.rs` 244-249. -/
structure TEntered where
  et : TEnteredType
  fidx : Nat
  index : Nat
  ty : FuncType
  deriving Repr

/-- The three mutable variables: `typed_high_level_body.rs` 261-263 (stacks kept top-first). -/
structure TPState where
  entered : List TEntered
  bodies : List (List TI)
  cur : List TI
  deriving Repr

/-- `TypedHighLevelInstr::new_uninstrumented` (its metadata): `typed_high_level_body.rs` 27-40. -/
def newUninstrumented (fidx iidx : Nat) (ty : InferredTy) : Meta := ⟨fidx, iidx, ty, false⟩

/-- One iteration of the loop: `typed_high_level_body.rs` 265-364. -/
def TPState.step (s : TPState) (x : TII) : Except LowToHighError TPState :=
  match x.instr with
  | .block t => .ok ⟨⟨.block, x.fidx, x.iidx, t⟩ :: s.entered, s.cur :: s.bodies, []⟩
  | .loop t => .ok ⟨⟨.loop, x.fidx, x.iidx, t⟩ :: s.entered, s.cur :: s.bodies, []⟩
  | .ite t => .ok ⟨⟨.ifStart, x.fidx, x.iidx, t⟩ :: s.entered, s.cur :: s.bodies, []⟩
  | .els =>
    match s.entered with
    | ⟨.ifStart, fidx, index, t⟩ :: es => .ok ⟨⟨.ifThenElse s.cur, fidx, index, t⟩ :: es, s.bodies, []⟩
    | _ => .error .ifDidNotPrecedeElse
  | .fin =>
    match s.entered with
    | [] => .error .excessiveEnd
    | e :: es =>
      let m := newUninstrumented x.fidx e.index x.ty
      let i : TI := match e.et with
        | .block => .block m e.ty s.cur
        | .loop => .loop m e.ty s.cur
        | .ifStart => .ifThen m e.ty s.cur
        | .ifThenElse thn => .ifElse m e.ty thn s.cur
      match s.bodies with
      | [] => .error .endWithoutParent
      | b :: bs => .ok ⟨es, bs, b ++ [i]⟩
  | i =>
    match i.toBasic with
    | some b => .ok { s with cur := s.cur ++ [.basic (newUninstrumented x.fidx x.iidx x.ty) b] }
    | none => .error .trivialCastAttempt

/-- The loop: `typed_high_level_body.rs` 265-365. -/
def TPState.run (s : TPState) : List TII → Except LowToHighError TPState
  | [] => .ok s
  | i :: is => match s.step i with
    | .ok s' => s'.run is
    | .error e => .error e

/-- `typed_high_level_body.rs` 251-369: nesting of an annotated flat body. -/
def raiseTyped (body : List TII) : Except Failure (List TI) :=
  match body.getLast? with
  | some ⟨_, _, _, .fin⟩ =>
    match (TPState.mk [] [] []).run body.dropLast with
    | .error e => .error (.err e)
    | .ok s =>
      match s.entered, s.bodies with
      | [], [] => .ok s.cur
      | _, _ => .error .panic
  | _ => .error (.err .bodyNonEndTermination)

/-- `impl TryFrom<(&Module, &Function, &Code, &Idx<Function>)> for Body`:
`typed_high_level_body.rs` 226-371. -/
def raiseFunction {σ : Type} (check : σ → LInstr → Option (σ × InferredTy)) (init : σ) (fidx : Nat)
    (body : List LInstr) : Except Failure (List TI) :=
  match typeInferenceFrom check fidx init 0 body with
  | none => .error (.err .typeInference)
  | some tis => raiseTyped tis

mutual
/-- One round of the loop of `from_recurse`: `typed_high_level_body.rs` 384-451. -/
def TI.lower : TI → List LInstr
  | .basic _ b => [b.toL]
  | .block _ t body => .block t :: (TI.lowerL body ++ [.fin])
  | .loop _ t body => .loop t :: (TI.lowerL body ++ [.fin])
  | .ifThen _ t thn => .ite t :: (TI.lowerL thn ++ [.fin])
  | .ifElse _ t thn els => .ite t :: (TI.lowerL thn ++ .els :: (TI.lowerL els ++ [.fin]))
/-- `from_recurse`: `typed_high_level_body.rs` 382-453. -/
def TI.lowerL : List TI → List LInstr
  | [] => []
  | i :: is => i.lower ++ TI.lowerL is
end

/-- `impl From<Body> for LowLevelBody`: `typed_high_level_body.rs` 373-380. -/
def lowerTyped (body : List TI) : List LInstr := TI.lowerL body ++ [.fin]

mutual
/-- Forget the annotations (specification device: relates typed and untyped bodies). -/
def TI.erase : TI → HI
  | .basic _ b => .basic b
  | .block _ t body => .block t (TI.eraseL body)
  | .loop _ t body => .loop t (TI.eraseL body)
  | .ifThen _ t thn => .ifThen t (TI.eraseL thn)
  | .ifElse _ t thn els => .ifElse t (TI.eraseL thn) (TI.eraseL els)
/-- Forget the annotations of a body. -/
def TI.eraseL : List TI → List HI
  | [] => []
  | i :: is => i.erase :: TI.eraseL is
end

end Wastrum
