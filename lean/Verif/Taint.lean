import Verif.TellThms
import Verif.MemWatchers
/-!
# The `taint` analysis (model for C78)

`/repo/benchmarking-node/input-analyses/rust/taint/src/lib.rs`. A `Taint` (38-49) is its label. Vectors used as stacks (`STACK`, `blocks`, `values`) are lists
with the last element first. `usize` has 32 bits, additions wrap (release build). How large a vector can be allocated depends on the allocator: `cap` is the largest number of elements for
which `MEMORY.resize` succeeds (a simplification: that it is a fixed number, and that all other vectors can be allocated).
-/

namespace Wastrum

variable {W A : Type}

/-- `StackFrame` and `Block`: `taint/src/lib.rs` 21-34. -/
structure TaintFrame where
  blocks : List (List Bool)
  locals : List (Option Bool)
deriving DecidableEq
/-- `STACK`, `MEMORY`, `GLOBALS`, `RETURN_VALUE`: `taint/src/lib.rs` 14-19. -/
structure TaintState where
  stack : List TaintFrame
  memory : List Bool
  globals : List Bool
  returnValue : Option Bool
deriving DecidableEq
/-- All start empty: `taint/src/lib.rs` 15-19. -/
def TaintState.init : TaintState := ⟨[], [], [], none⟩
/-- `usize::try_from` of an `i32` (`unwrap`ped: `none` is a panic). -/
def i32ToUsize (x : BitVec 32) : Option (BitVec 32) := if 0 ≤ x.toInt then some x else none
/-- `usize::try_from` of an `i64` (`unwrap`ped: `none` is a panic). -/
def i64ToUsize (x : BitVec 64) : Option (BitVec 32) := i64ToU32 x
/-- `Vec::resize(n, d)`. -/
def vecResize {α} (l : List α) (n : Nat) (d : α) : List α := l.take n ++ List.replicate (n - l.length) d
/-- `v[i] = x`; `none` is a panic. -/
def vecSet {α} (l : List α) (i : Nat) (x : α) : Option (List α) := if i < l.length then some (l.set i x) else none

/-- `values().and_then(|vs| vs.pop())`, with `values` and `peek`: `taint/src/lib.rs` 52-62. -/
def TaintState.pop (s : TaintState) : Option Bool × TaintState :=
  match s.stack with
  | ⟨(v :: vs) :: bs, ls⟩ :: fs => (some v, { s with stack := ⟨vs :: bs, ls⟩ :: fs })
  | _ => (none, s)
/-- `values().map(|vs| vs.push(t))`: `taint/src/lib.rs` 52-62. -/
def TaintState.push (s : TaintState) (t : Bool) : TaintState :=
  match s.stack with
  | ⟨vs :: bs, ls⟩ :: fs => { s with stack := ⟨(t :: vs) :: bs, ls⟩ :: fs }
  | _ => s
/-- `peek().and_then(|sf| sf.blocks.pop())`: `taint/src/lib.rs` 52-54, 141, 195. -/
def TaintState.popBlock (s : TaintState) : Option (List Bool) × TaintState :=
  match s.stack with
  | ⟨b :: bs, ls⟩ :: fs => (some b, { s with stack := ⟨bs, ls⟩ :: fs })
  | _ => (none, s)
/-- `join`: `taint/src/lib.rs` 64-66. -/
def taintJoin (a b : Bool) : Bool := a || b
/-- `locals_set`: `taint/src/lib.rs` 68-76. -/
def TaintState.localsSet (s : TaintState) (index : BitVec 64) (t : Option Bool) : Option TaintState :=
  (i64ToUsize index).bind fun index => match s.stack with
    | f :: fs =>
      let locals := if f.locals.length ≤ index.toNat then vecResize f.locals (index + 1).toNat none else f.locals
      (vecSet locals index.toNat t).map fun locals => { s with stack := { f with locals } :: fs }
    | [] => some s
/-- `locals_get`: `taint/src/lib.rs` 78-84. -/
def TaintState.localsGet (s : TaintState) (index : BitVec 64) : Option Bool :=
  (i64ToUsize index).map fun index => match s.stack with
    | f :: _ => (f.locals[index.toNat]?.bind id).getD false
    | [] => false
/-- `globals_set`: `taint/src/lib.rs` 86-95. -/
def TaintState.globalsSet (s : TaintState) (index : BitVec 64) (t : Option Bool) : Option TaintState :=
  (i64ToUsize index).bind fun index =>
    let globals := if s.globals.length ≤ index.toNat then vecResize s.globals (index + 1).toNat false else s.globals
    match t with
    | some t => (vecSet globals index.toNat t).map fun globals => { s with globals }
    | none => some { s with globals }
/-- `globals_get`: `taint/src/lib.rs` 97-104. -/
def TaintState.globalsGet (s : TaintState) (index : BitVec 64) : Option (Bool × TaintState) :=
  (i64ToUsize index).bind fun index =>
    let globals := if s.globals.length ≤ index.toNat then vecResize s.globals (index + 1).toNat false else s.globals
    globals[index.toNat]?.map fun t => (t, { s with globals })
/-- The conversions at the beginning and the growing of the memory, common to `memory_get` (106-115) and `memory_set` (118-127): `taint/src/lib.rs`; also the effective address. -/
def TaintState.memoryFor (cap : Nat) (s : TaintState) (index : BitVec 32) (offset : BitVec 64) : Option (Nat × List Bool) :=
  (i32ToUsize index).bind fun index => (i64ToUsize offset).bind fun offset =>
    let effective := index + offset
    if s.memory.length ≤ effective.toNat then
      if (effective + 1).toNat ≤ cap then some (effective.toNat, vecResize s.memory (effective + 1).toNat false) else none
    else some (effective.toNat, s.memory)
/-- `memory_get`: `taint/src/lib.rs` 106-116. -/
def TaintState.memoryGet (cap : Nat) (s : TaintState) (index : BitVec 32) (offset : BitVec 64) : Option (Bool × TaintState) :=
  (s.memoryFor cap index offset).bind fun (effective, memory) => memory[effective]?.map fun t => (t, { s with memory })
/-- `memory_set`: `taint/src/lib.rs` 118-128. -/
def TaintState.memorySet (cap : Nat) (s : TaintState) (index : BitVec 32) (t : Bool) (offset : BitVec 64) : Option TaintState :=
  (s.memoryFor cap index offset).bind fun (effective, memory) => (vecSet memory effective t).map fun memory => { s with memory }
/-- `begin`: `taint/src/lib.rs` 131-133. -/
def TaintState.begin (s : TaintState) : TaintState :=
  match s.stack with
  | f :: fs => { s with stack := { f with blocks := [] :: f.blocks } :: fs }
  | [] => s
/-- `end`: `taint/src/lib.rs` 135-153; `function` is `type_ = BlockType::Function`. -/
def TaintState.endBlock (s : TaintState) (function : Bool) : TaintState :=
  match s.popBlock with
  | (some (v :: _), s) => if function then { s with returnValue := some v } else s
  | (_, s) => s

/-- The advice other than `apply`, without what forwards the instruction (before which everything is done): `taint/src/lib.rs` 155-500. `none` is a panic. -/
def taintAdvice (cap : Nat) : Advice → TaintState → Option TaintState
  | .ifThenElse .., s | .ifThen .., s => some s.pop.2
  | .ifThenElsePost _, s | .ifThenPost _, s => some (s.endBlock false)
  | .br .., s => some s.popBlock.2
  | .brIf k _ _, s => if isThen k then some s.pop.2.popBlock.2 else some s.pop.2
  | .brTable .., s => some s.pop.2.popBlock.2
  | .select k _, s =>
    let (taint2, s) := s.pop.2.pop
    let (taint1, s) := s.pop
    match taint2, taint1 with
    | some taint2, some taint1 => some (s.push (if isThen k then taint1 else taint2))
    | _, _ => some (s.push false)
  | .callPre .., s => some s
  | .callPost .., s =>
    let s := { s with stack := s.stack.drop 1 }
    let s := match s.returnValue with
      | some r => { s.push r with returnValue := none }
      | none => s
    some (s.endBlock true)
  | .callIndirectPre .., s => some s
  | .callIndirectPost .., s => some (s.endBlock true)
  | .unary .., s =>
    let (t, s) := s.pop
    some (s.push (t.getD false))
  | .binary .., s =>
    let (taint1, s) := s.pop
    let (taint2, s) := s.pop
    match taint1, taint2 with
    | some taint1, some taint2 => some (s.push (taintJoin taint1 taint2))
    | _, _ => some (s.push false)
  | .drop _, s => some s.pop.2
  | .ret _, s =>
    if s.returnValue.isSome && (match s.stack with | f :: _ => !f.blocks.isEmpty | [] => false) then
      let (t, s) := s.pop
      some { s with returnValue := t }
    else some s
  | .const .., s => some (s.push false)
  | .loc _ index .get _, s => (s.localsGet index).map s.push
  | .loc _ index _ _, s =>
    let (t, s) := s.pop
    s.localsSet index t
  | .glob _ index .set _, s =>
    let (t, s) := s.pop
    s.globalsSet index t
  | .glob _ index .get _, s => (s.globalsGet index).map fun (t, s) => s.push t
  | .load index offset _ _, s => (s.pop.2.memoryGet cap index offset).map fun (t, s) => s.push t
  | .store index _ offset _ _, s =>
    let (t, s) := s.pop
    s.pop.2.memorySet cap index (t.getD false) offset
  | .memorySize .., s => some (s.push false)
  | .memoryGrow .., s => some (s.pop.2.push false)
  | .blockPre .., s | .loopPre .., s => some s.begin
  | .blockPost _, s | .loopPost _, s => some (s.endBlock false)

/-- The closure that is mapped over the arguments: `taint/src/lib.rs` 252. -/
def taintArgs : List Val → TaintState → List (Option Bool) × TaintState
  | [], s => ([], s)
  | _ :: xs, s =>
    let (t, s) := s.pop
    let (ts, s) := taintArgs xs s
    (t.map (fun _ => false) :: ts, s)
/-- The `apply` advice before `function.apply()`: `taint/src/lib.rs` 251-256. -/
def TaintState.enter (xs : List Val) (s : TaintState) : TaintState :=
  let (locals, s) := taintArgs xs s
  { s with stack := ⟨[[]], locals⟩ :: s.stack }

/-- The analysis: `taint/src/lib.rs` 155-500. -/
def taint (cap : Nat) : CallWatcher TaintState where
  before := taintAdvice cap
  after _ s := some s
  enter _ xs s := some (s.enter xs)
  leave _ _ _ s := some s

/-- The `apply` advice up to `function.apply()`, reading the arguments with `args_iter`: `taint/src/lib.rs` 251-256. (All arguments are read first and then the values are popped; in the code
reading and popping alternate, which makes no difference as the two do not touch the same data.) -/
def taintBefore (K : LibLink) (_ : WasmFunction) (args : RuntimeValues) (_ : RuntimeValues) : Act (World W TaintState) Unit := do
  let xs ← K.iterate args args.resc.toNat args.argc.toNat
  updateState (TaintState.enter xs)
/-- After `function.apply()` it does nothing: `taint/src/lib.rs` 257-258. -/
def taintAfter (_ : WasmFunction) (_ _ : RuntimeValues) : Act (World W TaintState) Unit := pure ()

end Wastrum
