import Verif.OpTypes
import Verif.Nesting
/-!
# What WebAssembly code does (specification)

An executable semantics of the WebAssembly instructions that occur in `/repo`, following the WebAssembly
core specification. Nothing here models code in `/repo`; it is the notion of "behaviour" in which the
properties of the tool are stated.

* Floating-point and most integer arithmetic is a parameter (`Num`): the theorems hold for every choice.
* Imported functions are arbitrary state transformers that may call back into the module (`Host`).
* Loops and calls are cut off after a bounded number of iterations / call depth (`Out.fuel`). An
  execution terminates with a result if some bound yields that result.
* Memory growth is deterministic with an arbitrary limit per memory.
-/

namespace Wastrum

/-- A runtime value. -/
inductive RVal where
  | num (v : Val)
  | ref (r : RefType) (a : Option Nat)
  deriving DecidableEq, Repr

/-- The type of a runtime value. -/
def RVal.type : RVal → ValType
  | .num v => v.type
  | .ref r _ => .ref r

/-- `i32` value. -/
abbrev RVal.i32 (x : BitVec 32) : RVal := .num (.i32 x)
/-- `i64` value. -/
abbrev RVal.i64 (x : BitVec 64) : RVal := .num (.i64 x)

/-- The value a local of a type starts with. -/
def ValType.zero : ValType → RVal
  | .i32 => .num (.i32 0) | .i64 => .num (.i64 0) | .f32 => .num (.f32 0) | .f64 => .num (.f64 0)
  | .ref r => .ref r none

/-- The arithmetic of the numeric operators (`none`: the operator traps on these operands). The laws fix
the result types and the two operators that the tool itself relies on. -/
structure Num where
  unary : UnaryOp → Val → Option Val
  binary : BinaryOp → Val → Val → Option Val
  unary_type : ∀ op v w, unary op v = some w → w.type = op.sig.2
  binary_type : ∀ op v v' w, binary op v v' = some w → w.type = op.sig.2
  i32Eqz : ∀ x, unary .i32Eqz (.i32 x) = some (.i32 (if x = 0 then 1 else 0))
  i32Add : ∀ x y, binary .i32Add (.i32 x) (.i32 y) = some (.i32 (x + y))

/-! ## State -/

/-- A linear memory; `limit` is the number of pages it may grow to. -/
structure Mem where
  pages : Nat
  limit : Nat
  bytes : Nat → BitVec 8

/-- Size in bytes. -/
def Mem.size (m : Mem) : Nat := m.pages * 65536

/-- A table of references; `limit` is the number of elements it may grow to. -/
structure Table where
  ref : RefType
  elems : List (Option Nat)
  limit : Nat

/-- Everything that survives a call: the instance's globals, memories, tables and segments, and the
state `world` of the embedder (in particular of the analysis). -/
structure Store (W : Type) where
  globals : List RVal
  mems : List Mem
  tables : List Table
  datas : List (List (BitVec 8))
  elems : List (RefType × List (Option Nat))
  world : W

/-- State while running a body: operand stack (top first), locals, store. -/
structure Cfg (W : Type) where
  stack : List RVal
  locals : List RVal
  store : Store W

/-- Outcome of running code. `br l`: a branch to the `l`-th enclosing label is in progress. `stuck`:
the code is not valid. `fuel`: the bound on iterations or call depth was reached. -/
inductive Out (W : Type) where
  | norm (c : Cfg W)
  | br (l : Nat) (c : Cfg W)
  | ret (c : Cfg W)
  | trap (s : Store W)
  | stuck
  | fuel

/-- Outcome of calling a function. -/
inductive Res (W : Type) where
  | ok (vs : List RVal) (s : Store W)
  | trap (s : Store W)
  | stuck
  | fuel

/-- Sequencing. -/
def Out.bind {W : Type} (o : Out W) (k : Cfg W → Out W) : Out W :=
  match o with
  | .norm c => k c
  | .br l c => .br l c
  | .ret c => .ret c
  | .trap s => .trap s
  | .stuck => .stuck
  | .fuel => .fuel

/-- The surroundings in which a body runs. -/
structure Env (W : Type) where
  num : Num
  ftype : Nat → Option FuncType
  callF : Nat → List RVal → Store W → Res W
  loopFuel : Nat

/-! ## Memory accesses -/

/-- The number of bytes a load reads. -/
def LoadOp.width : LoadOp → Nat
  | .i32Load | .f32Load | .i64Load32S | .i64Load32U => 4
  | .i64Load | .f64Load => 8
  | .i32Load8S | .i32Load8U | .i64Load8S | .i64Load8U => 1
  | .i32Load16S | .i32Load16U | .i64Load16S | .i64Load16U => 2

/-- The number of bytes a store writes. -/
def StoreOp.width : StoreOp → Nat
  | .i32Store | .f32Store | .i64Store32 => 4
  | .i64Store | .f64Store => 8
  | .i32Store8 | .i64Store8 => 1
  | .i32Store16 | .i64Store16 => 2

/-- Little-endian number in `n` bytes from address `a`. -/
def readLE (bytes : Nat → BitVec 8) (a : Nat) : Nat → Nat
  | 0 => 0
  | n + 1 => (bytes a).toNat + 256 * readLE bytes (a + 1) n

/-- Write the low `n` bytes of `x` at address `a`, little-endian. -/
def writeLE (bytes : Nat → BitVec 8) (a n x : Nat) : Nat → BitVec 8 := fun i =>
  if a ≤ i ∧ i < a + n then BitVec.ofNat 8 (x / 256 ^ (i - a)) else bytes i

/-- The value a load makes of the bytes read. -/
def LoadOp.decode (op : LoadOp) (x : Nat) : Val :=
  match op with
  | .i32Load => .i32 (BitVec.ofNat 32 x)
  | .i64Load => .i64 (BitVec.ofNat 64 x)
  | .f32Load => .f32 (BitVec.ofNat 32 x)
  | .f64Load => .f64 (BitVec.ofNat 64 x)
  | .i32Load8S => .i32 ((BitVec.ofNat 8 x).signExtend 32)
  | .i32Load8U => .i32 ((BitVec.ofNat 8 x).setWidth 32)
  | .i32Load16S => .i32 ((BitVec.ofNat 16 x).signExtend 32)
  | .i32Load16U => .i32 ((BitVec.ofNat 16 x).setWidth 32)
  | .i64Load8S => .i64 ((BitVec.ofNat 8 x).signExtend 64)
  | .i64Load8U => .i64 ((BitVec.ofNat 8 x).setWidth 64)
  | .i64Load16S => .i64 ((BitVec.ofNat 16 x).signExtend 64)
  | .i64Load16U => .i64 ((BitVec.ofNat 16 x).setWidth 64)
  | .i64Load32S => .i64 ((BitVec.ofNat 32 x).signExtend 64)
  | .i64Load32U => .i64 ((BitVec.ofNat 32 x).setWidth 64)

/-- The bits of a value. -/
def Val.bits : Val → Nat
  | .i32 v => v.toNat | .i64 v => v.toNat | .f32 v => v.toNat | .f64 v => v.toNat

/-- Load at an effective address (`none`: out of bounds). -/
def Mem.load (m : Mem) (op : LoadOp) (ea : Nat) : Option Val :=
  if ea + op.width ≤ m.size then some (op.decode (readLE m.bytes ea op.width)) else none

/-- Store at an effective address (`none`: out of bounds). -/
def Mem.store (m : Mem) (op : StoreOp) (ea : Nat) (v : Val) : Option Mem :=
  if ea + op.width ≤ m.size then some { m with bytes := writeLE m.bytes ea op.width v.bits } else none

/-- Grow by `n` pages (`none`: refused). New bytes are zero. -/
def Mem.grow (m : Mem) (n : Nat) : Option Mem :=
  if m.pages + n ≤ m.limit then
    some { m with pages := m.pages + n, bytes := fun i => if i < m.size then m.bytes i else 0 }
  else none

/-- Replace the `n` bytes from `d` by `f 0, f 1, ...`. -/
def Mem.setBytes (m : Mem) (d n : Nat) (f : Nat → BitVec 8) : Mem :=
  { m with bytes := fun i => if d ≤ i ∧ i < d + n then f (i - d) else m.bytes i }

/-! ## Instructions -/

variable {W : Type}

/-- Replace the `i`-th memory. -/
def Store.setMem (s : Store W) (i : Nat) (m : Mem) : Store W := { s with mems := s.mems.set i m }
/-- Replace the elements of the `i`-th table. -/
def Store.setTable (s : Store W) (i : Nat) (es : List (Option Nat)) : Store W :=
  { s with tables := s.tables.modify i fun t => { t with elems := es } }

/-- `l` with the elements from position `d` replaced by those of `r`. -/
def splice {α : Type} (l : List α) (d : Nat) (r : List α) : List α := l.take d ++ r ++ l.drop (d + r.length)

/-- Call function `f` of type `ty` with the operands on the stack. -/
def doCall (E : Env W) (f : Nat) (ty : FuncType) (c : Cfg W) : Out W :=
  if (c.stack.take ty.inputs.length).reverse.map RVal.type = ty.inputs then
    match E.callF f (c.stack.take ty.inputs.length).reverse c.store with
    | .ok vs s =>
      if vs.map RVal.type = ty.results then
        .norm { c with stack := vs.reverse ++ c.stack.drop ty.inputs.length, store := s }
      else .stuck
    | .trap s => .trap s
    | .stuck => .stuck
    | .fuel => .fuel
  else .stuck

/-- The label a `br_table` takes for an index. -/
def tableLabel (ls : List Nat) (d : Nat) (i : BitVec 32) : Nat := ls.getD i.toNat d

/-- Non-structured instructions. -/
def step (E : Env W) (b : Basic) (c : Cfg W) : Out W :=
  match b with
  | .unreachable => .trap c.store
  | .nop => .norm c
  | .br l => .br l c
  | .brIf l => match c.stack with
    | .num (.i32 x) :: st => if x = 0 then .norm { c with stack := st } else .br l { c with stack := st }
    | _ => .stuck
  | .brTable ls d => match c.stack with
    | .num (.i32 x) :: st => .br (tableLabel ls d x) { c with stack := st }
    | _ => .stuck
  | .ret => .ret c
  | .call f => match E.ftype f with
    | some ty => doCall E f ty c
    | none => .stuck
  | .callIndirect ty tbl => match c.stack with
    | .num (.i32 x) :: st => match c.store.tables[tbl]? with
      | some t => match t.elems[x.toNat]? with
        | some (some f) => if E.ftype f = some ty then doCall E f ty { c with stack := st } else .trap c.store
        | _ => .trap c.store
      | none => .stuck
    | _ => .stuck
  | .refNull r => .norm { c with stack := .ref r none :: c.stack }
  | .refIsNull => match c.stack with
    | .ref _ a :: st => .norm { c with stack := .num (.i32 (if a = none then 1 else 0)) :: st }
    | _ => .stuck
  | .refFunc f => .norm { c with stack := .ref .funcRef (some f) :: c.stack }
  | .drop => match c.stack with
    | _ :: st => .norm { c with stack := st }
    | _ => .stuck
  | .select | .typedSelect _ => match c.stack with
    | .num (.i32 x) :: v2 :: v1 :: st => .norm { c with stack := (if x = 0 then v2 else v1) :: st }
    | _ => .stuck
  | .loc .get i => match c.locals[i]? with
    | some v => .norm { c with stack := v :: c.stack }
    | none => .stuck
  | .loc .set i => match c.stack with
    | v :: st => if i < c.locals.length then .norm { c with stack := st, locals := c.locals.set i v } else .stuck
    | _ => .stuck
  | .loc .tee i => match c.stack with
    | v :: _ => if i < c.locals.length then .norm { c with locals := c.locals.set i v } else .stuck
    | _ => .stuck
  | .glob .get i => match c.store.globals[i]? with
    | some v => .norm { c with stack := v :: c.stack }
    | none => .stuck
  | .glob .set i => match c.stack with
    | v :: st =>
      if i < c.store.globals.length then
        .norm { c with stack := st, store := { c.store with globals := c.store.globals.set i v } }
      else .stuck
    | _ => .stuck
  | .tableGet i => match c.stack with
    | .num (.i32 x) :: st => match c.store.tables[i]? with
      | some t => match t.elems[x.toNat]? with
        | some a => .norm { c with stack := .ref t.ref a :: st }
        | none => .trap c.store
      | none => .stuck
    | _ => .stuck
  | .tableSet i => match c.stack with
    | .ref _ a :: .num (.i32 x) :: st => match c.store.tables[i]? with
      | some t =>
        if x.toNat < t.elems.length then
          .norm { c with stack := st, store := c.store.setTable i (t.elems.set x.toNat a) }
        else .trap c.store
      | none => .stuck
    | _ => .stuck
  | .tableSize i => match c.store.tables[i]? with
    | some t => .norm { c with stack := .i32 (BitVec.ofNat 32 t.elems.length) :: c.stack }
    | none => .stuck
  | .tableGrow i => match c.stack with
    | .num (.i32 n) :: .ref _ a :: st => match c.store.tables[i]? with
      | some t =>
        if t.elems.length + n.toNat ≤ t.limit then
          .norm { c with stack := .i32 (BitVec.ofNat 32 t.elems.length) :: st,
                         store := c.store.setTable i (t.elems ++ List.replicate n.toNat a) }
        else .norm { c with stack := .i32 (-1) :: st }
      | none => .stuck
    | _ => .stuck
  | .tableFill i => match c.stack with
    | .num (.i32 n) :: .ref _ a :: .num (.i32 d) :: st => match c.store.tables[i]? with
      | some t =>
        if d.toNat + n.toNat ≤ t.elems.length then
          .norm { c with stack := st,
                         store := c.store.setTable i (splice t.elems d.toNat (List.replicate n.toNat a)) }
        else .trap c.store
      | none => .stuck
    | _ => .stuck
  | .tableCopy i j => match c.stack with
    | .num (.i32 n) :: .num (.i32 s) :: .num (.i32 d) :: st => match c.store.tables[i]?, c.store.tables[j]? with
      | some t, some u =>
        if d.toNat + n.toNat ≤ t.elems.length ∧ s.toNat + n.toNat ≤ u.elems.length then
          .norm { c with stack := st,
                         store := c.store.setTable i (splice t.elems d.toNat ((u.elems.drop s.toNat).take n.toNat)) }
        else .trap c.store
      | _, _ => .stuck
    | _ => .stuck
  | .tableInit i e => match c.stack with
    | .num (.i32 n) :: .num (.i32 s) :: .num (.i32 d) :: st => match c.store.tables[i]?, c.store.elems[e]? with
      | some t, some u =>
        if d.toNat + n.toNat ≤ t.elems.length ∧ s.toNat + n.toNat ≤ u.2.length then
          .norm { c with stack := st,
                         store := c.store.setTable i (splice t.elems d.toNat ((u.2.drop s.toNat).take n.toNat)) }
        else .trap c.store
      | _, _ => .stuck
    | _ => .stuck
  | .elemDrop e =>
    .norm { c with store := { c.store with elems := c.store.elems.modify e fun u => (u.1, []) } }
  | .load op ma => match c.stack with
    | .num (.i32 a) :: st => match c.store.mems[0]? with
      | some m => match m.load op (a.toNat + ma.offset.toNat) with
        | some v => .norm { c with stack := .num v :: st }
        | none => .trap c.store
      | none => .stuck
    | _ => .stuck
  | .store op ma => match c.stack with
    | .num v :: .num (.i32 a) :: st =>
      if v.type = op.ty then
        match c.store.mems[0]? with
        | some m => match m.store op (a.toNat + ma.offset.toNat) v with
          | some m' => .norm { c with stack := st, store := c.store.setMem 0 m' }
          | none => .trap c.store
        | none => .stuck
      else .stuck
    | _ => .stuck
  | .memorySize i => match c.store.mems[i]? with
    | some m => .norm { c with stack := .i32 (BitVec.ofNat 32 m.pages) :: c.stack }
    | none => .stuck
  | .memoryGrow i => match c.stack with
    | .num (.i32 n) :: st => match c.store.mems[i]? with
      | some m => match m.grow n.toNat with
        | some m' => .norm { c with stack := .i32 (BitVec.ofNat 32 m.pages) :: st, store := c.store.setMem i m' }
        | none => .norm { c with stack := .i32 (-1) :: st }
      | none => .stuck
    | _ => .stuck
  | .memoryFill => match c.stack with
    | .num (.i32 n) :: .num (.i32 v) :: .num (.i32 d) :: st => match c.store.mems[0]? with
      | some m =>
        if d.toNat + n.toNat ≤ m.size then
          .norm { c with stack := st, store := c.store.setMem 0 (m.setBytes d.toNat n.toNat fun _ => v.setWidth 8) }
        else .trap c.store
      | none => .stuck
    | _ => .stuck
  | .memoryCopy => match c.stack with
    | .num (.i32 n) :: .num (.i32 s) :: .num (.i32 d) :: st => match c.store.mems[0]? with
      | some m =>
        if d.toNat + n.toNat ≤ m.size ∧ s.toNat + n.toNat ≤ m.size then
          .norm { c with stack := st,
                         store := c.store.setMem 0 (m.setBytes d.toNat n.toNat fun i => m.bytes (s.toNat + i)) }
        else .trap c.store
      | none => .stuck
    | _ => .stuck
  | .memoryInit x => match c.stack with
    | .num (.i32 n) :: .num (.i32 s) :: .num (.i32 d) :: st => match c.store.mems[0]?, c.store.datas[x]? with
      | some m, some u =>
        if d.toNat + n.toNat ≤ m.size ∧ s.toNat + n.toNat ≤ u.length then
          .norm { c with stack := st,
                         store := c.store.setMem 0 (m.setBytes d.toNat n.toNat fun i => u.getD (s.toNat + i) 0) }
        else .trap c.store
      | _, _ => .stuck
    | _ => .stuck
  | .dataDrop x => .norm { c with store := { c.store with datas := c.store.datas.modify x fun _ => [] } }
  | .const v => .norm { c with stack := .num v :: c.stack }
  | .unary op => match c.stack with
    | .num v :: st =>
      if v.type = op.sig.1 then
        match E.num.unary op v with
        | some w => .norm { c with stack := .num w :: st }
        | none => .trap c.store
      else .stuck
    | _ => .stuck
  | .binary op => match c.stack with
    | .num v2 :: .num v1 :: st =>
      if v1.type = op.sig.1 ∧ v2.type = op.sig.1 then
        match E.num.binary op v1 v2 with
        | some w => .norm { c with stack := .num w :: st }
        | none => .trap c.store
      else .stuck
    | _ => .stuck

/-- Run code as the body of a `block` (or arm of an `if`) of type `t`: only the parameters are visible
inside, and a branch to the label delivers the results. -/
def inBlock (t : FuncType) (body : Cfg W → Out W) (c : Cfg W) : Out W :=
  if t.inputs.length ≤ c.stack.length then
    let rest := c.stack.drop t.inputs.length
    match body { c with stack := c.stack.take t.inputs.length } with
    | .norm c' => .norm { c' with stack := c'.stack ++ rest }
    | .br 0 c' =>
      if t.results.length ≤ c'.stack.length then .norm { c' with stack := c'.stack.take t.results.length ++ rest }
      else .stuck
    | .br (l + 1) c' => .br l c'
    | o => o
  else .stuck

/-- Run code repeatedly as the body of a `loop`: a branch to the label starts the next iteration. -/
def iterate (t : FuncType) (body : Cfg W → Out W) : Nat → Cfg W → Out W
  | 0, _ => .fuel
  | k + 1, c => match body c with
    | .br 0 c' =>
      if t.inputs.length ≤ c'.stack.length then
        iterate t body k { c' with stack := c'.stack.take t.inputs.length }
      else .stuck
    | .br (l + 1) c' => .br l c'
    | o => o

/-- Run code as a `loop` of type `t`. -/
def inLoop (t : FuncType) (body : Cfg W → Out W) (fuel : Nat) (c : Cfg W) : Out W :=
  if t.inputs.length ≤ c.stack.length then
    let rest := c.stack.drop t.inputs.length
    match iterate t body fuel { c with stack := c.stack.take t.inputs.length } with
    | .norm c' => .norm { c' with stack := c'.stack ++ rest }
    | o => o
  else .stuck

/-- Pop the condition of an `if` and run one of two alternatives. -/
def branchOn (thn els : Cfg W → Out W) (c : Cfg W) : Out W :=
  match c.stack with
  | .num (.i32 x) :: st => if x = 0 then els { c with stack := st } else thn { c with stack := st }
  | _ => .stuck

mutual
/-- What a nested instruction does. -/
def denI (E : Env W) : HI → Cfg W → Out W
  | .basic b, c => step E b c
  | .block t body, c => inBlock t (denL E body) c
  | .loop t body, c => inLoop t (denL E body) E.loopFuel c
  | .ifThen t thn, c => branchOn (inBlock t (denL E thn)) (inBlock t .norm) c
  | .ifElse t thn els, c => branchOn (inBlock t (denL E thn)) (inBlock t (denL E els)) c
/-- What a body does. -/
def denL (E : Env W) : List HI → Cfg W → Out W
  | [], c => .norm c
  | i :: l, c => (denI E i c).bind (denL E l)
end

/-- What flat code does: the meaning of its nested form (the two correspond one to one, C01 and C02). -/
def denFlat (E : Env W) (code : List LInstr) (c : Cfg W) : Out W :=
  match raise code with
  | .ok body => denL E body c
  | .error _ => .stuck

/-! ## Functions and modules -/

/-- Run a function body (given by its meaning) on arguments. -/
def runBody (ty : FuncType) (locals : List ValType) (body : Cfg W → Out W) (args : List RVal) (s : Store W) : Res W :=
  match body ⟨[], args ++ locals.map ValType.zero, s⟩ with
  | .norm c => if c.stack.length = ty.results.length then .ok c.stack.reverse c.store else .stuck
  | .ret c | .br 0 c =>
    if ty.results.length ≤ c.stack.length then .ok (c.stack.take ty.results.length).reverse c.store else .stuck
  | .br (_ + 1) _ => .stuck
  | .trap s => .trap s
  | .stuck => .stuck
  | .fuel => .fuel

/-- An imported function: any state transformer; its first argument lets it call functions by index. -/
abbrev Host (W : Type) := (Nat → List RVal → Store W → Res W) → List RVal → Store W → Res W

/-- How a function is implemented: by the embedder, or by a body (given by its meaning). -/
inductive Impl (W : Type) where
  | host (h : Host W)
  | code (locals : List ValType) (body : Env W → Cfg W → Out W)

/-- A linked module: the functions by index. -/
abbrev Machine (W : Type) := Nat → Option (FuncType × Impl W)

/-- Calling function `f`, with at most `d` nested calls and `L` iterations of any one loop. -/
def callF (N : Num) (M : Machine W) (L : Nat) : Nat → Nat → List RVal → Store W → Res W
  | 0, _, _, _ => .fuel
  | d + 1, f, args, s => match M f with
    | none => .stuck
    | some (_, .host h) => h (callF N M L d) args s
    | some (ty, .code locals body) =>
      runBody ty locals (body ⟨N, fun g => (M g).map (·.1), callF N M L d, L⟩) args s

/-- The environment in which bodies run when `d` nested calls are left. -/
def envAt (N : Num) (M : Machine W) (L d : Nat) : Env W := ⟨N, fun g => (M g).map (·.1), callF N M L d, L⟩

end Wastrum
