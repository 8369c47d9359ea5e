import Verif.OpTypes
import Verif.Passes
/-!
# The simultaneous rewrite (specification)

What a user expects the selected hooks to do to a body, stated instruction by instruction and without
reference to passes: `expandL σ n body`. `σ` says which hooks are selected and at which function index
each of them was installed; `n` is the index the next branch-table helper function will get.
-/

namespace Wastrum

/-- A selection of hooks: the function index of the installed hook, or `none` if it is not selected. -/
abbrev Sel := Trap → Option Nat

/-- Metadata of inserted code: location of the triggering instruction, marked as inserted. -/
def insMeta (m : Meta) : Meta := ⟨m.fidx, m.iidx, .unreachable, true⟩

/-- An inserted instruction on behalf of an instruction with metadata `m`. -/
def ins (m : Meta) (b : Basic) : TI := .basic (insMeta m) b

/-- A hook call: hook-specific immediates, then function index and instruction index as `i64`, then the call. -/
def hookCall (m : Meta) (imm : List Basic) (k : Nat) : List TI :=
  (imm ++ [Basic.const (.i64 (BitVec.ofNat 64 m.fidx)), Basic.const (.i64 (BitVec.ofNat 64 m.iidx)),
    Basic.call k]).map (ins m)

/-- `i32.const n`. -/
def cI32 (n : Nat) : Basic := .const (.i32 (BitVec.ofNat 32 n))
/-- `i64.const n`. -/
def cI64 (n : Nat) : Basic := .const (.i64 (BitVec.ofNat 64 n))

/-- The hook for unary operators of the given operand and result type. -/
def unaryTrap : ValType × ValType → Option Trap
  | (.i32, .i32) => some .unaryI32ToI32
  | (.i64, .i32) => some .unaryI64ToI32
  | (.i64, .i64) => some .unaryI64ToI64
  | (.f32, .f32) => some .unaryF32ToF32
  | (.f64, .f64) => some .unaryF64ToF64
  | (.f32, .i32) => some .unaryF32ToI32
  | (.f64, .i32) => some .unaryF64ToI32
  | (.i32, .i64) => some .unaryI32ToI64
  | (.f32, .i64) => some .unaryF32ToI64
  | (.f64, .i64) => some .unaryF64ToI64
  | (.i32, .f32) => some .unaryI32ToF32
  | (.i64, .f32) => some .unaryI64ToF32
  | (.f64, .f32) => some .unaryF64ToF32
  | (.i32, .f64) => some .unaryI32ToF64
  | (.i64, .f64) => some .unaryI64ToF64
  | (.f32, .f64) => some .unaryF32ToF64
  | _ => none

/-- The hook for binary operators of the given operand and result type. -/
def binaryTrap : ValType × ValType → Option Trap
  | (.i32, .i32) => some .binaryI32I32ToI32
  | (.i64, .i32) => some .binaryI64I64ToI32
  | (.f32, .i32) => some .binaryF32F32ToI32
  | (.f64, .i32) => some .binaryF64F64ToI32
  | (.i64, .i64) => some .binaryI64I64ToI64
  | (.f32, .f32) => some .binaryF32F32ToF32
  | (.f64, .f64) => some .binaryF64F64ToF64
  | _ => none

/-- The hook for constants of a type. -/
def constTrap : ValType → Option Trap
  | .i32 => some .constI32Trap | .f32 => some .constF32Trap
  | .i64 => some .constI64Trap | .f64 => some .constF64Trap
  | .ref _ => none

/-- The hook for loads producing a type. -/
def loadTrap : ValType → Option Trap
  | .i32 => some .i32Load | .f32 => some .f32Load | .i64 => some .i64Load | .f64 => some .f64Load
  | .ref _ => none

/-- The hook for stores consuming a type. -/
def storeTrap : ValType → Option Trap
  | .i32 => some .i32Store | .f32 => some .f32Store | .i64 => some .i64Store | .f64 => some .f64Store
  | .ref _ => none

/-- The hook for accesses to a local of a type. -/
def localTrap : LocalOp → ValType → Option Trap
  | .get, .i32 => some .localGetI32 | .get, .f32 => some .localGetF32
  | .get, .i64 => some .localGetI64 | .get, .f64 => some .localGetF64
  | .set, .i32 => some .localSetI32 | .set, .f32 => some .localSetF32
  | .set, .i64 => some .localSetI64 | .set, .f64 => some .localSetF64
  | .tee, .i32 => some .localTeeI32 | .tee, .f32 => some .localTeeF32
  | .tee, .i64 => some .localTeeI64 | .tee, .f64 => some .localTeeF64
  | _, .ref _ => none

/-- The hook for accesses to a global of a type. -/
def globalTrap : GlobalOp → ValType → Option Trap
  | .get, .i32 => some .globalGetI32 | .get, .f32 => some .globalGetF32
  | .get, .i64 => some .globalGetI64 | .get, .f64 => some .globalGetF64
  | .set, .i32 => some .globalSetI32 | .set, .f32 => some .globalSetF32
  | .set, .i64 => some .globalSetI64 | .set, .f64 => some .globalSetF64
  | _, .ref _ => none

/-- The type of the value read by an access whose inferred type is `[] → [t]`. -/
def InferredTy.reads : InferredTy → Option ValType
  | .reachable ⟨[], [t]⟩ => some t
  | _ => none
/-- The type of the value written by an access whose inferred type is `[t] → []`. -/
def InferredTy.writes : InferredTy → Option ValType
  | .reachable ⟨[t], []⟩ => some t
  | _ => none
/-- The type of the value teed by an access whose inferred type is `[t] → [t]`. -/
def InferredTy.tees : InferredTy → Option ValType
  | .reachable ⟨[t], [t']⟩ => if t = t' then some t else none
  | _ => none

/-- The hook called before an instruction, with its immediates (`n`: the branch-table helper). -/
def hookBefore (n : Nat) (m : Meta) : Basic → Option (Trap × List Basic)
  | .br l => some (.brTrap, [cI64 l])
  | .brIf l => some (.brIfTrap, [cI32 l])
  | .brTable _ d => some (.brTableTrap, [.call n, cI32 d])
  | .call f => some (.preTrapCall, [cI32 f])
  | .callIndirect _ tbl => some (.preTrapCallIndirect, [cI32 tbl])
  | .ret => some (.returnTrap, [])
  | .drop => some (.dropTrap, [])
  | .select => some (.select, [])
  | .typedSelect _ => some (.select, [])
  | .loc .set i => (m.ty.writes.bind (localTrap .set)).map (·, [cI64 i])
  | .loc .tee i => (m.ty.tees.bind (localTrap .tee)).map (·, [cI64 i])
  | .glob .set i => (m.ty.writes.bind (globalTrap .set)).map (·, [cI64 i])
  | _ => none

/-- The hook called after an instruction, with its immediates. -/
def hookAfter (m : Meta) : Basic → Option (Trap × List Basic)
  | .call f => some (.postTrapCall, [cI32 f])
  | .callIndirect _ tbl => some (.postTrapCallIndirect, [cI32 tbl])
  | .const v => (constTrap v.type).map (·, [])
  | .memorySize i => some (.memorySize, [cI64 i])
  | .loc .get i => (m.ty.reads.bind (localTrap .get)).map (·, [cI64 i])
  | .glob .get i => (m.ty.reads.bind (globalTrap .get)).map (·, [cI64 i])
  | _ => none

/-- The hook called in place of an instruction, with its immediates. -/
def hookReplace : Basic → Option (Trap × List Basic)
  | .unary op => (unaryTrap op.sig).map (·, [.const (.i32 op.serialize)])
  | .binary op => (binaryTrap op.sig).map (·, [.const (.i32 op.serialize)])
  | .load op ma => (loadTrap op.ty).map (·, [.const (.i64 (ma.offset.setWidth 64)), .const (.i32 op.serialize)])
  | .store op ma => (storeTrap op.ty).map (·, [.const (.i64 (ma.offset.setWidth 64)), .const (.i32 op.serialize)])
  | .memoryGrow i => some (.memoryGrow, [cI64 i])
  | _ => none

/-- The call to a hook if it is selected, nothing otherwise. -/
def hooked (σ : Sel) (m : Meta) : Option (Trap × List Basic) → List TI
  | none => []
  | some (t, imm) => match σ t with
    | none => []
    | some k => hookCall m imm k

/-- The instruction itself, or the hook that replaces it. -/
def orReplaced (σ : Sel) (m : Meta) (b : Basic) : List TI :=
  match hookReplace b with
  | none => [.basic m b]
  | some (t, imm) => match σ t with
    | none => [.basic m b]
    | some k => hookCall m imm k

/-- The immediates of block, loop and if hooks: number of parameters and number of results. -/
def arity (t : FuncType) : List Basic := [cI32 t.inputs.length, cI32 t.results.length]

mutual
/-- The `br_table`s of the program (not inserted ones), in order. -/
def TI.tables : TI → List (List Nat × Nat)
  | .basic m (.brTable l d) => if m.flag then [] else [(l, d)]
  | .basic _ _ => []
  | .block _ _ body => TI.tablesL body
  | .loop _ _ body => TI.tablesL body
  | .ifThen _ _ thn => TI.tablesL thn
  | .ifElse _ _ thn els => TI.tablesL thn ++ TI.tablesL els
/-- The `br_table`s of a body, in order. -/
def TI.tablesL : List TI → List (List Nat × Nat)
  | [] => []
  | i :: is => i.tables ++ TI.tablesL is
end

mutual
/-- The rewrite of one instruction. Inserted code is left as it is. -/
def expandI (σ : Sel) (n : Nat) : TI → List TI
  | .basic m b =>
    if m.flag then [.basic m b] else
    hooked σ m (hookBefore n m b) ++ orReplaced σ m b ++ hooked σ m (hookAfter m b)
  | .block m t body =>
    if m.flag then [.block m t (expandL σ n body)] else
    [.block m t (hooked σ m (some (.preBlock, arity t)) ++ expandL σ n body ++
      hooked σ m (some (.postBlock, [])))]
  | .loop m t body =>
    if m.flag then [.loop m t (expandL σ n body)] else
    [.loop m t (hooked σ m (some (.preLoop, arity t)) ++ expandL σ n body ++
      hooked σ m (some (.postLoop, [])))]
  | .ifThen m t thn =>
    if m.flag then [.ifThen m t (expandL σ n thn)] else
    hooked σ m (some (.ifThenTrap, arity t)) ++
      match σ .ifThenPostTrap with
      | none => [.ifThen m t (expandL σ n thn)]
      | some k => [.ifElse (insMeta m) t (expandL σ n thn ++ hookCall m [] k) (hookCall m [] k)]
  | .ifElse m t thn els =>
    if m.flag then [.ifElse m t (expandL σ n thn) (expandL σ (n + (TI.tablesL thn).length) els)] else
    hooked σ m (some (.ifThenElseTrap, arity t)) ++
      [.ifElse m t (expandL σ n thn ++ hooked σ m (some (.ifThenElsePostTrap, [])))
        (expandL σ (n + (TI.tablesL thn).length) els ++ hooked σ m (some (.ifThenElsePostTrap, [])))]
/-- The rewrite of a body. -/
def expandL (σ : Sel) (n : Nat) : List TI → List TI
  | [] => []
  | i :: is => expandI σ n i ++ expandL σ (n + i.tables.length) is
end

mutual
/-- Every number that has to be turned into a constant fits (always true of modules that exist:
labels, indices and arities are far below `2^31`). Inserted code is exempt. -/
def TI.Fits : TI → Prop
  | .basic m b => m.flag = false → m.iidx < 2 ^ 63 ∧ match b with
    | .brIf l => l < 2 ^ 31
    | .brTable l d => (∀ x ∈ l, x < 2 ^ 31) ∧ d < 2 ^ 31
    | .call f => f < 2 ^ 31
    | .callIndirect _ tbl => tbl < 2 ^ 31
    | _ => True
  | .block m t body => (m.flag = false → m.iidx < 2 ^ 63 ∧ t.inputs.length < 2 ^ 31 ∧ t.results.length < 2 ^ 31) ∧
      TI.FitsL body
  | .loop m t body => (m.flag = false → m.iidx < 2 ^ 63 ∧ t.inputs.length < 2 ^ 31 ∧ t.results.length < 2 ^ 31) ∧
      TI.FitsL body
  | .ifThen m t thn => (m.flag = false → m.iidx < 2 ^ 63 ∧ t.inputs.length < 2 ^ 31 ∧ t.results.length < 2 ^ 31) ∧
      TI.FitsL thn
  | .ifElse m t thn els => (m.flag = false → m.iidx < 2 ^ 63 ∧ t.inputs.length < 2 ^ 31 ∧ t.results.length < 2 ^ 31) ∧
      TI.FitsL thn ∧ TI.FitsL els
/-- `Fits` for a body. -/
def TI.FitsL : List TI → Prop
  | [] => True
  | i :: is => i.Fits ∧ TI.FitsL is
end

/-- The code of the branch-table helper for given labels (no overflow checks). -/
def helperBody : List Nat → Nat → List LInstr
  | [], d => [.loc .get 0, (cI32 d).toL, .fin]
  | [l], d => [.loc .get 0, .loc .get 0, .unary .i32Eqz, .ite ⟨[], [.i32]⟩, (cI32 l).toL, .els, (cI32 d).toL, .fin, .fin]
  | ls, d => ls.map (fun _ => LInstr.block ⟨[], []⟩) ++
      [.block ⟨[], []⟩, .loc .get 0, .brTable (List.range ls.length) ls.length, .fin] ++
      ls.flatMap (fun l => [.loc .get 0, (cI32 l).toL, .ret, .fin]) ++
      [.loc .get 0, (cI32 d).toL, .fin]

/-- The helper function for a `br_table`. -/
def helperFunc (p : List Nat × Nat) : Func := ⟨⟨[.i32], [.i32, .i32]⟩, .present ⟨[.i32], helperBody p.1 p.2⟩, []⟩

/-- The functions added for a body: one helper per `br_table`, if that hook is selected. -/
def helpersFor (σ : Sel) (body : List TI) : List Func :=
  match σ .brTableTrap with
  | none => []
  | some _ => (TI.tablesL body).map helperFunc

/-- Only hook `h` is selected. -/
def Sel.single (h : Trap) (k : Nat) : Sel := fun x => if x = h then some k else none
/-- Select `h` additionally. -/
def Sel.set (σ : Sel) (h : Trap) (k : Nat) : Sel := fun x => if x = h then some k else σ x
/-- Nothing is selected. -/
def Sel.empty : Sel := fun _ => none

/-- The selection described by a list of installed hooks. -/
def Sel.ofList : List (Trap × Nat) → Sel
  | [] => .empty
  | (h, k) :: r => fun x => if x = h then some k else Sel.ofList r x

end Wastrum
