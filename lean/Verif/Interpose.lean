import Verif.Expand
import Verif.Semantics
/-!
# Execution with the analysis interposed (specification)

What a user of the platform expects to happen when a program runs under an analysis, stated on the
*original* program: `hdenL E σ body`. At every hooked instruction the analysis is asked, and its answer
takes the place of the operands it was shown.
-/

namespace Wastrum

variable {W : Type}

/-- `i32` value of an index. -/
def nI32 (n : Nat) : RVal := .i32 (BitVec.ofNat 32 n)
/-- `i64` value of an index. -/
def nI64 (n : Nat) : RVal := .i64 (BitVec.ofNat 64 n)

/-- Ask the analysis through hook `t` (nothing happens if the hook is not selected): it is given the top
`k` operands (deepest first), the extra information `info`, and the location of the instruction. What it
returns replaces the `k` operands. It may change the store or trap. (Asking with arguments of other than
the declared types, or getting such results, is excluded by validity of the program and the analysis.) -/
def ask (E : Env W) (σ : Sel) (m : Meta) (t : Trap) (k : Nat) (info : List RVal) (c : Cfg W) : Out W :=
  match σ t with
  | none => .norm c
  | some h =>
    let args := (c.stack.take k).reverse ++ info ++ [nI64 m.fidx, nI64 m.iidx]
    if args.map RVal.type = t.args then
      match E.callF h args c.store with
      | .ok vs s =>
        if vs.map RVal.type = t.results then .norm { c with stack := vs.reverse ++ c.stack.drop k, store := s } else .stuck
      | .trap s => .trap s
      | .stuck => .stuck
      | .fuel => .fuel
    else .stuck

/-- Ask through a hook if the instruction has one. -/
def askO (E : Env W) (σ : Sel) (m : Meta) (t : Option Trap) (k : Nat) (info : List RVal) (c : Cfg W) : Out W :=
  match t with
  | none => .norm c
  | some t => ask E σ m t k info c

/-- What the analysis is asked before an instruction is executed: branch conditions and table indices, selectors and
values about to be written (one operand, which it may replace), and notifications (no operand). -/
def askBefore (E : Env W) (σ : Sel) (m : Meta) (b : Basic) (c : Cfg W) : Out W :=
  match b with
  | .br l => ask E σ m .brTrap 0 [nI64 l] c
  | .brIf l => ask E σ m .brIfTrap 1 [nI32 l] c
  | .brTable ls d => match c.stack with
    | .num (.i32 x) :: _ => ask E σ m .brTableTrap 1 [nI32 (tableLabel ls d x), nI32 d] c
    | _ => .stuck
  | .call f => ask E σ m .preTrapCall 0 [nI32 f] c
  | .callIndirect _ tbl => ask E σ m .preTrapCallIndirect 1 [nI32 tbl] c
  | .ret => ask E σ m .returnTrap 0 [] c
  | .drop => ask E σ m .dropTrap 0 [] c
  | .select => ask E σ m .select 1 [] c
  | .typedSelect _ => ask E σ m .select 1 [] c
  | .loc .set i => askO E σ m (m.ty.writes.bind (localTrap .set)) 1 [nI64 i] c
  | .loc .tee i => askO E σ m (m.ty.tees.bind (localTrap .tee)) 1 [nI64 i] c
  | .glob .set i => askO E σ m (m.ty.writes.bind (globalTrap .set)) 1 [nI64 i] c
  | _ => .norm c

/-- What the analysis is asked after an instruction completed: values produced (which it may replace), and
notifications. -/
def askAfter (E : Env W) (σ : Sel) (m : Meta) (b : Basic) (c : Cfg W) : Out W :=
  match b with
  | .call f => ask E σ m .postTrapCall 0 [nI32 f] c
  | .callIndirect _ tbl => ask E σ m .postTrapCallIndirect 0 [nI32 tbl] c
  | .const v => askO E σ m (constTrap v.type) 1 [] c
  | .memorySize i => ask E σ m .memorySize 1 [nI64 i] c
  | .loc .get i => askO E σ m (m.ty.reads.bind (localTrap .get)) 1 [nI64 i] c
  | .glob .get i => askO E σ m (m.ty.reads.bind (globalTrap .get)) 1 [nI64 i] c
  | _ => .norm c

/-- The operations the analysis performs itself when the corresponding hook is selected: its answer is the result. -/
def perform (E : Env W) (σ : Sel) (m : Meta) (b : Basic) (c : Cfg W) : Out W :=
  let instead (t : Option Trap) (k : Nat) (info : List RVal) : Out W :=
    match t with
    | none => step E b c
    | some t => if (σ t).isSome then ask E σ m t k info c else step E b c
  match b with
  | .unary op => instead (unaryTrap op.sig) 1 [.i32 op.serialize]
  | .binary op => instead (binaryTrap op.sig) 2 [.i32 op.serialize]
  | .load op ma => instead (loadTrap op.ty) 1 [.i64 (ma.offset.setWidth 64), .i32 op.serialize]
  | .store op ma => instead (storeTrap op.ty) 2 [.i64 (ma.offset.setWidth 64), .i32 op.serialize]
  | .memoryGrow i => instead (some .memoryGrow) 1 [nI64 i]
  | _ => step E b c

/-- Number of parameters and results of a block, as told to the analysis. -/
def arityInfo (t : FuncType) : List RVal := [nI32 t.inputs.length, nI32 t.results.length]

mutual
/-- Execution of an instruction of the program under the analysis. -/
def hdenI (E : Env W) (σ : Sel) : TI → Cfg W → Out W
  | .basic m b, c => (askBefore E σ m b c).bind fun c => (perform E σ m b c).bind (askAfter E σ m b)
  | .block m t body, c =>
    inBlock t (fun c => (ask E σ m .preBlock 0 (arityInfo t) c).bind fun c =>
      (hdenL E σ body c).bind (ask E σ m .postBlock 0 [])) c
  | .loop m t body, c =>
    inLoop t (fun c => (ask E σ m .preLoop 0 (arityInfo t) c).bind fun c =>
      (hdenL E σ body c).bind (ask E σ m .postLoop 0 [])) E.loopFuel c
  | .ifThen m t thn, c =>
    (ask E σ m .ifThenTrap 1 (arityInfo t) c).bind
      (branchOn (inBlock t fun c => (hdenL E σ thn c).bind (ask E σ m .ifThenPostTrap 0 []))
        (inBlock t (ask E σ m .ifThenPostTrap 0 [])))
  | .ifElse m t thn els, c =>
    (ask E σ m .ifThenElseTrap 1 (arityInfo t) c).bind
      (branchOn (inBlock t fun c => (hdenL E σ thn c).bind (ask E σ m .ifThenElsePostTrap 0 []))
        (inBlock t fun c => (hdenL E σ els c).bind (ask E σ m .ifThenElsePostTrap 0 [])))
/-- Execution of a body of the program under the analysis. -/
def hdenL (E : Env W) (σ : Sel) : List TI → Cfg W → Out W
  | [], c => .norm c
  | i :: l, c => (hdenI E σ i c).bind (hdenL E σ l)
end

/-- The hooks are functions of their declared types. -/
def HooksInstalled (E : Env W) (σ : Sel) : Prop := ∀ t k, σ t = some k → E.ftype k = some ⟨t.args, t.results⟩

/-- The functions from index `n` on are the branch-table helpers for `tables`: of type `[i32] → [i32, i32]`,
returning the index and the label taken. (Or the call depth is exhausted and nothing can be called.) -/
def HelpersInstalled (E : Env W) (n : Nat) (tables : List (List Nat × Nat)) : Prop :=
  ∀ j p, tables[j]? = some p → E.ftype (n + j) = some ⟨[.i32], [.i32, .i32]⟩ ∧
    ((∀ x s, E.callF (n + j) [.i32 x] s = .ok [.i32 x, nI32 (tableLabel p.1 p.2 x)] s) ∨
      ∀ f args s, E.callF f args s = .fuel)

end Wastrum
