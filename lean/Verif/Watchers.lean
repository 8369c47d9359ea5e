import Verif.Stdlib
/-!
# Analyses that ship with the tool

Models of analyses in `/repo/benchmarking-node/input-analyses/rust/*/src/lib.rs`, each as the state it keeps, the update of that state by one
event (the part of the advice besides forwarding, see `Watch.lean`), and the functions it exports for reading the state. All are
built in release mode, where `+= 1` wraps (`supported-languages/rust/src/compile/compiler.rs` 16-23). `HashMap`, `HashSet` and `Vec` of
the standard library are trusted to be maps, sets and vectors; a map is the list of its entries. Allocation is taken to succeed
except where stated.
-/

namespace Wastrum

/-! ## Maps -/

/-- `std::collections::HashMap`: its entries, at most one per key. -/
abbrev HMap (K V : Type) := List (K × V)

/-- `HashMap::get`. -/
def HMap.get {K V} [DecidableEq K] (m : HMap K V) (k : K) : Option V := m.lookup k

/-- `HashMap::insert`. -/
def HMap.insert {K V} [DecidableEq K] (m : HMap K V) (k : K) (v : V) : HMap K V :=
  if (m.get k).isSome then m.map fun e => if e.1 = k then (k, v) else e else m ++ [(k, v)]

/-- `map.entry(k).and_modify(f).or_insert(v)`. -/
def HMap.modifyOrInsert {K V} [DecidableEq K] (m : HMap K V) (k : K) (f : V → V) (v : V) : HMap K V :=
  match m.get k with
  | some x => m.insert k (f x)
  | none => m.insert k v

/-- `HashSet::insert`. -/
def hashSetInsert {K} [DecidableEq K] (m : List K) (k : K) : List K := if k ∈ m then m else m ++ [k]

/-! ## Kinds of events -/

/-- `enum InstructionIndex`: `opcodes/src/lib.rs` 23-51; `enum Instruction`: `icount/src/lib.rs` 51-79. -/
inductive InstrKind where
  | If | IfPost | IfThen | IfThenPost | Br | BrIf | BrIfTable | Select | CallPre | CallPost | CallIndirectPre | CallIndirectPost
  | Unary | Binary | Drop | Return | Const | Local | Global | Load | Store | MemorySize | MemoryGrow | BlockPre | BlockPost | LoopPre | LoopPost
  deriving DecidableEq, Repr

/-- `as usize`: the position in the enumeration. -/
def InstrKind.index : InstrKind → Nat
  | .If => 0 | .IfPost => 1 | .IfThen => 2 | .IfThenPost => 3 | .Br => 4 | .BrIf => 5 | .BrIfTable => 6 | .Select => 7 | .CallPre => 8 | .CallPost => 9
  | .CallIndirectPre => 10 | .CallIndirectPost => 11 | .Unary => 12 | .Binary => 13 | .Drop => 14 | .Return => 15 | .Const => 16 | .Local => 17
  | .Global => 18 | .Load => 19 | .Store => 20 | .MemorySize => 21 | .MemoryGrow => 22 | .BlockPre => 23 | .BlockPost => 24 | .LoopPre => 25 | .LoopPost => 26

/-- `InstructionIndex::COUNT` and `Instruction::SIZE`. -/
def InstrKind.count : Nat := 27

/-- The kind each advice counts under: `opcodes/src/lib.rs` 54-80, `icount/src/lib.rs` 82-108. -/
def Advice.kind : Advice → InstrKind
  | .ifThenElse .. => .If
  | .ifThenElsePost _ => .IfPost
  | .ifThen .. => .IfThen
  | .ifThenPost _ => .IfThenPost
  | .br _ _ => .Br
  | .brIf _ _ _ => .BrIf
  | .brTable .. => .BrIfTable
  | .select _ _ => .Select
  | .callPre _ _ => .CallPre
  | .callPost _ _ => .CallPost
  | .callIndirectPre .. => .CallIndirectPre
  | .callIndirectPost _ _ => .CallIndirectPost
  | .unary .. => .Unary
  | .binary .. => .Binary
  | .drop _ => .Drop
  | .ret _ => .Return
  | .const _ _ => .Const
  | .loc .. => .Local
  | .glob .. => .Global
  | .load .. => .Load
  | .store .. => .Store
  | .memorySize .. => .MemorySize
  | .memoryGrow .. => .MemoryGrow
  | .blockPre .. => .BlockPre
  | .blockPost _ => .BlockPost
  | .loopPre .. => .LoopPre
  | .loopPost _ => .LoopPost

/-! ## `opcodes` -/

/-- `COUNTS`: `opcodes/src/lib.rs` 5. -/
abbrev OpcodeCounts := List (BitVec 32)
/-- The initial value of `COUNTS`: `opcodes/src/lib.rs` 5. -/
def OpcodeCounts.init : OpcodeCounts := List.replicate InstrKind.count 0
/-- `inc_instr`: `opcodes/src/lib.rs` 7-9, called by every advice (53-81). -/
def opcodes (a : Advice) (c : OpcodeCounts) : OpcodeCounts := c.modify a.kind.index (· + 1)
/-- `get_count_instr`: `opcodes/src/lib.rs` 16-19; `none` is a panic. -/
def OpcodeCounts.getCountInstr (c : OpcodeCounts) (index : BitVec 32) : Option (BitVec 32) := c[index.toNat]?

/-! ## `cryptominer-detection` -/

/-- `SIGNATURE`: `cryptominer-detection/src/lib.rs` 5. -/
abbrev Signature := List (BitVec 64)
/-- The initial value of `SIGNATURE`: `cryptominer-detection/src/lib.rs` 5. -/
def Signature.init : Signature := [0, 0, 0, 0, 0]
/-- `target_increment`: `cryptominer-detection/src/lib.rs` 6-10 and 20-27. -/
def signatureIndex : BinaryOp → Option Nat
  | .i32Add | .i64Add | .f32Add | .f64Add => some 0
  | .i32And | .i64And => some 1
  | .i32Shl | .i64Shl => some 2
  | .i32ShrU | .i64ShrU => some 3
  | .i32Xor | .i64Xor => some 4
  | _ => none
/-- The advice: `cryptominer-detection/src/lib.rs` 18-32. -/
def cryptominer : Advice → Signature → Signature
  | .binary op _ _ _, c => match signatureIndex op with
    | some i => c.modify i (· + 1)
    | none => c
  | _, c => c
/-- `get_signature`: `cryptominer-detection/src/lib.rs` 12-16; `none` is a panic (`try_into` of a negative number, or out of bounds). -/
def Signature.get (c : Signature) (index : BitVec 32) : Option (BitVec 64) := if index.toInt < 0 then none else c[index.toNat]?

/-! ## `coverage-instruction` -/

/-- `COVERAGE`: `coverage-instruction/src/lib.rs` 7-8. -/
abbrev InstrCoverage := HMap (BitVec 64 × BitVec 64) Bool
/-- `add_location`: `coverage-instruction/src/lib.rs` 10-17, called by every advice (26-52). -/
def coverageInstruction (a : Advice) (c : InstrCoverage) : InstrCoverage := c.insert (a.location.functionIndex, a.location.instructionIndex) true
/-- `get_coverage`: `coverage-instruction/src/lib.rs` 19-24. -/
def InstrCoverage.getCoverage (c : InstrCoverage) (functionIndex instructionIndex : BitVec 64) : BitVec 32 :=
  ((c.get (functionIndex, instructionIndex)).map fun _ => 1).getD 0

/-! ## `branches` and `coverage-branch` -/

/-- `COVERAGE`: `branches/src/lib.rs` 4-5, `coverage-branch/src/lib.rs` 7-8. -/
abbrev BranchCoverage := HMap (BitVec 64 × BitVec 64) (BitVec 32)
/-- `add_location`: `branches/src/lib.rs` 7-14, `coverage-branch/src/lib.rs` 10-17. -/
def BranchCoverage.add (c : BranchCoverage) (l : Location) (condition : BitVec 32) : BranchCoverage := c.insert (l.functionIndex, l.instructionIndex) condition
/-- `get_coverage`: `branches/src/lib.rs` 16-21, `coverage-branch/src/lib.rs` 19-24. -/
def BranchCoverage.getCoverage (c : BranchCoverage) (functionIndex instructionIndex : BitVec 64) : BitVec 32 :=
  (c.get (functionIndex, instructionIndex)).getD (-1)
/-- The advice of `branches`: `branches/src/lib.rs` 23-26. -/
def branches : Advice → BranchCoverage → BranchCoverage
  | .ifThen k _ _ l, c | .ifThenElse k _ _ l, c | .brIf k _ l, c => c.add l k
  | .brTable _ e _ l, c => c.add l e
  | _, c => c
/-- The advice of `coverage-branch`: `coverage-branch/src/lib.rs` 26-30. -/
def coverageBranch : Advice → BranchCoverage → BranchCoverage
  | .ifThen k _ _ l, c | .ifThenElse k _ _ l, c | .brIf k _ l, c | .select k l, c => c.add l k
  | .brTable _ e _ l, c => c.add l e
  | _, c => c

/-! ## `call-graph` -/

/-- `CALL_GRAPH`: `call-graph/src/lib.rs` 7-8. -/
abbrev CallGraph := List (BitVec 64 × BitVec 64)
/-- The advice and `add_edge`: `call-graph/src/lib.rs` 10-13 and 46-52. -/
def callGraph : Advice → CallGraph → CallGraph
  | .callPre t l, c => hashSetInsert c (l.functionIndex, t.signExtend 64)
  | _, c => c
/-- `get_total_edges`: `call-graph/src/lib.rs` 24-28; a panic if the number does not fit. -/
def CallGraph.getTotalEdges (c : CallGraph) : Option (BitVec 32) := if c.length < 2 ^ 31 then some (BitVec.ofNat 32 c.length) else none
/-- `get_edge_at`: `call-graph/src/lib.rs` 15-22. `ord` is the set's iteration order (unspecified, but the same as long as the set is not
changed). The outer `none` is a panic. -/
def CallGraph.getEdgeAt (ord : CallGraph → CallGraph) (c : CallGraph) (index : BitVec 32) : Option (Option (BitVec 64 × BitVec 64)) :=
  if index.toInt < 0 then none else some (ord c)[index.toNat]?
/-- `get_from_at`: `call-graph/src/lib.rs` 30-36. -/
def CallGraph.getFromAt (ord : CallGraph → CallGraph) (c : CallGraph) (index : BitVec 32) : Option (BitVec 64) := (c.getEdgeAt ord index).join.map (·.1)
/-- `get_to_at`: `call-graph/src/lib.rs` 38-44. -/
def CallGraph.getToAt (ord : CallGraph → CallGraph) (c : CallGraph) (index : BitVec 32) : Option (BitVec 64) := (c.getEdgeAt ord index).join.map (·.2)

/-! ## `loops` -/

/-- `COUNTS`: `loops/src/lib.rs` 9-11. -/
abbrev LoopCounts := HMap (BitVec 64 × BitVec 64) (BitVec 32)
/-- The advice and `inc_instr`: `loops/src/lib.rs` 13-20 and 38. -/
def loops : Advice → LoopCounts → LoopCounts
  | .loopPre _ _ l, c => c.modifyOrInsert (l.functionIndex, l.instructionIndex) (· + 1) 0
  | _, c => c
/-- `total_counted_loops`: `loops/src/lib.rs` 22-25. -/
def LoopCounts.totalCountedLoops (c : LoopCounts) : BitVec 32 := BitVec.ofNat 32 c.length
/-- `get_count_for`: `loops/src/lib.rs` 27-36. -/
def LoopCounts.getCountFor (c : LoopCounts) (f_idx i_idx : BitVec 64) : BitVec 32 := (c.get (f_idx, i_idx)).getD (-1)

/-! ## `block-profiling` -/

/-- `COVERAGE`: `block-profiling/src/lib.rs` 7-8. -/
abbrev BlockCounts := HMap (BitVec 64 × BitVec 64 × BitVec 32) (BitVec 64)
/-- `add_block_enter`: `block-profiling/src/lib.rs` 10-19. -/
def BlockCounts.add (c : BlockCounts) (l : Location) (runtimeTarget : BitVec 32) : BlockCounts :=
  c.modifyOrInsert (l.functionIndex, l.instructionIndex, runtimeTarget) (· + 1) 0
/-- `get_count`: `block-profiling/src/lib.rs` 21-26. -/
def BlockCounts.getCount (c : BlockCounts) (functionIndex instructionIndex : BitVec 64) (target : BitVec 32) : BitVec 64 :=
  (c.get (functionIndex, instructionIndex, target)).getD 0
/-- The advice: `block-profiling/src/lib.rs` 28-33. -/
def blockProfiling : Advice → BlockCounts → BlockCounts
  | .ifThenElse k _ _ l, c | .ifThen k _ _ l, c => c.add l k
  | .callPre _ l, c => c.add l 0
  | .callIndirectPre t _ l, c => c.add l t
  | .blockPre _ _ l, c => c.add l 0
  | .loopPre _ _ l, c => c.add l 0
  | _, c => c

/-! ## `globals` -/

/-- `AccessCount`: `globals/src/lib.rs` 7-10. -/
structure AccessCount where
  readCount : BitVec 32
  writeCount : BitVec 32
  deriving DecidableEq, Repr
/-- `GLOBALS`: `globals/src/lib.rs` 4-5. -/
abbrev GlobalCounts := HMap (BitVec 64) AccessCount
/-- The advice and `inc_count`: `globals/src/lib.rs` 12-25 and 43-45. -/
def globalsAnalysis : Advice → GlobalCounts → GlobalCounts
  | .glob _ index op _, c => c.modifyOrInsert index (fun x => match op with
      | .get => { x with readCount := x.readCount + 1 }
      | .set => { x with writeCount := x.writeCount + 1 }) ⟨0, 0⟩
  | _, c => c
/-- `get_inc`: `globals/src/lib.rs` 27-41. -/
def GlobalCounts.getInc (c : GlobalCounts) (globalIndex : BitVec 64) (readOrWrite : BitVec 32) : BitVec 32 :=
  ((c.get globalIndex).map fun v => if readOrWrite = 0 then v.readCount else if readOrWrite = 1 then v.writeCount else -1).getD (-2)

/-! ## `icount` -/

/-- `COUNTS`: `icount/src/lib.rs` 10-12. `EnumMap` of the crate `enum_collections` (source not in the repository) is trusted to hold one value
per variant and to iterate in the order of the variants. -/
abbrev ICounts := HMap (BitVec 64) (List (BitVec 32))
/-- `inc_instr`: `icount/src/lib.rs` 14-21, called by every advice (81-109). -/
def icount (a : Advice) (c : ICounts) : ICounts :=
  c.modifyOrInsert a.location.functionIndex (fun m => m.modify a.kind.index (· + 1)) (List.replicate InstrKind.count 0)
/-- `total_counted_fs`: `icount/src/lib.rs` 27-30. -/
def ICounts.totalCountedFs (c : ICounts) : BitVec 32 := BitVec.ofNat 32 c.length
/-- The element `iter().step_by(n).next()` yields; `step_by(0)` panics. -/
def stepByNext {α} (l : List α) (n : Nat) : Option (Option α) := if n = 0 then none else some l.head?
/-- `get_count_for`: `icount/src/lib.rs` 35-48; `none` is a panic. -/
def ICounts.getCountFor (c : ICounts) (f_idx : BitVec 64) (serializedIndex : BitVec 32) : Option (BitVec 32) :=
  match c.get f_idx with
  | some m => (stepByNext m serializedIndex.toNat).map fun x => x.getD (-1)
  | none => some (-1)

/-! ## `call-stack` (its call advice)

`/repo/wastrumentation-instr-lib/tests/analyses/rust/call-stack/src/lib.rs`. Its `apply` advice (79-109) and the counters only that advice touches
are modelled in `TellStack`. -/

/-- `NUMBER_OF_CALLS`, `MAX_CALL_DEPTH`, `CALL_STACK`: `call-stack/src/lib.rs` 37-40. -/
structure CallStack where
  numberOfCalls : BitVec 32
  maxCallDepth : BitVec 32
  callStack : BitVec 32
deriving DecidableEq
/-- All start at 0: `call-stack/src/lib.rs` 37-40. -/
def CallStack.init : CallStack := ⟨0, 0, 0⟩
/-- `i32::max`. -/
def i32Max (a b : BitVec 32) : BitVec 32 := if a.toInt ≤ b.toInt then b else a
/-- The advice `call pre` and `call post`: `call-stack/src/lib.rs` 42-77. -/
def callStack : Advice → CallStack → CallStack
  | .callPre _ _, c => ⟨c.numberOfCalls + 1, i32Max c.maxCallDepth (c.callStack + 1), c.callStack + 1⟩
  | .callPost _ _, c => { c with callStack := c.callStack - 1 }
  | _, c => c
/-- `get_number_of_calls`: `call-stack/src/lib.rs` 25-28. -/
def CallStack.getNumberOfCalls (c : CallStack) : BitVec 32 := c.numberOfCalls
/-- `get_max_call_depth`: `call-stack/src/lib.rs` 30-33. -/
def CallStack.getMaxCallDepth (c : CallStack) : BitVec 32 := c.maxCallDepth

end Wastrum
