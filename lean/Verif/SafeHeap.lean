import Verif.Stdlib
/-!
# The shipped analysis `safe-heap`

`/repo/wastrumentation-instr-lib/tests/analyses/rust/safe-heap/src/lib.rs` and the part of `wastrumentation-rs-stdlib/src/memory.rs` that only it uses.
-/

namespace Wastrum

variable {W : Type}

/-- `i64::strict_add` (`none`: panic on overflow). -/
def strictAdd (a b : BitVec 64) : Option (BitVec 64) := if -(2 ^ 63) ≤ a.toInt + b.toInt ∧ a.toInt + b.toInt < 2 ^ 63 then some (a + b) else none

/-- `StoreOperation::target_value_size`: `memory.rs` 130-152 (`size_of` of `i32`, `f32`: 4; of `i64`, `f64`: 8). -/
def StoreOp.targetValueSize : StoreOp → BitVec 64
  | .f32Store => 4
  | .f64Store => 8
  | .i32Store => 4
  | .i64Store => 8
  | .i32Store16 => 4
  | .i32Store8 => 4
  | .i64Store16 => 8
  | .i64Store32 => 8
  | .i64Store8 => 8

/-- `LoadOperation::target_value_size`: `memory.rs` 188-215. -/
def LoadOp.targetValueSize : LoadOp → BitVec 64
  | .f32Load => 4
  | .f64Load => 8
  | .i32Load => 4
  | .i64Load => 8
  | .i32Load16S => 4
  | .i32Load16U => 4
  | .i32Load8S => 4
  | .i32Load8U => 4
  | .i64Load16S => 8
  | .i64Load16U => 8
  | .i64Load32S => 8
  | .i64Load32U => 8
  | .i64Load8S => 8
  | .i64Load8U => 8

/-- `base_memory_size`: `memory.rs` 38-40. -/
def baseMemorySize (base : String → Option Nat) (call : Nat → List RVal → Store W → Res W) (index : BitVec 32) (s : Store W) : Res W :=
  callBase base call "instrumented_memory_size" [.num (.i32 index)] s

/-- `bounds_check`: `safe-heap/src/lib.rs` 14-19, with `SIZE_AS_BYTES` (12). The product of the last line cannot overflow. -/
def boundsCheck (base : String → Option Nat) (call : Nat → List RVal → Store W → Res W) (index bytes offset : BitVec 64) (s : Store W) : Res W :=
  match (strictAdd index bytes).bind (strictAdd · offset) with
  | none => .trap s
  | some last =>
    if last = 0 then .trap s
    else match baseMemorySize base call 0 s with
      | .ok [.num (.i32 n)] s1 => if last.toInt ≤ (n.signExtend 64 * 65536).toInt then .ok [] s1 else .trap s1
      | .ok _ _ => .stuck
      | o => o

/-- The condition of `alignment_check`: `safe-heap/src/lib.rs` 21-24. -/
def alignmentCheck (index size : BitVec 64) : Bool := index &&& (size - 1) == 0

/-- `safe_load`: `safe-heap/src/lib.rs` 26-33. -/
def safeLoad (base : String → Option Nat) (call : Nat → List RVal → Store W → Res W) (i : BitVec 32) (o : BitVec 64) (op : LoadOp) (s : Store W) : Res W :=
  match boundsCheck base call (i.signExtend 64) op.targetValueSize o s with
  | .ok _ s1 => if alignmentCheck (i.signExtend 64) op.targetValueSize then op.perform base call i o s1 else .trap s1
  | r => r

/-- `safe_store`: `safe-heap/src/lib.rs` 35-42. -/
def safeStore (base : String → Option Nat) (call : Nat → List RVal → Store W → Res W) (i : BitVec 32) (v : Val) (o : BitVec 64) (op : StoreOp) (s : Store W) : Res W :=
  match boundsCheck base call (i.signExtend 64) op.targetValueSize o s with
  | .ok _ s1 => if alignmentCheck (i.signExtend 64) op.targetValueSize then op.perform base call i v o s1 else .trap s1
  | r => r

/-- The advice: `safe-heap/src/lib.rs` 45-48. There is no other advice than for loads and stores, so the last case is never used. -/
def safeHeapBody (base : String → Option Nat) (a : Advice) (call : Nat → List RVal → Store W → Res W) (s : Store W) : Res W :=
  match a with
  | .load i o op _ => safeLoad base call i o op s
  | .store i v o op _ => safeStore base call i v o op s
  | _ => .trap s

end Wastrum
