import Verif.Watch
import Verif.Watchers
/-!
# The shipped analyses that record memory accesses
-/

namespace Wastrum

/-! ## `memory-tracing`

`/repo/wastrumentation-instr-lib/tests/analyses/rust/memory-tracing/src/lib.rs`. The crate `circular_buffer` (source not in the repository) is trusted to be a queue that drops
its oldest element when an element is added at capacity, and to panic when indexed out of bounds. -/

/-- `struct Access` and `enum AccessKind`: `memory-tracing/src/lib.rs` 6-18. -/
structure Access where
  functIndex : BitVec 32
  instrIndex : BitVec 32
  address : BitVec 64
  write : Bool
deriving DecidableEq, Repr
/-- `CIRCULAR_BUFFER_CAPACITY`: `memory-tracing/src/lib.rs` 20. -/
def traceCapacity : Nat := 1000000
/-- `ACCESSES` and `ACCESSES_COUNT`: `memory-tracing/src/lib.rs` 21-22. -/
structure MemTrace where
  accesses : List Access
  count : BitVec 64
deriving DecidableEq, Repr
/-- The initial values: `memory-tracing/src/lib.rs` 21-22. -/
def MemTrace.init : MemTrace := ⟨[], 0⟩
/-- `CircularBuffer::push_back` (see above). -/
def pushBack {α} (cap : Nat) (l : List α) (x : α) : List α := if l.length < cap then l ++ [x] else l.drop 1 ++ [x]
/-- `add_access`: `memory-tracing/src/lib.rs` 24-35. -/
def MemTrace.add (t : MemTrace) (a : Access) : MemTrace := ⟨pushBack traceCapacity t.accesses a, t.count + 1⟩
/-- `u32::try_from` of an `i64`. -/
def i64ToU32 (x : BitVec 64) : Option (BitVec 32) := if 0 ≤ x.toInt ∧ x.toInt < 2 ^ 32 then some (x.setWidth 32) else none
/-- The part of the advice after `perform`: `memory-tracing/src/lib.rs` 82-89 and 96-103; `none` is a panic of `unwrap`. -/
def MemTrace.record (t : MemTrace) (index : BitVec 32) (offset : BitVec 64) (write : Bool) (l : Location) : Option MemTrace :=
  (i64ToU32 l.functionIndex).bind fun f => (i64ToU32 l.instructionIndex).bind fun i => some (t.add ⟨f, i, index.signExtend 64 + offset, write⟩)
/-- The advice `store` and `load`: `memory-tracing/src/lib.rs` 77-107, which record after performing. -/
def memoryTracing : Watcher MemTrace where
  before _ t := some t
  after a t := match a with
    | .store i _ o _ l => t.record i o true l
    | .load i o _ l => t.record i o false l
    | _ => some t
/-- `get_nth_access`: `memory-tracing/src/lib.rs` 37-41; `none` is a panic. -/
def MemTrace.nth (t : MemTrace) (index : BitVec 32) : Option Access := if index.toInt < 0 then none else t.accesses[index.toNat]?
/-- `total_accesses`: `memory-tracing/src/lib.rs` 43-46. -/
def MemTrace.totalAccesses (t : MemTrace) : BitVec 64 := t.count
/-- `get_total_accesses_from_buffer`: `memory-tracing/src/lib.rs` 48-52; `none` is a panic. -/
def MemTrace.totalFromBuffer (t : MemTrace) : Option (BitVec 32) := if t.accesses.length < 2 ^ 31 then some (BitVec.ofNat 32 t.accesses.length) else none
/-- `get_nth_funct_index`: `memory-tracing/src/lib.rs` 54-57. -/
def MemTrace.nthFunctIndex (t : MemTrace) (index : BitVec 32) : Option (BitVec 64) := (t.nth index).map fun a => a.functIndex.setWidth 64
/-- `get_nth_instr_index`: `memory-tracing/src/lib.rs` 59-62. -/
def MemTrace.nthInstrIndex (t : MemTrace) (index : BitVec 32) : Option (BitVec 64) := (t.nth index).map fun a => a.instrIndex.setWidth 64
/-- `get_nth_address`: `memory-tracing/src/lib.rs` 64-67. -/
def MemTrace.nthAddress (t : MemTrace) (index : BitVec 32) : Option (BitVec 64) := (t.nth index).map (·.address)
/-- `get_nth_operation`: `memory-tracing/src/lib.rs` 69-75. -/
def MemTrace.nthOperation (t : MemTrace) (index : BitVec 32) : Option (BitVec 32) := (t.nth index).map fun a => if a.write then 1 else 0

/-! ## `memstats`

`/repo/benchmarking-node/input-analyses/rust/memstats/src/lib.rs`. `usize` has 32 bits. How large a vector can be allocated depends on the allocator; `cap` is the largest number of
elements for which `resize_with` succeeds. That it is a fixed number is a simplification. (A vector of more than `isize::MAX` bytes is refused, so `cap` is below `2 ^ 28`.) -/

/-- `READS` and `WRITES`: `memstats/src/lib.rs` 6-8. -/
structure MemStats where
  reads : List (BitVec 64)
  writes : List (BitVec 64)
deriving DecidableEq, Repr
/-- Both start empty: `memstats/src/lib.rs` 7-8. -/
def MemStats.init : MemStats := ⟨[], []⟩
/-- `Vec::resize_with(n, || 0)`; `none` is a panic or abort for want of memory. -/
def resizeWith (cap : Nat) (buffer : List (BitVec 64)) (n : Nat) : Option (List (BitVec 64)) :=
  if n ≤ buffer.length then some (buffer.take n) else if n ≤ cap then some (buffer ++ List.replicate (n - buffer.length) 0) else none
/-- `buffer[byte] += 1` for `n` bytes from `address + i` on: the loop of `increase_at`, `memstats/src/lib.rs` 15-18. -/
def bump (address : BitVec 32) : Nat → Nat → List (BitVec 64) → Option (List (BitVec 64))
  | _, 0, buffer => some buffer
  | i, n + 1, buffer =>
    let byte := (address + BitVec.ofNat 32 i).toNat
    if byte < buffer.length then bump address (i + 1) n (buffer.modify byte (· + 1)) else none
/-- `increase_at`: `memstats/src/lib.rs` 11-19. -/
def increaseAt (cap : Nat) (buffer : List (BitVec 64)) (address : BitVec 32) (targetSize : Nat) : Option (List (BitVec 64)) :=
  let fit := (address + BitVec.ofNat 32 targetSize).toNat
  (if buffer.length ≤ fit then resizeWith cap buffer fit else some buffer).bind (bump address 0 targetSize)
/-- `size`: `memstats/src/lib.rs` 36-41. -/
def memstatsLoadSize : LoadOp → Nat
  | .i32Load8S | .i32Load8U | .i64Load8S | .i64Load8U => 1
  | .i32Load16S | .i32Load16U | .i64Load16S | .i64Load16U => 2
  | .i32Load | .f32Load | .i64Load32S | .i64Load32U => 4
  | .i64Load | .f64Load => 8
/-- `touched_bytes`: `memstats/src/lib.rs` 48-53. -/
def memstatsStoreSize : StoreOp → Nat
  | .i32Store8 | .i64Store8 => 1
  | .i32Store16 | .i64Store16 => 2
  | .f32Store | .i32Store | .i64Store32 => 4
  | .i64Store | .f64Store => 8
/-- `(i.value() as i64 + o.value()) as usize`: `memstats/src/lib.rs` 42 and 54. -/
def memstatsAddress (i : BitVec 32) (o : BitVec 64) : BitVec 32 := (i.signExtend 64 + o).setWidth 32
/-- The advice: `memstats/src/lib.rs` 33-57. -/
def memstats (cap : Nat) : Watcher MemStats where
  before a c := match a with
    | .load i o op _ => (increaseAt cap c.reads (memstatsAddress i o) (memstatsLoadSize op)).map fun b => { c with reads := b }
    | .store i _ o op _ => (increaseAt cap c.writes (memstatsAddress i o) (memstatsStoreSize op)).map fun b => { c with writes := b }
    | _ => some c
  after _ c := some c
/-- `get_read_at`: `memstats/src/lib.rs` 21-25; `none` is a panic. -/
def MemStats.getReadAt (c : MemStats) (memIdx : BitVec 32) : Option (BitVec 32) := c.reads[memIdx.toNat]?.map fun x => x.setWidth 32
/-- `get_write_at`: `memstats/src/lib.rs` 27-31; `none` is a panic. -/
def MemStats.getWriteAt (c : MemStats) (memIdx : BitVec 32) : Option (BitVec 32) := c.writes[memIdx.toNat]?.map fun x => x.setWidth 32

end Wastrum
