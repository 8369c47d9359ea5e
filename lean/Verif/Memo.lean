import Verif.ResumeThms
import Verif.PurityThms
import Verif.Steady
/-!
# The memoization analysis

Model of `/repo/wastrumentation-instr-lib/tests/analyses/rust/pure-functions-memoization/src/lib.rs`, the analysis the purity analysis exists for:
`/repo/wastrumentation-instr-lib/tests/memoization_analysis.rs` asks `immutable_functions_from_binary` for the pure functions of a program, selects some of
them as targets, and instruments the program with this analysis (whose only advice is the generic `apply`).
-/

set_option linter.unusedSimpArgs false
set_option linter.unusedVariables false

namespace Wastrum

variable {W A : Type}

/-- `to_bit_pattern`: `lib.rs` 28-38. The eight bytes, little end first, as one number. -/
def bitPattern (x : Val) : BitVec 64 := BitVec.ofNat 64 x.bits

/-- `CacheKey`: `lib.rs` 40-45. -/
structure MemoKey where
  instr_f_idx : BitVec 32
  args : List (BitVec 64)
deriving DecidableEq

/-- `CACHE` and `CACHE_HITS`: `lib.rs` 11-16. Simplified: the map is the list of its entries in insertion order (`FnvIndexMap` of the crate
`heapless`, whose source is not in the repository, is trusted to be a map). `CACHE_HITS += 1` wraps, as in a release build. -/
structure MemoState where
  cache : List (MemoKey × List Val)
  hits : BitVec 32

/-- `CACHE_CAPACITY`: `lib.rs` 7. -/
def cacheCapacity : Nat := 1024
/-- `CACHED_VALUES_MAX_CAPACITY` and `CACHED_RESULTS_MAX_CAPACITY`: `lib.rs` 8-9. -/
def cachedValuesMax : Nat := 10

/-- `contains_key` and `get` of the map: `lib.rs` 48 and 52. -/
def MemoState.find (c : MemoState) (key : MemoKey) : Option (List Val) := c.cache.lookup key

/-- `insert` of the map: `lib.rs` 65-66. A key that is present gets a new value; a new key is refused (`Err`) if the map is full. -/
def MemoState.insert (c : MemoState) (key : MemoKey) (vs : List Val) : Option MemoState :=
  if (c.find key).isSome then some { c with cache := c.cache.map fun e => if e.1 = key then (key, vs) else e }
  else if c.cache.length = cacheCapacity then none
  else some { c with cache := c.cache ++ [(key, vs)] }

/-- Reading the statics of the analysis. -/
def getState : Act (World W A) A := fun s => .ok s.world.2.1 s

/-- The loop of `cache_retrieve`: `lib.rs` 53-58, from index `i` on. -/
def LibLink.setRess (K : LibLink) (results : RuntimeValues) : Nat → List Val → Act (World W A) Unit
  | _, [] => pure ()
  | i, v :: vs => do
    K.setRes results (BitVec.ofNat 32 i) v
    K.setRess results (i + 1) vs

/-- `cache_insert`: `lib.rs` 61-70. -/
def LibLink.cacheInsert (K : LibLink) (key : MemoKey) (results : RuntimeValues) : Act (World W MemoState) Unit := do
  let vs ← K.iterate results 0 results.resc.toInt.toNat
  if vs.length ≠ results.resc.toInt.toNat then .panic
  else
    match (← getState).insert key vs with
    | some c => updateState fun _ => c
    | none => .panic

/-- The cache is not used for calls with many arguments or results, nor once it is full: `lib.rs` 73-78. -/
def MemoState.bypass (c : MemoState) (argc resc : BitVec 32) : Bool :=
  argc.toInt > cachedValuesMax ∨ resc.toInt > cachedValuesMax ∨ c.cache.length = cacheCapacity

/-- The advice: `lib.rs` 72-96. `args_iter` starts at the arguments, which are behind the results (`wastrumentation-rs-stdlib/src/lib.rs` 454-456, 491-508). -/
def memoAdvice (K : LibLink) (func : WasmFunction) (call : Act (World W MemoState) Unit) (args results : RuntimeValues) : Act (World W MemoState) Unit := do
  let c ← getState
  if c.bypass args.argc results.resc then call
  else do
    let vs ← K.iterate args args.resc.toInt.toNat args.argc.toInt.toNat
    let key : MemoKey := ⟨func.instr_f_idx, vs.map bitPattern⟩
    match c.find key with
    | some vs => do
      updateState fun c => { c with hits := c.hits + 1 }
      K.setRess results 0 vs
    | none => do
      call
      K.cacheInsert key results

/-- The analysis' export. -/
def memoHost (K : LibLink) (base : Nat) : Host (World W MemoState) := applyAdvice K base (memoAdvice K)

end Wastrum
