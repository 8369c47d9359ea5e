import Verif.ResumeThms
/-!
# The view of an intercepted call of analyses written in Wasp

Model of the AssemblyScript library that is put in front of the code of a Wasp analysis
(`/repo/supported-languages/assemblyscript/src/generate/analysis/std_analysis_lib_gen_apply.ts`, `std_analysis_lib_if.ts`,
`std_analysis_lib_call.ts`), of the exported functions generated around the guest code of the advice (`mod.rs` in the same directory), and
facts about what they read and write.

The AssemblyScript compiler and its run time (reference counting, allocation of the small objects handed to the advice) are not modelled: an
object is the record of its fields. `unreachable()` is a trap.
-/

set_option linter.unusedSimpArgs false
set_option linter.unusedVariables false

namespace Wastrum

variable {W A : Type}

/-! ## Model -/

/-- The number types of AssemblyScript that may be given for `T` in `get<T>` and `set<T>`. (Pointers are 32 bits wide.) -/
inductive AsType where
  | i8 | u8 | i16 | u16 | i32 | u32 | i64 | u64 | isize | usize | bool | f32 | f64
  deriving DecidableEq, Repr

/-- `sizeof<T>()`. -/
def AsType.size : AsType → Nat
  | .i8 | .u8 | .bool => 1
  | .i16 | .u16 => 2
  | .i32 | .u32 | .isize | .usize | .f32 => 4
  | .i64 | .u64 | .f64 => 8

/-- `isFloat<T>()`. -/
def AsType.isFloat : AsType → Bool
  | .f32 | .f64 => true
  | _ => false

/-- `isInteger<T>()`. -/
def AsType.isInteger (t : AsType) : Bool := !t.isFloat

/-- The WebAssembly type in which values of the type are computed with. -/
def AsType.wasm : AsType → ValType
  | .i64 | .u64 => .i64
  | .f32 => .f32
  | .f64 => .f64
  | _ => .i32

/-- The choice `wastrumentation_memory_load<T>` and `wastrumentation_memory_store<T>` make: `std_analysis_lib_gen_apply.ts` 31-55. `none` is
the `unreachable()` at the end. -/
def AsType.accessor (t : AsType) : Option ValType :=
  if t.size = 4 ∧ t.isInteger then some .i32
  else if t.size = 4 ∧ t.isFloat then some .f32
  else if t.size = 8 ∧ t.isInteger then some .i64
  else if t.size = 8 ∧ t.isFloat then some .f64
  else none

/-- `wastrumentation_memory_load<T>`: `std_analysis_lib_gen_apply.ts` 31-42. -/
def LibLink.asLoad (K : LibLink) (t : AsType) (ptr offset : BitVec 32) : Act (World W A) Val :=
  match t.accessor with
  | some v => K.load v ptr offset
  | none => .panic

/-- `wastrumentation_memory_store<T>`: `std_analysis_lib_gen_apply.ts` 44-55. That the value has the type is checked by the compiler. -/
def LibLink.asStore (K : LibLink) (t : AsType) (ptr : BitVec 32) (x : Val) (offset : BitVec 32) : Act (World W A) Unit :=
  match t.accessor with
  | some v => if x.type = v then K.store x ptr offset else .stuck
  | none => .panic

/-- `MutDynArgsResults`: `std_analysis_lib_gen_apply.ts` 57-68. -/
structure AsValues where
  argc : BitVec 32
  resc : BitVec 32
  sigv : BitVec 32
  sigtypv : BitVec 32

/-- `checkBounds`: `std_analysis_lib_gen_apply.ts` 70-75; `false` is the `unreachable()`. -/
def AsValues.inBounds (count index : BitVec 32) : Bool := !(!decide (0 ≤ index.toInt) || decide (index.toInt ≥ count.toInt))

/-- `wastrumentation_stack_load_type`, imported: `std_analysis_lib_gen_apply.ts` 10-11. -/
def LibLink.asLoadType (K : LibLink) (ptr offset : BitVec 32) : Act (World W A) (BitVec 32) := do
  match ← K.call "wastrumentation_stack_load_type" [.i32 ptr, .i32 offset] with
  | [.num (.i32 code)] => pure code
  | _ => .stuck

/-- `getArg<T>`: `std_analysis_lib_gen_apply.ts` 77-80. -/
def LibLink.asGetArg (K : LibLink) (v : AsValues) (t : AsType) (index : BitVec 32) : Act (World W A) Val :=
  if AsValues.inBounds v.argc index then K.asLoad t v.sigv (v.resc + index) else .panic

/-- `setArg<T>`: `std_analysis_lib_gen_apply.ts` 82-85. -/
def LibLink.asSetArg (K : LibLink) (v : AsValues) (t : AsType) (index : BitVec 32) (x : Val) : Act (World W A) Unit :=
  if AsValues.inBounds v.argc index then K.asStore t v.sigv x (v.resc + index) else .panic

/-- `getRes<T>`: `std_analysis_lib_gen_apply.ts` 87-90. -/
def LibLink.asGetRes (K : LibLink) (v : AsValues) (t : AsType) (index : BitVec 32) : Act (World W A) Val :=
  if AsValues.inBounds v.resc index then K.asLoad t v.sigv (0 + index) else .panic

/-- `setRes<T>`: `std_analysis_lib_gen_apply.ts` 92-95. -/
def LibLink.asSetRes (K : LibLink) (v : AsValues) (t : AsType) (index : BitVec 32) (x : Val) : Act (World W A) Unit :=
  if AsValues.inBounds v.resc index then K.asStore t v.sigv x (0 + index) else .panic

/-- `getArgType`: `std_analysis_lib_gen_apply.ts` 97-104. -/
def LibLink.asGetArgType (K : LibLink) (v : AsValues) (index : BitVec 32) : Act (World W A) (BitVec 32) :=
  if AsValues.inBounds v.argc index then K.asLoadType v.sigtypv (v.resc + index) else .panic

/-- `getResType`: `std_analysis_lib_gen_apply.ts` 106-113. -/
def LibLink.asGetResType (K : LibLink) (v : AsValues) (index : BitVec 32) : Act (World W A) (BitVec 32) :=
  if AsValues.inBounds v.resc index then K.asLoadType v.sigtypv (0 + index) else .panic

/-- `DynValues` and its two classes `MutDynArgs` (`std_analysis_lib_gen_apply.ts` 129-148) and `MutDynRess` (150-169). -/
inductive DynValues where
  | args (v : AsValues)
  | ress (v : AsValues)

/-- `length`: `std_analysis_lib_gen_apply.ts` 134, 155. -/
def DynValues.length : DynValues → BitVec 32
  | .args v => v.argc
  | .ress v => v.resc

/-- `get<T>`: `std_analysis_lib_gen_apply.ts` 137-139, 158-160. -/
def LibLink.get (K : LibLink) (t : AsType) (index : BitVec 32) : DynValues → Act (World W A) Val
  | .args v => K.asGetArg v t index
  | .ress v => K.asGetRes v t index

/-- `getType`: `std_analysis_lib_gen_apply.ts` 141-143, 162-164. -/
def LibLink.getType (K : LibLink) (index : BitVec 32) : DynValues → Act (World W A) (BitVec 32)
  | .args v => K.asGetArgType v index
  | .ress v => K.asGetResType v index

/-- `set<T>`: `std_analysis_lib_gen_apply.ts` 145-147, 166-168. -/
def LibLink.set (K : LibLink) (t : AsType) (index : BitVec 32) (x : Val) : DynValues → Act (World W A) Unit
  | .args v => K.asSetArg v t index x
  | .ress v => K.asSetRes v t index x

/-- `enum WasmType`: `std_analysis_lib_gen_apply.ts` 3-8. -/
def AsType.enumValue : AsType → Option (BitVec 32)
  | .i32 => some 0 | .f32 => some 1 | .i64 => some 2 | .f64 => some 3
  | _ => none

/-- `WasmFunction`: `std_analysis_lib_gen_apply.ts` 174-183. -/
structure AsFunction where
  f_apply : BitVec 32
  instr_f_idx : BitVec 32
  sigv : BitVec 32

/-- `WasmFunction.apply`: `std_analysis_lib_gen_apply.ts` 185-187. `base` is the index of the export `call_base` of the instrumented
program. -/
def AsFunction.apply (f : AsFunction) (base : Nat) (call : Nat → List RVal → Store W → Res W) : Act W Unit := do
  match ← fun s => (call base [.i32 f.f_apply, .i32 f.sigv] s).toEff with
  | [] => pure ()
  | _ => .stuck

/-- The exported function made of the generic `apply` advice of a Wasp analysis: `assemblyscript/src/generate/analysis/mod.rs` 157-198. `call`
is what `func.apply()` does. -/
def asApplyAdvice (base : Nat) (body : (func : AsFunction) → (call : Act W Unit) → (args results : DynValues) → Act W Unit) : Host W := fun call args s =>
  match args with
  | [.num (.i32 f_apply), .num (.i32 idx), .num (.i32 argc), .num (.i32 resc), .num (.i32 sigv), .num (.i32 sigtypv), .num (.i32 _)] =>
    (body ⟨f_apply, idx, sigv⟩ (AsFunction.apply ⟨f_apply, idx, sigv⟩ base call) (.args ⟨argc, resc, sigv, sigtypv⟩) (.ress ⟨argc, resc, sigv, sigtypv⟩) s).done
  | _ => .stuck

/-- `ParameterIfThenCondition`, `ParameterIfThenElseCondition`, `ParameterBrIfCondition` and `ParameterSelectCondition`, which differ in the names of their
fields only: `std_analysis_lib_if.ts` 9-67, 93. `yes` is `is_then` or `is_branch`, `no` is `is_skip` or `is_else`. -/
structure AsCondition where
  yes : Bool
  no : Bool
  continueYes : BitVec 32 := 1
  continueNo : BitVec 32 := 0

/-- The constructors: `std_analysis_lib_if.ts` 22-30, 40-48, 58-66. -/
def AsCondition.new (path_kontinuation : BitVec 32) : AsCondition :=
  if path_kontinuation = 0 then { yes := false, no := true } else { yes := true, no := false }

/-- The guest code of the advice of a Wasp analysis (other than `apply`). Where the exported function has a result, guest code may return one
(`some`) or run to its end (`none`); otherwise it may only end. The arguments are the fields of the objects handed to it. -/
structure WaspCode (W : Type) where
  ifThen : (condition : AsCondition) → Act W (Option (BitVec 32))
  ifThenElse : (condition : AsCondition) → Act W (Option (BitVec 32))
  brIf : (condition : AsCondition) → (label : BitVec 32) → Act W (Option (BitVec 32))
  brTable : (target deflt : BitVec 32) → Act W (Option (BitVec 32))
  select : (condition : AsCondition) → Act W (Option (BitVec 32))
  callPre : (f : BitVec 32) → Act W Unit
  callPost : (f : BitVec 32) → Act W Unit
  callIndirectPre : (table index : BitVec 32) → Act W (Option (BitVec 32))
  callIndirectPost : (table : BitVec 32) → Act W Unit
  blockPre : Act W Unit
  blockPost : Act W Unit
  loopPre : Act W Unit
  loopPost : Act W Unit

/-- `{body} return fallback;`. -/
def asReturn (fallback : BitVec 32) (body : Act W (Option (BitVec 32))) (s : Store W) : Res W :=
  match body s with
  | .ok (some x) s => .ok [.i32 x] s
  | .ok none s => .ok [.i32 fallback] s
  | .trap s => .trap s
  | .stuck => .stuck
  | .fuel => .fuel

/-- The exported functions: `assemblyscript/src/generate/analysis/mod.rs` 384-683. `stuck` where the compiler generates no function or
where the type system rules out the arguments. -/
def WaspCode.host (c : WaspCode W) (t : Trap) : Host W := fun _ args s =>
  match t, args with
  | .ifThenTrap, [.num (.i32 path), .num (.i32 _), .num (.i32 _), .num (.i64 _), .num (.i64 _)] => asReturn path (c.ifThen (.new path)) s
  | .ifThenElseTrap, [.num (.i32 path), .num (.i32 _), .num (.i32 _), .num (.i64 _), .num (.i64 _)] => asReturn path (c.ifThenElse (.new path)) s
  | .brIfTrap, [.num (.i32 path), .num (.i32 label), .num (.i64 _), .num (.i64 _)] => asReturn path (c.brIf (.new path) label) s
  | .brTableTrap, [.num (.i32 target), .num (.i32 _), .num (.i32 deflt), .num (.i64 _), .num (.i64 _)] => asReturn target (c.brTable target deflt) s
  | .select, [.num (.i32 path), .num (.i64 _), .num (.i64 _)] => asReturn path (c.select (.new path)) s
  | .preTrapCall, [.num (.i32 f), .num (.i64 _), .num (.i64 _)] => (c.callPre f s).done
  | .postTrapCall, [.num (.i32 f), .num (.i64 _), .num (.i64 _)] => (c.callPost f s).done
  | .preTrapCallIndirect, [.num (.i32 index), .num (.i32 table), .num (.i64 _), .num (.i64 _)] => asReturn index (c.callIndirectPre table index) s
  | .postTrapCallIndirect, [.num (.i32 table), .num (.i64 _), .num (.i64 _)] => (c.callIndirectPost table s).done
  | .preBlock, [.num (.i32 _), .num (.i32 _), .num (.i64 _), .num (.i64 _)] => (c.blockPre s).done
  | .postBlock, [.num (.i64 _), .num (.i64 _)] => (c.blockPost s).done
  | .preLoop, [.num (.i32 _), .num (.i32 _), .num (.i64 _), .num (.i64 _)] => (c.loopPre s).done
  | .postLoop, [.num (.i64 _), .num (.i64 _)] => (c.loopPost s).done
  | _, _ => .stuck

/-! ### The analyses of the test suite -/

/-- `if (condition.is_then) { return condition.continue_then; }; if (condition.is_skip) { return condition.continue_skip; };`, which `forward.wasp`
(`/repo/wastrumentation-instr-lib/tests/analyses/wasp-as/forward.wasp` 2-28) does for every kind of condition. -/
def sameWay (c : AsCondition) : Act W (Option (BitVec 32)) := if c.yes then pure (some c.continueYes) else if c.no then pure (some c.continueNo) else pure none

/-- The other way round, as `if-then-alter.wasp`, `if-then-else-alter.wasp`, `branch-if-alter.wasp` and `select-alter.wasp` do (in the same
directory). -/
def otherWay (c : AsCondition) : Act W (Option (BitVec 32)) := if c.yes then pure (some c.continueNo) else if c.no then pure (some c.continueYes) else pure none

/-- Guest code that does nothing. -/
def WaspCode.idle : WaspCode W where
  ifThen _ := pure none
  ifThenElse _ := pure none
  brIf _ _ := pure none
  brTable _ _ := pure none
  select _ := pure none
  callPre _ := pure ()
  callPost _ := pure ()
  callIndirectPre _ _ := pure none
  callIndirectPost _ := pure ()
  blockPre := pure ()
  blockPost := pure ()
  loopPre := pure ()
  loopPost := pure ()

/-- `forward.wasp`: `/repo/wastrumentation-instr-lib/tests/analyses/wasp-as/forward.wasp`. (It has no advice for `select`, blocks and loops.) -/
def forwardWasp : WaspCode W :=
  { WaspCode.idle with
    ifThen := sameWay
    ifThenElse := sameWay
    brIf := fun c _ => sameWay c
    brTable := fun target _ => pure (some target)
    callIndirectPre := fun _ index => pure (some index) }

/-- The `apply` advice of `forward.wasp` (35-39). -/
def forwardWaspApply (_ : AsFunction) (call : Act W Unit) (_ _ : DynValues) : Act W Unit := call

/-- The switch in the loop of `set_values_to_zero`: `/repo/wastrumentation-instr-lib/tests/analyses/wasp-as/set_arg_ret_to_zero.wasp` 5-20. -/
def LibLink.zeroValue (K : LibLink) (values : DynValues) (index : BitVec 32) : Act (World W A) Unit := do
  let type ← K.getType index values
  if AsType.enumValue .i32 = some type then K.set .i32 index (.i32 0) values
  else if AsType.enumValue .f32 = some type then K.set .f32 index (.f32 0) values
  else if AsType.enumValue .i64 = some type then K.set .i64 index (.i64 0) values
  else if AsType.enumValue .f64 = some type then K.set .f64 index (.f64 0) values
  else .panic

/-- The loop, `n` rounds from `index` on. -/
def LibLink.zeroLoop (K : LibLink) (values : DynValues) : (index n : Nat) → Act (World W A) Unit
  | _, 0 => pure ()
  | index, n + 1 => do
    K.zeroValue values (BitVec.ofNat 32 index)
    K.zeroLoop values (index + 1) n

/-- `set_values_to_zero`: `set_arg_ret_to_zero.wasp` 3-22. The counter starts at 0 and stays below the (signed) length. -/
def LibLink.setValuesToZero (K : LibLink) (values : DynValues) : Act (World W A) Unit := K.zeroLoop values 0 values.length.toInt.toNat

/-- The `apply` advice of `set_arg_ret_to_zero.wasp` (24-30). -/
def zeroWaspApply (K : LibLink) (_ : AsFunction) (call : Act (World W A) Unit) (args results : DynValues) : Act (World W A) Unit := do
  K.setValuesToZero args
  call
  K.setValuesToZero results

/-- The globals of `call_stack.wasp`: `/repo/wastrumentation-instr-lib/tests/analyses/wasp-as/call_stack.wasp` 2-9. -/
structure CallDepths where
  number_of_applys : BitVec 32 := 0
  max_apply_depth : BitVec 32 := 0
  apply_stack : BitVec 32 := 0
  number_of_calls : BitVec 32 := 0
  max_call_depth : BitVec 32 := 0
  call_stack : BitVec 32 := 0

/-- `max`: `call_stack.wasp` 11-13. -/
def asMax (a b : BitVec 32) : BitVec 32 := if a.toInt > b.toInt then a else b

/-- The advice of `call_stack.wasp` before and after calls (16-27). -/
def callStackWasp : WaspCode (World W CallDepths) :=
  { WaspCode.idle with
    callPre := fun _ => updateState fun g =>
      { g with call_stack := g.call_stack + 1, max_call_depth := asMax g.max_call_depth (g.call_stack + 1), number_of_calls := g.number_of_calls + 1 }
    callPost := fun _ => updateState fun g => { g with call_stack := g.call_stack - 1 } }

/-- The `apply` advice of `call_stack.wasp` (30-51). -/
def callStackWaspApply (_ : AsFunction) (call : Act (World W CallDepths) Unit) (_ _ : DynValues) : Act (World W CallDepths) Unit := do
  updateState fun g =>
    { g with apply_stack := g.apply_stack + 1, max_apply_depth := asMax g.max_apply_depth (g.apply_stack + 1), number_of_applys := g.number_of_applys + 1 }
  call
  updateState fun g => { g with apply_stack := g.apply_stack - 1 }

/-! ## Facts -/

/-- What an analysis gets for the values of a call of a function of type `t`, with the values at `p` and the types at `q`. -/
def asHandle (t : FuncType) (p q : Nat) : AsValues := ⟨BitVec.ofNat 32 t.inputs.length, BitVec.ofNat 32 t.results.length, BitVec.ofNat 32 p, BitVec.ofNat 32 q⟩

theorem AsValues.inBounds_eq (count index : BitVec 32) : AsValues.inBounds count index = RuntimeValues.inBounds count index := by
  simp only [AsValues.inBounds, RuntimeValues.inBounds]
  by_cases h : 0 ≤ index.toInt <;> by_cases h' : index.toInt ≥ count.toInt <;> simp [h, h'] <;> omega

theorem AsType.accessor_wasm {t : AsType} {v : ValType} (h : t.accessor = some v) : v = t.wasm ∧ ∀ r, v ≠ .ref r := by
  cases t <;> simp [AsType.accessor, AsType.size, AsType.isFloat, AsType.isInteger] at h <;> subst h <;> simp [AsType.wasm]

section
variable {K : LibLink} {l : Lib} {s : Store (World W A)}

theorem LibLink.asLoad_ok (hK : K.Good) (ok : l.Ok) (hs : s.getLib = l.store) {t : AsType} {v : ValType} (ht : t.accessor = some v) {p k : Nat} (hin : p + 8 * k + 8 ≤ l.mem.size) :
    K.asLoad t (BitVec.ofNat 32 p) (BitVec.ofNat 32 k) s = .ok (v.ofBits (l.mem.word (p + 8 * k) 8)) s := by
  simp only [LibLink.asLoad, ht]
  exact LibLink.load_ok hK ok hs (AsType.accessor_wasm ht).2 hin

theorem LibLink.asStore_ok (hK : K.Good) (ok : l.Ok) (hs : s.getLib = l.store) {t : AsType} {x : Val} (ht : t.accessor = some x.type) {p k : Nat} (hin : p + 8 * k + 8 ≤ l.mem.size) :
    K.asStore t (BitVec.ofNat 32 p) x (BitVec.ofNat 32 k) s = .ok () (s.setLib (⟨l.free, l.mem.put (p + 8 * k) 8 x.bits⟩ : Lib).store) := by
  simp only [LibLink.asStore, ht, if_true]
  exact LibLink.store_ok hK ok hs x hin

theorem LibLink.asLoadType_ok (hK : K.Good) (ok : l.Ok) (hs : s.getLib = l.store) {q k : Nat} (hin : q + 4 * k + 4 ≤ l.mem.size) :
    K.asLoadType (BitVec.ofNat 32 q) (BitVec.ofNat 32 k) s = .ok (BitVec.ofNat 32 (l.mem.word (q + 4 * k) 4)) s := by
  obtain ⟨d, hd⟩ := hK.eq
  have hc := call_loadType (N := K.N) (sigs := K.sigs) (L := K.L) hK.num d l q k hin ok.size
  simp only [LibLink.asLoadType, bind, Act.bind, LibLink.call, libHost, hd, hs, hc, Res.inside, Res.toEff, pure, Store.setLib_of hs, RVal.i32]

end

/-- Where the values of one side start, and their types. -/
def DynValues.at (t : FuncType) : DynValues → Nat × List ValType
  | .args _ => (t.results.length, t.inputs)
  | .ress _ => (0, t.results)

/-- The two sides of a call. -/
def DynValues.Of (t : FuncType) (p q : Nat) (d : DynValues) : Prop := d = .args (asHandle t p q) ∨ d = .ress (asHandle t p q)

section
variable {K : LibLink} {l : Lib} {s : Store (World W A)} {t : FuncType} {p q : Nat} {d : DynValues}

theorem DynValues.Of.bound (h : d.Of t p q) : (d.at t).1 + (d.at t).2.length ≤ t.slots := by
  rcases h with rfl | rfl <;> simp [DynValues.at, FuncType.slots]

/-- Within the bounds, the accessors use the slot. -/
theorem DynValues.Of.access (h : d.Of t p q) (hn : t.slots < 8192) {i : Nat} (hi : i < (d.at t).2.length) :
    (∀ T, K.get (W := W) (A := A) T (BitVec.ofNat 32 i) d = K.asLoad T (BitVec.ofNat 32 p) (BitVec.ofNat 32 ((d.at t).1 + i))) ∧
    (∀ T x, K.set (W := W) (A := A) T (BitVec.ofNat 32 i) x d = K.asStore T (BitVec.ofNat 32 p) x (BitVec.ofNat 32 ((d.at t).1 + i))) ∧
    K.getType (W := W) (A := A) (BitVec.ofNat 32 i) d = K.asLoadType (BitVec.ofNat 32 q) (BitVec.ofNat 32 ((d.at t).1 + i)) := by
  simp only [FuncType.slots] at hn
  have z : (0 : BitVec 32) + BitVec.ofNat 32 i = BitVec.ofNat 32 i := by simp
  rcases h with rfl | rfl
  · simp only [DynValues.at] at hi
    have hb : AsValues.inBounds (asHandle t p q).argc (BitVec.ofNat 32 i) = true := by
      rw [AsValues.inBounds_eq]; exact inBounds_ok hi (by omega)
    simp only [asHandle] at hb
    simp only [LibLink.get, LibLink.asGetArg, LibLink.set, LibLink.asSetArg, LibLink.getType, LibLink.asGetArgType, hb, if_true, DynValues.at, BitVec.ofNat_add, asHandle, implies_true, and_true]
  · simp only [DynValues.at] at hi
    have hb : AsValues.inBounds (asHandle t p q).resc (BitVec.ofNat 32 i) = true := by
      rw [AsValues.inBounds_eq]; exact inBounds_ok hi (by omega)
    simp only [asHandle] at hb
    simp only [LibLink.get, LibLink.asGetRes, LibLink.set, LibLink.asSetRes, LibLink.getType, LibLink.asGetResType, hb, if_true, DynValues.at, asHandle, z, Nat.zero_add, implies_true, and_true]

/-- Outside of them, they trap. -/
theorem DynValues.Of.outside (h : d.Of t p q) (hn : t.slots < 8192) {b : BitVec 32} (hb : b.toInt < 0 ∨ (d.at t).2.length ≤ b.toInt) (s : Store (World W A)) :
    (∀ T, K.get T b d s = .trap s) ∧ (∀ T x, K.set T b x d s = .trap s) ∧ K.getType b d s = .trap s := by
  simp only [FuncType.slots] at hn
  rcases h with rfl | rfl
  · simp only [DynValues.at] at hb
    have hf : AsValues.inBounds (asHandle t p q).argc b = false := by
      simp only [AsValues.inBounds, asHandle, toInt_small (show t.inputs.length < 2 ^ 31 by omega)]
      rcases hb with hb | hb
      · simp; omega
      · simp; omega
    simp [LibLink.get, LibLink.asGetArg, LibLink.set, LibLink.asSetArg, LibLink.getType, LibLink.asGetArgType, hf, Act.panic]
  · simp only [DynValues.at] at hb
    have hf : AsValues.inBounds (asHandle t p q).resc b = false := by
      simp only [AsValues.inBounds, asHandle, toInt_small (show t.results.length < 2 ^ 31 by omega)]
      rcases hb with hb | hb
      · simp; omega
      · simp; omega
    simp [LibLink.get, LibLink.asGetRes, LibLink.set, LibLink.asSetRes, LibLink.getType, LibLink.asGetResType, hf, Act.panic]

end

/-- `func.apply()` does the same for both analysis languages. -/
theorem AsFunction.apply_eq (f : WasmFunction) (base : Nat) (call : Nat → List RVal → Store W → Res W) :
    AsFunction.apply ⟨f.f_apply, f.instr_f_idx, f.sigv⟩ base call = f.apply base call := rfl

/-- A Wasp `apply` advice that runs `pre`, resumes the call and runs `post`. -/
theorem asApply_surrounds (base : Nat) (pre post : DynValues → DynValues → Act (World W A) Unit) :
    Surrounds base (fun t p q => pre (.args (asHandle t p q)) (.ress (asHandle t p q))) (fun t p q => post (.args (asHandle t p q)) (.ress (asHandle t p q)))
      (asApplyAdvice base fun _ call args results => do pre args results; call; post args results) := by
  intro call t j i p q present l l1 xs s hr hn hP hs
  rfl

end Wastrum
