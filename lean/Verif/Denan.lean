import Verif.RuntimeValues
import Verif.ShippedForward
import Verif.Resume
/-!
# The shipped analyses `forward` (its `apply` advice) and `denan`

`/repo/wastrumentation-instr-lib/tests/analyses/rust/forward/src/lib.rs` 7-12 and `/repo/benchmarking-node/input-analyses/rust/denan/src/lib.rs`.
-/

namespace Wastrum

variable {W A : Type}

/-- `f32::is_nan` (Rust's standard library), on the bits: the exponent is all ones and the fraction is not zero. -/
def f32IsNan (b : BitVec 32) : Bool := (0x7f800000#32).ult (b &&& 0x7fffffff#32)
/-- `f64::is_nan`. -/
def f64IsNan (b : BitVec 64) : Bool := (0x7ff0000000000000#64).ult (b &&& 0x7fffffffffffffff#64)

/-- `WasmValue::denan`: `denan/src/lib.rs` 7-15. -/
def Val.denan : Val → Val
  | .i32 x => .i32 x
  | .i64 x => .i64 x
  | .f32 b => if f32IsNan b then .f32 0 else .f32 b
  | .f64 b => if f64IsNan b then .f64 0 else .f64 b

/-- `.denan()` on the outcome of an operation (a panic or trap of the operation is one of the advice). -/
def Res.denan : Res W → Res W
  | .ok vs s => .ok (vs.map fun | .num v => .num v.denan | .ref r a => .ref r a) s
  | o => o

/-- The advice of `denan`: `denan/src/lib.rs` 24-30 (`apply`, 19-23, is `denanBefore` and `denanAfter`). There is no other advice, so the last
case is never used. -/
def denanBody (N : Num) (base : String → Option Nat) (a : Advice) (call : Nat → List RVal → Store W → Res W) (s : Store W) : Res W :=
  match a with
  | .unary op v _ => (orTrap (op.apply N v.denan) s).denan
  | .binary op l r _ => (orTrap (op.apply N l.denan r.denan) s).denan
  | .const v _ | .loc v _ _ _ | .glob v _ _ _ => .ok [.num v.denan] s
  | .load i o op _ => (op.perform base call i o s).denan
  | .store i v o op _ => op.perform base call i v.denan o s
  | _ => .trap s

/-- The hooks of `denan`: `denan/src/lib.rs` 24-30, and the functions `advice!` generates for them (`wastrumentation-rs-stdlib/src/lib.rs` 867-1280). -/
def Trap.denans : Trap → Bool
  | .unaryI32ToI32 | .unaryI64ToI32 | .unaryI64ToI64 | .unaryF32ToF32 | .unaryF64ToF64 | .unaryF32ToI32 | .unaryF64ToI32 | .unaryI32ToI64 | .unaryF32ToI64
  | .unaryF64ToI64 | .unaryI32ToF32 | .unaryI64ToF32 | .unaryF64ToF32 | .unaryI32ToF64 | .unaryI64ToF64 | .unaryF32ToF64
  | .binaryI32I32ToI32 | .binaryI64I64ToI32 | .binaryF32F32ToI32 | .binaryF64F64ToI32 | .binaryI64I64ToI64 | .binaryF32F32ToF32 | .binaryF64F64ToF64
  | .constI32Trap | .constF32Trap | .constI64Trap | .constF64Trap
  | .localGetI32 | .localSetI32 | .localTeeI32 | .localGetF32 | .localSetF32 | .localTeeF32 | .localGetI64 | .localSetI64 | .localTeeI64 | .localGetF64
  | .localSetF64 | .localTeeF64
  | .globalGetI32 | .globalSetI32 | .globalGetF32 | .globalSetF32 | .globalGetI64 | .globalSetI64 | .globalGetF64 | .globalSetF64
  | .i32Load | .i64Load | .f32Load | .f64Load | .i32Store | .i64Store | .f32Store | .f64Store => true
  | _ => false

/-- `update_each_arg`: `wastrumentation-rs-stdlib/src/lib.rs` 462-468 (`argc` is not negative). -/
def LibLink.updateEachArg (K : LibLink) (rv : RuntimeValues) (f : Nat → Val → Val) : Act (World W A) Unit := K.updateArgs rv f 0 rv.argc.toNat
/-- `update_each_res`: `wastrumentation-rs-stdlib/src/lib.rs` 470-476. -/
def LibLink.updateEachRes (K : LibLink) (rv : RuntimeValues) (f : Nat → Val → Val) : Act (World W A) Unit := K.updateRess rv f 0 rv.resc.toNat

/-- What `denan`'s `apply` advice does before it resumes the call: `denan/src/lib.rs` 20. -/
def denanBefore (K : LibLink) (args _ress : RuntimeValues) : Act (World W A) Unit := K.updateEachArg args fun _ v => v.denan
/-- What it does afterwards: `denan/src/lib.rs` 22. -/
def denanAfter (K : LibLink) (_args ress : RuntimeValues) : Act (World W A) Unit := K.updateEachRes ress fun _ v => v.denan

/-- What `forward`'s `apply` advice does before and after it resumes the call (nothing): `forward/src/lib.rs` 7-12. -/
def forwardIdle (_args _ress : RuntimeValues) : Act (World W A) Unit := pure ()

end Wastrum
