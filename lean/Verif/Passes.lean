import Verif.Interface
import Verif.Nesting
/-!
# The instrumentation passes (model)

Models `transform` of `instrument/block_loop.rs`, `instrument/branch_if.rs` (with
`branch_if/generate_branch_table.rs`), `instrument/function_call_indirect.rs`,
`instrument/simple_operations.rs`, `instrument/memory.rs`, and the trap table of `instrument/mod.rs`.

A Rust panic is the `error` outcome of `Except Panic`. Targets are `(kind, trap index)` pairs: the Rust
enums carry the index in every variant.
-/

namespace Wastrum

/-- The panics that the passes contain. -/
inductive Panic where
  | assertion      -- the `assert!`s of `typed_high_level_body.rs` 60-63 and 75-78
  | conversion     -- an `unwrap`/`expect` on a failed integer conversion
  deriving DecidableEq, Repr

/-- `u32 -> i32` and `usize -> i32` (`i32::try_from(..).unwrap()`). -/
def toI32 (n : Nat) : Except Panic (BitVec 32) :=
  if n < 2 ^ 31 then .ok (BitVec.ofNat 32 n) else .error .conversion

/-- `usize -> i64` (`try_into().unwrap()`), `typed_high_level_body.rs` 51. -/
def toI64 (n : Nat) : Except Panic (BitVec 64) :=
  if n < 2 ^ 63 then .ok (BitVec.ofNat 64 n) else .error .conversion

/-- `u32 -> i64` (`into()`, total). -/
def u32ToI64 (n : Nat) : BitVec 64 := BitVec.ofNat 64 n

/-- `TypedHighLevelInstr::instrument_with`: `typed_high_level_body.rs` 59-72. The instruction to place is
given as a function of its metadata. -/
def instrumentWith (m : Meta) (k : Meta → TI) : Except Panic TI :=
  if m.flag then .error .assertion else .ok (k ⟨m.fidx, m.iidx, .unreachable, true⟩)

/-- `TypedHighLevelInstr::place_original`: `typed_high_level_body.rs` 74-87. -/
def placeOriginal (m : Meta) (k : Meta → TI) : Except Panic TI :=
  if m.flag then .error .assertion else .ok (k ⟨m.fidx, m.iidx, m.ty, m.flag⟩)

/-- `TypedHighLevelInstr::place_untouched`: `typed_high_level_body.rs` 89-99. -/
def placeUntouched (m : Meta) (k : Meta → TI) : TI := k ⟨m.fidx, m.iidx, m.ty, m.flag⟩

/-- `TypedHighLevelInstr::to_trap_call`: `typed_high_level_body.rs` 46-55. -/
def toTrapCall (m : Meta) (trap : Nat) : Except Panic (List TI) := do
  let a ← instrumentWith m (.basic · (.const (.i64 (u32ToI64 m.fidx))))
  let i ← toI64 m.iidx
  let b ← instrumentWith m (.basic · (.const (.i64 i)))
  let c ← instrumentWith m (.basic · (.call trap))
  pure [a, b, c]

/-- `instrument_with(Instr::Const(Val::I32(..)))`. -/
def constI32 (m : Meta) (v : BitVec 32) : Except Panic TI := instrumentWith m (.basic · (.const (.i32 v)))

/-- `instrument_with(Instr::Const(Val::I64(..)))`. -/
def constI64 (m : Meta) (v : BitVec 64) : Except Panic TI := instrumentWith m (.basic · (.const (.i64 v)))

/-! ## `instrument/block_loop.rs` -/

/-- `block_loop::Target`: `block_loop.rs` 8-15. -/
inductive BlockLoopKind where
  | blockPre | blockPost | loopPre | loopPost | select
  deriving DecidableEq, Repr

/-- The common prefix of `BlockPre` and `LoopPre`: `block_loop.rs` 32-43 and 60-71. -/
def blockPrologue (m : Meta) (t : FuncType) (trap : Nat) : Except Panic (List TI) := do
  let a ← constI32 m (← toI32 t.inputs.length)
  let b ← constI32 m (← toI32 t.results.length)
  let c ← toTrapCall m trap
  pure ([a, b] ++ c)

mutual
/-- One round of the loop of `block_loop::transform`: `block_loop.rs` 28-133. -/
def BlockLoop.transformI (k : BlockLoopKind) (trap : Nat) : TI → Except Panic (List TI)
  | .block m t body =>
    if m.flag then do
      let b ← BlockLoop.transform k trap body
      pure [placeUntouched m (.block · t b)]                        -- 126-130
    else match k with
      | .blockPre => do                                             -- 31-49
        let pre ← blockPrologue m t trap
        let b ← BlockLoop.transform k trap body
        pure [← placeOriginal m (.block · t (pre ++ b))]
      | .blockPost => do                                            -- 50-58
        let b ← BlockLoop.transform k trap body
        let post ← toTrapCall m trap
        pure [← placeOriginal m (.block · t (b ++ post))]
      | _ => do
        let b ← BlockLoop.transform k trap body
        pure [placeUntouched m (.block · t b)]
  | .loop m t body =>
    if m.flag then do
      let b ← BlockLoop.transform k trap body
      pure [placeUntouched m (.loop · t b)]                         -- 121-125
    else match k with
      | .loopPre => do                                              -- 59-77
        let pre ← blockPrologue m t trap
        let b ← BlockLoop.transform k trap body
        pure [← placeOriginal m (.loop · t (pre ++ b))]
      | .loopPost => do                                             -- 78-86
        let b ← BlockLoop.transform k trap body
        let post ← toTrapCall m trap
        pure [← placeOriginal m (.loop · t (b ++ post))]
      | _ => do
        let b ← BlockLoop.transform k trap body
        pure [placeUntouched m (.loop · t b)]
  | .ifThen m t thn => do                                           -- 107-113
    let a ← BlockLoop.transform k trap thn
    pure [placeUntouched m (.ifThen · t a)]
  | .ifElse m t thn els => do                                       -- 114-120
    let a ← BlockLoop.transform k trap thn
    let b ← BlockLoop.transform k trap els
    pure [placeUntouched m (.ifElse · t a b)]
  | .basic m b =>
    if m.flag then pure [placeUntouched m (.basic · b)] else
    match k, b with
    | .select, .select => do                                        -- 87-93
      let c ← toTrapCall m trap
      pure (c ++ [← placeOriginal m (.basic · .select)])
    | .select, .typedSelect t => do                                 -- 94-100
      let c ← toTrapCall m trap
      pure (c ++ [← placeOriginal m (.basic · (.typedSelect t))])
    | _, _ => pure [placeUntouched m (.basic · b)]                  -- 131
/-- `block_loop::transform`: `block_loop.rs` 25-135. -/
def BlockLoop.transform (k : BlockLoopKind) (trap : Nat) : List TI → Except Panic (List TI)
  | [] => pure []
  | i :: is => do
    let a ← BlockLoop.transformI k trap i
    let b ← BlockLoop.transform k trap is
    pure (a ++ b)
end

/-! ## `instrument/function_call_indirect.rs` -/

/-- `function_call_indirect::Target`: `function_call_indirect.rs` 8-14. -/
inductive CallKind where
  | pre | post | indirectPre | indirectPost
  deriving DecidableEq, Repr

mutual
/-- One round of the loop of `function_call_indirect::transform`: `function_call_indirect.rs` 34-127. -/
def Calls.transformI (k : CallKind) (trap : Nat) : TI → Except Panic (List TI)
  | .block m t body => do
    let b ← Calls.transform k trap body
    pure [placeUntouched m (.block · t b)]
  | .loop m t body => do
    let b ← Calls.transform k trap body
    pure [placeUntouched m (.loop · t b)]
  | .ifThen m t thn => do
    let a ← Calls.transform k trap thn
    pure [placeUntouched m (.ifThen · t a)]
  | .ifElse m t thn els => do
    let a ← Calls.transform k trap thn
    let b ← Calls.transform k trap els
    pure [placeUntouched m (.ifElse · t a b)]
  | .basic m b =>
    if m.flag then pure [placeUntouched m (.basic · b)] else
    match k, b with
    | .pre, .call f => do                                           -- 37-48
      let a ← constI32 m (← toI32 f)
      let c ← toTrapCall m trap
      pure ([a] ++ c ++ [← placeOriginal m (.basic · b)])
    | .post, .call f => do                                          -- 49-62
      let o ← placeOriginal m (.basic · b)
      let a ← constI32 m (← toI32 f)
      let c ← toTrapCall m trap
      pure ([o, a] ++ c)
    | .indirectPre, .callIndirect _ tbl => do                       -- 63-77
      let a ← constI32 m (← toI32 tbl)
      let c ← toTrapCall m trap
      pure ([a] ++ c ++ [← placeOriginal m (.basic · b)])
    | .indirectPost, .callIndirect _ tbl => do                      -- 78-94
      let o ← placeOriginal m (.basic · b)
      let a ← constI32 m (← toI32 tbl)
      let c ← toTrapCall m trap
      pure ([o, a] ++ c)
    | _, _ => pure [placeUntouched m (.basic · b)]
/-- `function_call_indirect::transform`: `function_call_indirect.rs` 31-129. -/
def Calls.transform (k : CallKind) (trap : Nat) : List TI → Except Panic (List TI)
  | [] => pure []
  | i :: is => do
    let a ← Calls.transformI k trap i
    let b ← Calls.transform k trap is
    pure (a ++ b)
end

/-! ## `instrument/simple_operations.rs` -/

/-- `simple_operations::Target`: `simple_operations.rs` 8-43. -/
inductive SimpleKind where
  | drop | return | constI32 | constF32 | constI64
  | constF64 | unaryI32ToI32 | unaryI64ToI32 | unaryI64ToI64 | unaryF32ToF32
  | unaryF64ToF64 | unaryF32ToI32 | unaryF64ToI32 | unaryI32ToI64 | unaryF32ToI64
  | unaryF64ToI64 | unaryI32ToF32 | unaryI64ToF32 | unaryF64ToF32 | unaryI32ToF64
  | unaryI64ToF64 | unaryF32ToF64 | binaryI32I32toI32 | binaryI64I64toI32 | binaryF32F32toI32
  | binaryF64F64toI32 | binaryI64I64toI64 | binaryF32F32toF32 | binaryF64F64toF64
  deriving DecidableEq, Repr

/-- `impl WastrumentationSerializable for UnaryOp`: `simple_operations.rs` 57-122. -/
def UnaryOp.serialize : UnaryOp → BitVec 32
  | .i32Eqz => 1
  | .i64Eqz => 2
  | .i32Clz => 3
  | .i32Ctz => 4
  | .i32Popcnt => 5
  | .i64Clz => 6
  | .i64Ctz => 7
  | .i64Popcnt => 8
  | .f32Abs => 9
  | .f32Neg => 10
  | .f32Ceil => 11
  | .f32Floor => 12
  | .f32Trunc => 13
  | .f32Nearest => 14
  | .f32Sqrt => 15
  | .f64Abs => 16
  | .f64Neg => 17
  | .f64Ceil => 18
  | .f64Floor => 19
  | .f64Trunc => 20
  | .f64Nearest => 21
  | .f64Sqrt => 22
  | .i32WrapI64 => 23
  | .i32TruncF32S => 24
  | .i32TruncF32U => 25
  | .i32TruncF64S => 26
  | .i32TruncF64U => 27
  | .i32TruncSatF32S => 28
  | .i32TruncSatF32U => 29
  | .i32TruncSatF64S => 30
  | .i32TruncSatF64U => 31
  | .i64ExtendI32S => 32
  | .i64ExtendI32U => 33
  | .i64TruncF32S => 34
  | .i64TruncF32U => 35
  | .i64TruncF64S => 36
  | .i64TruncF64U => 37
  | .i64TruncSatF32S => 38
  | .i64TruncSatF32U => 39
  | .i64TruncSatF64S => 40
  | .i64TruncSatF64U => 41
  | .f32ConvertI32S => 42
  | .f32ConvertI32U => 43
  | .f32ConvertI64S => 44
  | .f32ConvertI64U => 45
  | .f32DemoteF64 => 46
  | .f64ConvertI32S => 47
  | .f64ConvertI32U => 48
  | .f64ConvertI64S => 49
  | .f64ConvertI64U => 50
  | .f64PromoteF32 => 51
  | .i32ReinterpretF32 => 52
  | .i64ReinterpretF64 => 53
  | .f32ReinterpretI32 => 54
  | .f64ReinterpretI64 => 55
  | .i32Extend8S => 56
  | .i32Extend16S => 57
  | .i64Extend8S => 58
  | .i64Extend16S => 59
  | .i64Extend32S => 60

/-- `impl WastrumentationSerializable for BinaryOp`: `simple_operations.rs` 124-205. -/
def BinaryOp.serialize : BinaryOp → BitVec 32
  | .i32Eq => 1
  | .i32Ne => 2
  | .i32LtS => 3
  | .i32LtU => 4
  | .i32GtS => 5
  | .i32GtU => 6
  | .i32LeS => 7
  | .i32LeU => 8
  | .i32GeS => 9
  | .i32GeU => 10
  | .i64Eq => 11
  | .i64Ne => 12
  | .i64LtS => 13
  | .i64LtU => 14
  | .i64GtS => 15
  | .i64GtU => 16
  | .i64LeS => 17
  | .i64LeU => 18
  | .i64GeS => 19
  | .i64GeU => 20
  | .f32Eq => 21
  | .f32Ne => 22
  | .f32Lt => 23
  | .f32Gt => 24
  | .f32Le => 25
  | .f32Ge => 26
  | .f64Eq => 27
  | .f64Ne => 28
  | .f64Lt => 29
  | .f64Gt => 30
  | .f64Le => 31
  | .f64Ge => 32
  | .i32Add => 33
  | .i32Sub => 34
  | .i32Mul => 35
  | .i32DivS => 36
  | .i32DivU => 37
  | .i32RemS => 38
  | .i32RemU => 39
  | .i32And => 40
  | .i32Or => 41
  | .i32Xor => 42
  | .i32Shl => 43
  | .i32ShrS => 44
  | .i32ShrU => 45
  | .i32Rotl => 46
  | .i32Rotr => 47
  | .i64Add => 48
  | .i64Sub => 49
  | .i64Mul => 50
  | .i64DivS => 51
  | .i64DivU => 52
  | .i64RemS => 53
  | .i64RemU => 54
  | .i64And => 55
  | .i64Or => 56
  | .i64Xor => 57
  | .i64Shl => 58
  | .i64ShrS => 59
  | .i64ShrU => 60
  | .i64Rotl => 61
  | .i64Rotr => 62
  | .f32Add => 63
  | .f32Sub => 64
  | .f32Mul => 65
  | .f32Div => 66
  | .f32Min => 67
  | .f32Max => 68
  | .f32Copysign => 69
  | .f64Add => 70
  | .f64Sub => 71
  | .f64Mul => 72
  | .f64Div => 73
  | .f64Min => 74
  | .f64Max => 75
  | .f64Copysign => 76

/-- The `... for Unary instr UnaryOp::{..}` lines, in order: `simple_operations.rs` 285-310. -/
def unaryTable : List (SimpleKind × List UnaryOp) := [
  (.unaryI32ToI32, [.i32Eqz]),
  (.unaryI64ToI32, [.i64Eqz]),
  (.unaryI32ToI32, [.i32Clz, .i32Ctz, .i32Popcnt]),
  (.unaryI64ToI64, [.i64Clz, .i64Ctz, .i64Popcnt]),
  (.unaryF32ToF32, [.f32Abs, .f32Neg, .f32Ceil, .f32Floor, .f32Trunc, .f32Nearest, .f32Sqrt]),
  (.unaryF64ToF64, [.f64Abs, .f64Neg, .f64Ceil, .f64Floor, .f64Trunc, .f64Nearest, .f64Sqrt]),
  (.unaryI64ToI32, [.i32WrapI64]),
  (.unaryF32ToI32, [.i32TruncF32S, .i32TruncF32U, .i32TruncSatF32S, .i32TruncSatF32U]),
  (.unaryF64ToI32, [.i32TruncF64S, .i32TruncF64U, .i32TruncSatF64S, .i32TruncSatF64U]),
  (.unaryI32ToI64, [.i64ExtendI32S, .i64ExtendI32U]),
  (.unaryF32ToI64, [.i64TruncF32S, .i64TruncF32U, .i64TruncSatF32S, .i64TruncSatF32U]),
  (.unaryF64ToI64, [.i64TruncF64S, .i64TruncF64U, .i64TruncSatF64S, .i64TruncSatF64U]),
  (.unaryI32ToF32, [.f32ConvertI32S, .f32ConvertI32U]),
  (.unaryI64ToF32, [.f32ConvertI64S, .f32ConvertI64U]),
  (.unaryF64ToF32, [.f32DemoteF64]),
  (.unaryI32ToF64, [.f64ConvertI32S, .f64ConvertI32U]),
  (.unaryI64ToF64, [.f64ConvertI64S, .f64ConvertI64U]),
  (.unaryF32ToF64, [.f64PromoteF32]),
  (.unaryF32ToI32, [.i32ReinterpretF32]),
  (.unaryF64ToI64, [.i64ReinterpretF64]),
  (.unaryI32ToF32, [.f32ReinterpretI32]),
  (.unaryI64ToF64, [.f64ReinterpretI64]),
  (.unaryI32ToI32, [.i32Extend8S, .i32Extend16S]),
  (.unaryI64ToI64, [.i64Extend8S, .i64Extend16S, .i64Extend32S])]

/-- The `... for Binary instr BinaryOp::{..}` lines, in order: `simple_operations.rs` 313-322. -/
def binaryTable : List (SimpleKind × List BinaryOp) := [
  (.binaryI32I32toI32, [.i32Eq, .i32Ne, .i32LtS, .i32LtU, .i32GtS, .i32GtU, .i32LeS, .i32LeU, .i32GeS, .i32GeU]),
  (.binaryI64I64toI32, [.i64Eq, .i64Ne, .i64LtS, .i64LtU, .i64GtS, .i64GtU, .i64LeS, .i64LeU, .i64GeS, .i64GeU]),
  (.binaryF32F32toI32, [.f32Eq, .f32Ne, .f32Lt, .f32Gt, .f32Le, .f32Ge]),
  (.binaryF64F64toI32, [.f64Eq, .f64Ne, .f64Lt, .f64Gt, .f64Le, .f64Ge]),
  (.binaryI32I32toI32, [.i32Add, .i32Sub, .i32Mul, .i32DivS, .i32DivU, .i32RemS, .i32RemU, .i32And, .i32Or, .i32Xor, .i32Shl, .i32ShrS, .i32ShrU, .i32Rotl, .i32Rotr]),
  (.binaryI64I64toI64, [.i64Add, .i64Sub, .i64Mul, .i64DivS, .i64DivU, .i64RemS, .i64RemU, .i64And, .i64Or, .i64Xor, .i64Shl, .i64ShrS, .i64ShrU, .i64Rotl, .i64Rotr]),
  (.binaryF32F32toF32, [.f32Add, .f32Sub, .f32Mul, .f32Div, .f32Min, .f32Max, .f32Copysign]),
  (.binaryF64F64toF64, [.f64Add, .f64Sub, .f64Mul, .f64Div, .f64Min, .f64Max, .f64Copysign])]

/-- Some line of the macro matches target kind and operator (`matches!(op, ..)`, `simple_operations.rs` 215). -/
def unaryMatch (k : SimpleKind) (op : UnaryOp) : Bool := unaryTable.any (fun p => p.1 == k && p.2.contains op)

/-- Some line of the macro matches target kind and operator (`simple_operations.rs` 215). -/
def binaryMatch (k : SimpleKind) (op : BinaryOp) : Bool := binaryTable.any (fun p => p.1 == k && p.2.contains op)

mutual
/-- One round of the loop of `simple_operations::transform`: `simple_operations.rs` 252-354. -/
def Simple.transformI (k : SimpleKind) (trap : Nat) : TI → Except Panic (List TI)
  | .block m t body => do
    let b ← Simple.transform k trap body
    pure [placeUntouched m (.block · t b)]
  | .loop m t body => do
    let b ← Simple.transform k trap body
    pure [placeUntouched m (.loop · t b)]
  | .ifThen m t thn => do
    let a ← Simple.transform k trap thn
    pure [placeUntouched m (.ifThen · t a)]
  | .ifElse m t thn els => do
    let a ← Simple.transform k trap thn
    let b ← Simple.transform k trap els
    pure [placeUntouched m (.ifElse · t a b)]
  | .basic m b =>
    if m.flag then pure [placeUntouched m (.basic · b)] else
    match k, b with
    | .return, .ret => do                                           -- 254-262
      let c ← toTrapCall m trap
      pure (c ++ [← placeOriginal m (.basic · b)])
    | .drop, .drop => do                                            -- 264-272
      let c ← toTrapCall m trap
      pure (c ++ [← placeOriginal m (.basic · b)])
    | .constI32, .const (.i32 _) => do                              -- 276, 235-242
      let o ← placeOriginal m (.basic · b)
      pure ([o] ++ (← toTrapCall m trap))
    | .constF32, .const (.f32 _) => do                              -- 277
      let o ← placeOriginal m (.basic · b)
      pure ([o] ++ (← toTrapCall m trap))
    | .constI64, .const (.i64 _) => do                              -- 278
      let o ← placeOriginal m (.basic · b)
      pure ([o] ++ (← toTrapCall m trap))
    | .constF64, .const (.f64 _) => do                              -- 279
      let o ← placeOriginal m (.basic · b)
      pure ([o] ++ (← toTrapCall m trap))
    | k, .unary op =>                                               -- 282-310, 215-222
      if unaryMatch k op then do
        let a ← constI32 m op.serialize
        pure ([a] ++ (← toTrapCall m trap))
      else pure [placeUntouched m (.basic · b)]
    | k, .binary op =>                                              -- 312-322, 215-222
      if binaryMatch k op then do
        let a ← constI32 m op.serialize
        pure ([a] ++ (← toTrapCall m trap))
      else pure [placeUntouched m (.basic · b)]
    | _, _ => pure [placeUntouched m (.basic · b)]                  -- 352
/-- `simple_operations::transform`: `simple_operations.rs` 249-356. -/
def Simple.transform (k : SimpleKind) (trap : Nat) : List TI → Except Panic (List TI)
  | [] => pure []
  | i :: is => do
    let a ← Simple.transformI k trap i
    let b ← Simple.transform k trap is
    pure (a ++ b)
end

/-! ## `instrument/memory.rs` -/

/-- `memory::Target`: `memory.rs` 11-53. -/
inductive MemoryKind where
  | memorySize | memoryGrow | localGetI32 | localSetI32 | localTeeI32
  | globalGetI32 | globalSetI32 | localGetF32 | localSetF32 | localTeeF32
  | globalGetF32 | globalSetF32 | localGetI64 | localSetI64 | localTeeI64
  | globalGetI64 | globalSetI64 | localGetF64 | localSetF64 | localTeeF64
  | globalGetF64 | globalSetF64 | f32Store | f64Store | i32Store
  | i64Store | f32Load | f64Load | i32Load | i64Load
  deriving DecidableEq, Repr

/-- `impl Serialize for StoreOp`: `memory.rs` 336-350. -/
def StoreOp.serialize : StoreOp → BitVec 32
  | .i32Store => 1
  | .i64Store => 2
  | .f32Store => 3
  | .f64Store => 4
  | .i32Store8 => 5
  | .i32Store16 => 6
  | .i64Store8 => 7
  | .i64Store16 => 8
  | .i64Store32 => 9

/-- `impl Serialize for LoadOp`: `memory.rs` 352-371. -/
def LoadOp.serialize : LoadOp → BitVec 32
  | .i32Load => 1
  | .i64Load => 2
  | .f32Load => 3
  | .f64Load => 4
  | .i32Load8S => 5
  | .i32Load8U => 6
  | .i32Load16S => 7
  | .i32Load16U => 8
  | .i64Load8S => 9
  | .i64Load8U => 10
  | .i64Load16S => 11
  | .i64Load16U => 12
  | .i64Load32S => 13
  | .i64Load32U => 14

/-- The `store:` lines: `memory.rs` 265-273. -/
def storeTable : List (MemoryKind × StoreOp) :=
  [(.f32Store, .f32Store), (.f64Store, .f64Store), (.i32Store, .i32Store), (.i32Store, .i32Store16), (.i32Store, .i32Store8), (.i64Store, .i64Store), (.i64Store, .i64Store16), (.i64Store, .i64Store32), (.i64Store, .i64Store8)]

/-- The `load:` lines: `memory.rs` 282-295. -/
def loadTable : List (MemoryKind × LoadOp) :=
  [(.f32Load, .f32Load), (.f64Load, .f64Load), (.i32Load, .i32Load), (.i32Load, .i32Load16S), (.i32Load, .i32Load16U), (.i32Load, .i32Load8S), (.i32Load, .i32Load8U), (.i64Load, .i64Load), (.i64Load, .i64Load16S), (.i64Load, .i64Load16U), (.i64Load, .i64Load32S), (.i64Load, .i64Load32U), (.i64Load, .i64Load8S), (.i64Load, .i64Load8U)]

/-- How a local/global access is hooked: the value is offered to the trap after the access (`get`) or
before it (`set`, `tee`). -/
inductive AccessHook where
  | after (idx : Nat) | before (idx : Nat)
  deriving DecidableEq, Repr

/-- The match on (target, instruction, parameter types, result types): `memory.rs` 105-202. -/
def accessHook (k : MemoryKind) (b : Basic) (t : FuncType) : Option AccessHook :=
  match k, b, t.inputs, t.results with
  | .localGetI32, .loc .get i, [], [.i32] => some (.after i)
  | .localGetF32, .loc .get i, [], [.f32] => some (.after i)
  | .localGetI64, .loc .get i, [], [.i64] => some (.after i)
  | .localGetF64, .loc .get i, [], [.f64] => some (.after i)
  | .globalGetI32, .glob .get i, [], [.i32] => some (.after i)
  | .globalGetF32, .glob .get i, [], [.f32] => some (.after i)
  | .globalGetI64, .glob .get i, [], [.i64] => some (.after i)
  | .globalGetF64, .glob .get i, [], [.f64] => some (.after i)
  | .localSetI32, .loc .set i, [.i32], [] => some (.before i)
  | .localSetF32, .loc .set i, [.f32], [] => some (.before i)
  | .localSetI64, .loc .set i, [.i64], [] => some (.before i)
  | .localSetF64, .loc .set i, [.f64], [] => some (.before i)
  | .globalSetI32, .glob .set i, [.i32], [] => some (.before i)
  | .globalSetF32, .glob .set i, [.f32], [] => some (.before i)
  | .globalSetI64, .glob .set i, [.i64], [] => some (.before i)
  | .globalSetF64, .glob .set i, [.f64], [] => some (.before i)
  | .localTeeI32, .loc .tee i, [.i32], [.i32] => some (.before i)
  | .localTeeF32, .loc .tee i, [.f32], [.f32] => some (.before i)
  | .localTeeI64, .loc .tee i, [.i64], [.i64] => some (.before i)
  | .localTeeF64, .loc .tee i, [.f64], [.f64] => some (.before i)
  | _, _, _, _ => none

mutual
/-- One round of the loop of `memory::transform`: `memory.rs` 66-328. -/
def Memory.transformI (k : MemoryKind) (trap : Nat) : TI → Except Panic (List TI)
  | .block m t body => do
    let b ← Memory.transform k trap body
    pure [placeUntouched m (.block · t b)]
  | .loop m t body => do
    let b ← Memory.transform k trap body
    pure [placeUntouched m (.loop · t b)]
  | .ifThen m t thn => do
    let a ← Memory.transform k trap thn
    pure [placeUntouched m (.ifThen · t a)]
  | .ifElse m t thn els => do
    let a ← Memory.transform k trap thn
    let b ← Memory.transform k trap els
    pure [placeUntouched m (.ifElse · t a b)]
  | .basic m b =>
    if m.flag then pure [placeUntouched m (.basic · b)] else
    match k, b with
    | .memorySize, .memorySize i => do                              -- 69-80
      let o ← placeOriginal m (.basic · b)
      let a ← constI64 m (u32ToI64 i)
      pure ([o, a] ++ (← toTrapCall m trap))
    | .memoryGrow, .memoryGrow i => do                              -- 81-91
      let a ← constI64 m (u32ToI64 i)
      pure ([a] ++ (← toTrapCall m trap))
    | k, .store op ma =>                                            -- 208-231, 263-274
      if storeTable.contains (k, op) then do
        let a ← constI64 m (ma.offset.setWidth 64)
        let s ← constI32 m op.serialize
        pure ([a, s] ++ (← toTrapCall m trap))
      else pure [placeUntouched m (.basic · b)]
    | k, .load op ma =>                                             -- 232-254, 280-296
      if loadTable.contains (k, op) then do
        let a ← constI64 m (ma.offset.setWidth 64)
        let s ← constI32 m op.serialize
        pure ([a, s] ++ (← toTrapCall m trap))
      else pure [placeUntouched m (.basic · b)]
    | k, b =>                                                       -- 102-205
      match m.ty with
      | .reachable t =>
        match accessHook k b t with
        | some (.after i) => do                                     -- 106-143
          let o ← placeOriginal m (.basic · b)
          let a ← constI64 m (u32ToI64 i)
          pure ([o, a] ++ (← toTrapCall m trap))
        | some (.before i) => do                                    -- 144-199
          let a ← constI64 m (u32ToI64 i)
          let c ← toTrapCall m trap
          pure ([a] ++ c ++ [← placeOriginal m (.basic · b)])
        | none => pure [placeUntouched m (.basic · b)]
      | .unreachable => pure [placeUntouched m (.basic · b)]
/-- `memory::transform`: `memory.rs` 63-330. -/
def Memory.transform (k : MemoryKind) (trap : Nat) : List TI → Except Panic (List TI)
  | [] => pure []
  | i :: is => do
    let a ← Memory.transformI k trap i
    let b ← Memory.transform k trap is
    pure (a ++ b)
end

/-! ## `instrument/branch_if.rs` -/

/-- `wasabi_wasm::Code` (`generate_branch_table.rs` 15-21). -/
structure Code where
  locals : List ValType
  body : List LInstr
  deriving DecidableEq, Repr

/-- `wasabi_wasm::ImportOrPresent<Code>` (`function_application.rs` 67-87). -/
inductive FuncCode where
  | imported (nmspace name : String)
  | present (c : Code)
  deriving DecidableEq, Repr

/-- `wasabi_wasm::Function`: type, code, export names (debug names are dropped). -/
structure Func where
  type : FuncType
  code : FuncCode
  exports : List String
  deriving DecidableEq, Repr

/-- `Module::add_function` of `wasabi_wasm` (trusted): appends and returns the new index. -/
def addFunction (fs : List Func) (t : FuncType) (locals : List ValType) (body : List LInstr) : Nat × List Func :=
  (fs.length, fs ++ [⟨t, .present ⟨locals, body⟩, []⟩])

/-- `Module::add_function_import` of `wasabi_wasm` (trusted): appends and returns the new index. -/
def addFunctionImport (fs : List Func) (t : FuncType) (nmspace name : String) : Nat × List Func :=
  (fs.length, fs ++ [⟨t, .imported nmspace name, []⟩])

/-- `BrTable::to_br_table_for_generation`: `generate_branch_table.rs` 92-100. -/
def brTableForGeneration (table : List Nat) : LInstr := .brTable (List.range table.length) table.length

/-- The per-label code of `blocks_bodies`: `generate_branch_table.rs` 71-78. -/
def brTableEntry (l : Nat) : Except Panic (List LInstr) := do
  pure [.loc .get 0, .const (.i32 (← toI32 l)), .ret, .fin]

/-- `flat_map(..).collect()` of `generate_branch_table.rs` 68-79. -/
def brTableEntries : List Nat → Except Panic (List LInstr)
  | [] => pure []
  | l :: ls => do
    let a ← brTableEntry l
    let b ← brTableEntries ls
    pure (a ++ b)

/-- `BrTable::generate_body`: `generate_branch_table.rs` 26-90. -/
def brTableBody (table : List Nat) (default : Nat) : Except Panic (List LInstr) :=
  match table with
  | [] => do pure [.loc .get 0, .const (.i32 (← toI32 default)), .fin]
  | [l] => do
    pure [.loc .get 0, .loc .get 0, .unary .i32Eqz, .ite ⟨[], [.i32]⟩, .const (.i32 (← toI32 l)), .els,
      .const (.i32 (← toI32 default)), .fin, .fin]
  | _ => do
    let enter := table.map (fun _ => LInstr.block ⟨[], []⟩)
    let main := [LInstr.block ⟨[], []⟩, .loc .get 0, brTableForGeneration table, .fin]
    let bodies ← brTableEntries table
    pure (enter ++ main ++ bodies ++ [.loc .get 0, .const (.i32 (← toI32 default)), .fin])

/-- `BrTable::reify`: `generate_branch_table.rs` 13-23. -/
def brTableReify (table : List Nat) (default : Nat) : Except Panic Code := do
  pure ⟨[.i32], ← brTableBody table default⟩

/-- `branch_if::Target`: `branch_if.rs` 11-20. -/
inductive BranchKind where
  | ifThen | ifThenPost | ifThenElse | ifThenElsePost | br | brIf | brTable
  deriving DecidableEq, Repr

/-- The constants and trap call before an `if`: `branch_if.rs` 98-109 and 149-160. -/
def ifPrologue (m : Meta) (t : FuncType) (trap : Nat) : Except Panic (List TI) := do
  let a ← constI32 m (← toI32 t.inputs.length)
  let b ← constI32 m (← toI32 t.results.length)
  let c ← toTrapCall m trap
  pure ([a, b] ++ c)

mutual
/-- One round of the loop of `branch_if::transform`: `branch_if.rs` 53-245. The `&mut Module` is
represented by its vector of functions. -/
def Branch.transformI (k : BranchKind) (trap : Nat) : TI → List Func → Except Panic (List TI × List Func)
  | .block m t body, fs => do                                       -- 237-242
    let (b, fs) ← Branch.transform k trap body fs
    pure ([placeUntouched m (.block · t b)], fs)
  | .loop m t body, fs => do                                        -- 231-236
    let (b, fs) ← Branch.transform k trap body fs
    pure ([placeUntouched m (.loop · t b)], fs)
  | .ifThen m t thn, fs =>
    if m.flag then do
      let (a, fs) ← Branch.transform k trap thn fs
      pure ([placeUntouched m (.ifThen · t a)], fs)                 -- 217-223
    else match k with
      | .ifThen => do                                               -- 97-119
        let pre ← ifPrologue m t trap
        let (a, fs) ← Branch.transform k trap thn fs
        pure (pre ++ [← placeOriginal m (.ifThen · t a)], fs)
      | .ifThenPost => do                                           -- 120-144
        let (a, fs) ← Branch.transform k trap thn fs
        let c ← toTrapCall m trap
        let e ← toTrapCall m trap
        pure ([← instrumentWith m (.ifElse · t (a ++ c) e)], fs)
      | _ => do
        let (a, fs) ← Branch.transform k trap thn fs
        pure ([placeUntouched m (.ifThen · t a)], fs)
  | .ifElse m t thn els, fs =>
    if m.flag then do
      let (a, fs) ← Branch.transform k trap thn fs
      let (b, fs) ← Branch.transform k trap els fs
      pure ([placeUntouched m (.ifElse · t a b)], fs)               -- 224-230
    else match k with
      | .ifThenElse => do                                           -- 145-171
        let pre ← ifPrologue m t trap
        let (a, fs) ← Branch.transform k trap thn fs
        let (b, fs) ← Branch.transform k trap els fs
        pure (pre ++ [← placeOriginal m (.ifElse · t a b)], fs)
      | .ifThenElsePost => do                                       -- 172-198
        let (a, fs) ← Branch.transform k trap thn fs
        let c ← toTrapCall m trap
        let (b, fs) ← Branch.transform k trap els fs
        let d ← toTrapCall m trap
        pure ([← placeOriginal m (.ifElse · t (a ++ c) (b ++ d))], fs)
      | _ => do
        let (a, fs) ← Branch.transform k trap thn fs
        let (b, fs) ← Branch.transform k trap els fs
        pure ([placeUntouched m (.ifElse · t a b)], fs)
  | .basic m b, fs =>
    if m.flag then pure ([placeUntouched m (.basic · b)], fs) else
    match k, b with
    | .br, .br l => do                                              -- 56-66
      let a ← constI64 m (u32ToI64 l)
      let c ← toTrapCall m trap
      pure ([a] ++ c ++ [← placeOriginal m (.basic · b)], fs)
    | .brTable, .brTable table default => do                        -- 67-96
      let code ← brTableReify table default
      let (h, fs) := addFunction fs ⟨[.i32], [.i32, .i32]⟩ code.locals code.body
      let a ← instrumentWith m (.basic · (.call h))
      let d ← constI32 m (← toI32 default)
      let c ← toTrapCall m trap
      pure ([a, d] ++ c ++ [← placeOriginal m (.basic · b)], fs)
    | .brIf, .brIf l => do                                          -- 199-210
      let a ← constI32 m (← toI32 l)
      let c ← toTrapCall m trap
      pure ([a] ++ c ++ [← placeOriginal m (.basic · b)], fs)
    | _, _ => pure ([placeUntouched m (.basic · b)], fs)            -- 243
/-- `branch_if::transform`: `branch_if.rs` 49-247. -/
def Branch.transform (k : BranchKind) (trap : Nat) : List TI → List Func → Except Panic (List TI × List Func)
  | [], fs => pure ([], fs)
  | i :: is, fs => do
    let (a, fs) ← Branch.transformI k trap i fs
    let (b, fs) ← Branch.transform k trap is fs
    pure (a ++ b, fs)
end

/-! ## The trap table of `instrument/mod.rs` -/

/-- `Box<dyn TransformationStrategy>` built by the table (`instrument/mod.rs` 165-166): which module's
`Target`, which kind. -/
inductive TargetKind where
  | blockLoop (k : BlockLoopKind) | branch (k : BranchKind) | call (k : CallKind) | simple (k : SimpleKind)
  | memory (k : MemoryKind)
  deriving DecidableEq, Repr

/-- `TransformationStrategy::transform`: `block_loop.rs` 17-23, `branch_if.rs` 39-45,
`function_call_indirect.rs` 16-29, `simple_operations.rs` 45-51, `memory.rs` 55-61. -/
def TargetKind.transform (k : TargetKind) (trap : Nat) (body : List TI) (fs : List Func) :
    Except Panic (List TI × List Func) :=
  match k with
  | .blockLoop k => do pure (← BlockLoop.transform k trap body, fs)
  | .branch k => Branch.transform k trap body fs
  | .call k => do pure (← Calls.transform k trap body, fs)
  | .simple k => do pure (← Simple.transform k trap body, fs)
  | .memory k => do pure (← Memory.transform k trap body, fs)

/-- `traps_target_generators`: `instrument/mod.rs` 166-242. -/
def trapTable : List (Trap × TargetKind) := [
  (.preBlock, .blockLoop .blockPre),
  (.postBlock, .blockLoop .blockPost),
  (.preLoop, .blockLoop .loopPre),
  (.postLoop, .blockLoop .loopPost),
  (.select, .blockLoop .select),
  (.preTrapCall, .call .pre),
  (.postTrapCall, .call .post),
  (.preTrapCallIndirect, .call .indirectPre),
  (.postTrapCallIndirect, .call .indirectPost),
  (.ifThenTrap, .branch .ifThen),
  (.ifThenPostTrap, .branch .ifThenPost),
  (.ifThenElseTrap, .branch .ifThenElse),
  (.ifThenElsePostTrap, .branch .ifThenElsePost),
  (.brTrap, .branch .br),
  (.brIfTrap, .branch .brIf),
  (.brTableTrap, .branch .brTable),
  (.dropTrap, .simple .drop),
  (.returnTrap, .simple .return),
  (.constI32Trap, .simple .constI32),
  (.constF32Trap, .simple .constF32),
  (.constI64Trap, .simple .constI64),
  (.constF64Trap, .simple .constF64),
  (.unaryI32ToI32, .simple .unaryI32ToI32),
  (.unaryI64ToI32, .simple .unaryI64ToI32),
  (.unaryI64ToI64, .simple .unaryI64ToI64),
  (.unaryF32ToF32, .simple .unaryF32ToF32),
  (.unaryF64ToF64, .simple .unaryF64ToF64),
  (.unaryF32ToI32, .simple .unaryF32ToI32),
  (.unaryF64ToI32, .simple .unaryF64ToI32),
  (.unaryI32ToI64, .simple .unaryI32ToI64),
  (.unaryF32ToI64, .simple .unaryF32ToI64),
  (.unaryF64ToI64, .simple .unaryF64ToI64),
  (.unaryI32ToF32, .simple .unaryI32ToF32),
  (.unaryI64ToF32, .simple .unaryI64ToF32),
  (.unaryF64ToF32, .simple .unaryF64ToF32),
  (.unaryI32ToF64, .simple .unaryI32ToF64),
  (.unaryI64ToF64, .simple .unaryI64ToF64),
  (.unaryF32ToF64, .simple .unaryF32ToF64),
  (.binaryI32I32ToI32, .simple .binaryI32I32toI32),
  (.binaryI64I64ToI32, .simple .binaryI64I64toI32),
  (.binaryF32F32ToI32, .simple .binaryF32F32toI32),
  (.binaryF64F64ToI32, .simple .binaryF64F64toI32),
  (.binaryI64I64ToI64, .simple .binaryI64I64toI64),
  (.binaryF32F32ToF32, .simple .binaryF32F32toF32),
  (.binaryF64F64ToF64, .simple .binaryF64F64toF64),
  (.memorySize, .memory .memorySize),
  (.memoryGrow, .memory .memoryGrow),
  (.localGetI32, .memory .localGetI32),
  (.localSetI32, .memory .localSetI32),
  (.localTeeI32, .memory .localTeeI32),
  (.globalGetI32, .memory .globalGetI32),
  (.globalSetI32, .memory .globalSetI32),
  (.localGetF32, .memory .localGetF32),
  (.localSetF32, .memory .localSetF32),
  (.localTeeF32, .memory .localTeeF32),
  (.globalGetF32, .memory .globalGetF32),
  (.globalSetF32, .memory .globalSetF32),
  (.localGetI64, .memory .localGetI64),
  (.localSetI64, .memory .localSetI64),
  (.localTeeI64, .memory .localTeeI64),
  (.globalGetI64, .memory .globalGetI64),
  (.globalSetI64, .memory .globalSetI64),
  (.localGetF64, .memory .localGetF64),
  (.localSetF64, .memory .localSetF64),
  (.localTeeF64, .memory .localTeeF64),
  (.globalGetF64, .memory .globalGetF64),
  (.globalSetF64, .memory .globalSetF64),
  (.f32Store, .memory .f32Store),
  (.f64Store, .memory .f64Store),
  (.i32Store, .memory .i32Store),
  (.i64Store, .memory .i64Store),
  (.f32Load, .memory .f32Load),
  (.f64Load, .memory .f64Load),
  (.i32Load, .memory .i32Load),
  (.i64Load, .memory .i64Load)]

/-- `targets.iter().fold(body, |b, target| target.transform(&b, &mut module))`: `instrument/mod.rs` 257-259. -/
def runPasses : List (TargetKind × Nat) → List TI → List Func → Except Panic (List TI × List Func)
  | [], b, fs => pure (b, fs)
  | (k, trap) :: ts, b, fs => do
    let (b', fs') ← k.transform trap b fs
    runPasses ts b' fs'

end Wastrum
