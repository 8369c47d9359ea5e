/-!
# Syntax of WebAssembly as seen by the instrumentation platform

Models the types of `wasabi_wasm` (a dependency whose source is not in `/repo`) exactly as far as they
are used in `/repo`: the constructor lists below are the ones matched on in
`wastrumentation/src/parse_nesting/high_level_body.rs` 17-66 and 80-129,
`wastrumentation/src/parse_nesting/typed_high_level_body.rs` 112-161 and 163-212.

Indices and labels are `u32` in Rust and `Nat` here; the places where Rust converts them to `i32`
(and may panic) are modelled explicitly in the passes.
-/

namespace Wastrum

/-- `wasabi_wasm::RefType` (used at `wastrumentation/src/stack_library.rs` 63-68). -/
inductive RefType where
  | funcRef | externRef
  deriving DecidableEq, Repr

/-- `wasabi_wasm::ValType` (matched at `wastrumentation/src/stack_library.rs` 53-61). -/
inductive ValType where
  | i32 | i64 | f32 | f64 | ref (r : RefType)
  deriving DecidableEq, Repr

/-- `wasabi_wasm::FunctionType`: `inputs()` and `results()`
(used at `wastrumentation/src/instrument/mod.rs` 302-316). -/
structure FuncType where
  inputs : List ValType
  results : List ValType
  deriving DecidableEq, Repr

/-- `wasabi_wasm::UnaryOp`; the 60 variants listed at
`wastrumentation/src/instrument/simple_operations.rs` 59-120, in that order. -/
inductive UnaryOp where
  | i32Eqz | i64Eqz | i32Clz | i32Ctz | i32Popcnt | i64Clz
  | i64Ctz | i64Popcnt | f32Abs | f32Neg | f32Ceil | f32Floor
  | f32Trunc | f32Nearest | f32Sqrt | f64Abs | f64Neg | f64Ceil
  | f64Floor | f64Trunc | f64Nearest | f64Sqrt | i32WrapI64 | i32TruncF32S
  | i32TruncF32U | i32TruncF64S | i32TruncF64U | i32TruncSatF32S | i32TruncSatF32U | i32TruncSatF64S
  | i32TruncSatF64U | i64ExtendI32S | i64ExtendI32U | i64TruncF32S | i64TruncF32U | i64TruncF64S
  | i64TruncF64U | i64TruncSatF32S | i64TruncSatF32U | i64TruncSatF64S | i64TruncSatF64U | f32ConvertI32S
  | f32ConvertI32U | f32ConvertI64S | f32ConvertI64U | f32DemoteF64 | f64ConvertI32S | f64ConvertI32U
  | f64ConvertI64S | f64ConvertI64U | f64PromoteF32 | i32ReinterpretF32 | i64ReinterpretF64 | f32ReinterpretI32
  | f64ReinterpretI64 | i32Extend8S | i32Extend16S | i64Extend8S | i64Extend16S | i64Extend32S
  deriving DecidableEq, Repr

/-- `wasabi_wasm::BinaryOp`; the 76 variants listed at
`wastrumentation/src/instrument/simple_operations.rs` 126-203, in that order. -/
inductive BinaryOp where
  | i32Eq | i32Ne | i32LtS | i32LtU | i32GtS | i32GtU
  | i32LeS | i32LeU | i32GeS | i32GeU | i64Eq | i64Ne
  | i64LtS | i64LtU | i64GtS | i64GtU | i64LeS | i64LeU
  | i64GeS | i64GeU | f32Eq | f32Ne | f32Lt | f32Gt
  | f32Le | f32Ge | f64Eq | f64Ne | f64Lt | f64Gt
  | f64Le | f64Ge | i32Add | i32Sub | i32Mul | i32DivS
  | i32DivU | i32RemS | i32RemU | i32And | i32Or | i32Xor
  | i32Shl | i32ShrS | i32ShrU | i32Rotl | i32Rotr | i64Add
  | i64Sub | i64Mul | i64DivS | i64DivU | i64RemS | i64RemU
  | i64And | i64Or | i64Xor | i64Shl | i64ShrS | i64ShrU
  | i64Rotl | i64Rotr | f32Add | f32Sub | f32Mul | f32Div
  | f32Min | f32Max | f32Copysign | f64Add | f64Sub | f64Mul
  | f64Div | f64Min | f64Max | f64Copysign
  deriving DecidableEq, Repr

/-- `wasabi_wasm::LoadOp`; the 14 variants listed at `wastrumentation/src/instrument/memory.rs` 354-369. -/
inductive LoadOp where
  | i32Load | i64Load | f32Load | f64Load | i32Load8S | i32Load8U
  | i32Load16S | i32Load16U | i64Load8S | i64Load8U | i64Load16S | i64Load16U
  | i64Load32S | i64Load32U
  deriving DecidableEq, Repr

/-- `wasabi_wasm::StoreOp`; the 9 variants listed at `wastrumentation/src/instrument/memory.rs` 338-348. -/
inductive StoreOp where
  | i32Store | i64Store | f32Store | f64Store | i32Store8 | i32Store16
  | i64Store8 | i64Store16 | i64Store32
  deriving DecidableEq, Repr

/-- `wasabi_wasm::Val`, the immediate of a `const` instruction
(`wastrumentation/src/instrument/simple_operations.rs` 276-279). Floats are kept as bit patterns, so
equality here is bitwise (Rust uses `OrderedFloat`). -/
inductive Val where
  | i32 (v : BitVec 32) | i64 (v : BitVec 64) | f32 (bits : BitVec 32) | f64 (bits : BitVec 64)
  deriving DecidableEq, Repr

/-- The type of an immediate. -/
def Val.type : Val → ValType
  | .i32 _ => .i32 | .i64 _ => .i64 | .f32 _ => .f32 | .f64 _ => .f64

/-- `wasabi_wasm::LocalOp` (`wastrumentation/src/instrument/memory.rs` 98). -/
inductive LocalOp where
  | get | set | tee
  deriving DecidableEq, Repr

/-- `wasabi_wasm::GlobalOp` (`wastrumentation/src/instrument/memory.rs` 96). -/
inductive GlobalOp where
  | get | set
  deriving DecidableEq, Repr

/-- `wasabi_wasm::Memarg`: static offset and alignment
(`wastrumentation/src/instrument/memory.rs` 217, 240, 425). -/
structure Memarg where
  offset : BitVec 32
  alignExp : Nat
  deriving DecidableEq, Repr

/-- `wasabi_wasm::Instr`: flat WebAssembly instructions. One constructor per arm of the conversion at
`wastrumentation/src/parse_nesting/high_level_body.rs` 84-127. -/
inductive LInstr where
  | unreachable
  | nop
  | br (l : Nat)
  | brIf (l : Nat)
  | brTable (table : List Nat) (default : Nat)
  | ret
  | call (f : Nat)
  | callIndirect (t : FuncType) (tbl : Nat)
  | refNull (r : RefType)
  | refIsNull
  | refFunc (f : Nat)
  | drop
  | select
  | typedSelect (t : ValType)
  | loc (op : LocalOp) (i : Nat)
  | glob (op : GlobalOp) (i : Nat)
  | tableGet (i : Nat)
  | tableSet (i : Nat)
  | tableSize (i : Nat)
  | tableGrow (i : Nat)
  | tableFill (i : Nat)
  | tableCopy (i j : Nat)
  | tableInit (i e : Nat)
  | elemDrop (e : Nat)
  | load (op : LoadOp) (m : Memarg)
  | store (op : StoreOp) (m : Memarg)
  | memorySize (i : Nat)
  | memoryGrow (i : Nat)
  | memoryFill
  | memoryCopy
  | memoryInit (d : Nat)
  | dataDrop (d : Nat)
  | const (v : Val)
  | unary (op : UnaryOp)
  | binary (op : BinaryOp)
  | block (t : FuncType) | loop (t : FuncType) | ite (t : FuncType) | els | fin
  deriving DecidableEq, Repr

/-- The non-structured instructions of the nested representation: all constructors of
`high_level_body.rs` 17-66 (equally `typed_high_level_body.rs` 112-161) except `Block`, `Loop`, `If`. -/
inductive Basic where
  | unreachable
  | nop
  | br (l : Nat)
  | brIf (l : Nat)
  | brTable (table : List Nat) (default : Nat)
  | ret
  | call (f : Nat)
  | callIndirect (t : FuncType) (tbl : Nat)
  | refNull (r : RefType)
  | refIsNull
  | refFunc (f : Nat)
  | drop
  | select
  | typedSelect (t : ValType)
  | loc (op : LocalOp) (i : Nat)
  | glob (op : GlobalOp) (i : Nat)
  | tableGet (i : Nat)
  | tableSet (i : Nat)
  | tableSize (i : Nat)
  | tableGrow (i : Nat)
  | tableFill (i : Nat)
  | tableCopy (i j : Nat)
  | tableInit (i e : Nat)
  | elemDrop (e : Nat)
  | load (op : LoadOp) (m : Memarg)
  | store (op : StoreOp) (m : Memarg)
  | memorySize (i : Nat)
  | memoryGrow (i : Nat)
  | memoryFill
  | memoryCopy
  | memoryInit (d : Nat)
  | dataDrop (d : Nat)
  | const (v : Val)
  | unary (op : UnaryOp)
  | binary (op : BinaryOp)
  deriving DecidableEq, Repr

/-- `impl TryFrom<wasabi_wasm::Instr> for Instr`: `high_level_body.rs` 80-129 and, with the same
text, `typed_high_level_body.rs` 163-212. `none` is `LowToHighError::TrivialCastAttempt`. -/
def LInstr.toBasic : LInstr → Option Basic
  | .unreachable => some .unreachable
  | .nop => some .nop
  | .br l => some (.br l)
  | .brIf l => some (.brIf l)
  | .brTable table default => some (.brTable table default)
  | .ret => some .ret
  | .call f => some (.call f)
  | .callIndirect t tbl => some (.callIndirect t tbl)
  | .refNull r => some (.refNull r)
  | .refIsNull => some .refIsNull
  | .refFunc f => some (.refFunc f)
  | .drop => some .drop
  | .select => some .select
  | .typedSelect t => some (.typedSelect t)
  | .loc op i => some (.loc op i)
  | .glob op i => some (.glob op i)
  | .tableGet i => some (.tableGet i)
  | .tableSet i => some (.tableSet i)
  | .tableSize i => some (.tableSize i)
  | .tableGrow i => some (.tableGrow i)
  | .tableFill i => some (.tableFill i)
  | .tableCopy i j => some (.tableCopy i j)
  | .tableInit i e => some (.tableInit i e)
  | .elemDrop e => some (.elemDrop e)
  | .load op m => some (.load op m)
  | .store op m => some (.store op m)
  | .memorySize i => some (.memorySize i)
  | .memoryGrow i => some (.memoryGrow i)
  | .memoryFill => some .memoryFill
  | .memoryCopy => some .memoryCopy
  | .memoryInit d => some (.memoryInit d)
  | .dataDrop d => some (.dataDrop d)
  | .const v => some (.const v)
  | .unary op => some (.unary op)
  | .binary op => some (.binary op)
  | .block _ => none | .loop _ => none | .ite _ => none | .els => none | .fin => none

/-- The "rest is not interesting, just push" arms of the lowering: `high_level_body.rs` 249-288 and,
with the same text, `typed_high_level_body.rs` 410-449. -/
def Basic.toL : Basic → LInstr
  | .unreachable => .unreachable
  | .nop => .nop
  | .br l => .br l
  | .brIf l => .brIf l
  | .brTable table default => .brTable table default
  | .ret => .ret
  | .call f => .call f
  | .callIndirect t tbl => .callIndirect t tbl
  | .refNull r => .refNull r
  | .refIsNull => .refIsNull
  | .refFunc f => .refFunc f
  | .drop => .drop
  | .select => .select
  | .typedSelect t => .typedSelect t
  | .loc op i => .loc op i
  | .glob op i => .glob op i
  | .tableGet i => .tableGet i
  | .tableSet i => .tableSet i
  | .tableSize i => .tableSize i
  | .tableGrow i => .tableGrow i
  | .tableFill i => .tableFill i
  | .tableCopy i j => .tableCopy i j
  | .tableInit i e => .tableInit i e
  | .elemDrop e => .elemDrop e
  | .load op m => .load op m
  | .store op m => .store op m
  | .memorySize i => .memorySize i
  | .memoryGrow i => .memoryGrow i
  | .memoryFill => .memoryFill
  | .memoryCopy => .memoryCopy
  | .memoryInit d => .memoryInit d
  | .dataDrop d => .dataDrop d
  | .const v => .const v
  | .unary op => .unary op
  | .binary op => .binary op

/-- Untyped nested instructions, `high_level_body.rs` 17-66. `If(_, _, None)` is `ifThen` and
`If(_, _, Some(_))` is `ifElse`. -/
inductive HI where
  | basic (b : Basic)
  | block (t : FuncType) (body : List HI)
  | loop (t : FuncType) (body : List HI)
  | ifThen (t : FuncType) (thn : List HI)
  | ifElse (t : FuncType) (thn els : List HI)
  deriving Repr

/-- `wasabi_wasm::types::InferredInstructionType`. -/
inductive InferredTy where
  | reachable (t : FuncType) | unreachable
  deriving DecidableEq, Repr

/-- The fields of `TypedHighLevelInstr` other than `instr`: `typed_high_level_body.rs` 17-24
(`flag` is `instrumentation_instruction`). -/
structure Meta where
  fidx : Nat
  iidx : Nat
  ty : InferredTy
  flag : Bool
  deriving DecidableEq, Repr

/-- `TypedHighLevelInstr` (`typed_high_level_body.rs` 16-24, 111-161): a nested instruction together
with its metadata. The record-of-enum of the source is flattened to constructors carrying `Meta`. -/
inductive TI where
  | basic (m : Meta) (b : Basic)
  | block (m : Meta) (t : FuncType) (body : List TI)
  | loop (m : Meta) (t : FuncType) (body : List TI)
  | ifThen (m : Meta) (t : FuncType) (thn : List TI)
  | ifElse (m : Meta) (t : FuncType) (thn els : List TI)
  deriving Repr

/-- Simultaneous induction over nested instructions and bodies. -/
theorem HI.induct {P : HI → Prop} {Q : List HI → Prop}
    (basic : ∀ b, P (.basic b))
    (block : ∀ t body, Q body → P (.block t body))
    (loop : ∀ t body, Q body → P (.loop t body))
    (ifThen : ∀ t thn, Q thn → P (.ifThen t thn))
    (ifElse : ∀ t thn els, Q thn → Q els → P (.ifElse t thn els))
    (nil : Q []) (cons : ∀ i l, P i → Q l → Q (i :: l)) :
    (∀ i, P i) ∧ (∀ l, Q l) :=
  ⟨fun i => HI.rec (motive_1 := P) (motive_2 := Q) basic block loop ifThen ifElse nil cons i,
   fun l => HI.rec_1 (motive_1 := P) (motive_2 := Q) basic block loop ifThen ifElse nil cons l⟩

/-- Simultaneous induction over nested typed instructions and bodies. -/
theorem TI.induct {P : TI → Prop} {Q : List TI → Prop}
    (basic : ∀ m b, P (.basic m b))
    (block : ∀ m t body, Q body → P (.block m t body))
    (loop : ∀ m t body, Q body → P (.loop m t body))
    (ifThen : ∀ m t thn, Q thn → P (.ifThen m t thn))
    (ifElse : ∀ m t thn els, Q thn → Q els → P (.ifElse m t thn els))
    (nil : Q []) (cons : ∀ i l, P i → Q l → Q (i :: l)) :
    (∀ i, P i) ∧ (∀ l, Q l) :=
  ⟨fun i => TI.rec (motive_1 := P) (motive_2 := Q) basic block loop ifThen ifElse nil cons i,
   fun l => TI.rec_1 (motive_1 := P) (motive_2 := Q) basic block loop ifThen ifElse nil cons l⟩

end Wastrum
