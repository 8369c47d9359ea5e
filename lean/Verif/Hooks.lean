import Verif.Interface
/-!
# Selecting hooks: the analysis specifications of Rust and WebAssembly analyses, and the command line
-/

namespace Wastrum

/-- `Hook`: `supported-languages/rust/src/generate/analysis/mod.rs` 25-55 and (the same) `supported-languages/webassembly/src/generate/analysis/mod.rs` 24-54. -/
inductive Hook where
  | genericApply | callPre | callPost | callIndirectPre | callIndirectPost | ifThen | ifThenPost | ifThenElse
  | ifThenElsePost | branch | branchIf | branchTable | select | unary | binary | drop
  | ret | const | locals | globals | store | load | memorySize | memoryGrow
  | blockPre | blockPost | loopPre | loopPost
  deriving DecidableEq, Repr

/-- The elements of `Hook::all_hooks()`: `rust/src/generate/analysis/mod.rs` 57-91. -/
def Hook.all : List Hook :=
  [.genericApply, .callPre, .callPost, .callIndirectPre, .callIndirectPost, .ifThen, .ifThenPost, .ifThenElse,
   .ifThenElsePost, .branch, .branchIf, .branchTable, .select, .unary, .binary, .drop, .ret, .const, .locals, .globals,
   .store, .load, .memorySize, .memoryGrow, .blockPre, .blockPost, .loopPre, .loopPost]

/-- The assignments in the arm of `interface_from` for a hook: which field is set, and the signature function the value comes
from. `rust/src/generate/analysis/mod.rs` 93-229. (`GenericApply` sets `generic_interface`, see `Interface.add`.) -/
def Hook.arm : Hook → List (Trap × Trap)
  | .genericApply => []
  | .callPre => [(.preTrapCall, .preTrapCall)]
  | .callPost => [(.postTrapCall, .postTrapCall)]
  | .callIndirectPre => [(.preTrapCallIndirect, .preTrapCallIndirect)]
  | .callIndirectPost => [(.postTrapCallIndirect, .postTrapCallIndirect)]
  | .ifThen => [(.ifThenTrap, .ifThenTrap)]
  | .ifThenPost => [(.ifThenPostTrap, .ifThenPostTrap)]
  | .ifThenElse => [(.ifThenElseTrap, .ifThenElseTrap)]
  | .ifThenElsePost => [(.ifThenElsePostTrap, .ifThenElsePostTrap)]
  | .branch => [(.brTrap, .brTrap)]
  | .branchIf => [(.brIfTrap, .brIfTrap)]
  | .branchTable => [(.brTableTrap, .brTableTrap)]
  | .select => [(.select, .select)]
  | .unary => [
    (.unaryI32ToI32, .unaryI32ToI32), (.unaryI64ToI32, .unaryI64ToI32), (.unaryI64ToI64, .unaryI64ToI64),
    (.unaryF32ToF32, .unaryF32ToF32), (.unaryF64ToF64, .unaryF64ToF64), (.unaryF32ToI32, .unaryF32ToI32),
    (.unaryF64ToI32, .unaryF64ToI32), (.unaryI32ToI64, .unaryI32ToI64), (.unaryF32ToI64, .unaryF32ToI64),
    (.unaryF64ToI64, .unaryF64ToI64), (.unaryI32ToF32, .unaryI32ToF32), (.unaryI64ToF32, .unaryI64ToF32),
    (.unaryF64ToF32, .unaryF64ToF32), (.unaryI32ToF64, .unaryI32ToF64), (.unaryI64ToF64, .unaryI64ToF64),
    (.unaryF32ToF64, .unaryF32ToF64)]
  | .binary => [
    (.binaryI32I32ToI32, .binaryI32I32ToI32), (.binaryI64I64ToI32, .binaryI64I64ToI32),
    (.binaryF32F32ToI32, .binaryF32F32ToI32), (.binaryF64F64ToI32, .binaryF64F64ToI32),
    (.binaryI64I64ToI64, .binaryI64I64ToI64), (.binaryF32F32ToF32, .binaryF32F32ToF32),
    (.binaryF64F64ToF64, .binaryF64F64ToF64)]
  | .drop => [(.dropTrap, .dropTrap)]
  | .ret => [(.returnTrap, .returnTrap)]
  | .const => [
    (.constI32Trap, .constI32Trap), (.constF32Trap, .constF32Trap), (.constI64Trap, .constI64Trap),
    (.constF64Trap, .constF64Trap)]
  | .locals => [
    (.localGetI32, .localGetI32), (.localSetI32, .localSetI32), (.localTeeI32, .localTeeI32), (.localGetF32, .localGetF32),
    (.localSetF32, .localSetF32), (.localTeeF32, .localTeeF32), (.localGetI64, .localGetI64), (.localSetI64, .localSetI64),
    (.localTeeI64, .localTeeI64), (.localGetF64, .localGetF64), (.localSetF64, .localSetF64), (.localTeeF64, .localTeeF64)]
  | .globals => [
    (.globalGetI32, .globalGetI32), (.globalSetI32, .globalSetI32), (.globalGetF32, .globalGetF32),
    (.globalSetF32, .globalSetF32), (.globalGetI64, .globalGetI64), (.globalSetI64, .globalSetI64),
    (.globalGetF64, .globalGetF64), (.globalSetF64, .globalSetF64)]
  | .store => [(.f32Store, .f32Store), (.f64Store, .f64Store), (.i32Store, .i32Store), (.i64Store, .i64Store)]
  | .load => [(.f32Load, .f32Load), (.f64Load, .f64Load), (.i32Load, .i32Load), (.i64Load, .i64Load)]
  | .memorySize => [(.memorySize, .memorySize)]
  | .memoryGrow => [(.memoryGrow, .memoryGrow)]
  | .blockPre => [(.preBlock, .preBlock)]
  | .blockPost => [(.postBlock, .postBlock)]
  | .loopPre => [(.preLoop, .preLoop)]
  | .loopPost => [(.postLoop, .postLoop)]

/-- `interface.field = Some(AnalysisInterface::interface_…())`. -/
def Interface.setTrap (i : Interface) (field value : Trap) : Interface :=
  { i with trap := fun t => if t = field then some value.export else i.trap t }

/-- The body of the loop of `interface_from`. -/
def Interface.add (i : Interface) (h : Hook) : Interface :=
  match h with
  | .genericApply => { i with generic := some interfaceGenericApply }
  | h => h.arm.foldl (fun i p => i.setTrap p.1 p.2) i

/-- `AnalysisInterface::default()`: nothing is present. -/
def Interface.empty : Interface := ⟨none, fun _ => none⟩

/-- `interface_from`: `rust/src/generate/analysis/mod.rs` 93-229, `webassembly/…` 92-228. The set of hooks is given by a list
of its elements in the (unspecified) order in which the loop visits them. -/
def interfaceFrom (hooks : List Hook) : Interface := hooks.foldl Interface.add Interface.empty

/-- The command line's `Hook`: `cli/src/main.rs` 37-68. -/
inductive CliHook where
  | genericApply | callPre | callPost | callIndirectPre | callIndirectPost | ifThen | ifThenPost | ifThenElse
  | ifThenElsePost | branch | branchIf | branchTable | select | unary | binary | drop
  | ret | const | locals | globals | store | load | memorySize | memoryGrow
  | blockPre | blockPost | loopPre | loopPost
  deriving DecidableEq, Repr

/-- `From<&Hook> for AnalysisHook`: `cli/src/main.rs` 70-103. -/
def CliHook.toHook : CliHook → Hook
  | .genericApply => .genericApply
  | .callPre => .callPre
  | .callPost => .callPost
  | .callIndirectPre => .callIndirectPre
  | .callIndirectPost => .callIndirectPost
  | .ifThen => .ifThen
  | .ifThenPost => .ifThenPost
  | .ifThenElse => .ifThenElse
  | .ifThenElsePost => .ifThenElsePost
  | .branch => .branch
  | .branchIf => .branchIf
  | .branchTable => .branchTable
  | .select => .select
  | .unary => .unary
  | .binary => .binary
  | .drop => .drop
  | .ret => .ret
  | .const => .const
  | .locals => .locals
  | .globals => .globals
  | .store => .store
  | .load => .load
  | .memorySize => .memorySize
  | .memoryGrow => .memoryGrow
  | .blockPre => .blockPre
  | .blockPost => .blockPost
  | .loopPre => .loopPre
  | .loopPost => .loopPost

/-- The selection of hooks by the command line: `cli/src/main.rs` 117-120. `none` if `--hooks` is not given. The result is
collected into a set; here it is a list of its elements. -/
def selectHooks : Option (List CliHook) → List Hook
  | none => Hook.all
  | some hooks => hooks.map CliHook.toHook

end Wastrum
