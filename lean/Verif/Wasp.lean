import Verif.Interface
/-!
# Wasp: analyses written as advice

This file starts from the tree that the parser produces; the parser (generated by `pest` from `wasp-compiler/wasp.pest`) is
modelled in `WaspText.lean`.
-/

namespace Wastrum.Wasp

/-- `CallQualifier`: `wasp-compiler/src/ast/pest/mod.rs` 13-17. -/
inductive CallQualifier where
  | pre | post
  deriving DecidableEq, Repr

/-- `TypedArgument`: `ast/pest/mod.rs` 279-286; also `ApplyFormalArgument` and `ApplyFormalResult` (226-232), which wrap one. -/
structure TypedArg where
  identifier : String
  typeIdentifier : String
  deriving DecidableEq, Repr

/-- `ApplyHookSignature` of the parse tree: `ast/pest/mod.rs` 186-218. -/
inductive PestApply where
  | gen (func : String) (argument result : TypedArg)
  /-- With `Mut` (`wasp.pest` 49). -/
  | speInter (func : String) (arguments results : List TypedArg)
  /-- Without `Mut` (`wasp.pest` 47). -/
  | speIntro (func : String) (arguments results : List TypedArg)
  deriving DecidableEq, Repr

/-- The kinds of advice other than apply, which the conversion copies unchanged, with their parameters:
`ast/pest/mod.rs` 63-184, 234-277 and `ast/wasp.rs` 33-48, 87-167. -/
inductive PlainTrap where
  | call (q : CallQualifier) (target : String)
  | blockPre | blockPost | loopPre | loopPost
  | select (condition : String)
  | callIndirectPre (table index : String)
  | callIndirectPost (table : String)
  | ifThen (condition : String)
  | ifThenElse (condition : String)
  | brIf (condition label : String)
  | brTable (target default : String)
  deriving DecidableEq, Repr

/-- `AdviceDefinition` of the parse tree, every advice with its body: `ast/pest/mod.rs` 44-61. -/
inductive PestAdvice where
  | global (code : String)
  | apply (sig : PestApply) (body : String)
  | plain (t : PlainTrap) (body : String)
  deriving DecidableEq, Repr

/-- `WasmType`: `ast/wasp.rs` 169-175. -/
inductive WType where
  | i32 | f32 | i64 | f64
  deriving DecidableEq, Repr

/-- `WasmParameter`: `ast/wasp.rs` 188-192. -/
structure WParam where
  identifier : String
  type : WType
  deriving DecidableEq, Repr

/-- `GenericTarget`: `ast/wasp.rs` 62-67. -/
inductive GenericTarget where
  | highLevel | dynamic | mutableDynamic
  deriving DecidableEq, Repr

/-- `ApplyHookSignature`, `ApplyGen`, `ApplySpe`: `ast/wasp.rs` 56-84. -/
inductive ApplySig where
  | gen (means : GenericTarget) (function arguments results : String)
  | spe (mutableSignature : Bool) (applyParameter : String) (arguments results : List WParam)
  deriving DecidableEq, Repr

/-- `AdviceDefinition`: `ast/wasp.rs` 28-54. A program, `Root`, is a list of these. -/
inductive Advice where
  | global (code : String)
  | apply (sig : ApplySig) (body : String)
  | plain (t : PlainTrap) (body : String)
  deriving DecidableEq, Repr

/-- `Error`: `wasp-compiler/src/error.rs` 4-24, without the errors of the parser; `panic` is a panic. The list of supported
types in the message is fixed. -/
inductive WError where
  | nonUniqueParameters (l : List String)
  | incorrectArgsRessType (args ress : String)
  | duplicateArgsRessParameter (p : String)
  | duplicateParameter (p : String)
  | unsupportedIdentifierType (unsupported : String)
  | panic
  deriving DecidableEq, Repr

/-- `TryFrom<pest_ast::ApplyGen> for ApplyGen`: `ast/wasp.rs` 477-523. The set of three names has three elements exactly if they
are pairwise different. -/
def applyGen (func : String) (argument result : TypedArg) : Except WError ApplySig :=
  let means : Except WError GenericTarget :=
    if argument.typeIdentifier = "Args" ∧ result.typeIdentifier = "Results" then .ok .highLevel
    else if argument.typeIdentifier = "DynArgs" ∧ result.typeIdentifier = "DynResults" then .ok .dynamic
    else if argument.typeIdentifier = "MutDynArgs" ∧ result.typeIdentifier = "MutDynResults" then .ok .mutableDynamic
    else .error (.incorrectArgsRessType argument.typeIdentifier result.typeIdentifier)
  match means with
  | .error e => .error e
  | .ok means =>
    let parameters := ((([] : List String).insert func).insert argument.identifier).insert result.identifier
    if parameters.length = 3 then .ok (.gen means func argument.identifier result.identifier)
    else .error (.nonUniqueParameters [func, argument.identifier, result.identifier])

/-- The types of typed parameters: `ast/wasp.rs` 601-617. -/
def wtype? : String → Option WType
  | "I32" => some .i32
  | "F32" => some .f32
  | "I64" => some .i64
  | "F64" => some .f64
  | _ => none

/-- The loop of `TryFrom<Vec<TypedArgument>> for WasmParameterVec`: `ast/wasp.rs` 596-628. `seen` is the set of identifiers,
`out` the vector so far. -/
def paramsLoop : List TypedArg → List String → List WParam → Except WError (List WParam)
  | [], _, out => .ok out
  | p :: l, seen, out => match wtype? p.typeIdentifier with
    | none => .error (.unsupportedIdentifierType p.typeIdentifier)
    | some t =>
      if p.identifier ∈ seen then .error (.duplicateParameter p.identifier)
      else paramsLoop l (seen.insert p.identifier) (out ++ [⟨p.identifier, t⟩])

/-- `TryFrom<Vec<TypedArgument>> for WasmParameterVec`: `ast/wasp.rs` 590-630 (and 632-660, which unwrap the arguments). -/
def params (l : List TypedArg) : Except WError (List WParam) := paramsLoop l [] []

/-- The loop of `distinct_arguments`: `ast/wasp.rs` 578-585. -/
def distinctLoop : List WParam → List String → Except WError Unit
  | [], _ => .ok ()
  | p :: l, seen =>
    if p.identifier ∈ seen then .error (.duplicateArgsRessParameter p.identifier)
    else distinctLoop l (seen.insert p.identifier)

/-- `WasmParameterVec::distinct_arguments`: `ast/wasp.rs` 572-587. `parameters_1.len() - 1` panics if there are no arguments
(by overflow, or by the resulting capacity); the parser never produces that. -/
def distinctArguments (args ress : List WParam) : Except WError Unit :=
  if args = [] then .error .panic else distinctLoop (args ++ ress) []

/-- The common part of the conversions to `ApplySpe`: `ast/wasp.rs` 528-545 and 551-568. -/
def applySpe (mutableSignature : Bool) (func : String) (arguments results : List TypedArg) : Except WError ApplySig :=
  match params arguments with
  | .error e => .error e
  | .ok args => match params results with
    | .error e => .error e
    | .ok ress => match distinctArguments args ress with
      | .error e => .error e
      | .ok () => .ok (.spe mutableSignature func args ress)

/-- `TryFrom<pest_ast::ApplyHookSignature> for ApplyHookSignature`: `ast/wasp.rs` 456-475, with 525-569 for `mutable_signature`. -/
def applySig : PestApply → Except WError ApplySig
  | .gen f a r => applyGen f a r
  | .speInter f as rs => applySpe false f as rs
  | .speIntro f as rs => applySpe true f as rs

/-- `TryFrom<pest_ast::AdviceDefinition> for AdviceDefinition` and `TryFrom<pest_ast::TrapSignature> for TrapSignature`:
`ast/wasp.rs` 287-398. -/
def advice : PestAdvice → Except WError Advice
  | .global code => .ok (.global code)
  | .apply sig body => match applySig sig with
    | .error e => .error e
    | .ok s => .ok (.apply s body)
  | .plain t body => .ok (.plain t body)

/-- `TryFrom<pest_ast::WaspInput> for Root`: `ast/wasp.rs` 268-285. -/
def root : List PestAdvice → Except WError (List Advice)
  | [] => .ok []
  | a :: l => match advice a with
    | .error e => .error e
    | .ok a => match root l with
      | .error e => .error e
      | .ok l => .ok (a :: l)

/-! ## Join points -/

/-- `JoinPoint`: `wasp-compiler/src/joinpoints.rs` 57-73, without the specialised one. -/
inductive JoinPoint where
  | generic | blockPre | blockPost | loopPre | loopPost | select | callPre | callPost | callIndirectPre | callIndirectPost
  | ifThen | ifThenElse | brIf | brTable
  deriving DecidableEq, Repr

/-- `JoinPoints`: `joinpoints.rs` 8-32; the flags as a function, the set of specialised join points as a predicate. -/
structure JoinPoints where
  flag : JoinPoint → Bool
  /-- Argument and result types. -/
  specialised : List WType → List WType → Bool

/-- `TrapSignature::join_point`: `joinpoints.rs` 92-117. -/
def PlainTrap.joinPoint : PlainTrap → JoinPoint
  | .call .pre _ => .callPre
  | .call .post _ => .callPost
  | .blockPre => .blockPre
  | .blockPost => .blockPost
  | .loopPre => .loopPre
  | .loopPost => .loopPost
  | .select _ => .select
  | .callIndirectPre .. => .callIndirectPre
  | .callIndirectPost _ => .callIndirectPost
  | .ifThen _ => .ifThen
  | .ifThenElse _ => .ifThenElse
  | .brIf .. => .brIf
  | .brTable .. => .brTable

/-- Setting a flag: `JoinPoints::include`, `joinpoints.rs` 34-55. -/
def JoinPoints.set (j : JoinPoints) (p : JoinPoint) : JoinPoints := { j with flag := fun q => if q = p then true else j.flag q }

/-- `include` of the join point of an advice: `joinpoints.rs` 34-55, 75-139. -/
def JoinPoints.includeAdvice (j : JoinPoints) : Advice → JoinPoints
  | .global _ => j
  | .apply (.gen ..) _ => j.set .generic
  | .apply (.spe _ _ args ress) _ =>
    { j with specialised := fun a r => if a = args.map (·.type) ∧ r = ress.map (·.type) then true else j.specialised a r }
  | .plain t _ => j.set t.joinPoint

/-- `Root::join_points`: `joinpoints.rs` 75-90. -/
def joinPoints (r : List Advice) : JoinPoints := r.foldl JoinPoints.includeAdvice ⟨fun _ => false, fun _ _ => false⟩

/-! ## The interface -/

/-- The field that an advice sets, and the signature function it takes the value from, in
`From<&WaspRoot> for AnalysisInterface`: `assemblyscript/src/generate/analysis/wasp.rs` 36-85. -/
def PlainTrap.entry : PlainTrap → Trap × Trap
  | .ifThen _ => (.ifThenTrap, .ifThenTrap)
  | .ifThenElse _ => (.ifThenElseTrap, .ifThenElseTrap)
  | .brIf .. => (.brIfTrap, .brIfTrap)
  | .brTable .. => (.brTableTrap, .brTableTrap)
  | .call .pre _ => (.preTrapCall, .preTrapCall)
  | .call .post _ => (.postTrapCall, .postTrapCall)
  | .callIndirectPre .. => (.preTrapCallIndirect, .preTrapCallIndirect)
  | .callIndirectPost _ => (.postTrapCallIndirect, .postTrapCallIndirect)
  | .blockPre => (.preBlock, .preBlock)
  | .blockPost => (.postBlock, .postBlock)
  | .loopPre => (.preLoop, .preLoop)
  | .loopPost => (.postLoop, .postLoop)
  | .select _ => (.select, .select)

/-- `From<&WaspRoot> for AnalysisInterface`: `assemblyscript/src/generate/analysis/wasp.rs` 11-92, from the interface made so
far. `none` is the panic of `todo!()` (line 36). -/
def interfaceLoop : List Advice → Interface → Option Interface
  | [], i => some i
  | .global _ :: l, i => interfaceLoop l i
  | .apply (.gen ..) _ :: l, i => interfaceLoop l { i with generic := some interfaceGenericApply }
  | .apply (.spe ..) _ :: _, _ => none
  | .plain t _ :: l, i =>
    interfaceLoop l { i with trap := fun u => if u = t.entry.1 then some t.entry.2.export else i.trap u }

/-- `AnalysisInterface::from(&WaspRoot)`. -/
def interface (r : List Advice) : Option Interface := interfaceLoop r ⟨none, fun _ => none⟩

/-! ## The generated AssemblyScript -/

/-- An exported function of the generated program. The text around the parameters and the body is not modelled, only what it
declares: the exported name, the parameters with their types, the result (none for `void`), the variables declared before the
body with the class they are made from and the variables passed to its constructor, and the body. -/
structure ASExport where
  name : String
  params : List (String × WType)
  result : Option WType
  vars : List (String × String × List String)
  body : String
  deriving DecidableEq, Repr

/-- The functions generated for the advice kinds other than apply: `assemblyscript/src/generate/analysis/mod.rs` 358-683. -/
def PlainTrap.export (t : PlainTrap) (body : String) : ASExport :=
  match t with
  | .ifThen c => ⟨"specialized_if_then_k", [("path_kontinuation", .i32), ("if_then_input_c", .i32), ("if_then_arity", .i32),
      ("func_index", .i64), ("istr_index", .i64)], some .i32, [(c, "ParameterIfThenCondition", ["path_kontinuation"])], body⟩
  | .ifThenElse c => ⟨"specialized_if_then_else_k", [("path_kontinuation", .i32), ("if_then_else_input_c", .i32),
      ("if_then_else_arity", .i32), ("func_index", .i64), ("istr_index", .i64)], some .i32,
      [(c, "ParameterIfThenElseCondition", ["path_kontinuation"])], body⟩
  | .brIf c l => ⟨"specialized_br_if", [("path_kontinuation", .i32), ("low_level_label", .i32), ("func_index", .i64),
      ("istr_index", .i64)], some .i32, [(c, "ParameterBrIfCondition", ["path_kontinuation"]),
      (l, "ParameterBrIfLabel", ["low_level_label"])], body⟩
  | .brTable t d => ⟨"specialized_br_table", [("br_table_target", .i32), ("effective_label", .i32), ("br_table_default", .i32),
      ("func_index", .i64), ("istr_index", .i64)], some .i32, [(t, "ParameterBrTableTarget", ["br_table_target"]),
      (d, "ParameterBrTableDefault", ["br_table_default"])], body⟩
  | .call q t => ⟨match q with | .pre => "specialized_call_pre" | .post => "specialized_call_post",
      [("function_target", .i32), ("func_index", .i64), ("istr_index", .i64)], none,
      [(t, "FunctionIndex", ["function_target"])], body⟩
  | .callIndirectPre t i => ⟨"specialized_call_indirect_pre", [("function_table_index", .i32), ("function_table", .i32),
      ("func_index", .i64), ("istr_index", .i64)], some .i32, [(t, "FunctionTable", ["function_table"]),
      (i, "FunctionTableIndex", ["function_table_index"])], body⟩
  | .callIndirectPost t => ⟨"specialized_call_indirect_post", [("function_table", .i32), ("func_index", .i64),
      ("istr_index", .i64)], none, [(t, "FunctionTable", ["function_table"])], body⟩
  | .blockPre => ⟨"trap_block_pre", [("input_count", .i32), ("arity", .i32), ("func_index", .i64), ("istr_index", .i64)], none,
      [], body⟩
  | .blockPost => ⟨"trap_block_post", [("func_index", .i64), ("istr_index", .i64)], none, [], body⟩
  | .loopPre => ⟨"trap_loop_pre", [("input_count", .i32), ("arity", .i32), ("func_index", .i64), ("istr_index", .i64)], none,
      [], body⟩
  | .loopPost => ⟨"trap_loop_post", [("func_index", .i64), ("istr_index", .i64)], none, [], body⟩
  | .select c => ⟨"specialized_select", [("path_kontinuation", .i32), ("func_index", .i64), ("istr_index", .i64)], some .i32,
      [(c, "ParameterSelectCondition", ["path_kontinuation"])], body⟩

/-- The function generated for a generic apply advice: `assemblyscript/src/generate/analysis/mod.rs` 153-198. -/
def genericExport (func args ress body : String) : ASExport :=
  ⟨"generic_apply", [("f_apply", .i32), ("instr_f_idx", .i32), ("argc", .i32), ("resc", .i32), ("sigv", .i32), ("sigtypv", .i32),
    ("code_present_serialized", .i32)], none,
    [(func, "WasmFunction", ["f_apply", "instr_f_idx", "sigv"]), ("argsResults", "MutDynArgsResults", ["argc", "resc", "sigv", "sigtypv"]),
      (args, "MutDynArgs", ["argsResults"]), (ress, "MutDynRess", ["argsResults"])], body⟩

/-- `std_analysis_lib_*.ts`: the libraries that may be included. -/
inductive ASLib where
  | genericApply | ifs | call
  deriving DecidableEq, Repr

/-- The classes a library declares: `std_analysis_lib_gen_apply.ts` 57-174, `std_analysis_lib_if.ts` 15-93,
`std_analysis_lib_call.ts` 1-15. -/
def ASLib.classes : ASLib → List String
  | .genericApply => ["MutDynArgsResults", "DynValues", "MutDynArgs", "MutDynRess", "WasmFunction"]
  | .ifs => ["ParameterIfThenCondition", "ParameterIfThenElseCondition", "ParameterBrIfCondition", "ParameterBrIfLabel",
      "ParameterBrTableTarget", "ParameterBrTableDefault", "ParameterSelectCondition"]
  | .call => ["FunctionIndex", "FunctionTable", "FunctionTableIndex"]

/-- `Root::instruments_generic_apply`: `ast/wasp.rs` 202-216. -/
def instrumentsGenericApply (r : List Advice) : Bool := r.any fun a => match a with | .apply (.gen ..) _ => true | _ => false

/-- `Root::instruments_if`: `ast/wasp.rs` 218-242. -/
def instrumentsIf (r : List Advice) : Bool := r.any fun a => match a with
  | .plain (.ifThen _) _ | .plain (.ifThenElse _) _ | .plain (.brIf ..) _ | .plain (.brTable ..) _ | .plain (.select _) _ => true
  | _ => false

/-- `Root::instruments_call`: `ast/wasp.rs` 244-264. -/
def instrumentsCall (r : List Advice) : Bool := r.any fun a => match a with
  | .plain (.call ..) _ | .plain (.callIndirectPre ..) _ | .plain (.callIndirectPost _) _ => true
  | _ => false

/-- A piece of the generated program: a library, guest code copied as it is, or an exported function. The functions of
specialised apply advice are not modelled (their programs have no interface, see `interface`). -/
inductive ASPiece where
  | lib (l : ASLib)
  | code (s : String)
  | func (e : ASExport)
  | specialised
  deriving DecidableEq, Repr

/-- `Display for ASAdviceDefinition`: `assemblyscript/src/generate/analysis/mod.rs` 98-151. -/
def Advice.piece : Advice → ASPiece
  | .global code => .code code
  | .apply (.gen _ f a r) body => .func (genericExport f a r body)
  | .apply (.spe ..) _ => .specialised
  | .plain t body => .func (t.export body)

/-- `From<ASRoot> for AssemblyScriptProgram`: `assemblyscript/src/generate/analysis/mod.rs` 69-96. -/
def program (r : List Advice) : List ASPiece :=
  (if instrumentsGenericApply r then [.lib .genericApply] else []) ++
  (if instrumentsIf r then [.lib .ifs] else []) ++
  (if instrumentsCall r then [.lib .call] else []) ++
  r.map Advice.piece

end Wastrum.Wasp
