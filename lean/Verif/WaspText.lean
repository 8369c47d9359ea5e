import Verif.Wasp
/-!
# Wasp: reading the text of an analysis

`wasp-compiler/wasp.pest`, rule by rule, and the conversion of the tree of pairs (`wasp-compiler/src/ast/pest/mod.rs`).

The parser is generated from the grammar by `pest`, whose source is not part of the repository; the combinators follow its
documentation. A parser takes the rest of the text and returns the pairs it produced and what is left of the text. A rule that
is not atomic reads white space and comments (`skip`) between the parts of a sequence and between the turns of a repetition.
-/

namespace Wastrum.Wasp

/-- The rules of `wasp.pest` that produce a pair; `WHITESPACE` and `COMMENT` (2 and 5) produce none. -/
inductive Rule where
  | waspInput | wasp | guestBlock | adviceDefinition | adviceGlobal | adviceTrap | identifier | typeIdentifier | trapSignature
  | trapApply | applyHookSignature | applyGen | applySpeIntro | applySpeInter | applyFormalWasmF | applyFormalArgument
  | applyFormalResult | typedArgument | branchFormalCondition | branchFormalLabel | callQualifier | trapCall | formalTarget
  | trapBlockPre | trapBlockPost | trapLoopPre | trapLoopPost | trapSelect | selectFormalCondition | trapCallIndirectPre
  | trapCallIndirectPost | formalTable | formalIndex | trapIfThen | trapIfThenElse | trapBrIf | trapBrTable | branchFormalTarget
  | branchFormalDefault | eoi
  deriving DecidableEq, Repr

/-- A `Pair`: the rule, the text it matched and the pairs inside. -/
inductive Pair where
  | mk (rule : Rule) (text : List Char) (inner : List Pair)

/-- A parser made by `pest`. -/
abbrev Peg := List Char → Option (List Pair × List Char)

/-! ## The combinators -/

/-- The rest of a text that begins with `s`. -/
def strip : List Char → List Char → Option (List Char)
  | [], t => some t
  | _ :: _, [] => none
  | c :: s, d :: t => if c = d then strip s t else none

/-- `"..."`. -/
def lit (s : String) : Peg := fun t => (strip s.toList t).map fun r => ([], r)

/-- A character of a class; `ANY` is any character. -/
def oneOf (p : Char → Bool) : Peg
  | [] => none
  | c :: t => if p c then some ([], t) else none

/-- `p` and then `q`, nothing between them: `~` in an atomic rule. -/
def andThen (p q : Peg) : Peg := fun t => match p t with
  | none => none
  | some (ps, r) => match q r with
    | none => none
    | some (qs, u) => some (ps ++ qs, u)

/-- `|`. -/
def orElse (p q : Peg) : Peg := fun t => match p t with
  | some x => some x
  | none => q t

/-- `!p`. -/
def notAhead (p : Peg) : Peg := fun t => match p t with
  | some _ => none
  | none => some ([], t)

/-- At most `n` turns of `p*`. -/
def turns (p : Peg) : Nat → Peg
  | 0, t => some ([], t)
  | n + 1, t => match p t with
    | none => some ([], t)
    | some (ps, r) => match turns p n r with
      | none => none
      | some (qs, u) => some (ps ++ qs, u)

/-- `p*` in an atomic rule. Every turn of the repetitions in the grammar reads at least a character (`pest` rejects grammars in
which one does not), so there are at most as many turns as characters. -/
def many (p : Peg) : Peg := fun t => turns p t.length t

/-- `WHITESPACE`: `wasp.pest` 2. -/
def isSpace (c : Char) : Bool := c == ' ' || c == '\r' || c == '\n' || c == '\t'

/-- `COMMENT`: `wasp.pest` 5. `pest` makes this rule atomic. -/
def comment : Peg := andThen (lit "#|") (andThen (many (andThen (notAhead (lit "|#")) (oneOf fun _ => true))) (lit "|#"))

/-- What `pest` reads between the parts of a rule that is not atomic: white space, and comments followed by white space. -/
def skip : Peg := andThen (many (oneOf isSpace)) (many (andThen comment (many (oneOf isSpace))))

/-- `p ~ q` in a rule that is not atomic. -/
def follow (p q : Peg) : Peg := andThen p (andThen skip q)

@[inherit_doc] infixr:60 " ~~ " => follow
@[inherit_doc] infixr:55 " /// " => orElse

/-- `p*` in a rule that is not atomic. -/
def star (p : Peg) : Peg := orElse (andThen p (many (andThen skip p))) (fun t => some ([], t))

/-- `p+` in a rule that is not atomic, which is `p ~ p*`. -/
def plus (p : Peg) : Peg := p ~~ star p

/-- A rule that produces a pair. -/
def rule (r : Rule) (p : Peg) : Peg := fun t => match p t with
  | none => none
  | some (ps, u) => some ([.mk r (t.take (t.length - u.length)) ps], u)

/-! ## The grammar -/

/-- `ASCII_ALPHA_UPPER`. -/
def isUpper (c : Char) : Bool := 'A'.val ≤ c.val && c.val ≤ 'Z'.val
/-- `ASCII_ALPHA`. -/
def isLetter (c : Char) : Bool := isUpper c || ('a'.val ≤ c.val && c.val ≤ 'z'.val)
/-- `ASCII_ALPHANUMERIC`. -/
def isAlnum (c : Char) : Bool := isLetter c || ('0'.val ≤ c.val && c.val ≤ '9'.val)

/-- `GUEST_BLOCK`: `wasp.pest` 12. The rule is not atomic. -/
def guestBlock : Peg := rule .guestBlock (lit ">>>GUEST>>>" ~~ star (notAhead (lit "<<<GUEST<<<") ~~ oneOf fun _ => true) ~~ lit "<<<GUEST<<<")

/-- `identifier`: `wasp.pest` 20 (atomic). -/
def identifier : Peg := rule .identifier (andThen (oneOf isLetter) (many (oneOf isLetter)))

/-- `type_identifier`: `wasp.pest` 21 (atomic). -/
def typeIdentifier : Peg := rule .typeIdentifier (andThen (oneOf isUpper) (andThen (oneOf isAlnum) (many (oneOf isAlnum))))

/-- `"(" ~ identifier ~ "..." ~ ")"`, the form of `apply_formal_wasm_f` (51), `branch_formal_condition` (56),
`branch_formal_label` (57), `formal_target` (63), `select_formal_condition` (75), `formal_table` (80), `formal_index` (81),
`branch_formal_target` (92) and `branch_formal_default` (93) of `wasp.pest`. -/
def formal (r : Rule) (type : String) : Peg := rule r (lit "(" ~~ identifier ~~ lit type ~~ lit ")")

/-- `apply_formal_wasm_f`: `wasp.pest` 51. -/
def applyFormalWasmF : Peg := formal .applyFormalWasmF "WasmFunction"
/-- `typed_argument`: `wasp.pest` 54. -/
def typedArgument : Peg := rule .typedArgument (lit "(" ~~ identifier ~~ typeIdentifier ~~ lit ")")
/-- `apply_formal_argument`: `wasp.pest` 52. -/
def applyFormalArgument : Peg := rule .applyFormalArgument typedArgument
/-- `apply_formal_result`: `wasp.pest` 53. -/
def applyFormalResult : Peg := rule .applyFormalResult typedArgument
/-- `branch_formal_condition`: `wasp.pest` 56. -/
def branchFormalCondition : Peg := formal .branchFormalCondition "Condition"
/-- `branch_formal_label`: `wasp.pest` 57. -/
def branchFormalLabel : Peg := formal .branchFormalLabel "Label"
/-- `formal_target`: `wasp.pest` 63. -/
def formalTarget : Peg := formal .formalTarget "FunctionIndex"
/-- `select_formal_condition`: `wasp.pest` 75. -/
def selectFormalCondition : Peg := formal .selectFormalCondition "Condition"
/-- `formal_table`: `wasp.pest` 80. -/
def formalTable : Peg := formal .formalTable "FunctionTable"
/-- `formal_index`: `wasp.pest` 81. -/
def formalIndex : Peg := formal .formalIndex "FunctionTableIndex"
/-- `branch_formal_target`: `wasp.pest` 92. -/
def branchFormalTarget : Peg := formal .branchFormalTarget "Target"
/-- `branch_formal_default`: `wasp.pest` 93. -/
def branchFormalDefault : Peg := formal .branchFormalDefault "Default"

/-- `apply_gen`: `wasp.pest` 45. -/
def applyGenRule : Peg := rule .applyGen (applyFormalWasmF ~~ applyFormalArgument ~~ applyFormalResult)
/-- `apply_spe_intro`: `wasp.pest` 47. -/
def applySpeIntro : Peg := rule .applySpeIntro
  (applyFormalWasmF ~~ lit "(" ~~ plus applyFormalArgument ~~ lit ")" ~~ lit "(" ~~ plus applyFormalResult ~~ lit ")")
/-- `apply_spe_inter`: `wasp.pest` 49. -/
def applySpeInter : Peg := rule .applySpeInter
  (applyFormalWasmF ~~ lit "(" ~~ lit "Mut" ~~ plus applyFormalArgument ~~ lit ")" ~~ lit "(" ~~ lit "Mut" ~~ plus applyFormalResult ~~ lit ")")
/-- `apply_hook_signature`: `wasp.pest` 42. -/
def applyHookSignature : Peg := rule .applyHookSignature (applyGenRule /// applySpeIntro /// applySpeInter)
/-- `trap_apply`: `wasp.pest` 41. -/
def trapApply : Peg := rule .trapApply (lit "apply" ~~ applyHookSignature ~~ guestBlock)
/-- `call_qualifier`: `wasp.pest` 59. -/
def callQualifier : Peg := rule .callQualifier (lit "pre" /// lit "post")
/-- `trap_call`: `wasp.pest` 62. -/
def trapCall : Peg := rule .trapCall (lit "call" ~~ callQualifier ~~ formalTarget ~~ guestBlock)
/-- `trap_block_pre`: `wasp.pest` 66. -/
def trapBlockPre : Peg := rule .trapBlockPre (lit "block" ~~ lit "pre" ~~ guestBlock)
/-- `trap_block_post`: `wasp.pest` 67. -/
def trapBlockPost : Peg := rule .trapBlockPost (lit "block" ~~ lit "post" ~~ guestBlock)
/-- `trap_loop_pre`: `wasp.pest` 70. -/
def trapLoopPre : Peg := rule .trapLoopPre (lit "loop" ~~ lit "pre" ~~ guestBlock)
/-- `trap_loop_post`: `wasp.pest` 71. -/
def trapLoopPost : Peg := rule .trapLoopPost (lit "loop" ~~ lit "post" ~~ guestBlock)
/-- `trap_select`: `wasp.pest` 74. -/
def trapSelect : Peg := rule .trapSelect (lit "select" ~~ selectFormalCondition ~~ guestBlock)
/-- `trap_call_indirect_pre`: `wasp.pest` 78. -/
def trapCallIndirectPre : Peg := rule .trapCallIndirectPre (lit "call_indirect" ~~ lit "pre" ~~ formalTable ~~ formalIndex ~~ guestBlock)
/-- `trap_call_indirect_post`: `wasp.pest` 79. -/
def trapCallIndirectPost : Peg := rule .trapCallIndirectPost (lit "call_indirect" ~~ lit "post" ~~ formalTable ~~ guestBlock)
/-- `trap_if_then`: `wasp.pest` 84. -/
def trapIfThen : Peg := rule .trapIfThen (lit "if_then" ~~ branchFormalCondition ~~ guestBlock)
/-- `trap_if_then_else`: `wasp.pest` 85. -/
def trapIfThenElse : Peg := rule .trapIfThenElse (lit "if_then_else" ~~ branchFormalCondition ~~ guestBlock)
/-- `trap_br_if`: `wasp.pest` 88. -/
def trapBrIf : Peg := rule .trapBrIf (lit "br_if" ~~ branchFormalCondition ~~ branchFormalLabel ~~ guestBlock)
/-- `trap_br_table`: `wasp.pest` 91. -/
def trapBrTable : Peg := rule .trapBrTable (lit "br_table" ~~ branchFormalTarget ~~ branchFormalDefault ~~ guestBlock)
/-- `trap_signature`: `wasp.pest` 24-38. -/
def trapSignature : Peg := rule .trapSignature
  (trapApply /// trapCall /// trapBlockPre /// trapBlockPost /// trapLoopPre /// trapLoopPost /// trapSelect /// trapCallIndirectPre ///
    trapCallIndirectPost /// trapIfThen /// trapIfThenElse /// trapBrIf /// trapBrTable)
/-- `advice_trap`: `wasp.pest` 17. -/
def adviceTrap : Peg := rule .adviceTrap (lit "advice" ~~ trapSignature)
/-- `advice_global`: `wasp.pest` 16. -/
def adviceGlobal : Peg := rule .adviceGlobal (lit "global" ~~ guestBlock)
/-- `advice_definition`: `wasp.pest` 15. -/
def adviceDefinition : Peg := rule .adviceDefinition (adviceGlobal /// adviceTrap)
/-- `wasp`: `wasp.pest` 9. -/
def waspRule : Peg := rule .wasp (lit "(" ~~ lit "aspect" ~~ star (lit "(" ~~ adviceDefinition ~~ lit ")") ~~ lit ")")
/-- `SOI`: the grammar uses it only at the beginning of the text. -/
def soi : Peg := fun t => some ([], t)
/-- `EOI`. -/
def eoi : Peg := rule .eoi fun t => if t = [] then some ([], []) else none
/-- `wasp_input`: `wasp.pest` 8. -/
def waspInput : Peg := rule .waspInput (soi ~~ waspRule ~~ eoi)

/-! ## From pairs to the tree -/

/-- A conversion (`FromPest`) takes pairs from the front and returns the value and the other pairs; `none` is a failure or a
panic. -/
abbrev Conv (α : Type) := List Pair → Option (α × List Pair)

/-- The next pair's text, converted: `#[pest_ast(inner(with(span_into_string), with(..)))]`; `span_into_string`: `ast/pest/mod.rs` 9-11.
As the attribute does, this does not look at the rule of the pair. -/
def inner (f : List Char → Option α) : Conv α
  | [] => none
  | .mk _ text _ :: ps => (f text).map fun a => (a, ps)

/-- The conversion of a rule (`#[derive(FromPest)]`): the next pair must be of the rule, and the conversion of its fields must
use all pairs inside. -/
def conv (r : Rule) (f : Conv α) : Conv α
  | [] => none
  | .mk r' _ ins :: ps => if r' = r then
      match f ins with
      | some (a, []) => some (a, ps)
      | _ => none
    else none

/-- One field and then the others. -/
def Conv.bind (f : Conv α) (g : α → Conv β) : Conv β := fun ps => match f ps with
  | none => none
  | some (a, qs) => g a qs

/-- The value, once all fields are converted. -/
def Conv.done (a : α) : Conv α := fun ps => some (a, ps)

/-- The first variant that can be converted. -/
def Conv.or (f g : Conv α) : Conv α := fun ps => match f ps with
  | some x => some x
  | none => g ps

/-- `Vec<..>`: as many as can be converted. -/
def Conv.vecF (f : Conv α) : Nat → Conv (List α)
  | 0, ps => some ([], ps)
  | n + 1, ps => match f ps with
    | none => some ([], ps)
    | some (a, qs) => match Conv.vecF f n qs with
      | none => none
      | some (l, us) => some (a :: l, us)

/-- `Vec<..>`; the conversion of an element takes a pair, so there are at most as many as pairs. -/
def Conv.vec (f : Conv α) : Conv (List α) := fun ps => Conv.vecF f ps.length ps

/-- `String::from` of the text: `ast/pest/mod.rs` 102 and elsewhere. -/
def name : Conv String := inner fun t => some (String.ofList t)

/-- `drop_guest_delimiter`: `ast/pest/mod.rs` 27-33; `none` is the panic of `unwrap`. -/
def dropGuestDelimiter (t : List Char) : Option (List Char) :=
  match strip ">>>GUEST>>>".toList t with
  | none => none
  | some u => (strip "<<<GUEST<<<".toList.reverse u.reverse).map List.reverse

/-- The guest code of an advice: `ast/pest/mod.rs` 56-57 and elsewhere. -/
def body : Conv String := inner fun t => (dropGuestDelimiter t).map String.ofList

/-- `span_into_qualifier`: `ast/pest/mod.rs` 19-25; `none` is the panic. -/
def spanIntoQualifier (t : List Char) : Option CallQualifier :=
  if t = "pre".toList then some .pre else if t = "post".toList then some .post else none

/-- A parameter: `ApplyFormalWasmF` (203-207), `BranchFormalCondition` (242-246), `BranchFormalLabel` (248-252), `FormalTarget`
(100-102), `SelectFormalCondition` (140-144), `FormalTable` (163-165), `FormalIndex` (167-169), `BranchFormalTarget` (263-267)
and `BranchFormalDefault` (269-273) of `ast/pest/mod.rs`. -/
def formalConv (r : Rule) : Conv String := conv r name

/-- `TypedArgument`: `ast/pest/mod.rs` 275-282. -/
def typedArg : Conv TypedArg := conv .typedArgument (name.bind fun i => name.bind fun t => .done ⟨i, t⟩)
/-- `ApplyFormalArgument`: `ast/pest/mod.rs` 209-211. -/
def formalArgument : Conv TypedArg := conv .applyFormalArgument typedArg
/-- `ApplyFormalResult`: `ast/pest/mod.rs` 213-215. -/
def formalResult : Conv TypedArg := conv .applyFormalResult typedArg

/-- `ApplyGen`: `ast/pest/mod.rs` 179-185. -/
def genConv : Conv PestApply := conv .applyGen ((formalConv .applyFormalWasmF).bind fun f =>
  formalArgument.bind fun a => formalResult.bind fun r => .done (.gen f a r))
/-- `ApplySpeInter`: `ast/pest/mod.rs` 187-193. -/
def speInterConv : Conv PestApply := conv .applySpeInter ((formalConv .applyFormalWasmF).bind fun f =>
  formalArgument.vec.bind fun a => formalResult.vec.bind fun r => .done (.speInter f a r))
/-- `ApplySpeIntro`: `ast/pest/mod.rs` 195-201. -/
def speIntroConv : Conv PestApply := conv .applySpeIntro ((formalConv .applyFormalWasmF).bind fun f =>
  formalArgument.vec.bind fun a => formalResult.vec.bind fun r => .done (.speIntro f a r))
/-- `ApplyHookSignature`: `ast/pest/mod.rs` 171-177. -/
def applySigConv : Conv PestApply := conv .applyHookSignature (genConv.or (speInterConv.or speIntroConv))

/-- `TrapApply`: `ast/pest/mod.rs` 82-88. -/
def trapApplyConv : Conv PestAdvice := conv .trapApply (applySigConv.bind fun s => body.bind fun b => .done (.apply s b))
/-- `TrapCall`: `ast/pest/mod.rs` 90-98. -/
def trapCallConv : Conv PestAdvice := conv .trapCall ((inner spanIntoQualifier).bind fun q =>
  (formalConv .formalTarget).bind fun f => body.bind fun b => .done (.plain (.call q f) b))
/-- `TrapBlockPre`, `TrapBlockPost`, `TrapLoopPre` and `TrapLoopPost`: `ast/pest/mod.rs` 104-130. -/
def trapBare (r : Rule) (t : PlainTrap) : Conv PestAdvice := conv r (body.bind fun b => .done (.plain t b))
/-- `TrapSelect`, `TrapIfThen` and `TrapIfThenElse` (`ast/pest/mod.rs` 132-138, 217-231), and `TrapCallIndirectPost` (155-161). -/
def trapOne (r r1 : Rule) (t : String → PlainTrap) : Conv PestAdvice := conv r ((formalConv r1).bind fun c =>
  body.bind fun b => .done (.plain (t c) b))
/-- `TrapCallIndirectPre`, `TrapBrIf` and `TrapBrTable`: `ast/pest/mod.rs` 146-153, 233-240, 254-261. -/
def trapTwo (r r1 r2 : Rule) (t : String → String → PlainTrap) : Conv PestAdvice := conv r ((formalConv r1).bind fun c =>
  (formalConv r2).bind fun d => body.bind fun b => .done (.plain (t c d) b))
/-- `TrapSignature`: `ast/pest/mod.rs` 64-80. -/
def trapConv : Conv PestAdvice := conv .trapSignature <|
  trapApplyConv.or <| trapCallConv.or <| (trapBare .trapBlockPre .blockPre).or <| (trapBare .trapBlockPost .blockPost).or <|
  (trapBare .trapLoopPre .loopPre).or <| (trapBare .trapLoopPost .loopPost).or <|
  (trapOne .trapSelect .selectFormalCondition .select).or <|
  (trapTwo .trapCallIndirectPre .formalTable .formalIndex .callIndirectPre).or <|
  (trapOne .trapCallIndirectPost .formalTable .callIndirectPost).or <|
  (trapOne .trapIfThen .branchFormalCondition .ifThen).or <|
  (trapOne .trapIfThenElse .branchFormalCondition .ifThenElse).or <|
  (trapTwo .trapBrIf .branchFormalCondition .branchFormalLabel .brIf).or <|
  trapTwo .trapBrTable .branchFormalTarget .branchFormalDefault .brTable
/-- `AdviceTrap`: `ast/pest/mod.rs` 60-62. -/
def adviceTrapConv : Conv PestAdvice := conv .adviceTrap trapConv
/-- `AdviceGlobal`: `ast/pest/mod.rs` 53-58. -/
def adviceGlobalConv : Conv PestAdvice := conv .adviceGlobal (body.bind fun b => .done (.global b))
/-- `AdviceDefinition`: `ast/pest/mod.rs` 46-51. -/
def adviceConv : Conv PestAdvice := conv .adviceDefinition (adviceGlobalConv.or adviceTrapConv)
/-- `Wasp`: `ast/pest/mod.rs` 42-44. -/
def waspConv : Conv (List PestAdvice) := conv .wasp adviceConv.vec
/-- `EndOfInput`: `ast/pest/mod.rs` 284-286. -/
def eoiConv : Conv Unit := conv .eoi (.done ())
/-- `WaspInput`: `ast/pest/mod.rs` 35-40. -/
def waspInputConv : Conv (List PestAdvice) := conv .waspInput (waspConv.bind fun l => eoiConv.bind fun _ => .done l)

/-! ## The compiler -/

/-- `Error`: `wasp-compiler/src/error.rs` 4-24, with the errors of the parser; `conversion` also stands for the panics of the
conversion. -/
inductive CompileError where
  | pest
  | conversion
  | program (e : WError)
  deriving DecidableEq, Repr

/-- The first two lines of `compile`: `wasp-compiler/src/lib.rs` 23-25. -/
def parse (text : String) : Except CompileError (List PestAdvice) :=
  match waspInput text.toList with
  | none => .error .pest
  | some (ps, _) => match waspInputConv ps with
    | none => .error .conversion
    | some (l, _) => .ok l

/-- `compile`: `wasp-compiler/src/lib.rs` 22-33. -/
def compile (text : String) : Except CompileError (List Advice × JoinPoints) :=
  match parse text with
  | .error e => .error e
  | .ok l => match root l with
    | .error e => .error (.program e)
    | .ok r => .ok (r, joinPoints r)

end Wastrum.Wasp
