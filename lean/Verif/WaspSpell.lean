import Verif.WaspText
/-!
# How the text of a Wasp program may be written (the specification of C73 and C74)

A program is a list of tokens. Its text has the tokens one after the other, with any amount of white space and comments between
them. A name must be followed by something that could not continue it. Guest code stands between its delimiters.
-/

namespace Wastrum.Wasp

/-- Is `b` all there is before the first `d` in `b ++ d`? -/
def Before (d b : List Char) : Prop := ∀ k < b.length, ¬ d <+: (b ++ d).drop k

/-- White space and comments. A comment `#| .. |#` ends at the first `|#`. -/
inductive Blank : List Char → Prop
  | nil : Blank []
  | space {c g} : c = ' ' ∨ c = '\r' ∨ c = '\n' ∨ c = '\t' → Blank g → Blank (c :: g)
  | comment {b g} : Before ['|', '#'] b → Blank g → Blank ('#' :: '|' :: b ++ '|' :: '#' :: g)

/-- A letter. -/
def Letter (c : Char) : Prop := ('a' ≤ c ∧ c ≤ 'z') ∨ ('A' ≤ c ∧ c ≤ 'Z')
/-- A letter or a digit. -/
def LetterOrDigit (c : Char) : Prop := Letter c ∨ ('0' ≤ c ∧ c ≤ '9')

/-- The delimiters of guest code. -/
def guestOpens : List Char := ">>>GUEST>>>".toList
def guestCloses : List Char := "<<<GUEST<<<".toList

/-- What the grammar takes for guest code: `Code code rest` says that `code` is read as guest code when it stands before
`rest`, which begins with the closing delimiter. Comments in guest code are read like comments elsewhere: a closing delimiter
inside one does not close the guest code. A `#|` with a `|#` anywhere after it is a comment, even if that `|#` is in
`rest`; there is no case for a comment that extends into `rest`, nor for a `#|` that is just two characters and is closed later. -/
inductive Code : List Char → List Char → Prop
  | done {rest} : guestCloses <+: rest → Code [] rest
  | space {c code rest} : c = ' ' ∨ c = '\r' ∨ c = '\n' ∨ c = '\t' → Code code rest → Code (c :: code) rest
  | comment {b code rest} : Before ['|', '#'] b → Code code rest → Code ('#' :: '|' :: b ++ '|' :: '#' :: code) rest
  | char {c code rest} : ¬ (c = ' ' ∨ c = '\r' ∨ c = '\n' ∨ c = '\t') → ¬ guestCloses <+: c :: code ++ rest →
      ¬ (∃ b u, c :: code ++ rest = '#' :: '|' :: b ++ '|' :: '#' :: u) → Code code rest → Code (c :: code) rest

/-- The tokens of a program. -/
inductive Tok where
  /-- A keyword or a parenthesis. -/
  | lit (s : String)
  /-- The name of a parameter. -/
  | ident (s : String)
  /-- The name of a type. -/
  | type (s : String)
  /-- Guest code with its delimiters. -/
  | guest (code : String)
  deriving DecidableEq, Repr

/-- The text `t` is the token followed by `rest`. -/
def Tok.At (t rest : List Char) : Tok → Prop
  | .lit s => t = s.toList ++ rest
  | .ident s => t = s.toList ++ rest ∧ s.toList ≠ [] ∧ (∀ c ∈ s.toList, Letter c) ∧ ∀ c u, rest = c :: u → ¬ Letter c
  | .type s => t = s.toList ++ rest ∧ (∃ c d l, s.toList = c :: d :: l ∧ 'A' ≤ c ∧ c ≤ 'Z') ∧ (∀ c ∈ s.toList, LetterOrDigit c) ∧
      ∀ c u, rest = c :: u → ¬ LetterOrDigit c
  | .guest code => t = guestOpens ++ code.toList ++ guestCloses ++ rest ∧ Code code.toList (guestCloses ++ rest)

/-- The text `t` is the tokens, each with something blank before it, followed by `rest`. -/
def Spells : List Tok → List Char → List Char → Prop
  | [], t, rest => t = rest
  | tok :: toks, t, rest => ∃ g u v, Blank g ∧ t = g ++ u ∧ tok.At u v ∧ Spells toks v rest

/-- The text is the tokens, with something blank before, between and after them. -/
def Reads (toks : List Tok) (t : List Char) : Prop := ∃ g, Blank g ∧ Spells toks t g

/-! ## The tokens of a program -/

/-- A parameter with the name of its type. -/
def paramToks (name : String) (type : Tok) : List Tok := [.lit "(", .ident name, type, .lit ")"]

/-- A typed argument or result of an apply advice. -/
def TypedArg.toks (a : TypedArg) : List Tok := paramToks a.identifier (.type a.typeIdentifier)

def PestApply.toks : PestApply → List Tok
  | .gen f a r => paramToks f (.lit "WasmFunction") ++ a.toks ++ r.toks
  | .speIntro f as rs => paramToks f (.lit "WasmFunction") ++ .lit "(" :: as.flatMap TypedArg.toks ++ .lit ")" ::
      .lit "(" :: rs.flatMap TypedArg.toks ++ [.lit ")"]
  | .speInter f as rs => paramToks f (.lit "WasmFunction") ++ .lit "(" :: .lit "Mut" :: as.flatMap TypedArg.toks ++ .lit ")" ::
      .lit "(" :: .lit "Mut" :: rs.flatMap TypedArg.toks ++ [.lit ")"]

def PlainTrap.toks : PlainTrap → List Tok
  | .call .pre f => .lit "call" :: .lit "pre" :: paramToks f (.lit "FunctionIndex")
  | .call .post f => .lit "call" :: .lit "post" :: paramToks f (.lit "FunctionIndex")
  | .blockPre => [.lit "block", .lit "pre"]
  | .blockPost => [.lit "block", .lit "post"]
  | .loopPre => [.lit "loop", .lit "pre"]
  | .loopPost => [.lit "loop", .lit "post"]
  | .select c => .lit "select" :: paramToks c (.lit "Condition")
  | .callIndirectPre t i => .lit "call_indirect" :: .lit "pre" :: paramToks t (.lit "FunctionTable") ++ paramToks i (.lit "FunctionTableIndex")
  | .callIndirectPost t => .lit "call_indirect" :: .lit "post" :: paramToks t (.lit "FunctionTable")
  | .ifThen c => .lit "if_then" :: paramToks c (.lit "Condition")
  | .ifThenElse c => .lit "if_then_else" :: paramToks c (.lit "Condition")
  | .brIf c l => .lit "br_if" :: paramToks c (.lit "Condition") ++ paramToks l (.lit "Label")
  | .brTable t d => .lit "br_table" :: paramToks t (.lit "Target") ++ paramToks d (.lit "Default")

def PestAdvice.toks : PestAdvice → List Tok
  | .global code => [.lit "global", .guest code]
  | .apply sig body => .lit "advice" :: .lit "apply" :: sig.toks ++ [.guest body]
  | .plain t body => .lit "advice" :: t.toks ++ [.guest body]

/-- The tokens of a program. -/
def programToks (l : List PestAdvice) : List Tok :=
  .lit "(" :: .lit "aspect" :: l.flatMap (fun a => .lit "(" :: a.toks ++ [.lit ")"]) ++ [.lit ")"]

/-- An apply advice that is not generic names at least one argument and one result. -/
def PestAdvice.Nonempty : PestAdvice → Prop
  | .apply (.speIntro _ as rs) _ | .apply (.speInter _ as rs) _ => as ≠ [] ∧ rs ≠ []
  | _ => True

end Wastrum.Wasp
