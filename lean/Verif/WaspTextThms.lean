import Verif.WaspGrammar
/-!
# Which texts the Wasp compiler accepts, and what it reads (C73, C74)

`Reads (programToks l) text` (`WaspSpell.lean`) says that the text is the program `l`, with white space and comments between the
tokens. C73 says that the compiler accepts exactly these texts and reads `l`. C74 is about guest code: it reaches the generated
program unchanged unless it contains the beginning of a comment.
-/

namespace Wastrum.Wasp

theorem waspInput_ok {l : List PestAdvice} {t : List Char} (hl : ∀ a ∈ l, a.Nonempty) (h : Reads (programToks l) t) :
    ∃ ps r x, waspInput t = some (ps, r) ∧ waspInputConv ps = some (l, x) := by
  obtain ⟨g, hg, hs⟩ := h
  obtain ⟨g0, u, hg0, rfl, hb⟩ := spells_begins (toks := programToks l) rfl hs
  obtain ⟨ps, r, g1, hp, ⟨_, hc⟩, hg1, rfl⟩ := complete_program l hl u g hb
  obtain ⟨g2, v, e2, hg2, rfl, hv⟩ := skip_ok r
  have hv0 : v = [] := by
    have h1 : skip ((g1 ++ g2) ++ v) = some ([], v) := skip_blank (blank_append hg1 hg2) hv
    have h2 : skip ((g1 ++ (g2 ++ v)) ++ []) = some ([], []) := skip_blank hg solid_nil
    rw [List.append_nil, ← List.append_assoc, h1] at h2
    cases h2; rfl
  subst hv0
  have h3 : (waspRule ~~ eoi) u = some (ps ++ [.mk .eoi [] []], []) :=
    follow_iff.2 ⟨ps, g2 ++ [], g2, [], _, hp, hg2, rfl, solid_nil, rfl, rfl⟩
  have h4 : (soi ~~ waspRule ~~ eoi) (g0 ++ u) = some (ps ++ [.mk .eoi [] []], []) :=
    follow_iff.2 ⟨[], g0 ++ u, g0, u, _, rfl, hg0, rfl, begins_solid rfl hb, h3, rfl⟩
  refine ⟨_, [], [], rule_iff.2 ⟨_, h4, rfl⟩, ?_⟩
  have hc' := hc [.mk .eoi [] []]
  simp only [waspInputConv, conv, Conv.bind, hc', eoiConv, Conv.done, if_true]

theorem waspInput_sound {t : List Char} {ps r} (h : waspInput t = some (ps, r)) :
    ∃ l x, (∀ a ∈ l, PestAdvice.Nonempty a) ∧ Reads (programToks l) t ∧ waspInputConv ps = some (l, x) := by
  obtain ⟨ps, h0, rfl⟩ := rule_iff.1 h
  obtain ⟨a, u, g, v, b, h1, hg, rfl, hv, h2, rfl⟩ := follow_iff.1 h0
  cases h1
  obtain ⟨a, u, g2, w, b, h3, hg2, rfl, hw, h4, rfl⟩ := follow_iff.1 h2
  obtain ⟨l, hN, hc, g1, hg1, hb⟩ := sound_program h3
  obtain ⟨c, h5, rfl⟩ := rule_iff.1 h4
  split at h5
  · rename_i hw0
    cases h5
    subst hw0
    refine ⟨l, [], hN, ⟨g1 ++ (g2 ++ []), blank_append hg1 (by simpa using hg2), spells_of_begins rfl hg hb⟩, ?_⟩
    have hc' := hc.2 [.mk .eoi [] []]
    simp only [waspInputConv, conv, Conv.bind, eoiConv, Conv.done, List.nil_append, List.take_nil, hc', if_true]
  · cases h5

/-! ## C73 -/

/-- **C73.** The compiler reads the program `l` from a text exactly when the text is `l`: the tokens of `l` in order, with
white space and comments before, between and after them, and nothing else; and every specialised `apply` advice of `l` names at
least one argument and one result. -/
theorem C73_accepts_exactly_the_programs (text : String) (l : List PestAdvice) :
    parse text = .ok l ↔ Reads (programToks l) text.toList ∧ ∀ a ∈ l, a.Nonempty := by
  unfold parse
  constructor
  · intro h
    split at h
    · cases h
    · rename_i ps r hp
      obtain ⟨l', x, hN, hr, hc⟩ := waspInput_sound hp
      rw [hc] at h
      cases h
      exact ⟨hr, hN⟩
  · rintro ⟨h, hN⟩
    obtain ⟨ps, r, x, hp, hc⟩ := waspInput_ok hN h
    simp [hp, hc]

/-- A text with comments, a name right before a parenthesis, and two advice. -/
def sampleText : String := "#| my analysis |# (aspect (global >>>GUEST>>> let n = 0; <<<GUEST<<<)
  (advice apply (f WasmFunction)(a #|first|# I32)(r F64) >>>GUEST>>>n += 1;<<<GUEST<<<)) "
def sampleProgram : List PestAdvice := [.global " let n = 0; ", .apply (.gen "f" ⟨"a", "I32"⟩ ⟨"r", "F64"⟩) "n += 1;"]

example : parse sampleText = .ok sampleProgram := by cbv
example : Reads (programToks sampleProgram) sampleText.toList := ((C73_accepts_exactly_the_programs _ _).1 (by cbv)).1
/-- A keyword that does not exist, and a specialised advice without results. -/
example : parse "(aspect (advice branch >>>GUEST>>> <<<GUEST<<<))" = .error .pest := by cbv
example : parse "(aspect (advice apply (f WasmFunction)((a I32))() >>>GUEST>>> <<<GUEST<<<))" = .error .pest := by cbv

/-- **C73**, unambiguous: a text is at most one program. -/
theorem C73_a_text_is_one_program {t : List Char} {l l' : List PestAdvice} (h : Reads (programToks l) t) (h' : Reads (programToks l') t)
    (hl : ∀ a ∈ l, a.Nonempty) (hl' : ∀ a ∈ l', a.Nonempty) : l = l' := by
  have e : t = (String.ofList t).toList := by simp
  rw [e] at h h'
  have h1 := (C73_accepts_exactly_the_programs _ l).2 ⟨h, hl⟩
  have h2 := (C73_accepts_exactly_the_programs _ l').2 ⟨h', hl'⟩
  rw [h1] at h2
  cases h2; rfl

/-- **C73**, no surprise after parsing: what the grammar accepts, the conversion to a program accepts; a text is either read or
rejected with a syntax error. -/
theorem C73_syntax_errors_only (text : String) (h : ∀ l, Reads (programToks l) text.toList → ¬ ∀ a ∈ l, a.Nonempty) : parse text = .error .pest := by
  cases hp : waspInput text.toList with
  | none => simp [parse, hp]
  | some x =>
    obtain ⟨ps, r⟩ := x
    obtain ⟨l, x, hN, hr, hc⟩ := waspInput_sound hp
    exact absurd hN (h l hr)

/-- **C73**, no surprise after parsing: the conversion never fails and never panics. -/
theorem C73_conversion_never_fails (text : String) : parse text ≠ .error .conversion ∧ compile text ≠ .error .conversion := by
  have h : parse text ≠ .error .conversion := by
    unfold parse
    cases hp : waspInput text.toList with
    | none => simp
    | some x =>
      obtain ⟨ps, r⟩ := x
      obtain ⟨l, x, hN, hr, hc⟩ := waspInput_sound hp
      simp [hc]
  refine ⟨h, ?_⟩
  unfold compile
  cases hp : parse text with
  | error e => intro h'; cases h'; exact h hp
  | ok l => cases hr : root l <;> simp [hr]

/-- **C73**, layout does not matter: two texts of the same program compile to the same result. -/
theorem C73_layout_does_not_matter {s s' : String} {l : List PestAdvice} (h : Reads (programToks l) s.toList) (h' : Reads (programToks l) s'.toList)
    (hl : ∀ a ∈ l, a.Nonempty) : compile s = compile s' := by
  unfold compile
  rw [(C73_accepts_exactly_the_programs s l).2 ⟨h, hl⟩, (C73_accepts_exactly_the_programs s' l).2 ⟨h', hl⟩]

/-- **C73**, the whole compiler: it succeeds exactly on the texts of programs that pass the checks of C35, and the result is the
checked program with its join points. -/
theorem C73_compiles_exactly (text : String) (r : List Advice) (j : JoinPoints) : compile text = .ok (r, j) ↔
    ∃ l, Reads (programToks l) text.toList ∧ (∀ a ∈ l, a.Nonempty) ∧ root l = .ok r ∧ j = joinPoints r := by
  unfold compile
  constructor
  · intro h
    split at h
    · cases h
    · rename_i l hp
      obtain ⟨h1, h2⟩ := (C73_accepts_exactly_the_programs _ _).1 hp
      split at h
      · cases h
      · rename_i r' hr
        cases h
        exact ⟨l, h1, h2, hr, rfl⟩
  · rintro ⟨l, h1, h2, h3, rfl⟩
    simp only [(C73_accepts_exactly_the_programs _ _).2 ⟨h1, h2⟩, h3]

/-! ## C74 -/

/-- Guest code without the beginning of a comment and without the closing delimiter. -/
def PlainCode (code : List Char) : Prop := (∀ k, ¬ ['#', '|'] <+: code.drop k) ∧ Before guestCloses code

theorem code_of_plain {code rest : List Char} (h : PlainCode code) : Code code (guestCloses ++ rest) := by
  induction code with
  | nil => exact .done ⟨rest, rfl⟩
  | cons c code ih =>
    have hc : PlainCode code := by
      refine ⟨fun k => h.1 (k + 1), fun k hk => ?_⟩
      have := h.2 (k + 1) (by simpa using hk)
      simpa using this
    by_cases hs : c = ' ' ∨ c = '\r' ∨ c = '\n' ∨ c = '\t'
    · exact .space hs (ih hc)
    refine .char hs ?_ ?_ (ih hc)
    · intro hp
      refine h.2 0 (by simp) ?_
      have e : c :: code ++ (guestCloses ++ rest) = (c :: code ++ guestCloses) ++ rest := by simp
      rw [e] at hp
      rw [List.drop_zero]
      exact List.prefix_of_prefix_length_le hp (List.prefix_append _ _) (by simp; omega)
    · rintro ⟨b, u, e⟩
      cases code with
      | nil =>
        simp only [List.cons_append, List.nil_append, List.cons.injEq] at e
        have := e.2
        rw [show guestCloses = '<' :: "<<GUEST<<<".toList from rfl, List.cons_append, List.cons.injEq] at this
        exact absurd this.1 (by decide)
      | cons d code =>
        simp only [List.cons_append, List.cons.injEq] at e
        obtain ⟨rfl, rfl, _⟩ := e
        exact h.1 0 ⟨code, rfl⟩

/-- The text of a token. -/
def Tok.text : Tok → List Char
  | .lit s | .ident s | .type s => s.toList
  | .guest code => guestOpens ++ code.toList ++ guestCloses

/-- The program, written with a space before every token. -/
def render (l : List PestAdvice) : String := String.ofList ((programToks l).flatMap fun t => ' ' :: t.text)

/-- The token can be written: names are made of letters, types of letters and digits with a capital first, and guest code is
plain. -/
def Tok.Writable : Tok → Prop
  | .lit _ => True
  | .ident s => s.toList ≠ [] ∧ ∀ c ∈ s.toList, Letter c
  | .type s => (∃ c d l, s.toList = c :: d :: l ∧ 'A' ≤ c ∧ c ≤ 'Z') ∧ ∀ c ∈ s.toList, LetterOrDigit c
  | .guest code => PlainCode code.toList

theorem space_not_alnum : ¬ LetterOrDigit ' ' := by simp only [LetterOrDigit, Letter]; decide

theorem at_text {t : Tok} (h : t.Writable) {rest : List Char} (hr : ∀ c u, rest = c :: u → c = ' ') : t.At (t.text ++ rest) rest := by
  have h1 : ∀ c u, rest = c :: u → ¬ LetterOrDigit c := fun c u e => hr c u e ▸ space_not_alnum
  cases t with
  | lit s => rfl
  | ident s => exact ⟨rfl, h.1, h.2, fun c u e hl => h1 c u e (.inl hl)⟩
  | type s => exact ⟨rfl, h.1, h.2, h1⟩
  | guest code => exact ⟨rfl, code_of_plain h⟩

theorem spells_text {toks : List Tok} (h : ∀ t ∈ toks, t.Writable) : Spells toks (toks.flatMap fun t => ' ' :: t.text) [] := by
  induction toks with
  | nil => rfl
  | cons t toks ih =>
    refine ⟨[' '], t.text ++ toks.flatMap (fun t => ' ' :: t.text), _, .space (.inl rfl) .nil, rfl, at_text (h t (by simp)) ?_, ih fun t ht => h t (by simp [ht])⟩
    intro c u e
    cases toks with
    | nil => cases e
    | cons t' toks => cases e; rfl

/-- **C74.** A program whose names are names and whose guest code contains neither `#|` nor the closing delimiter can be written
down and is read back as it is, with every character of the guest code. -/
theorem C74_written_programs_are_read_back (l : List PestAdvice) (hl : ∀ a ∈ l, a.Nonempty) (hw : ∀ t ∈ programToks l, t.Writable) :
    parse (render l) = .ok l :=
  (C73_accepts_exactly_the_programs _ _).2 ⟨⟨[], .nil, by rw [render, String.toList_ofList]; exact spells_text hw⟩, hl⟩

example : parse (render [.plain (.brIf "c" "l") "x # | y"]) = .ok [.plain (.brIf "c" "l") "x # | y"] := by
  refine C74_written_programs_are_read_back _ (by simp [PestAdvice.Nonempty]) ?_
  have hp : PlainCode "x # | y".toList := by
    refine ⟨fun k => ?_, by unfold Before; decide +kernel⟩
    by_cases hk : k < 7
    · revert hk; revert k; decide +kernel
    · rw [List.drop_eq_nil_of_le (by simpa using hk)]; decide
  have hc : Letter 'c' ∧ Letter 'l' := by simp only [Letter]; decide
  simp [programToks, PestAdvice.toks, PlainTrap.toks, paramToks, Tok.Writable, hc]
  exact hp

/-- The guest code of an advice. -/
def PestAdvice.code : PestAdvice → String
  | .global b | .apply _ b | .plain _ b => b

/-- **C74 fails without the condition.** Comments are recognised in guest code too: an unfinished `#|` in the guest code of one
advice and a `|#` in that of a later one turn everything between them into guest code of the first, and the later advice is
gone. The closing delimiter occurs in neither guest code. -/
theorem C74_guest_code_is_not_opaque : ∃ l l' : List PestAdvice, (∀ a ∈ l, a.Nonempty ∧ Before guestCloses a.code.toList) ∧
    parse (render l) = .ok l' ∧ l'.length < l.length := by
  refine ⟨[.plain .blockPre "a #| b", .plain .blockPost "c |# d"], [.plain .blockPre "a #| b<<<GUEST<<< ) ( advice block post >>>GUEST>>>c |# d"], ?_, ?_, by decide⟩
  · simp only [List.mem_cons, List.not_mem_nil, or_false, forall_eq_or_imp, forall_eq]
    exact ⟨⟨trivial, by unfold Before; decide +kernel⟩, trivial, by unfold Before; decide +kernel⟩
  · cbv

end Wastrum.Wasp
