import Verif.WaspRead
/-!
# The rules of the Wasp grammar
-/

namespace Wastrum.Wasp

/-! ## Parameters -/

theorem complete_identifier (n : String) : Complete identifier [.ident n] (Gives name n) := by
  rintro u r ⟨v, h, rfl⟩
  exact ⟨_, v, [], identifier_iff.2 ⟨n, h, rfl⟩, gives_name _ _ _ _ rfl, .nil, rfl⟩

theorem sound_identifier : Sound identifier fun toks ps => ∃ n, toks = [.ident n] ∧ Gives name n ps := by
  intro u ps r h
  obtain ⟨n, h', rfl⟩ := identifier_iff.1 h
  exact ⟨_, ⟨n, rfl, gives_name _ _ _ _ rfl⟩, rfl, [], .nil, r, h', rfl⟩

theorem complete_typeIdentifier (n : String) : Complete typeIdentifier [.type n] (Gives name n) := by
  rintro u r ⟨v, h, rfl⟩
  exact ⟨_, v, [], typeIdentifier_iff.2 ⟨n, h, rfl⟩, gives_name _ _ _ _ rfl, .nil, rfl⟩

theorem sound_typeIdentifier : Sound typeIdentifier fun toks ps => ∃ n, toks = [.type n] ∧ Gives name n ps := by
  intro u ps r h
  obtain ⟨n, h', rfl⟩ := typeIdentifier_iff.1 h
  exact ⟨_, ⟨n, rfl, gives_name _ _ _ _ rfl⟩, rfl, [], .nil, r, h', rfl⟩

theorem complete_guest (code : String) : Complete guestBlock [.guest code] (Gives body code) := by
  rintro u r ⟨v, h, rfl⟩
  exact ⟨_, v, [], guestBlock_at.2 ⟨code, h, rfl⟩, gives_body _ _ _, .nil, rfl⟩

theorem sound_guest : Sound guestBlock fun toks ps => ∃ code, toks = [.guest code] ∧ Gives body code ps := by
  intro u ps r h
  obtain ⟨n, h', rfl⟩ := guestBlock_at.1 h
  exact ⟨_, ⟨n, rfl, gives_body _ _ _⟩, rfl, [], .nil, r, h', rfl⟩

/-- A rule is sound if its expression is. -/
theorem Sound.rule {p : Peg} {α : Type} {A : α → List Tok} {c : Conv α} {R : Rule} (h : Sound p fun toks ps => ∃ a, toks = A a ∧ c ps = some (a, [])) :
    Sound (rule R p) fun toks ps => ∃ a, toks = A a ∧ One R (conv R c) a ps := by
  intro u ps r e
  obtain ⟨a, h1, rfl⟩ := rule_iff.1 e
  obtain ⟨toks, ⟨x, hx, hc⟩, h2⟩ := h _ _ _ h1
  exact ⟨toks, ⟨x, hx, one_conv hc⟩, h2⟩

/-- A literal and then `q`. -/
theorem Sound.lit {q S s} (hs : (Tok.lit s).firm = true) (hq : Sound q S) : Sound (lit s ~~ q) fun toks ps => ∃ b, toks = .lit s :: b ∧ S b ps := by
  refine ((sound_lit hs).follow hq).mono ?_
  rintro _ _ ⟨a, b, x, y, rfl, rfl, ⟨rfl, rfl⟩, h⟩
  exact ⟨b, rfl, h⟩

theorem complete_formal (R : Rule) {type : String} (ht : (Tok.lit type).firm = true) (n : String) :
    Complete (formal R type) (paramToks n (.lit type)) (One R (formalConv R) n) :=
  (((complete_identifier n).until (complete_lit.lit ht rfl) rfl ht).lit rfl rfl).rule'

theorem sound_formal (R : Rule) {type : String} (ht : (Tok.lit type).firm = true) :
    Sound (formal R type) fun toks ps => ∃ n, toks = paramToks n (.lit type) ∧ One R (formalConv R) n ps := by
  refine Sound.rule (((sound_identifier.follow ((sound_lit (s := ")") rfl).lit ht)).lit rfl).mono ?_)
  rintro _ _ ⟨_, rfl, _, _, _, _, rfl, rfl, ⟨n, rfl, h⟩, _, rfl, rfl, rfl⟩
  exact ⟨n, rfl, by rw [List.append_nil]; exact h.all⟩

theorem complete_typedArgument (a : TypedArg) : Complete typedArgument a.toks (One .typedArgument typedArg a) :=
  Complete.rule' (((complete_identifier a.identifier).bind (b := [.type a.typeIdentifier, .lit ")"])
    ((complete_typeIdentifier a.typeIdentifier).until complete_lit rfl rfl).last rfl rfl).lit rfl rfl)

theorem sound_typedArgument : Sound typedArgument fun toks ps => ∃ a : TypedArg, toks = a.toks ∧ One .typedArgument typedArg a ps := by
  refine Sound.rule (((sound_identifier.follow (sound_typeIdentifier.follow (sound_lit rfl))).lit rfl).mono ?_)
  rintro _ _ ⟨_, rfl, _, _, _, _, rfl, rfl, ⟨n, rfl, h⟩, _, _, _, _, rfl, rfl, ⟨m, rfl, h'⟩, rfl, rfl⟩
  refine ⟨⟨n, m⟩, rfl, Gives.all (h.bind ?_)⟩
  rw [List.append_nil]
  exact h'.last

theorem complete_argument (a : TypedArg) : Complete applyFormalArgument a.toks (One .applyFormalArgument formalArgument a) :=
  ((complete_typedArgument a).mono fun _ h => h.2).rule'
theorem complete_result (a : TypedArg) : Complete applyFormalResult a.toks (One .applyFormalResult formalResult a) :=
  ((complete_typedArgument a).mono fun _ h => h.2).rule'
theorem sound_argument : Sound applyFormalArgument fun toks ps => ∃ a : TypedArg, toks = a.toks ∧ One .applyFormalArgument formalArgument a ps :=
  Sound.rule (sound_typedArgument.mono fun _ _ ⟨a, h1, h2⟩ => ⟨a, h1, h2.2.all⟩)
theorem sound_result : Sound applyFormalResult fun toks ps => ∃ a : TypedArg, toks = a.toks ∧ One .applyFormalResult formalResult a ps :=
  Sound.rule (sound_typedArgument.mono fun _ _ ⟨a, h1, h2⟩ => ⟨a, h1, h2.2.all⟩)

theorem firm_typedArg (a : TypedArg) : firm a.toks = true := rfl

/-! ## Signatures of apply advice -/

theorem complete_wasmF (f : String) : Complete applyFormalWasmF (paramToks f (.lit "WasmFunction")) (One .applyFormalWasmF (formalConv .applyFormalWasmF) f) :=
  complete_formal _ rfl f

theorem complete_gen (f : String) (a r : TypedArg) : Complete applyGenRule (PestApply.gen f a r).toks (One .applyGen genConv (.gen f a r)) := by
  refine Complete.rule' ?_
  rw [PestApply.toks, List.append_assoc]
  exact ((complete_wasmF f).mono fun _ h => h.2).bind (((complete_argument a).mono fun _ h => h.2).bind
    ((complete_result r).mono fun _ h => h.2).last rfl rfl) rfl rfl

/-- Pairs of arguments and then of results. -/
theorem vecs {as rs : List TypedArg} {x y} (ha : Each .applyFormalArgument formalArgument as x) (hr : Each .applyFormalResult formalResult rs y)
    {c : List TypedArg → List TypedArg → PestApply} :
    (formalArgument.vec.bind fun a => formalResult.vec.bind fun r => .done (c a r)) (x ++ y) = some (c as rs, []) := by
  have h1 := ha.vec (rest := y) (hr.other (by decide))
  have h2 := hr.vec (rest := []) rfl
  rw [List.append_nil] at h2
  simp only [Conv.bind, h1, h2]; rfl

theorem fails_argument_close {b} : Fails applyFormalArgument (.lit ")" :: b) := (Fails.first (fails_lit rfl)).rule.rule
theorem fails_result_close {b} : Fails applyFormalResult (.lit ")" :: b) := (Fails.first (fails_lit rfl)).rule.rule

/-- The arguments and results of a specialised signature. -/
theorem complete_spe {as rs : List TypedArg} (ha : as ≠ []) (hr : rs ≠ []) {c : List TypedArg → List TypedArg → PestApply} {q1 : Peg} {b1}
    (h1 : Complete (plus applyFormalResult ~~ lit ")") (rs.flatMap TypedArg.toks ++ [.lit ")"]) (Each .applyFormalResult formalResult rs) →
      Complete q1 b1 (Each .applyFormalResult formalResult rs)) (fb : firm b1 = true) :
    Complete (plus applyFormalArgument ~~ lit ")" ~~ lit "(" ~~ q1) (as.flatMap TypedArg.toks ++ .lit ")" :: .lit "(" :: b1) fun ps =>
      (formalArgument.vec.bind fun a => formalResult.vec.bind fun r => .done (c a r)) ps = some (c as rs, []) := by
  have hq := h1 ((complete_plus (fun a _ => complete_result a) firm_typedArg hr complete_lit fails_result_close rfl sound_result.progress).mono (by
    rintro _ ⟨x, y, rfl, h, rfl⟩
    rw [List.append_nil]; exact h))
  refine (complete_plus (fun a _ => complete_argument a) firm_typedArg ha ((hq.lit (s := "(") rfl fb).lit (s := ")") rfl rfl) fails_argument_close rfl sound_argument.progress).mono ?_
  rintro _ ⟨x, y, rfl, hx, hy⟩
  exact vecs hx hy

theorem complete_fields {p : Peg} {b} {f : String} {x : PestApply} {c : String → Conv PestApply} (h : Complete p b fun ps => c f ps = some (x, [])) (fb : firm b = true) :
    Complete (applyFormalWasmF ~~ p) (paramToks f (.lit "WasmFunction") ++ b) fun ps => ((formalConv .applyFormalWasmF).bind c) ps = some (x, []) := by
  refine ((complete_wasmF f).follow h rfl fb).mono ?_
  rintro _ ⟨y, z, rfl, h1, h2⟩
  simp only [Conv.bind, h1.2 z, h2]

theorem complete_speIntro (f : String) {as rs : List TypedArg} (ha : as ≠ []) (hr : rs ≠ []) :
    Complete applySpeIntro (PestApply.speIntro f as rs).toks (One .applySpeIntro speIntroConv (.speIntro f as rs)) := by
  refine Complete.rule ?_
  have h := complete_spe (c := .speIntro f) ha hr (q1 := plus applyFormalResult ~~ lit ")") (b1 := rs.flatMap TypedArg.toks ++ [.lit ")"]) id
    (firm_append (firm_flatMap firm_typedArg hr))
  have := complete_fields (f := f) (c := fun f => formalArgument.vec.bind fun a => formalResult.vec.bind fun r => .done (.speIntro f a r))
    (h.lit (s := "(") rfl (firm_append (firm_flatMap firm_typedArg ha))) rfl
  simpa [PestApply.toks] using this

theorem complete_speInter (f : String) {as rs : List TypedArg} (ha : as ≠ []) (hr : rs ≠ []) :
    Complete applySpeInter (PestApply.speInter f as rs).toks (One .applySpeInter speInterConv (.speInter f as rs)) := by
  refine Complete.rule ?_
  have h := complete_spe (c := .speInter f) ha hr (q1 := lit "Mut" ~~ plus applyFormalResult ~~ lit ")") (b1 := .lit "Mut" :: rs.flatMap TypedArg.toks ++ [.lit ")"])
    (fun h => h.lit rfl (firm_append (firm_flatMap firm_typedArg hr))) rfl
  have := complete_fields (f := f) (c := fun f => formalArgument.vec.bind fun a => formalResult.vec.bind fun r => .done (.speInter f a r))
    ((h.lit (s := "Mut") rfl (firm_append (firm_flatMap firm_typedArg ha))).lit (s := "(") rfl rfl) rfl
  simpa [PestApply.toks] using this

theorem fails_identifier_open {b} : Fails identifier (.lit "(" :: b) := by
  rintro u r ⟨v, e, _⟩
  simp only [Tok.At] at e
  rw [e]
  exact rule_none.2 (andThen_none.2 fun a u h => by cases h)

/-- `(Mut (` is not a typed argument. -/
theorem fails_typed_mut {b} : Fails typedArgument (.lit "(" :: .lit "Mut" :: .lit "(" :: b) := by
  refine Fails.rule (Fails.second (a := [.lit "("]) complete_lit ?_ rfl rfl)
  rintro u r ⟨v, e, g, w, z, hg, rfl, e2, _⟩
  simp only [Tok.At] at e e2
  refine follow_none fun x t g2 y h hg2 et hy => ?_
  obtain ⟨s, ⟨es, hn, hl, hr⟩, _⟩ := identifier_iff.1 h
  -- what is read is `Mut`
  have hw : Solid w := by rw [e2]; exact solid_cons rfl (by decide)
  have hd : (g ++ w).dropWhile isLetter = g ++ w := by
    cases hg with
    | nil => rw [e2]; rfl
    | space hc _ =>
      rw [List.cons_append, List.dropWhile_cons_of_neg]
      rcases hc with rfl | rfl | rfl | rfl <;> decide
    | comment _ _ => rfl
  have h1 : u.dropWhile isLetter = t := by
    rw [es]
    exact dropWhile_append_all (fun d hd => isLetter_iff.2 (hl d hd)) (fun d v hv => Bool.eq_false_iff.2 fun hd => hr d v hv (isLetter_iff.1 hd))
  have h2 : u.dropWhile isLetter = g ++ w := by rw [e]; exact hd
  have h3 : w = y := by
    have s1 := skip_blank hg hw
    have s2 := skip_blank hg2 hy
    rw [← et, ← h1, h2, s1] at s2
    cases s2; rfl
  rw [← h3, e2]
  refine follow_none fun x t g2 y h _ _ _ => ?_
  exact absurd (typeIdentifier_iff.1 h) (by
    rintro ⟨s, ⟨es, ⟨c, d, l, ec, hc⟩, _⟩, _⟩
    rw [ec] at es
    have : c = '(' := (List.cons.inj es).1.symm
    subst this
    exact absurd (isUpper_iff.2 hc) (by decide))

theorem fails_typed_open {b} : Fails typedArgument (.lit "(" :: .lit "(" :: b) :=
  (Fails.second (a := [.lit "("]) complete_lit fails_identifier_open.first rfl rfl).rule

/-- Signatures that can be written. -/
def PestApply.Nonempty : PestApply → Prop
  | .gen .. => True
  | .speIntro _ as rs | .speInter _ as rs => as ≠ [] ∧ rs ≠ []

theorem cons_of_ne {as : List TypedArg} (h : as ≠ []) : ∃ b, as.flatMap TypedArg.toks = .lit "(" :: b := by
  cases as with
  | nil => exact absurd rfl h
  | cons a as => exact ⟨_, rfl⟩

theorem complete_sig (s : PestApply) (hs : s.Nonempty) : Complete applyHookSignature s.toks (One .applyHookSignature applySigConv s) := by
  refine Complete.rule' ?_
  cases s with
  | gen f a r => exact ((complete_gen f a r).mono fun _ h => h.orLeft.2).orLeft
  | speIntro f as rs =>
    refine (((complete_speIntro f hs.1 hs.2).mono fun _ h => ?_).orLeft (q := applySpeInter)).orRight ?_
    · exact ((One.orRight h (by decide)).orRight (by decide)).2
    · obtain ⟨b, e⟩ := cons_of_ne hs.1
      refine Fails.rule ?_
      have := Fails.second (q := applyFormalArgument ~~ applyFormalResult) (complete_wasmF f) (Fails.first (fails_typed_open (b := b ++ .lit ")" :: .lit "(" :: (rs.flatMap TypedArg.toks ++ [.lit ")"]))).rule) rfl rfl
      simpa [PestApply.toks, e] using this
  | speInter f as rs =>
    obtain ⟨b, e⟩ := cons_of_ne hs.1
    refine (((complete_speInter f hs.1 hs.2).mono fun _ h => ?_).orRight ?_).orRight ?_
    · exact ((One.orLeft h).orRight (by decide)).2
    · refine Fails.rule ?_
      have h1 : Fails (plus applyFormalArgument ~~ lit ")" ~~ lit "(" ~~ plus applyFormalResult ~~ lit ")")
          (.lit "Mut" :: .lit "(" :: (b ++ .lit ")" :: .lit "(" :: .lit "Mut" :: (rs.flatMap TypedArg.toks ++ [.lit ")"]))) :=
        Fails.first (Fails.first (Fails.first (fails_lit rfl)).rule.rule)
      have := Fails.second (complete_wasmF f) (Fails.second (a := [.lit "("]) complete_lit h1 rfl rfl) rfl rfl
      simpa [PestApply.toks, e] using this
    · refine Fails.rule ?_
      have := Fails.second (q := applyFormalArgument ~~ applyFormalResult) (complete_wasmF f)
        (Fails.first (fails_typed_mut (b := b ++ .lit ")" :: .lit "(" :: .lit "Mut" :: (rs.flatMap TypedArg.toks ++ [.lit ")"]))).rule) rfl rfl
      simpa [PestApply.toks, e] using this

/-- A signature of the rule's pair, with its tokens. -/
def SigOf (R : Rule) (c : Conv PestApply) (toks : List Tok) (ps : List Pair) : Prop :=
  ∃ s : PestApply, s.Nonempty ∧ toks = s.toks ∧ One R c s ps

theorem Sound.rule' {p : Peg} {α : Type} {A : α → List Tok} {N : α → Prop} {c : Conv α} {R : Rule} (h : Sound p fun toks ps => ∃ a, N a ∧ toks = A a ∧ c ps = some (a, [])) :
    Sound (Wasp.rule R p) fun toks ps => ∃ a, N a ∧ toks = A a ∧ One R (conv R c) a ps := by
  intro u ps r e
  obtain ⟨a, h1, rfl⟩ := rule_iff.1 e
  obtain ⟨toks, ⟨x, hn, hx, hc⟩, h2⟩ := h _ _ _ h1
  exact ⟨toks, ⟨x, hn, hx, one_conv hc⟩, h2⟩

theorem sound_sig : Sound applyHookSignature (SigOf .applyHookSignature applySigConv) := by
  refine Sound.rule' (sound_orElse ?_ (sound_orElse ?_ ?_))
  · refine (Sound.rule' (N := PestApply.Nonempty) (A := PestApply.toks) (c := (formalConv .applyFormalWasmF).bind fun f =>
      formalArgument.bind fun a => formalResult.bind fun r => .done (.gen f a r))
      (((sound_formal .applyFormalWasmF rfl).follow (sound_argument.follow sound_result)).mono ?_)).mono ?_
    · rintro _ _ ⟨_, _, _, _, rfl, rfl, ⟨f, rfl, h1⟩, _, _, _, _, rfl, rfl, ⟨a, rfl, h2⟩, r, rfl, h3⟩
      exact ⟨.gen f a r, trivial, by simp [PestApply.toks], (h1.2.bind (h2.2.bind h3.2.last)).all⟩
    · rintro _ _ ⟨s, h1, h2, h3⟩
      exact ⟨s, h1, h2, (One.orLeft h3).2.all⟩
  · refine (Sound.rule' (N := PestApply.Nonempty) (A := PestApply.toks) (c := (formalConv .applyFormalWasmF).bind fun f =>
      formalArgument.vec.bind fun a => formalResult.vec.bind fun r => .done (.speIntro f a r))
      (((sound_formal .applyFormalWasmF rfl).follow (((sound_plus sound_argument firm_typedArg).follow
        (((sound_plus sound_result firm_typedArg).follow (sound_lit (s := ")") rfl)).lit (s := "(") rfl |>.lit (s := ")") rfl)).lit (s := "(") rfl)).mono ?_)).mono ?_
    · rintro _ _ ⟨_, _, _, _, rfl, rfl, ⟨f, rfl, h1⟩, _, rfl, _, _, _, _, rfl, rfl, ⟨as, ha, rfl, h2⟩, _, rfl, _, rfl, _, _, _, _, rfl, rfl, ⟨rs, hr, rfl, h3⟩, rfl, rfl⟩
      refine ⟨.speIntro f as rs, ⟨ha, hr⟩, by simp [PestApply.toks], ?_⟩
      rw [List.append_nil]
      have := vecs h2 h3 (c := .speIntro f)
      unfold Conv.bind
      rw [h1.2]
      exact this
    · rintro _ _ ⟨s, h1, h2, h3⟩
      exact ⟨s, h1, h2, ((One.orRight h3 (by decide)).orRight (by decide)).2.all⟩
  · refine (Sound.rule' (N := PestApply.Nonempty) (A := PestApply.toks) (c := (formalConv .applyFormalWasmF).bind fun f =>
      formalArgument.vec.bind fun a => formalResult.vec.bind fun r => .done (.speInter f a r))
      (((sound_formal .applyFormalWasmF rfl).follow ((((sound_plus sound_argument firm_typedArg).follow
        ((((sound_plus sound_result firm_typedArg).follow (sound_lit (s := ")") rfl)).lit (s := "Mut") rfl).lit (s := "(") rfl |>.lit (s := ")") rfl)).lit (s := "Mut") rfl).lit (s := "(") rfl)).mono ?_)).mono ?_
    · rintro _ _ ⟨_, _, _, _, rfl, rfl, ⟨f, rfl, h1⟩, _, rfl, _, rfl, _, _, _, _, rfl, rfl, ⟨as, ha, rfl, h2⟩, _, rfl, _, rfl, _, rfl, _, _, _, _, rfl, rfl, ⟨rs, hr, rfl, h3⟩, rfl, rfl⟩
      refine ⟨.speInter f as rs, ⟨ha, hr⟩, by simp [PestApply.toks], ?_⟩
      rw [List.append_nil]
      have := vecs h2 h3 (c := .speInter f)
      unfold Conv.bind
      rw [h1.2]
      exact this
    · rintro _ _ ⟨s, h1, h2, h3⟩
      exact ⟨s, h1, h2, ((One.orLeft h3).orRight (by decide)).2.all⟩

/-! ## Advice -/

theorem complete_apply (s : PestApply) (hs : s.Nonempty) (b : String) :
    Complete trapApply (.lit "apply" :: (s.toks ++ [.guest b])) (One .trapApply trapApplyConv (.apply s b)) := by
  have fs : firm s.toks = true := by cases s <;> rfl
  exact ((((complete_sig s hs).mono fun _ h => h.2).bind (complete_guest b).last fs rfl).lit rfl (firm_append fs)).rule'

theorem complete_call (q : CallQualifier) (f b : String) :
    Complete trapCall ((PlainTrap.call q f).toks ++ [.guest b]) (One .trapCall trapCallConv (.plain (.call q f) b)) := by
  have hq : ∀ s : String, (s = "pre" ∧ q = .pre) ∨ (s = "post" ∧ q = .post) → Complete callQualifier [.lit s] (Gives (inner spanIntoQualifier) q) := by
    rintro s hs u r ⟨v, e, rfl⟩
    simp only [Tok.At] at e
    subst e
    have : (lit "pre" /// lit "post") (s.toList ++ v) = some ([], v) := by
      rcases hs with ⟨rfl, rfl⟩ | ⟨rfl, rfl⟩
      · exact orElse_left (lit_iff.2 ⟨rfl, rfl⟩)
      · exact (orElse_right rfl).trans (lit_iff.2 ⟨rfl, rfl⟩)
    refine ⟨_, v, [], rule_iff.2 ⟨[], this, rfl⟩, ?_, .nil, rfl⟩
    intro rest
    rw [take_text]
    rcases hs with ⟨rfl, rfl⟩ | ⟨rfl, rfl⟩ <;> rfl
  have h2 := ((complete_formal .formalTarget (type := "FunctionIndex") rfl f).mono fun _ h => h.2).bind ((complete_guest b).last (f := fun b => PestAdvice.plain (.call q f) b)) rfl rfl
    (f := fun f => body.bind fun b => .done (PestAdvice.plain (.call q f) b))
  cases q with
  | pre => exact (((hq "pre" (.inl ⟨rfl, rfl⟩)).bind h2 rfl rfl (f := fun q => (formalConv .formalTarget).bind fun f => body.bind fun b => .done (PestAdvice.plain (.call q f) b))).lit (s := "call") rfl rfl).rule'
  | post => exact (((hq "post" (.inr ⟨rfl, rfl⟩)).bind h2 rfl rfl (f := fun q => (formalConv .formalTarget).bind fun f => body.bind fun b => .done (PestAdvice.plain (.call q f) b))).lit (s := "call") rfl rfl).rule'

theorem complete_bare {R : Rule} {k q : String} (hk : (Tok.lit k).firm = true) (hq : (Tok.lit q).firm = true) (t : PlainTrap) (b : String) :
    Complete (rule R (lit k ~~ lit q ~~ guestBlock)) [.lit k, .lit q, .guest b] (One R (trapBare R t) (.plain t b)) :=
  (((complete_guest b).last.lit hq rfl).lit hk hq).rule'

theorem complete_one {R1 : Rule} {type : String} (ht : (Tok.lit type).firm = true) (t : String → PlainTrap) (c b : String) :
    Complete (formal R1 type ~~ guestBlock) (paramToks c (.lit type) ++ [.guest b])
      (Gives ((formalConv R1).bind fun c => body.bind fun b => .done (PestAdvice.plain (t c) b)) (PestAdvice.plain (t c) b)) :=
  ((complete_formal R1 ht c).mono fun _ h => h.2).bind (complete_guest b).last rfl rfl

theorem complete_two {R1 R2 : Rule} {type1 type2 : String} (h1 : (Tok.lit type1).firm = true) (h2 : (Tok.lit type2).firm = true) (t : String → String → PlainTrap) (c d b : String) :
    Complete (formal R1 type1 ~~ formal R2 type2 ~~ guestBlock) (paramToks c (.lit type1) ++ (paramToks d (.lit type2) ++ [.guest b]))
      (Gives ((formalConv R1).bind fun c => (formalConv R2).bind fun d => body.bind fun b => .done (PestAdvice.plain (t c d) b)) (PestAdvice.plain (t c d) b)) :=
  ((complete_formal R1 h1 c).mono fun _ h => h.2).bind (((complete_formal R2 h2 d).mono fun _ h => h.2).bind (complete_guest b).last rfl rfl) rfl rfl

theorem fails_first {R : Rule} {s s' : String} {q toks} (h : clash s.toList s'.toList = true) : Fails (rule R (lit s ~~ q)) (.lit s' :: toks) :=
  (Fails.first (fails_lit h)).rule

theorem fails_qualifier {R : Rule} {k s s' : String} {q toks} (hk : (Tok.lit k).firm = true) (hs : (Tok.lit s').firm = true) (h : clash s.toList s'.toList = true) :
    Fails (rule R (lit k ~~ lit s ~~ q)) (.lit k :: .lit s' :: toks) :=
  (Fails.second (a := [.lit k]) complete_lit (Fails.first (fails_lit h)) hk hs).rule

theorem fails_call {toks} : Fails trapCall (.lit "call_indirect" :: toks) := by
  refine (fails_keyword (k := "_indirect".toList) rfl fun v => ⟨solid_cons rfl (by decide), follow_none fun _ _ _ _ h _ _ _ => ?_⟩).rule
  have e : callQualifier ("_indirect".toList ++ v) = none := rfl
  rw [e] at h; cases h

theorem fails_ifThen {toks} : Fails trapIfThen (.lit "if_then_else" :: toks) := by
  refine (fails_keyword (k := "_else".toList) rfl fun v => ⟨solid_cons rfl (by decide), follow_none fun _ _ _ _ h _ _ _ => ?_⟩).rule
  have e : branchFormalCondition ("_else".toList ++ v) = none := by
    unfold branchFormalCondition formal
    refine rule_none.2 (follow_none fun _ _ _ _ h _ _ _ => ?_)
    have e : lit "(" ("_else".toList ++ v) = none := rfl
    rw [e] at h; cases h
  rw [e] at h; cases h

/-- The variants of `TrapSignature`. -/
abbrev trapAlts : Conv PestAdvice :=
  trapApplyConv.or <| trapCallConv.or <| (trapBare .trapBlockPre .blockPre).or <| (trapBare .trapBlockPost .blockPost).or <| (trapBare .trapLoopPre .loopPre).or <| (trapBare .trapLoopPost .loopPost).or <| (trapOne .trapSelect .selectFormalCondition .select).or <| 
  (trapTwo .trapCallIndirectPre .formalTable .formalIndex .callIndirectPre).or <| (trapOne .trapCallIndirectPost .formalTable .callIndirectPost).or <| (trapOne .trapIfThen .branchFormalCondition .ifThen).or <| (trapOne .trapIfThenElse .branchFormalCondition .ifThenElse).or <| 
  (trapTwo .trapBrIf .branchFormalCondition .branchFormalLabel .brIf).or <| (trapTwo .trapBrTable .branchFormalTarget .branchFormalDefault .brTable)

theorem variant_Apply {a ps} (h : One .trapApply trapApplyConv a ps) : One .trapApply trapAlts a ps :=
  (One.orLeft h)
theorem variant_Call {a ps} (h : One .trapCall trapCallConv a ps) : One .trapCall trapAlts a ps :=
  ((One.orLeft h).orRight (by decide))
theorem variant_BlockPre {a ps} (h : One .trapBlockPre (trapBare .trapBlockPre .blockPre) a ps) : One .trapBlockPre trapAlts a ps :=
  (((One.orLeft h).orRight (by decide)).orRight (by decide))
theorem variant_BlockPost {a ps} (h : One .trapBlockPost (trapBare .trapBlockPost .blockPost) a ps) : One .trapBlockPost trapAlts a ps :=
  ((((One.orLeft h).orRight (by decide)).orRight (by decide)).orRight (by decide))
theorem variant_LoopPre {a ps} (h : One .trapLoopPre (trapBare .trapLoopPre .loopPre) a ps) : One .trapLoopPre trapAlts a ps :=
  (((((One.orLeft h).orRight (by decide)).orRight (by decide)).orRight (by decide)).orRight (by decide))
theorem variant_LoopPost {a ps} (h : One .trapLoopPost (trapBare .trapLoopPost .loopPost) a ps) : One .trapLoopPost trapAlts a ps :=
  ((((((One.orLeft h).orRight (by decide)).orRight (by decide)).orRight (by decide)).orRight (by decide)).orRight (by decide))
theorem variant_Select {a ps} (h : One .trapSelect (trapOne .trapSelect .selectFormalCondition .select) a ps) : One .trapSelect trapAlts a ps :=
  (((((((One.orLeft h).orRight (by decide)).orRight (by decide)).orRight (by decide)).orRight (by decide)).orRight (by decide)).orRight (by decide))
theorem variant_CallIndirectPre {a ps} (h : One .trapCallIndirectPre (trapTwo .trapCallIndirectPre .formalTable .formalIndex .callIndirectPre) a ps) : One .trapCallIndirectPre trapAlts a ps :=
  ((((((((One.orLeft h).orRight (by decide)).orRight (by decide)).orRight (by decide)).orRight (by decide)).orRight (by decide)).orRight (by decide)).orRight (by decide))
theorem variant_CallIndirectPost {a ps} (h : One .trapCallIndirectPost (trapOne .trapCallIndirectPost .formalTable .callIndirectPost) a ps) : One .trapCallIndirectPost trapAlts a ps :=
  (((((((((One.orLeft h).orRight (by decide)).orRight (by decide)).orRight (by decide)).orRight (by decide)).orRight (by decide)).orRight (by decide)).orRight (by decide)).orRight (by decide))
theorem variant_IfThen {a ps} (h : One .trapIfThen (trapOne .trapIfThen .branchFormalCondition .ifThen) a ps) : One .trapIfThen trapAlts a ps :=
  ((((((((((One.orLeft h).orRight (by decide)).orRight (by decide)).orRight (by decide)).orRight (by decide)).orRight (by decide)).orRight (by decide)).orRight (by decide)).orRight (by decide)).orRight (by decide))
theorem variant_IfThenElse {a ps} (h : One .trapIfThenElse (trapOne .trapIfThenElse .branchFormalCondition .ifThenElse) a ps) : One .trapIfThenElse trapAlts a ps :=
  (((((((((((One.orLeft h).orRight (by decide)).orRight (by decide)).orRight (by decide)).orRight (by decide)).orRight (by decide)).orRight (by decide)).orRight (by decide)).orRight (by decide)).orRight (by decide)).orRight (by decide))
theorem variant_BrIf {a ps} (h : One .trapBrIf (trapTwo .trapBrIf .branchFormalCondition .branchFormalLabel .brIf) a ps) : One .trapBrIf trapAlts a ps :=
  ((((((((((((One.orLeft h).orRight (by decide)).orRight (by decide)).orRight (by decide)).orRight (by decide)).orRight (by decide)).orRight (by decide)).orRight (by decide)).orRight (by decide)).orRight (by decide)).orRight (by decide)).orRight (by decide))
theorem variant_BrTable {a ps} (h : One .trapBrTable (trapTwo .trapBrTable .branchFormalTarget .branchFormalDefault .brTable) a ps) : One .trapBrTable trapAlts a ps :=
  ((((((((((((h.orRight (by decide)).orRight (by decide)).orRight (by decide)).orRight (by decide)).orRight (by decide)).orRight (by decide)).orRight (by decide)).orRight (by decide)).orRight (by decide)).orRight (by decide)).orRight (by decide)).orRight (by decide))

theorem complete_trap_apply (s : PestApply) (hs : s.Nonempty) (b : String) :
    Complete trapSignature (.lit "apply" :: (s.toks ++ [.guest b])) (One .trapSignature trapConv (.apply s b)) := by
  refine Complete.rule' ?_
  exact ((complete_apply s hs b).mono fun _ h => (variant_Apply h).2).orLeft

theorem complete_trap (t : PlainTrap) (b : String) : Complete trapSignature (t.toks ++ [.guest b]) (One .trapSignature trapConv (.plain t b)) := by
  refine Complete.rule' ?_
  cases t with
  | call q f =>
    have h := complete_call q f b
    have f : Fails trapApply ((PlainTrap.call q f).toks ++ [.guest b]) := by cases q <;> exact fails_first rfl
    exact ((h.mono fun _ h => (variant_Call h).2).orLeft).orRight f
  | blockPre =>
    have h := complete_bare (R := .trapBlockPre) (k := "block") (q := "pre") rfl rfl .blockPre b
    have h := h.mono fun _ h => (variant_BlockPre h).2
    refine Complete.orRight ?_ (fails_first rfl)
    refine Complete.orRight ?_ (fails_first rfl)
    exact h.orLeft
  | blockPost =>
    have h := complete_bare (R := .trapBlockPost) (k := "block") (q := "post") rfl rfl .blockPost b
    have h := h.mono fun _ h => (variant_BlockPost h).2
    refine Complete.orRight ?_ (fails_first rfl)
    refine Complete.orRight ?_ (fails_first rfl)
    refine Complete.orRight ?_ (fails_qualifier rfl rfl rfl)
    exact h.orLeft
  | loopPre =>
    have h := complete_bare (R := .trapLoopPre) (k := "loop") (q := "pre") rfl rfl .loopPre b
    have h := h.mono fun _ h => (variant_LoopPre h).2
    refine Complete.orRight ?_ (fails_first rfl)
    refine Complete.orRight ?_ (fails_first rfl)
    refine Complete.orRight ?_ (fails_first rfl)
    refine Complete.orRight ?_ (fails_first rfl)
    exact h.orLeft
  | loopPost =>
    have h := complete_bare (R := .trapLoopPost) (k := "loop") (q := "post") rfl rfl .loopPost b
    have h := h.mono fun _ h => (variant_LoopPost h).2
    refine Complete.orRight ?_ (fails_first rfl)
    refine Complete.orRight ?_ (fails_first rfl)
    refine Complete.orRight ?_ (fails_first rfl)
    refine Complete.orRight ?_ (fails_first rfl)
    refine Complete.orRight ?_ (fails_qualifier rfl rfl rfl)
    exact h.orLeft
  | select c =>
    have h := ((complete_one (R1 := .selectFormalCondition) (type := "Condition") rfl .select c b).lit (s := "select") rfl rfl).rule' (R := .trapSelect)
    have h := h.mono fun _ h => (variant_Select h).2
    refine Complete.orRight ?_ (fails_first rfl)
    refine Complete.orRight ?_ (fails_first rfl)
    refine Complete.orRight ?_ (fails_first rfl)
    refine Complete.orRight ?_ (fails_first rfl)
    refine Complete.orRight ?_ (fails_first rfl)
    refine Complete.orRight ?_ (fails_first rfl)
    exact h.orLeft
  | callIndirectPre t i =>
    have h := (((complete_two (R1 := .formalTable) (R2 := .formalIndex) (type1 := "FunctionTable") (type2 := "FunctionTableIndex") rfl rfl .callIndirectPre t i b).lit (s := "pre") rfl rfl).lit (s := "call_indirect") rfl rfl).rule' (R := .trapCallIndirectPre)
    have h := h.mono fun _ h => (variant_CallIndirectPre h).2
    simp only [PlainTrap.toks, List.cons_append, List.append_assoc]
    refine Complete.orRight ?_ (fails_first rfl)
    refine Complete.orRight ?_ (fails_call)
    refine Complete.orRight ?_ (fails_first rfl)
    refine Complete.orRight ?_ (fails_first rfl)
    refine Complete.orRight ?_ (fails_first rfl)
    refine Complete.orRight ?_ (fails_first rfl)
    refine Complete.orRight ?_ (fails_first rfl)
    exact h.orLeft
  | callIndirectPost t =>
    have h := (((complete_one (R1 := .formalTable) (type := "FunctionTable") rfl .callIndirectPost t b).lit (s := "post") rfl rfl).lit (s := "call_indirect") rfl rfl).rule' (R := .trapCallIndirectPost)
    have h := h.mono fun _ h => (variant_CallIndirectPost h).2
    refine Complete.orRight ?_ (fails_first rfl)
    refine Complete.orRight ?_ (fails_call)
    refine Complete.orRight ?_ (fails_first rfl)
    refine Complete.orRight ?_ (fails_first rfl)
    refine Complete.orRight ?_ (fails_first rfl)
    refine Complete.orRight ?_ (fails_first rfl)
    refine Complete.orRight ?_ (fails_first rfl)
    refine Complete.orRight ?_ (fails_qualifier rfl rfl rfl)
    exact h.orLeft
  | ifThen c =>
    have h := ((complete_one (R1 := .branchFormalCondition) (type := "Condition") rfl .ifThen c b).lit (s := "if_then") rfl rfl).rule' (R := .trapIfThen)
    have h := h.mono fun _ h => (variant_IfThen h).2
    refine Complete.orRight ?_ (fails_first rfl)
    refine Complete.orRight ?_ (fails_first rfl)
    refine Complete.orRight ?_ (fails_first rfl)
    refine Complete.orRight ?_ (fails_first rfl)
    refine Complete.orRight ?_ (fails_first rfl)
    refine Complete.orRight ?_ (fails_first rfl)
    refine Complete.orRight ?_ (fails_first rfl)
    refine Complete.orRight ?_ (fails_first rfl)
    refine Complete.orRight ?_ (fails_first rfl)
    exact h.orLeft
  | ifThenElse c =>
    have h := ((complete_one (R1 := .branchFormalCondition) (type := "Condition") rfl .ifThenElse c b).lit (s := "if_then_else") rfl rfl).rule' (R := .trapIfThenElse)
    have h := h.mono fun _ h => (variant_IfThenElse h).2
    refine Complete.orRight ?_ (fails_first rfl)
    refine Complete.orRight ?_ (fails_first rfl)
    refine Complete.orRight ?_ (fails_first rfl)
    refine Complete.orRight ?_ (fails_first rfl)
    refine Complete.orRight ?_ (fails_first rfl)
    refine Complete.orRight ?_ (fails_first rfl)
    refine Complete.orRight ?_ (fails_first rfl)
    refine Complete.orRight ?_ (fails_first rfl)
    refine Complete.orRight ?_ (fails_first rfl)
    refine Complete.orRight ?_ (fails_ifThen)
    exact h.orLeft
  | brIf c l =>
    have h := ((complete_two (R1 := .branchFormalCondition) (R2 := .branchFormalLabel) (type1 := "Condition") (type2 := "Label") rfl rfl .brIf c l b).lit (s := "br_if") rfl rfl).rule' (R := .trapBrIf)
    have h := h.mono fun _ h => (variant_BrIf h).2
    simp only [PlainTrap.toks, List.cons_append, List.append_assoc]
    refine Complete.orRight ?_ (fails_first rfl)
    refine Complete.orRight ?_ (fails_first rfl)
    refine Complete.orRight ?_ (fails_first rfl)
    refine Complete.orRight ?_ (fails_first rfl)
    refine Complete.orRight ?_ (fails_first rfl)
    refine Complete.orRight ?_ (fails_first rfl)
    refine Complete.orRight ?_ (fails_first rfl)
    refine Complete.orRight ?_ (fails_first rfl)
    refine Complete.orRight ?_ (fails_first rfl)
    refine Complete.orRight ?_ (fails_first rfl)
    refine Complete.orRight ?_ (fails_first rfl)
    exact h.orLeft
  | brTable t d =>
    have h := ((complete_two (R1 := .branchFormalTarget) (R2 := .branchFormalDefault) (type1 := "Target") (type2 := "Default") rfl rfl .brTable t d b).lit (s := "br_table") rfl rfl).rule' (R := .trapBrTable)
    have h := h.mono fun _ h => (variant_BrTable h).2
    simp only [PlainTrap.toks, List.cons_append, List.append_assoc]
    refine Complete.orRight ?_ (fails_first rfl)
    refine Complete.orRight ?_ (fails_first rfl)
    refine Complete.orRight ?_ (fails_first rfl)
    refine Complete.orRight ?_ (fails_first rfl)
    refine Complete.orRight ?_ (fails_first rfl)
    refine Complete.orRight ?_ (fails_first rfl)
    refine Complete.orRight ?_ (fails_first rfl)
    refine Complete.orRight ?_ (fails_first rfl)
    refine Complete.orRight ?_ (fails_first rfl)
    refine Complete.orRight ?_ (fails_first rfl)
    refine Complete.orRight ?_ (fails_first rfl)
    refine Complete.orRight ?_ (fails_first rfl)
    exact h

/-- The tokens of an advice that is not global, without `advice`. -/
def trapToks : PestAdvice → List Tok
  | .global _ => []
  | .apply s b => .lit "apply" :: (s.toks ++ [.guest b])
  | .plain t b => t.toks ++ [.guest b]

/-- An advice that is not global and can be written. -/
def TrapOk (a : PestAdvice) : Prop := a.Nonempty ∧ a.toks = .lit "advice" :: trapToks a

theorem trapOk_plain {t b} : TrapOk (.plain t b) := ⟨trivial, rfl⟩
theorem trapOk_apply {s b} (h : s.Nonempty) : TrapOk (.apply s b) := by
  cases s with
  | gen => exact ⟨trivial, rfl⟩
  | _ => exact ⟨h, rfl⟩

/-- What a rule for an advice reads. -/
def TrapOf (R : Rule) (c : Conv PestAdvice) (toks : List Tok) (ps : List Pair) : Prop := ∃ a, TrapOk a ∧ toks = trapToks a ∧ One R c a ps

theorem sound_trapApply : Sound trapApply (TrapOf .trapApply trapApplyConv) := by
  refine Sound.rule' (((sound_sig.follow sound_guest).lit rfl).mono ?_)
  rintro _ _ ⟨_, rfl, _, _, _, _, rfl, rfl, ⟨s, hs, rfl, h1⟩, b, rfl, h2⟩
  exact ⟨.apply s b, trapOk_apply hs, rfl, (h1.2.bind h2.last).all⟩

theorem sound_callQualifier : Sound callQualifier fun toks ps => ∃ q : CallQualifier, toks = [.lit (match q with | .pre => "pre" | .post => "post")] ∧ Gives (inner spanIntoQualifier) q ps := by
  intro u ps r h
  obtain ⟨a, h1, rfl⟩ := rule_iff.1 h
  rcases orElse_cases h1 with h2 | ⟨_, h2⟩
  all_goals
    obtain ⟨rfl, rfl⟩ := lit_iff.1 h2
    rw [take_text]
  · exact ⟨[.lit "pre"], ⟨.pre, rfl, fun _ => rfl⟩, rfl, [], .nil, r, rfl, rfl⟩
  · exact ⟨[.lit "post"], ⟨.post, rfl, fun _ => rfl⟩, rfl, [], .nil, r, rfl, rfl⟩

theorem sound_trapCall : Sound trapCall (TrapOf .trapCall trapCallConv) := by
  refine Sound.rule' (((sound_callQualifier.follow ((sound_formal .formalTarget (type := "FunctionIndex") rfl).follow sound_guest)).lit rfl).mono ?_)
  rintro _ _ ⟨_, rfl, _, _, _, _, rfl, rfl, ⟨q, rfl, h1⟩, _, _, _, _, rfl, rfl, ⟨f, rfl, h2⟩, b, rfl, h3⟩
  exact ⟨.plain (.call q f) b, trapOk_plain, by cases q <;> rfl, (h1.bind (h2.2.bind h3.last)).all⟩

theorem sound_bare {R : Rule} {k q : String} (hk : (Tok.lit k).firm = true) (hq : (Tok.lit q).firm = true) {t : PlainTrap} (ht : t.toks = [.lit k, .lit q]) :
    Sound (rule R (lit k ~~ lit q ~~ guestBlock)) (TrapOf R (trapBare R t)) := by
  refine Sound.rule' (((sound_guest.lit hq).lit hk).mono ?_)
  rintro _ _ ⟨_, rfl, _, rfl, b, rfl, h⟩
  exact ⟨.plain t b, trapOk_plain, by rw [trapToks, ht]; rfl, h.last.all⟩

theorem sound_one {R1 : Rule} {type : String} (h1 : (Tok.lit type).firm = true) : Sound (formal R1 type ~~ guestBlock) fun toks ps =>
    ∃ c b, toks = paramToks c (.lit type) ++ [.guest b] ∧ ∀ t : String → PlainTrap,
      ((formalConv R1).bind fun c => body.bind fun b => .done (PestAdvice.plain (t c) b)) ps = some (.plain (t c) b, []) := by
  refine ((sound_formal R1 h1).follow sound_guest).mono ?_
  rintro _ _ ⟨_, _, _, _, rfl, rfl, ⟨c, rfl, h2⟩, b, rfl, h3⟩
  exact ⟨c, b, rfl, fun t => (h2.2.bind h3.last).all⟩

theorem sound_two {R1 R2 : Rule} {type1 type2 : String} (h1 : (Tok.lit type1).firm = true) (h2 : (Tok.lit type2).firm = true) :
    Sound (formal R1 type1 ~~ formal R2 type2 ~~ guestBlock) fun toks ps =>
    ∃ c d b, toks = paramToks c (.lit type1) ++ (paramToks d (.lit type2) ++ [.guest b]) ∧ ∀ t : String → String → PlainTrap,
      ((formalConv R1).bind fun c => (formalConv R2).bind fun d => body.bind fun b => .done (PestAdvice.plain (t c d) b)) ps = some (.plain (t c d) b, []) := by
  refine ((sound_formal R1 h1).follow ((sound_formal R2 h2).follow sound_guest)).mono ?_
  rintro _ _ ⟨_, _, _, _, rfl, rfl, ⟨c, rfl, h3⟩, _, _, _, _, rfl, rfl, ⟨d, rfl, h4⟩, b, rfl, h5⟩
  exact ⟨c, d, b, rfl, fun t => (h3.2.bind (h4.2.bind h5.last)).all⟩

theorem sound_trapBlockPre : Sound trapBlockPre (TrapOf .trapBlockPre (trapBare .trapBlockPre .blockPre)) := sound_bare rfl rfl rfl
theorem sound_trapBlockPost : Sound trapBlockPost (TrapOf .trapBlockPost (trapBare .trapBlockPost .blockPost)) := sound_bare rfl rfl rfl
theorem sound_trapLoopPre : Sound trapLoopPre (TrapOf .trapLoopPre (trapBare .trapLoopPre .loopPre)) := sound_bare rfl rfl rfl
theorem sound_trapLoopPost : Sound trapLoopPost (TrapOf .trapLoopPost (trapBare .trapLoopPost .loopPost)) := sound_bare rfl rfl rfl
theorem sound_trapSelect : Sound trapSelect (TrapOf .trapSelect (trapOne .trapSelect .selectFormalCondition .select)) := by
  refine Sound.rule' (((sound_one rfl).lit rfl).mono ?_)
  rintro _ _ ⟨_, rfl, c, b, rfl, h⟩
  exact ⟨.plain (.select c) b, trapOk_plain, rfl, h _⟩
theorem sound_trapIfThen : Sound trapIfThen (TrapOf .trapIfThen (trapOne .trapIfThen .branchFormalCondition .ifThen)) := by
  refine Sound.rule' (((sound_one rfl).lit rfl).mono ?_)
  rintro _ _ ⟨_, rfl, c, b, rfl, h⟩
  exact ⟨.plain (.ifThen c) b, trapOk_plain, rfl, h _⟩
theorem sound_trapIfThenElse : Sound trapIfThenElse (TrapOf .trapIfThenElse (trapOne .trapIfThenElse .branchFormalCondition .ifThenElse)) := by
  refine Sound.rule' (((sound_one rfl).lit rfl).mono ?_)
  rintro _ _ ⟨_, rfl, c, b, rfl, h⟩
  exact ⟨.plain (.ifThenElse c) b, trapOk_plain, rfl, h _⟩
theorem sound_trapCallIndirectPost : Sound trapCallIndirectPost (TrapOf .trapCallIndirectPost (trapOne .trapCallIndirectPost .formalTable .callIndirectPost)) := by
  refine Sound.rule' ((((sound_one rfl).lit rfl).lit rfl).mono ?_)
  rintro _ _ ⟨_, rfl, _, rfl, c, b, rfl, h⟩
  exact ⟨.plain (.callIndirectPost c) b, trapOk_plain, rfl, h _⟩
theorem sound_trapCallIndirectPre : Sound trapCallIndirectPre (TrapOf .trapCallIndirectPre (trapTwo .trapCallIndirectPre .formalTable .formalIndex .callIndirectPre)) := by
  refine Sound.rule' ((((sound_two rfl rfl).lit rfl).lit rfl).mono ?_)
  rintro _ _ ⟨_, rfl, _, rfl, c, d, b, rfl, h⟩
  exact ⟨.plain (.callIndirectPre c d) b, trapOk_plain, by simp [trapToks, PlainTrap.toks], h _⟩
theorem sound_trapBrIf : Sound trapBrIf (TrapOf .trapBrIf (trapTwo .trapBrIf .branchFormalCondition .branchFormalLabel .brIf)) := by
  refine Sound.rule' (((sound_two rfl rfl).lit rfl).mono ?_)
  rintro _ _ ⟨_, rfl, c, d, b, rfl, h⟩
  exact ⟨.plain (.brIf c d) b, trapOk_plain, by simp [trapToks, PlainTrap.toks], h _⟩
theorem sound_trapBrTable : Sound trapBrTable (TrapOf .trapBrTable (trapTwo .trapBrTable .branchFormalTarget .branchFormalDefault .brTable)) := by
  refine Sound.rule' (((sound_two rfl rfl).lit rfl).mono ?_)
  rintro _ _ ⟨_, rfl, c, d, b, rfl, h⟩
  exact ⟨.plain (.brTable c d) b, trapOk_plain, by simp [trapToks, PlainTrap.toks], h _⟩

theorem sound_trap : Sound trapSignature (TrapOf .trapSignature trapConv) := by
  refine Sound.rule' ?_
  refine sound_orElse (sound_trapApply.mono fun _ _ ⟨a, h1, h2, h3⟩ => ⟨a, h1, h2, (variant_Apply h3).2.all⟩) ?_
  refine sound_orElse (sound_trapCall.mono fun _ _ ⟨a, h1, h2, h3⟩ => ⟨a, h1, h2, (variant_Call h3).2.all⟩) ?_
  refine sound_orElse (sound_trapBlockPre.mono fun _ _ ⟨a, h1, h2, h3⟩ => ⟨a, h1, h2, (variant_BlockPre h3).2.all⟩) ?_
  refine sound_orElse (sound_trapBlockPost.mono fun _ _ ⟨a, h1, h2, h3⟩ => ⟨a, h1, h2, (variant_BlockPost h3).2.all⟩) ?_
  refine sound_orElse (sound_trapLoopPre.mono fun _ _ ⟨a, h1, h2, h3⟩ => ⟨a, h1, h2, (variant_LoopPre h3).2.all⟩) ?_
  refine sound_orElse (sound_trapLoopPost.mono fun _ _ ⟨a, h1, h2, h3⟩ => ⟨a, h1, h2, (variant_LoopPost h3).2.all⟩) ?_
  refine sound_orElse (sound_trapSelect.mono fun _ _ ⟨a, h1, h2, h3⟩ => ⟨a, h1, h2, (variant_Select h3).2.all⟩) ?_
  refine sound_orElse (sound_trapCallIndirectPre.mono fun _ _ ⟨a, h1, h2, h3⟩ => ⟨a, h1, h2, (variant_CallIndirectPre h3).2.all⟩) ?_
  refine sound_orElse (sound_trapCallIndirectPost.mono fun _ _ ⟨a, h1, h2, h3⟩ => ⟨a, h1, h2, (variant_CallIndirectPost h3).2.all⟩) ?_
  refine sound_orElse (sound_trapIfThen.mono fun _ _ ⟨a, h1, h2, h3⟩ => ⟨a, h1, h2, (variant_IfThen h3).2.all⟩) ?_
  refine sound_orElse (sound_trapIfThenElse.mono fun _ _ ⟨a, h1, h2, h3⟩ => ⟨a, h1, h2, (variant_IfThenElse h3).2.all⟩) ?_
  refine sound_orElse (sound_trapBrIf.mono fun _ _ ⟨a, h1, h2, h3⟩ => ⟨a, h1, h2, (variant_BrIf h3).2.all⟩) ?_
  exact sound_trapBrTable.mono fun _ _ ⟨a, h1, h2, h3⟩ => ⟨a, h1, h2, (variant_BrTable h3).2.all⟩

/-- An advice, as it stands in a program. -/
def adviceToks (a : PestAdvice) : List Tok := .lit "(" :: (a.toks ++ [.lit ")"])

theorem firm_advice (a : PestAdvice) : firm a.toks = true := by cases a <;> rfl

theorem complete_advice (a : PestAdvice) (ha : a.Nonempty) : Complete adviceDefinition a.toks (One .adviceDefinition adviceConv a) := by
  refine Complete.rule' ?_
  cases a with
  | global code =>
    exact ((((complete_guest code).last (f := PestAdvice.global)).lit (s := "global") rfl rfl).rule'.mono fun _ h => (One.orLeft h).2).orLeft
  | apply s b =>
    have hs : s.Nonempty := by cases s <;> first | trivial | exact ha
    refine Complete.orRight (Complete.mono ?_ fun _ h => (One.orRight (R := .adviceTrap) h (by decide)).2) (fails_first rfl)
    exact (((complete_trap_apply s hs b).mono fun _ h => h.2).lit (s := "advice") rfl rfl).rule'
  | plain t b =>
    refine Complete.orRight (Complete.mono ?_ fun _ h => (One.orRight (R := .adviceTrap) h (by decide)).2) (fails_first rfl)
    refine (((complete_trap t b).mono fun _ h => h.2).lit (s := "advice") rfl ?_).rule'
    cases t <;> first | rfl | (rename_i q _; cases q <;> rfl)

theorem sound_advice : Sound adviceDefinition fun toks ps => ∃ a : PestAdvice, a.Nonempty ∧ toks = a.toks ∧ One .adviceDefinition adviceConv a ps := by
  refine Sound.rule' (sound_orElse ?_ ?_)
  · refine (Sound.rule' (N := PestAdvice.Nonempty) (A := PestAdvice.toks) (c := body.bind fun b => .done (.global b)) ((sound_guest.lit rfl).mono ?_)).mono ?_
    · rintro _ _ ⟨_, rfl, b, rfl, h⟩
      exact ⟨.global b, trivial, rfl, h.last.all⟩
    · rintro _ _ ⟨a, h1, h2, h3⟩
      exact ⟨a, h1, h2, (One.orLeft h3).2.all⟩
  · refine (Sound.rule' (N := PestAdvice.Nonempty) (A := PestAdvice.toks) (c := trapConv) ((sound_trap.lit rfl).mono ?_)).mono ?_
    · rintro _ _ ⟨_, rfl, a, h1, rfl, h⟩
      exact ⟨a, h1.1, h1.2.symm, h.2.all⟩
    · rintro _ _ ⟨a, h1, h2, h3⟩
      exact ⟨a, h1, h2, (One.orRight h3 (by decide)).2.all⟩

/-! ## Programs -/

/-- An advice in parentheses. -/
abbrev element : Peg := lit "(" ~~ adviceDefinition ~~ lit ")"

theorem complete_element (a : PestAdvice) (ha : a.Nonempty) : Complete element (adviceToks a) (One .adviceDefinition adviceConv a) :=
  ((complete_advice a ha).until complete_lit (firm_advice a) rfl).lit rfl (firm_append (firm_advice a))

theorem sound_element : Sound element fun toks ps => ∃ a, PestAdvice.Nonempty a ∧ toks = adviceToks a ∧ One .adviceDefinition adviceConv a ps := by
  refine ((sound_advice.follow (sound_lit rfl)).lit rfl).mono ?_
  rintro _ _ ⟨_, rfl, _, _, _, _, rfl, rfl, ⟨a, h1, rfl, h⟩, rfl, rfl⟩
  exact ⟨a, h1, rfl, by rw [List.append_nil]; exact h⟩

theorem complete_program (l : List PestAdvice) (hl : ∀ a ∈ l, a.Nonempty) : Complete waspRule (programToks l) (One .wasp waspConv l) := by
  have h1 : Complete (star element ~~ lit ")") (l.flatMap adviceToks ++ [.lit ")"]) fun ps => adviceConv.vec ps = some (l, []) := by
    refine (complete_star (fun a ha => complete_element a (hl a ha)) (fun _ => rfl) complete_lit (Fails.first (fails_lit rfl)) rfl sound_element.progress).mono ?_
    rintro _ ⟨x, y, rfl, hx, rfl⟩
    exact hx.vec rfl
  have f1 : firm (l.flatMap adviceToks ++ [.lit ")"]) = true := by cases l <;> rfl
  exact ((h1.lit (s := "aspect") rfl f1).lit (s := "(") rfl rfl).rule

theorem sound_program {u ps r} (h : waspRule u = some (ps, r)) : ∃ l, (∀ a ∈ l, PestAdvice.Nonempty a) ∧ One .wasp waspConv l ps ∧ ∃ g, Blank g ∧ Begins (programToks l) u (g ++ r) := by
  obtain ⟨ps, h0, rfl⟩ := rule_iff.1 h
  obtain ⟨x, v, g, w, y, h1, hg, rfl, hw, h2, rfl⟩ := follow_iff.1 h0
  obtain ⟨rfl, rfl⟩ := lit_iff.1 h1
  obtain ⟨x, v, g1, w1, y, h3, hg1, rfl, hw1, h4, rfl⟩ := follow_iff.1 h2
  obtain ⟨rfl, rfl⟩ := lit_iff.1 h3
  obtain ⟨l, b, x, y, hN, rfl, hl, ⟨rfl, rfl⟩, g2, hg2, hb⟩ := sound_star sound_element (fun _ => rfl) (sound_lit (s := ")") rfl) hw1 h4
  refine ⟨l, hN, ?_, g2, hg2, _, rfl, g, _, _, hg, rfl, rfl, ?_⟩
  · exact one_conv (hl.vec (rest := []) rfl)
  · exact spells_of_begins (by cases l <;> rfl) hg1 hb

end Wastrum.Wasp
