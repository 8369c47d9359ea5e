import Verif.WaspParse
/-!
# The grammar of Wasp reads tokens

`Complete p toks P`: where the tokens stand, `p` reads them and produces pairs with `P`. `Sound p R`: what `p` reads is spelled by
tokens related to the pairs.
-/

namespace Wastrum.Wasp

/-- The token begins with something that is neither white space nor the beginning of a comment. -/
def Tok.firm : Tok → Bool
  | .lit s => match s.toList with
    | c :: _ => !isSpace c && c != '#'
    | [] => false
  | _ => true

def firm : List Tok → Bool
  | tok :: _ => tok.firm
  | [] => false

theorem letter_firm {c} (h : isAlnum c = true) : isSpace c = false ∧ c ≠ '#' := by
  constructor
  · refine Bool.eq_false_iff.2 fun hs => ?_
    rcases isSpace_iff.1 hs with rfl | rfl | rfl | rfl <;> exact absurd h (by decide)
  · rintro rfl
    exact absurd h (by decide)

theorem letter_alnum {c} (h : Letter c) : isAlnum c = true := isAlnum_iff.2 (.inl h)

theorem Tok.at_solid {tok : Tok} {u v} (hf : tok.firm = true) (h : tok.At u v) : Solid u ∧ v.length < u.length := by
  cases tok with
  | lit s =>
    simp only [Tok.firm] at hf
    simp only [Tok.At] at h
    split at hf
    · rename_i c l e
      rw [h, e]
      simp only [Bool.and_eq_true, Bool.not_eq_true', bne_iff_ne, ne_eq] at hf
      exact ⟨solid_cons hf.1 hf.2, by simp; omega⟩
    · cases hf
  | ident s =>
    obtain ⟨rfl, hn, hl, _⟩ := h
    cases e : s.toList with
    | nil => exact absurd e hn
    | cons c l =>
      have := letter_firm (letter_alnum (hl c (by rw [e]; exact List.mem_cons_self)))
      exact ⟨solid_cons this.1 this.2, by simp; omega⟩
  | type s =>
    obtain ⟨rfl, ⟨c, d, l, e, _⟩, hl, _⟩ := h
    have := letter_firm (isAlnum_iff.2 (hl c (by rw [e]; exact List.mem_cons_self)))
    rw [e]
    exact ⟨solid_cons this.1 this.2, by simp; omega⟩
  | guest code =>
    obtain ⟨rfl, _⟩ := h
    refine ⟨solid_cons (by decide) (by decide), ?_⟩
    have : guestOpens.length = 11 := rfl
    simp only [List.length_append]; omega

/-- The tokens stand at the beginning of the text. -/
def Begins : List Tok → List Char → List Char → Prop
  | [], t, r => t = r
  | tok :: toks, t, r => ∃ v, tok.At t v ∧ Spells toks v r

theorem begins_spells {toks u r} (h : Begins toks u r) : Spells toks u r := by
  cases toks with
  | nil => exact h
  | cons tok toks =>
    obtain ⟨v, h1, h2⟩ := h
    exact ⟨[], u, v, .nil, rfl, h1, h2⟩

theorem begins_solid {toks u r} (hf : firm toks = true) (h : Begins toks u r) : Solid u := by
  cases toks with
  | nil => cases hf
  | cons tok toks =>
    obtain ⟨v, h1, _⟩ := h
    exact (Tok.at_solid hf h1).1

theorem spells_begins {toks t r} (hf : firm toks = true) (h : Spells toks t r) : ∃ g u, Blank g ∧ t = g ++ u ∧ Begins toks u r := by
  cases toks with
  | nil => cases hf
  | cons tok toks =>
    obtain ⟨g, u, v, hg, e, h1, h2⟩ := h
    exact ⟨g, u, hg, e, v, h1, h2⟩

theorem spells_of_begins {toks g u r} (hf : firm toks = true) (hg : Blank g) (h : Begins toks u r) : Spells toks (g ++ u) r := by
  cases toks with
  | nil => cases hf
  | cons tok toks =>
    obtain ⟨v, h1, h2⟩ := h
    exact ⟨g, u, v, hg, rfl, h1, h2⟩

theorem spells_append {a b t r} : Spells (a ++ b) t r ↔ ∃ v, Spells a t v ∧ Spells b v r := by
  induction a generalizing t with
  | nil => simp [Spells]
  | cons tok a ih =>
    simp only [List.cons_append, Spells]
    constructor
    · rintro ⟨g, u, v, hg, e, h1, h2⟩
      obtain ⟨w, h3, h4⟩ := ih.1 h2
      exact ⟨w, ⟨g, u, v, hg, e, h1, h3⟩, h4⟩
    · rintro ⟨w, ⟨g, u, v, hg, e, h1, h3⟩, h4⟩
      exact ⟨g, u, v, hg, e, h1, ih.2 ⟨w, h3, h4⟩⟩

theorem begins_append {a b t r} (ha : firm a = true) : Begins (a ++ b) t r ↔ ∃ v, Begins a t v ∧ Spells b v r := by
  cases a with
  | nil => cases ha
  | cons tok a =>
    simp only [List.cons_append, Begins]
    constructor
    · rintro ⟨v, h1, h2⟩
      obtain ⟨w, h3, h4⟩ := spells_append.1 h2
      exact ⟨w, ⟨v, h1, h3⟩, h4⟩
    · rintro ⟨w, ⟨v, h1, h3⟩, h4⟩
      exact ⟨v, h1, spells_append.2 ⟨w, h3, h4⟩⟩

theorem spells_skip {toks g t r} (hf : firm toks = true) (hg : Blank g) : Spells toks (g ++ t) r ↔ Spells toks t r := by
  constructor
  · intro h
    obtain ⟨g', u, hg', e, hb⟩ := spells_begins hf h
    obtain ⟨g2, hg2, rfl⟩ := blank_cancel hg hg' (begins_solid hf hb) e
    exact spells_of_begins hf hg2 hb
  · intro h
    obtain ⟨g', u, hg', rfl, hb⟩ := spells_begins hf h
    rw [← List.append_assoc]
    exact spells_of_begins hf (blank_append hg hg') hb

theorem spells_length {toks t r} (h : Spells toks t r) : r.length ≤ t.length := by
  induction toks generalizing t with
  | nil => cases h; exact Nat.le_refl _
  | cons tok toks ih =>
    obtain ⟨g, u, v, hg, rfl, h1, h2⟩ := h
    have := ih h2
    have h3 : v.length ≤ u.length := by
      cases tok with
      | lit s => cases h1; simp
      | ident s => rw [h1.1]; simp
      | type s => rw [h1.1]; simp
      | guest s => rw [h1.1]; simp; omega
    simp; omega

theorem begins_length {toks t r} (hf : firm toks = true) (h : Begins toks t r) : r.length < t.length := by
  cases toks with
  | nil => cases hf
  | cons tok toks =>
    obtain ⟨v, h1, h2⟩ := h
    have := (Tok.at_solid hf h1).2
    have := spells_length h2
    omega

theorem firm_append {a b : List Tok} (h : firm a = true) : firm (a ++ b) = true := by
  cases a with
  | nil => cases h
  | cons => exact h

theorem firm_flatMap {A : α → List Tok} {l : List α} (hA : ∀ a, firm (A a) = true) (hl : l ≠ []) : firm (l.flatMap A) = true := by
  cases l with
  | nil => exact absurd rfl hl
  | cons a l => rw [List.flatMap_cons]; exact firm_append (hA a)

/-! ## Soundness -/

def Sound (p : Peg) (R : List Tok → List Pair → Prop) : Prop := ∀ u ps r, p u = some (ps, r) →
  ∃ toks, R toks ps ∧ firm toks = true ∧ ∃ g, Blank g ∧ Begins toks u (g ++ r)

theorem Sound.progress {p R} (h : Sound p R) : Progress p := by
  intro t ps r e
  obtain ⟨toks, _, hf, g, _, hb⟩ := h t ps r e
  have := begins_length hf hb
  simp at this; omega

theorem Sound.mono {p R S} (h : Sound p R) (hm : ∀ toks ps, R toks ps → S toks ps) : Sound p S := by
  intro u ps r e
  obtain ⟨toks, h1, h2⟩ := h u ps r e
  exact ⟨toks, hm _ _ h1, h2⟩

theorem Sound.follow {p q R S} (hp : Sound p R) (hq : Sound q S) :
    Sound (p ~~ q) fun toks ps => ∃ a b x y, toks = a ++ b ∧ ps = x ++ y ∧ R a x ∧ S b y := by
  intro t ps r h
  obtain ⟨x, u, g, v, y, h1, hg, rfl, hv, h2, rfl⟩ := follow_iff.1 h
  obtain ⟨a, ha, fa, g1, hg1, ba⟩ := hp _ _ _ h1
  obtain ⟨b, hb, fb, g2, hg2, bb⟩ := hq _ _ _ h2
  refine ⟨a ++ b, ⟨a, b, x, y, rfl, rfl, ha, hb⟩, ?_, g2, hg2, (begins_append fa).2 ⟨_, ba, ?_⟩⟩
  · cases a with
    | nil => cases fa
    | cons => exact fa
  · rw [← List.append_assoc]
    exact spells_of_begins fb (blank_append hg1 hg) bb

theorem sound_lit {s} (hs : (Tok.lit s).firm = true) : Sound (lit s) fun toks ps => toks = [.lit s] ∧ ps = [] := by
  intro u ps r h
  obtain ⟨rfl, rfl⟩ := lit_iff.1 h
  exact ⟨[.lit s], ⟨rfl, rfl⟩, hs, [], .nil, r, rfl, rfl⟩

theorem sound_orElse {p q R} (hp : Sound p R) (hq : Sound q R) : Sound (p /// q) R := by
  intro u ps r h
  rcases orElse_cases h with h | h
  · exact hp _ _ _ h
  · exact hq _ _ _ h.2

theorem dropWhile_split (p : Char → Bool) (t : List Char) : ∃ l, t = l ++ t.dropWhile p ∧ (∀ c ∈ l, p c = true) ∧ ∀ c u, t.dropWhile p = c :: u → p c = false := by
  induction t with
  | nil => exact ⟨[], rfl, by simp, nofun⟩
  | cons c t ih =>
    by_cases h : p c = true
    · obtain ⟨l, e, hl, hn⟩ := ih
      rw [List.dropWhile_cons_of_pos h]
      exact ⟨c :: l, by simp [← e], by simpa [h] using hl, hn⟩
    · rw [List.dropWhile_cons_of_neg h]
      refine ⟨[], rfl, by simp, fun d u e => ?_⟩
      cases e; simpa using h

theorem dropWhile_append_all {p : Char → Bool} {l r : List Char} (h : ∀ c ∈ l, p c = true) (hr : ∀ c u, r = c :: u → p c = false) : (l ++ r).dropWhile p = r := by
  induction l with
  | nil => cases r with
    | nil => rfl
    | cons c r => simp [hr c r rfl]
  | cons c l ih =>
    rw [List.cons_append, List.dropWhile_cons_of_pos (h c List.mem_cons_self)]
    exact ih fun d hd => h d (List.mem_cons_of_mem _ hd)

theorem take_text (l r : List Char) : (l ++ r).take ((l ++ r).length - r.length) = l := by
  rw [List.length_append, Nat.add_sub_cancel, List.take_left]

theorem identifier_iff {t ps r} : identifier t = some (ps, r) ↔ ∃ s : String, (Tok.ident s).At t r ∧ ps = [.mk .identifier s.toList []] := by
  unfold identifier
  rw [rule_iff]
  constructor
  · rintro ⟨a, h, rfl⟩
    obtain ⟨x, u, y, h1, h2, rfl⟩ := andThen_iff.1 h
    obtain ⟨rfl, c, hc, rfl⟩ := oneOf_iff.1 h1
    rw [many_oneOf] at h2
    cases h2
    obtain ⟨l, e, hl, hn⟩ := dropWhile_split isLetter u
    have e' : c :: u = (c :: l) ++ u.dropWhile isLetter := by simp [← e]
    refine ⟨String.ofList (c :: l), ⟨by rw [String.toList_ofList]; exact e', by simp, ?_, ?_⟩, ?_⟩
    · intro d hd
      rw [String.toList_ofList] at hd
      rcases List.mem_cons.1 hd with rfl | hd
      · exact isLetter_iff.1 hc
      · exact isLetter_iff.1 (hl d hd)
    · intro d v hv hd
      exact absurd (isLetter_iff.2 hd) (by simp [hn d v hv])
    · rw [e', take_text, String.toList_ofList]; rfl
  · rintro ⟨s, ⟨rfl, hn, hl, hr⟩, rfl⟩
    refine ⟨[], ?_, by rw [take_text]⟩
    cases e : s.toList with
    | nil => exact absurd e hn
    | cons c l =>
      rw [e] at hl
      refine andThen_iff.2 ⟨[], l ++ r, [], oneOf_iff.2 ⟨rfl, c, isLetter_iff.2 (hl c List.mem_cons_self), rfl⟩, ?_, rfl⟩
      rw [many_oneOf, dropWhile_append_all (fun d hd => isLetter_iff.2 (hl d (List.mem_cons_of_mem _ hd)))
        (fun d v hv => Bool.eq_false_iff.2 fun hd => hr d v hv (isLetter_iff.1 hd))]

theorem typeIdentifier_iff {t ps r} : typeIdentifier t = some (ps, r) ↔ ∃ s : String, (Tok.type s).At t r ∧ ps = [.mk .typeIdentifier s.toList []] := by
  unfold typeIdentifier
  rw [rule_iff]
  constructor
  · rintro ⟨a, h, rfl⟩
    obtain ⟨x, u, y, h1, h2, rfl⟩ := andThen_iff.1 h
    obtain ⟨x2, u2, y2, h3, h4, rfl⟩ := andThen_iff.1 h2
    obtain ⟨rfl, c, hc, rfl⟩ := oneOf_iff.1 h1
    obtain ⟨rfl, d, hd, rfl⟩ := oneOf_iff.1 h3
    rw [many_oneOf] at h4
    cases h4
    obtain ⟨l, e, hl, hn⟩ := dropWhile_split isAlnum u2
    have e' : c :: d :: u2 = (c :: d :: l) ++ u2.dropWhile isAlnum := by simp [← e]
    refine ⟨String.ofList (c :: d :: l), ⟨by rw [String.toList_ofList]; exact e', ⟨c, d, l, String.toList_ofList, isUpper_iff.1 hc⟩, ?_, ?_⟩, ?_⟩
    · intro b hb
      rw [String.toList_ofList] at hb
      rcases List.mem_cons.1 hb with rfl | hb
      · exact .inl (.inr (isUpper_iff.1 hc))
      rcases List.mem_cons.1 hb with rfl | hb
      · exact isAlnum_iff.1 hd
      · exact isAlnum_iff.1 (hl b hb)
    · intro d v hv hd
      exact absurd (isAlnum_iff.2 hd) (by simp [hn d v hv])
    · rw [e', take_text, String.toList_ofList]; rfl
  · rintro ⟨s, ⟨rfl, ⟨c, d, l, e, hc⟩, hl, hr⟩, rfl⟩
    refine ⟨[], ?_, by rw [take_text]⟩
    rw [e] at hl ⊢
    refine andThen_iff.2 ⟨[], d :: l ++ r, [], oneOf_iff.2 ⟨rfl, c, isUpper_iff.2 hc, rfl⟩, ?_, rfl⟩
    refine andThen_iff.2 ⟨[], l ++ r, [], oneOf_iff.2 ⟨rfl, d, isAlnum_iff.2 (hl d (by simp)), rfl⟩, ?_, rfl⟩
    rw [many_oneOf, dropWhile_append_all (fun b hb => isAlnum_iff.2 (hl b (by simp [hb])))
      (fun d v hv => Bool.eq_false_iff.2 fun hd => hr d v hv (isAlnum_iff.1 hd))]

theorem guestBlock_at {t ps r} : guestBlock t = some (ps, r) ↔ ∃ s : String, (Tok.guest s).At t r ∧ ps = [.mk .guestBlock (guestOpens ++ s.toList ++ guestCloses) []] := by
  rw [guestBlock_iff]
  constructor
  · rintro ⟨code, e, h, rfl⟩
    exact ⟨String.ofList code, ⟨by rw [String.toList_ofList]; exact e, by rw [String.toList_ofList]; exact h⟩, by rw [String.toList_ofList]⟩
  · rintro ⟨s, ⟨e, h⟩, rfl⟩
    exact ⟨s.toList, e, h, rfl⟩

/-! ## Conversions -/

/-- The conversion makes `a` of the pairs, whatever follows them. -/
def Gives (c : Conv α) (a : α) (ps : List Pair) : Prop := ∀ rest, c (ps ++ rest) = some (a, rest)

/-- The pairs are one pair, of the rule `R`, of which the conversion makes `a`. -/
def One (R : Rule) (c : Conv α) (a : α) (ps : List Pair) : Prop := (∃ text ins, ps = [.mk R text ins]) ∧ Gives c a ps

theorem gives_name (R text ins) (s : String) (h : text = s.toList) : Gives name s [.mk R text ins] := by
  intro rest
  simp [name, inner, h, String.ofList_toList]

theorem gives_body (code : String) (R ins) : Gives body code [.mk R (guestOpens ++ code.toList ++ guestCloses) ins] := by
  intro rest
  have : dropGuestDelimiter (guestOpens ++ code.toList ++ guestCloses) = some code.toList := by
    unfold dropGuestDelimiter
    have h1 : strip ">>>GUEST>>>".toList (guestOpens ++ code.toList ++ guestCloses) = some (code.toList ++ guestCloses) :=
      strip_iff.2 (List.append_assoc _ _ _)
    have h2 : strip "<<<GUEST<<<".toList.reverse (code.toList ++ guestCloses).reverse = some code.toList.reverse :=
      strip_iff.2 (List.reverse_append ..)
    simp only [h1, h2, Option.map_some, List.reverse_reverse]
  simp only [body, inner, List.cons_append, List.nil_append, this, Option.map_some, String.ofList_toList]

theorem Gives.bind {c : Conv α} {f : α → Conv β} {a b x y} (h1 : Gives c a x) (h2 : Gives (f a) b y) : Gives (c.bind f) b (x ++ y) := by
  intro rest
  simp only [Conv.bind, List.append_assoc, h1 (y ++ rest), h2 rest]

theorem gives_done {a : α} : Gives (.done a) a [] := fun _ => rfl

theorem Gives.last {c : Conv α} {f : α → β} {a x} (h1 : Gives c a x) : Gives (c.bind fun a => .done (f a)) (f a) x := by
  have := h1.bind (f := fun a => .done (f a)) gives_done
  simpa using this

theorem one_conv {R : Rule} {c : Conv α} {a ps text} (h : c ps = some (a, [])) : One R (conv R c) a [.mk R text ps] := by
  refine ⟨⟨text, ps, rfl⟩, fun rest => ?_⟩
  simp [conv, h]

theorem Gives.all {c : Conv α} {a ps} (h : Gives c a ps) : c ps = some (a, []) := by simpa using h []

theorem One.other {R R' : Rule} {c : Conv α} {d : Conv β} {a ps} (h : One R c a ps) (hR : R ≠ R') (rest) : conv R' d (ps ++ rest) = none := by
  obtain ⟨⟨text, ins, rfl⟩, _⟩ := h
  simp [conv, hR]

theorem One.orLeft {R : Rule} {c d : Conv α} {a ps} (h : One R c a ps) : One R (c.or d) a ps :=
  ⟨h.1, fun rest => by simp only [Conv.or, h.2 rest]⟩

theorem One.orRight {R R' : Rule} {c d : Conv α} {a ps} (h : One R d a ps) (hR : R ≠ R') : One R ((conv R' c).or d) a ps :=
  ⟨h.1, fun rest => by simp only [Conv.or, h.other hR rest, h.2 rest]⟩

/-- The pairs are one for each element of the list. -/
def Each (R : Rule) (c : Conv α) : List α → List Pair → Prop
  | [], ps => ps = []
  | a :: l, ps => ∃ x y, ps = x ++ y ∧ One R c a x ∧ Each R c l y

theorem Each.length {R : Rule} {c : Conv α} {l ps} (h : Each R c l ps) : ps.length = l.length := by
  induction l generalizing ps with
  | nil => cases h; rfl
  | cons a l ih =>
    obtain ⟨x, y, rfl, ⟨⟨text, ins, rfl⟩, _⟩, h2⟩ := h
    simp [ih h2]

theorem Each.vec {R : Rule} {c : Conv α} {l ps rest} (h : Each R c l ps) (hr : c rest = none) : c.vec (ps ++ rest) = some (l, rest) := by
  have key : ∀ n, ps.length ≤ n → Conv.vecF c n (ps ++ rest) = some (l, rest) := by
    induction l generalizing ps with
    | nil =>
      cases h
      intro n _
      cases n with
      | zero => rfl
      | succ n => simp only [Conv.vecF, List.nil_append, hr]
    | cons a l ih =>
      obtain ⟨x, y, rfl, h1, h2⟩ := h
      intro n hn
      have hx : x.length = 1 := by obtain ⟨⟨_, _, rfl⟩, _⟩ := h1; rfl
      cases n with
      | zero => simp [hx] at hn
      | succ n =>
        simp only [Conv.vecF, List.append_assoc, h1.2 (y ++ rest), ih h2 n (by simp [hx] at hn; omega)]
  exact key _ (by simp)

theorem Each.other {R R' : Rule} {c : Conv α} {d : Conv β} {l ps} (h : Each R c l ps) (hR : R ≠ R') : conv R' d ps = none := by
  cases l with
  | nil => cases h; rfl
  | cons a l =>
    obtain ⟨x, y, rfl, h1, _⟩ := h
    exact h1.other hR y

/-! ## Completeness -/

def Complete (p : Peg) (toks : List Tok) (P : List Pair → Prop) : Prop := ∀ u r, Begins toks u r →
  ∃ ps r' g, p u = some (ps, r') ∧ P ps ∧ Blank g ∧ r = g ++ r'

theorem Complete.mono {p toks P Q} (h : Complete p toks P) (hm : ∀ ps, P ps → Q ps) : Complete p toks Q := by
  intro u r hb
  obtain ⟨ps, r', g, h1, h2, h3⟩ := h u r hb
  exact ⟨ps, r', g, h1, hm _ h2, h3⟩

theorem Complete.follow {p q a b P Q} (hp : Complete p a P) (hq : Complete q b Q) (fa : firm a = true) (fb : firm b = true) :
    Complete (p ~~ q) (a ++ b) fun ps => ∃ x y, ps = x ++ y ∧ P x ∧ Q y := by
  intro u r hb
  obtain ⟨v, h1, h2⟩ := (begins_append fa).1 hb
  obtain ⟨x, v', g, e1, hP, hg, rfl⟩ := hp u v h1
  obtain ⟨g1, w, hg1, rfl, hw⟩ := spells_begins fb ((spells_skip fb hg).1 h2)
  obtain ⟨y, r', g2, e2, hQ, hg2, rfl⟩ := hq w r hw
  exact ⟨x ++ y, r', g2, follow_iff.2 ⟨x, _, g1, w, y, e1, hg1, rfl, begins_solid fb hw, e2, rfl⟩, ⟨x, y, rfl, hP, hQ⟩, hg2, rfl⟩

theorem complete_lit {s} : Complete (lit s) [.lit s] (· = []) := by
  rintro u r ⟨v, h, rfl⟩
  exact ⟨[], v, [], lit_iff.2 ⟨rfl, h⟩, rfl, .nil, rfl⟩

/-- A literal and then `q`. -/
theorem Complete.lit {q b Q s} (hq : Complete q b Q) (fa : (Tok.lit s).firm = true) (fb : firm b = true) :
    Complete (Wasp.lit s ~~ q) (.lit s :: b) Q := by
  refine (complete_lit.follow hq (a := [.lit s]) fa fb).mono ?_
  rintro _ ⟨x, y, rfl, rfl, h⟩
  exact h

/-- `p` and then something that produces no pair. -/
theorem Complete.until {p a b P q} (hp : Complete p a P) (hq : Complete q b (· = [])) (fa : firm a = true) (fb : firm b = true) :
    Complete (p ~~ q) (a ++ b) P := by
  refine (hp.follow hq fa fb).mono ?_
  rintro _ ⟨x, y, rfl, h, rfl⟩
  simpa using h

/-- `p` and then `q`, as fields. -/
theorem Complete.bind {p q a b} {c : Conv α} {f : α → Conv β} {x y} (hp : Complete p a (Gives c x)) (hq : Complete q b (Gives (f x) y))
    (fa : firm a = true) (fb : firm b = true) : Complete (p ~~ q) (a ++ b) (Gives (c.bind f) y) := by
  refine (hp.follow hq fa fb).mono ?_
  rintro _ ⟨x, y, rfl, h1, h2⟩
  exact h1.bind h2

theorem Complete.last {p a} {c : Conv α} {f : α → β} {x} (hp : Complete p a (Gives c x)) : Complete p a (Gives (c.bind fun a => .done (f a)) (f x)) :=
  hp.mono fun _ h => h.last

theorem Complete.rule {p toks} {c : Conv α} {a R} (hp : Complete p toks fun ps => c ps = some (a, [])) : Complete (rule R p) toks (One R (conv R c) a) := by
  intro u r hb
  obtain ⟨ps, r', g, e, h, hg, er⟩ := hp u r hb
  exact ⟨_, r', g, rule_iff.2 ⟨ps, e, rfl⟩, one_conv h, hg, er⟩

theorem Complete.rule' {p toks} {c : Conv α} {a R} (hp : Complete p toks (Gives c a)) : Complete (Wasp.rule R p) toks (One R (conv R c) a) :=
  (hp.mono fun _ h => h.all).rule

theorem Complete.orLeft {p q toks P} (hp : Complete p toks P) : Complete (p /// q) toks P := by
  intro u r hb
  obtain ⟨ps, r', g, e, h⟩ := hp u r hb
  exact ⟨ps, r', g, orElse_left e, h⟩

/-- Where the tokens stand, `p` fails. -/
def Fails (p : Peg) (toks : List Tok) : Prop := ∀ u r, Begins toks u r → p u = none

theorem Complete.orRight {p q toks P} (hq : Complete q toks P) (hp : Fails p toks) : Complete (p /// q) toks P := by
  intro u r hb
  obtain ⟨ps, r', g, e, h⟩ := hq u r hb
  exact ⟨ps, r', g, (orElse_right (hp u r hb)).trans e, h⟩

theorem Fails.rule {p toks R} (h : Fails p toks) : Fails (rule R p) toks := fun u r hb => rule_none.2 (h u r hb)

theorem Fails.or {p q toks} (hp : Fails p toks) (hq : Fails q toks) : Fails (p /// q) toks := fun u r hb =>
  (orElse_right (hp u r hb)).trans (hq u r hb)

theorem Fails.first {p q toks} (hp : Fails p toks) : Fails (p ~~ q) toks := fun u r hb =>
  follow_none fun a v g w e _ _ _ => by rw [hp u r hb] at e; cases e

theorem Fails.second {p q a b P} (hp : Complete p a P) (hq : Fails q b) (fa : firm a = true) (fb : firm b = true) : Fails (p ~~ q) (a ++ b) := by
  intro u r hb
  obtain ⟨v, h1, h2⟩ := (begins_append fa).1 hb
  obtain ⟨x, v', g, e1, _, hg, rfl⟩ := hp u v h1
  obtain ⟨g1, w, hg1, rfl, hw⟩ := spells_begins fb ((spells_skip fb hg).1 h2)
  refine follow_none fun a t g2 z e hg2 et hz => ?_
  rw [e1] at e; cases e
  have s1 := skip_blank hg1 (begins_solid fb hw)
  have s2 := skip_blank hg2 hz
  rw [et, s2] at s1
  cases s1
  exact hq _ _ hw

/-- Two texts differ at some place. -/
def clash : List Char → List Char → Bool
  | c :: s, d :: t => c != d || clash s t
  | _, _ => false

theorem clash_strip {s t r : List Char} (h : clash s t = true) : strip s (t ++ r) = none := by
  induction s generalizing t with
  | nil => simp [clash] at h
  | cons c s ih => cases t with
    | nil => simp [clash] at h
    | cons d t =>
      simp only [clash, Bool.or_eq_true, bne_iff_ne, ne_eq] at h
      simp only [List.cons_append, strip]
      by_cases e : c = d
      · rw [if_pos e]; exact ih (h.resolve_left (not_not_intro e))
      · rw [if_neg e]

theorem fails_lit {s s' toks} (h : clash s.toList s'.toList = true) : Fails (lit s) (.lit s' :: toks) := by
  rintro u r ⟨v, e, _⟩
  simp only [Tok.At] at e
  unfold lit
  rw [e, clash_strip h]; rfl

/-- The literal is read, but the rest of the keyword that stands there cannot be. -/
theorem fails_keyword {s s' k q toks} (h : s'.toList = s.toList ++ k) (hk : ∀ v, Solid (k ++ v) ∧ q (k ++ v) = none) :
    Fails (lit s ~~ q) (.lit s' :: toks) := by
  rintro u r ⟨v, e, _⟩
  simp only [Tok.At] at e
  refine follow_none fun a t g2 z e1 hg2 et hz => ?_
  obtain ⟨rfl, e2⟩ := lit_iff.1 e1
  rw [e, h, List.append_assoc] at e2
  have e3 := List.append_cancel_left e2
  have s1 := skip_solid (hk v).1
  have s2 := skip_blank hg2 hz
  rw [← et, ← e3, s1] at s2
  cases s2
  exact (hk v).2

/-! ## Repetitions -/

/-- What a repetition reads before something it cannot read. -/
theorem complete_many {α : Type} {p : Peg} {R : Rule} {c : Conv α} {A : α → List Tok} {l : List α} {b} (hp : ∀ a ∈ l, Complete p (A a) (One R c a)) (hA : ∀ a, firm (A a) = true)
    (hb : Fails p b) (fb : firm b = true) (pr : Progress p) {t r} (h : Spells (l.flatMap A ++ b) t r) :
    ∃ ps v, many (andThen skip p) t = some (ps, v) ∧ Each R c l ps ∧ Spells b v r := by
  induction l generalizing t with
  | nil =>
    obtain ⟨g, w, hg, e, hw⟩ := spells_begins fb h
    refine ⟨[], t, many_none ?_, rfl, h⟩
    rw [e, skip_then hg (begins_solid fb hw)]
    exact hb _ _ hw
  | cons a l ih =>
    rw [List.flatMap_cons, List.append_assoc] at h
    obtain ⟨v, h1, h2⟩ := spells_append.1 h
    obtain ⟨g, w, hg, rfl, hw⟩ := spells_begins (hA a) h1
    obtain ⟨x, v', g', e, hx, hg', rfl⟩ := hp a List.mem_cons_self w v hw
    have fr : firm (l.flatMap A ++ b) = true := by
      cases l with
      | nil => exact fb
      | cons a' l =>
        have := hA a'
        rw [List.flatMap_cons]
        cases hh : A a' with
        | nil => rw [hh] at this; cases this
        | cons _ _ => rw [hh] at this; exact this
    obtain ⟨ps, z, e2, hps, hz⟩ := ih (fun a ha => hp a (List.mem_cons_of_mem _ ha)) ((spells_skip fr hg').1 h2)
    refine ⟨x ++ ps, z, ?_, ⟨x, ps, rfl, hx, hps⟩, hz⟩
    rw [many_eq (progress_skip pr), skip_then hg (begins_solid (hA a) hw), e]
    simp only [e2]; rfl

theorem sound_many {α : Type} {p : Peg} {R : Rule} {c : Conv α} {A : α → List Tok} {N : α → Prop} (hp : Sound p fun toks ps => ∃ a, N a ∧ toks = A a ∧ One R c a ps)
    (hA : ∀ a, firm (A a) = true)
    {t ps v} (h : many (andThen skip p) t = some (ps, v)) : ∃ l, (∀ a ∈ l, N a) ∧ Each R c l ps ∧ ∃ g, Blank g ∧ Spells (l.flatMap A) t (g ++ v) := by
  induction hn : t.length using Nat.strongRecOn generalizing t ps with
  | _ n ih =>
    obtain ⟨g, w, _, hg, rfl, hw⟩ := skip_ok t
    rw [many_eq (progress_skip hp.progress), skip_then hg hw] at h
    cases hx : p w with
    | none =>
      rw [hx] at h
      cases h
      exact ⟨[], by simp, rfl, [], .nil, rfl⟩
    | some x =>
      obtain ⟨xs, r1⟩ := x
      rw [hx] at h
      obtain ⟨z, hz, e⟩ := Option.map_eq_some_iff.1 h
      cases e
      obtain ⟨toks, ⟨a, hN, rfl, ha⟩, hf, g2, hg2, hb⟩ := hp _ _ _ hx
      have hl := hp.progress _ _ _ hx
      obtain ⟨l, hNl, hl', g3, hg3, hs⟩ := ih r1.length (by subst hn; simp; omega) hz rfl
      refine ⟨a :: l, by simpa [hN] using hNl, ⟨xs, z.1, rfl, ha, hl'⟩, ?_⟩
      rw [List.flatMap_cons]
      cases hfr : firm (l.flatMap A) with
      | true => exact ⟨g3, hg3, spells_append.2 ⟨_, spells_of_begins hf hg hb, (spells_skip hfr hg2).2 hs⟩⟩
      | false =>
        cases l with
        | nil =>
          cases hs
          exact ⟨g2 ++ g3, blank_append hg2 hg3, by
            rw [List.flatMap_nil, List.append_nil, List.append_assoc]
            exact spells_of_begins hf hg hb⟩
        | cons a' l =>
          rw [firm_flatMap hA (by simp)] at hfr; cases hfr

theorem sound_plus {α : Type} {p : Peg} {R : Rule} {c : Conv α} {A : α → List Tok} (hp : Sound p fun toks ps => ∃ a, toks = A a ∧ One R c a ps)
    (hA : ∀ a, firm (A a) = true) : Sound (plus p) fun toks ps => ∃ l, l ≠ [] ∧ toks = l.flatMap A ∧ Each R c l ps := by
  intro u ps r h
  obtain ⟨x, v, g, w, y, h1, hg, rfl, hw, h2, rfl⟩ := follow_iff.1 h
  obtain ⟨_, ⟨a, rfl, ha⟩, hf, g1, hg1, hb⟩ := hp _ _ _ h1
  rw [star_solid hp.progress hw] at h2
  obtain ⟨l, _, hl, g2, hg2, hs⟩ := sound_many (N := fun _ => True) (hp.mono fun _ _ ⟨a, h⟩ => ⟨a, trivial, h⟩) hA h2
  refine ⟨(a :: l).flatMap A, ⟨a :: l, by simp, rfl, x, y, rfl, ha, hl⟩, firm_flatMap hA (by simp), ?_⟩
  rw [List.flatMap_cons]
  cases hfr : firm (l.flatMap A) with
  | true =>
    refine ⟨g2, hg2, (begins_append hf).2 ⟨_, hb, ?_⟩⟩
    rw [← List.append_assoc]
    exact (spells_skip hfr (blank_append hg1 hg)).2 hs
  | false =>
    cases l with
    | nil =>
      cases hs
      refine ⟨g1 ++ g ++ g2, blank_append (blank_append hg1 hg) hg2, ?_⟩
      rw [List.flatMap_nil, List.append_nil, List.append_assoc, List.append_assoc]
      exact hb
    | cons a' l => rw [firm_flatMap hA (by simp)] at hfr; cases hfr

theorem complete_plus {α : Type} {p q : Peg} {R : Rule} {c : Conv α} {A : α → List Tok} {l : List α} {b Q} (hp : ∀ a ∈ l, Complete p (A a) (One R c a))
    (hA : ∀ a, firm (A a) = true) (hl : l ≠ []) (hq : Complete q b Q) (hb : Fails p b) (fb : firm b = true) (pr : Progress p) :
    Complete (plus p ~~ q) (l.flatMap A ++ b) fun ps => ∃ x y, ps = x ++ y ∧ Each R c l x ∧ Q y := by
  cases l with
  | nil => exact absurd rfl hl
  | cons a l =>
    intro u r h
    rw [List.flatMap_cons, List.append_assoc] at h
    obtain ⟨v, h1, h2⟩ := (begins_append (hA a)).1 h
    obtain ⟨x, v', g, e1, hx, hg, rfl⟩ := hp a List.mem_cons_self u v h1
    have fr : firm (l.flatMap A ++ b) = true := by
      cases l with
      | nil => exact fb
      | cons a' l => exact firm_append (firm_flatMap hA (by simp))
    obtain ⟨g1, w, hg1, rfl, hw⟩ := spells_begins fr ((spells_skip fr hg).1 h2)
    obtain ⟨y, z, e2, hy, hz⟩ := complete_many (fun a ha => hp a (List.mem_cons_of_mem _ ha)) hA hb fb pr (begins_spells hw)
    obtain ⟨g3, w3, hg3, rfl, hw3⟩ := spells_begins fb hz
    obtain ⟨ps, r', g4, e4, hQ, hg4, rfl⟩ := hq _ _ hw3
    have sw := begins_solid fr hw
    refine ⟨x ++ y ++ ps, r', g4, ?_, ⟨x ++ y, ps, rfl, ⟨x, y, rfl, hx, hy⟩, hQ⟩, hg4, rfl⟩
    refine follow_iff.2 ⟨x ++ y, _, g3, w3, ps, ?_, hg3, rfl, begins_solid fb hw3, e4, rfl⟩
    exact follow_iff.2 ⟨x, _, g1, w, y, e1, hg1, rfl, sw, by rw [star_solid pr sw, e2], rfl⟩

theorem sound_star {α : Type} {p q : Peg} {R : Rule} {c : Conv α} {A : α → List Tok} {S} {N : α → Prop} (hp : Sound p fun toks ps => ∃ a, N a ∧ toks = A a ∧ One R c a ps)
    (hA : ∀ a, firm (A a) = true) (hq : Sound q S) {u ps r} (hu : Solid u) (h : (star p ~~ q) u = some (ps, r)) :
    ∃ l b x y, (∀ a ∈ l, N a) ∧ ps = x ++ y ∧ Each R c l x ∧ S b y ∧ ∃ g, Blank g ∧ Begins (l.flatMap A ++ b) u (g ++ r) := by
  obtain ⟨x, v, g, w, y, h1, hg, rfl, hw, h2, rfl⟩ := follow_iff.1 h
  rw [star_solid hp.progress hu] at h1
  obtain ⟨l, hN, hl, g1, hg1, hs⟩ := sound_many hp hA h1
  obtain ⟨b, hb, fb, g2, hg2, hbb⟩ := hq _ _ _ h2
  refine ⟨l, b, x, y, hN, rfl, hl, hb, g2, hg2, ?_⟩
  have hsp : Spells (l.flatMap A ++ b) u (g2 ++ r) := spells_append.2 ⟨_, hs, by
    rw [← List.append_assoc]; exact spells_of_begins fb (blank_append hg1 hg) hbb⟩
  have fr : firm (l.flatMap A ++ b) = true := by
    cases l with
    | nil => exact fb
    | cons a' l => exact firm_append (firm_flatMap hA (by simp))
  obtain ⟨g3, w3, hg3, e, hw3⟩ := spells_begins fr hsp
  have s1 := skip_solid hu
  rw [e, skip_blank hg3 (begins_solid fr hw3)] at s1
  simp only [Option.some.injEq, Prod.mk.injEq, true_and] at s1
  rw [e, ← s1]; exact hw3

theorem complete_star {α : Type} {p q : Peg} {R : Rule} {c : Conv α} {A : α → List Tok} {l : List α} {b Q} (hp : ∀ a ∈ l, Complete p (A a) (One R c a))
    (hA : ∀ a, firm (A a) = true) (hq : Complete q b Q) (hb : Fails p b) (fb : firm b = true) (pr : Progress p) :
    Complete (star p ~~ q) (l.flatMap A ++ b) fun ps => ∃ x y, ps = x ++ y ∧ Each R c l x ∧ Q y := by
  intro u r h
  have fr : firm (l.flatMap A ++ b) = true := by
    cases l with
    | nil => exact fb
    | cons a' l => exact firm_append (firm_flatMap hA (by simp))
  obtain ⟨y, z, e2, hy, hz⟩ := complete_many hp hA hb fb pr (begins_spells h)
  obtain ⟨g3, w3, hg3, rfl, hw3⟩ := spells_begins fb hz
  obtain ⟨ps, r', g4, e4, hQ, hg4, rfl⟩ := hq _ _ hw3
  refine ⟨y ++ ps, r', g4, ?_, ⟨y, ps, rfl, hy, hQ⟩, hg4, rfl⟩
  exact follow_iff.2 ⟨y, _, g3, w3, ps, by rw [star_solid pr (begins_solid fr h), e2], hg3, rfl, begins_solid fb hw3, e4, rfl⟩

end Wastrum.Wasp
