import Verif.WaspSpell
/-!
# The combinators of the Wasp parser
-/

namespace Wastrum.Wasp

/-! ## Characters -/

theorem isSpace_iff {c} : isSpace c = true ↔ (c = ' ' ∨ c = '\r' ∨ c = '\n' ∨ c = '\t') := by
  simp [isSpace, or_assoc]

theorem isUpper_iff {c} : isUpper c = true ↔ 'A' ≤ c ∧ c ≤ 'Z' := by
  simp only [isUpper, Bool.and_eq_true, decide_eq_true_eq]; rfl

theorem isLetter_iff {c} : isLetter c = true ↔ Letter c := by
  simp only [isLetter, Bool.or_eq_true, isUpper_iff, Bool.and_eq_true, decide_eq_true_eq, Letter]
  exact or_comm

theorem isAlnum_iff {c} : isAlnum c = true ↔ LetterOrDigit c := by
  simp only [isAlnum, Bool.or_eq_true, isLetter_iff, Bool.and_eq_true, decide_eq_true_eq, LetterOrDigit]
  rfl

/-! ## Literals and classes -/

theorem strip_iff {s t r : List Char} : strip s t = some r ↔ t = s ++ r := by
  induction s generalizing t with
  | nil => simp [strip]
  | cons c s ih => cases t with
    | nil => simp [strip]
    | cons d t =>
      by_cases h : c = d
      · subst h; simp [strip, ih]
      · simp only [strip, if_neg h, List.cons_append, List.cons.injEq]
        constructor
        · intro h; cases h
        · intro e; exact absurd e.1.symm h

theorem strip_prefix {s t : List Char} : (strip s t).isSome ↔ s <+: t := by
  constructor
  · intro h
    obtain ⟨r, hr⟩ := Option.isSome_iff_exists.1 h
    exact ⟨r, (strip_iff.1 hr).symm⟩
  · rintro ⟨r, rfl⟩
    rw [strip_iff.2 rfl]; rfl

theorem strip_none {s t : List Char} : strip s t = none ↔ ¬ s <+: t := by
  rw [← strip_prefix]; cases strip s t <;> simp

theorem lit_iff {s t ps r} : lit s t = some (ps, r) ↔ ps = [] ∧ t = s.toList ++ r := by
  unfold lit
  rw [Option.map_eq_some_iff]
  constructor
  · rintro ⟨r', h, e⟩
    cases e
    exact ⟨rfl, strip_iff.1 h⟩
  · rintro ⟨rfl, rfl⟩
    exact ⟨r, strip_iff.2 rfl, rfl⟩

theorem lit_none {s t} : lit s t = none ↔ ¬ s.toList <+: t := by
  unfold lit
  rw [Option.map_eq_none_iff, strip_none]

theorem oneOf_iff {p t ps r} : oneOf p t = some (ps, r) ↔ ps = [] ∧ ∃ c, p c = true ∧ t = c :: r := by
  cases t with
  | nil => simp [oneOf]
  | cons c t =>
    simp only [oneOf]
    split
    · rename_i h
      simp only [Option.some.injEq, Prod.mk.injEq, List.cons.injEq]
      constructor
      · rintro ⟨rfl, rfl⟩; exact ⟨rfl, c, h, rfl, rfl⟩
      · rintro ⟨rfl, d, _, rfl, rfl⟩; exact ⟨rfl, rfl⟩
    · rename_i h
      simp only [reduceCtorEq, List.cons.injEq, false_iff]
      rintro ⟨_, d, hd, rfl, _⟩; exact h hd

theorem andThen_iff {p q : Peg} {t ps r} : andThen p q t = some (ps, r) ↔ ∃ a u b, p t = some (a, u) ∧ q u = some (b, r) ∧ ps = a ++ b := by
  unfold andThen
  constructor
  · intro h
    split at h
    · cases h
    · rename_i a u hp
      split at h
      · cases h
      · rename_i b v hq
        cases h
        exact ⟨a, u, b, hp, hq, rfl⟩
  · rintro ⟨a, u, b, hp, hq, rfl⟩
    simp only [hp, hq]

theorem andThen_none {p q : Peg} {t} : andThen p q t = none ↔ ∀ a u, p t = some (a, u) → q u = none := by
  constructor
  · intro h a u hp
    cases hq : q u with
    | none => rfl
    | some x => rw [andThen_iff.2 ⟨a, u, x.1, hp, hq, rfl⟩] at h; cases h
  · intro h
    cases ha : andThen p q t with
    | none => rfl
    | some x =>
      obtain ⟨a, u, b, hp, hq, _⟩ := andThen_iff.1 ha
      rw [h a u hp] at hq; cases hq

/-! ## Repetitions in atomic rules -/

theorem turns_oneOf (p) (n : Nat) (t : List Char) (h : t.length ≤ n) : turns (oneOf p) n t = some ([], t.dropWhile p) := by
  induction n generalizing t with
  | zero => cases t with
    | nil => rfl
    | cons c t => simp at h
  | succ n ih => cases t with
    | nil => rfl
    | cons c t =>
      simp only [turns, oneOf]
      by_cases hc : p c = true
      · simp only [hc, if_pos, ih t (by simpa using h), List.dropWhile_cons_of_pos]; rfl
      · simp [hc]

theorem many_oneOf (p) (t : List Char) : many (oneOf p) t = some ([], t.dropWhile p) := turns_oneOf p _ t (Nat.le_refl _)

/-- The rest of a text from the first `d` on. -/
def till (d : List Char) : List Char → List Char
  | [] => []
  | c :: t => if d <+: c :: t then c :: t else till d t

theorem turns_till (d : String) (n : Nat) (t : List Char) (h : t.length ≤ n) :
    turns (andThen (notAhead (lit d)) (oneOf fun _ => true)) n t = some ([], till d.toList t) := by
  induction n generalizing t with
  | zero => cases t with
    | nil => rfl
    | cons c t => simp at h
  | succ n ih => cases t with
    | nil =>
      simp only [turns]
      have : andThen (notAhead (lit d)) (oneOf fun _ => true) [] = none := by
        rw [andThen_none]
        intro a u hu
        unfold notAhead at hu
        split at hu
        · cases hu
        · cases hu; rfl
      rw [this]; rfl
    | cons c t =>
      simp only [turns, till]
      by_cases hd : d.toList <+: c :: t
      · have : andThen (notAhead (lit d)) (oneOf fun _ => true) (c :: t) = none := by
          rw [andThen_none]
          intro a u hu
          obtain ⟨r, hr⟩ := hd
          simp only [notAhead, lit_iff.2 ⟨rfl, hr.symm⟩] at hu
          cases hu
        rw [this, if_pos hd]
      · have : andThen (notAhead (lit d)) (oneOf fun _ => true) (c :: t) = some ([], t) := by
          refine andThen_iff.2 ⟨[], c :: t, [], ?_, rfl, rfl⟩
          simp only [notAhead, lit_none.2 hd]
        rw [this, if_neg hd]
        simp only [ih t (by simpa using h)]; rfl

theorem prefix_append_iff {d l r : List Char} (h : d.length ≤ l.length) : d <+: l ++ r ↔ d <+: l := by
  constructor
  · intro hp
    rw [List.prefix_iff_eq_take] at hp ⊢
    rw [List.take_append_of_le_length h] at hp
    exact hp
  · intro hp; exact hp.trans (List.prefix_append _ _)

/-- `b` is before the first `d`, whatever comes after it. -/
theorem before_iff {d b r : List Char} : Before d b ↔ ∀ k < b.length, ¬ d <+: (b ++ d ++ r).drop k := by
  unfold Before
  refine forall_congr' fun k => forall_congr' fun hk => not_congr ?_
  rw [List.drop_append_of_le_length (by simp; omega : k ≤ (b ++ d).length), prefix_append_iff]
  simp; omega

theorem before_cons {d b : List Char} {c : Char} : Before d (c :: b) ↔ ¬ d <+: c :: b ++ d ∧ Before d b := by
  unfold Before
  constructor
  · intro h
    refine ⟨by simpa using h 0 (by simp), fun k hk => ?_⟩
    simpa using h (k + 1) (by simpa using hk)
  · rintro ⟨h0, h⟩ k hk
    cases k with
    | zero => simpa using h0
    | succ k => simpa using h k (by simpa using hk)

theorem before_nil {d : List Char} : Before d [] := fun k hk => by simp at hk

theorem strip_till {d t r : List Char} (hd : d ≠ []) : strip d (till d t) = some r ↔ ∃ b, Before d b ∧ t = b ++ d ++ r := by
  induction t with
  | nil =>
    simp only [till]
    constructor
    · intro h
      have := strip_iff.1 h
      simp at this
      exact absurd this.1 hd
    · rintro ⟨b, _, h⟩
      simp at h
      exact absurd h.2.1 hd
  | cons c t ih =>
    simp only [till]
    split
    · rename_i hp
      rw [strip_iff]
      constructor
      · intro h
        exact ⟨[], before_nil, by simpa using h⟩
      · rintro ⟨b, hb, e⟩
        cases b with
        | nil => simpa using e
        | cons c' b =>
          have := (before_iff (r := r)).1 hb 0 (by simp)
          rw [← e] at this
          exact absurd hp (by simpa using this)
    · rename_i hp
      rw [ih]
      constructor
      · rintro ⟨b, hb, rfl⟩
        refine ⟨c :: b, before_cons.2 ⟨fun h => hp ?_, hb⟩, by simp⟩
        have := h.trans (List.prefix_append _ r)
        simpa using this
      · rintro ⟨b, hb, e⟩
        cases b with
        | nil => exact absurd ⟨r, by simpa using e.symm⟩ hp
        | cons c' b =>
          simp only [List.cons_append, List.cons.injEq] at e
          exact ⟨b, (before_cons.1 hb).2, by simpa using e.2⟩

/-! ## Comments and blank text -/

theorem comment_iff {t ps r} : comment t = some (ps, r) ↔ ps = [] ∧ ∃ b, Before ['|', '#'] b ∧ t = '#' :: '|' :: b ++ '|' :: '#' :: r := by
  unfold comment
  constructor
  · intro h
    obtain ⟨a, u, b, h1, h2, rfl⟩ := andThen_iff.1 h
    obtain ⟨a', v, b', h3, h4, rfl⟩ := andThen_iff.1 h2
    obtain ⟨rfl, rfl⟩ := lit_iff.1 h1
    simp only [many, turns_till _ _ _ (Nat.le_refl _), Option.some.injEq, Prod.mk.injEq] at h3
    obtain ⟨rfl, rfl⟩ := h3
    obtain ⟨rfl, h5⟩ := lit_iff.1 h4
    obtain ⟨b, hb, rfl⟩ := (strip_till (by decide)).1 (strip_iff.2 h5)
    exact ⟨rfl, b, hb, by simp⟩
  · rintro ⟨rfl, b, hb, rfl⟩
    refine andThen_iff.2 ⟨[], b ++ '|' :: '#' :: r, [], lit_iff.2 ⟨rfl, rfl⟩, ?_, rfl⟩
    have := (strip_till (d := ['|', '#']) (t := b ++ '|' :: '#' :: r) (r := r) (by decide)).2 ⟨b, hb, by simp⟩
    refine andThen_iff.2 ⟨[], till ['|', '#'] (b ++ '|' :: '#' :: r), [], ?_, lit_iff.2 ⟨rfl, strip_iff.1 this⟩, rfl⟩
    simp only [many, turns_till _ _ _ (Nat.le_refl _)]; rfl

/-- Neither white space nor a comment comes next. -/
def Solid (t : List Char) : Prop := (∀ c u, t = c :: u → isSpace c = false) ∧ comment t = none

theorem solid_nil : Solid [] := ⟨nofun, rfl⟩

theorem comment_head {c t} (h : c ≠ '#') : comment (c :: t) = none := by
  cases e : comment (c :: t) with
  | none => rfl
  | some x =>
    obtain ⟨_, b, _, h2⟩ := comment_iff.1 e
    simp at h2
    exact absurd h2.1 h

theorem solid_cons {c t} (h1 : isSpace c = false) (h2 : c ≠ '#') : Solid (c :: t) :=
  ⟨fun d u e => by cases e; exact h1, comment_head h2⟩

theorem blank_append {g h} (hg : Blank g) (hh : Blank h) : Blank (g ++ h) := by
  induction hg with
  | nil => exact hh
  | space hc _ ih => exact .space hc ih
  | comment hb _ ih => rw [List.append_assoc]; exact .comment hb ih

theorem before_unique {d b b' r r' : List Char} (hb : Before d b) (hb' : Before d b') (e : b ++ d ++ r = b' ++ d ++ r') :
    b = b' ∧ r = r' := by
  have key : b.length = b'.length := by
    rcases Nat.lt_trichotomy b.length b'.length with h | h | h
    · have := (before_iff (r := r')).1 hb' b.length h
      rw [← e, List.append_assoc, List.drop_left] at this
      exact absurd (List.prefix_append d r) this
    · exact h
    · have := (before_iff (r := r)).1 hb b'.length h
      rw [e, List.append_assoc, List.drop_left] at this
      exact absurd (List.prefix_append d r') this
  rw [List.append_assoc, List.append_assoc] at e
  obtain ⟨rfl, e⟩ := List.append_inj e key
  exact ⟨rfl, List.append_cancel_left (List.append_cancel_left e)⟩

/-- Of two ways to begin a text with something blank, the one that leaves something solid goes on from the other. -/
theorem blank_cancel {g g' u v : List Char} (hg : Blank g) (hg' : Blank g') (hv : Solid v) (e : g ++ u = g' ++ v) :
    ∃ g2, Blank g2 ∧ u = g2 ++ v := by
  induction hg generalizing g' with
  | nil => exact ⟨g', hg', e⟩
  | @space c g hc _ ih => cases hg' with
    | nil => exact absurd (isSpace_iff.2 hc) (by simp [hv.1 c _ e.symm])
    | space _ h => simp at e; exact ih h e.2
    | comment _ _ =>
      simp at e
      rw [e.1] at hc
      exact absurd hc (by decide)
  | @comment b g hb _ ih => cases hg' with
    | nil =>
      have : comment v = some ([], g ++ u) := comment_iff.2 ⟨rfl, b, hb, by simpa using e.symm⟩
      rw [hv.2] at this; cases this
    | space hc _ =>
      simp at e
      rw [← e.1] at hc
      exact absurd hc (by decide)
    | @comment b' g' hb' h =>
      obtain ⟨_, e'⟩ := before_unique (r := g ++ u) (r' := g' ++ v) hb hb' (by simpa using e)
      exact ih h e'

theorem dropWhile_blank (t : List Char) : ∃ g, Blank g ∧ t = g ++ t.dropWhile isSpace ∧ ∀ c u, t.dropWhile isSpace = c :: u → isSpace c = false := by
  induction t with
  | nil => exact ⟨[], .nil, rfl, nofun⟩
  | cons c t ih =>
    by_cases h : isSpace c = true
    · obtain ⟨g, hg, e, hn⟩ := ih
      rw [List.dropWhile_cons_of_pos h]
      exact ⟨c :: g, .space (isSpace_iff.1 h) hg, by simp [← e], hn⟩
    · rw [List.dropWhile_cons_of_neg h]
      refine ⟨[], .nil, rfl, fun d u e => ?_⟩
      cases e; simpa using h

theorem turns_comment (n : Nat) (t : List Char) (h : t.length ≤ n) (ht : ∀ c u, t = c :: u → isSpace c = false) :
    ∃ g u, turns (andThen comment (many (oneOf isSpace))) n t = some ([], u) ∧ Blank g ∧ t = g ++ u ∧ Solid u := by
  induction n generalizing t with
  | zero => cases t with
    | nil => exact ⟨[], [], rfl, .nil, rfl, solid_nil⟩
    | cons c t => simp at h
  | succ n ih =>
    simp only [turns]
    cases hc : comment t with
    | none =>
      rw [andThen_none.2 (fun a u h => by rw [hc] at h; cases h)]
      exact ⟨[], t, rfl, .nil, rfl, ht, hc⟩
    | some x =>
      obtain ⟨ps, r⟩ := x
      obtain ⟨rfl, b, hb, e⟩ := comment_iff.1 hc
      obtain ⟨g, hg, e2, hn⟩ := dropWhile_blank r
      obtain ⟨g', u, e3, hg', e4, hu⟩ := ih (r.dropWhile isSpace) (by
        have h1 := congrArg List.length e2
        have h2 := congrArg List.length e
        simp at h1 h2; omega) hn
      rw [andThen_iff.2 ⟨[], r, [], hc, many_oneOf _ _, rfl⟩]
      simp only [List.append_nil, e3]
      refine ⟨_, u, rfl, .comment hb (blank_append hg hg'), ?_, hu⟩
      rw [e]
      conv => lhs; rw [e2, e4]
      simp

theorem skip_ok (t : List Char) : ∃ g u, skip t = some ([], u) ∧ Blank g ∧ t = g ++ u ∧ Solid u := by
  obtain ⟨g, hg, e, hn⟩ := dropWhile_blank t
  obtain ⟨g', u, e3, hg', e4, hu⟩ := turns_comment _ (t.dropWhile isSpace) (Nat.le_refl _) hn
  refine ⟨g ++ g', u, ?_, blank_append hg hg', by rw [List.append_assoc, ← e4, ← e], hu⟩
  exact andThen_iff.2 ⟨[], _, [], many_oneOf _ _, e3, rfl⟩

theorem skip_iff {t ps u} : skip t = some (ps, u) ↔ ps = [] ∧ ∃ g, Blank g ∧ t = g ++ u ∧ Solid u := by
  obtain ⟨g, v, e, hg, ht, hv⟩ := skip_ok t
  constructor
  · intro h
    rw [e] at h; cases h
    exact ⟨rfl, g, hg, ht, hv⟩
  · rintro ⟨rfl, g', hg', ht', hu⟩
    rw [e]
    obtain ⟨g2, hg2, e2⟩ := blank_cancel hg hg' hu (ht.symm.trans ht')
    obtain ⟨g3, hg3, e3⟩ := blank_cancel hg' hg hv (ht'.symm.trans ht)
    have h2 := congrArg List.length e2
    have h3 := congrArg List.length e3
    have : g2 = [] := by
      apply List.length_eq_zero_iff.1
      simp at h2 h3; omega
    simp [e2, this]

theorem skip_solid {t} (h : Solid t) : skip t = some ([], t) := skip_iff.2 ⟨rfl, [], .nil, rfl, h⟩

theorem skip_blank {g t} (hg : Blank g) (h : Solid t) : skip (g ++ t) = some ([], t) := skip_iff.2 ⟨rfl, g, hg, rfl, h⟩

theorem follow_iff {p q : Peg} {t ps r} : (p ~~ q) t = some (ps, r) ↔
    ∃ a u g v b, p t = some (a, u) ∧ Blank g ∧ u = g ++ v ∧ Solid v ∧ q v = some (b, r) ∧ ps = a ++ b := by
  unfold follow
  rw [andThen_iff]
  constructor
  · rintro ⟨a, u, b, h1, h2, rfl⟩
    obtain ⟨a', v, b', h3, h4, rfl⟩ := andThen_iff.1 h2
    obtain ⟨rfl, g, hg, e, hv⟩ := skip_iff.1 h3
    exact ⟨a, u, g, v, b', h1, hg, e, hv, h4, by simp⟩
  · rintro ⟨a, u, g, v, b, h1, hg, rfl, hv, h4, rfl⟩
    exact ⟨a, g ++ v, b, h1, andThen_iff.2 ⟨[], v, b, skip_blank hg hv, h4, rfl⟩, rfl⟩

theorem follow_none {p q : Peg} {t} (h : ∀ a u g v, p t = some (a, u) → Blank g → u = g ++ v → Solid v → q v = none) : (p ~~ q) t = none := by
  cases e : (p ~~ q) t with
  | none => rfl
  | some x =>
    obtain ⟨a, u, g, v, b, h1, hg, e1, hv, h4, _⟩ := follow_iff.1 e
    rw [h a u g v h1 hg e1 hv] at h4; cases h4

theorem rule_iff {R : Rule} {p : Peg} {t ps r} : rule R p t = some (ps, r) ↔
    ∃ a, p t = some (a, r) ∧ ps = [.mk R (t.take (t.length - r.length)) a] := by
  unfold rule
  constructor
  · intro h
    split at h
    · cases h
    · rename_i a u hp; cases h; exact ⟨a, hp, rfl⟩
  · rintro ⟨a, h, rfl⟩
    simp only [h]

theorem rule_none {R : Rule} {p : Peg} {t} : rule R p t = none ↔ p t = none := by
  unfold rule
  constructor
  · intro h; split at h
    · assumption
    · cases h
  · intro h; simp only [h]

theorem orElse_left {p q : Peg} {t x} (h : p t = some x) : orElse p q t = some x := by simp only [orElse, h]
theorem orElse_right {p q : Peg} {t} (h : p t = none) : orElse p q t = q t := by simp only [orElse, h]
theorem orElse_cases {p q : Peg} {t x} (h : orElse p q t = some x) : p t = some x ∨ (p t = none ∧ q t = some x) := by
  unfold orElse at h
  split at h
  · rename_i h'; cases h; exact .inl h'
  · rename_i h'; exact .inr ⟨h', h⟩

/-! ## Repetitions -/

/-- Each success reads something. -/
def Progress (p : Peg) : Prop := ∀ t ps r, p t = some (ps, r) → r.length < t.length

theorem turns_more {p : Peg} (hp : Progress p) (n m : Nat) (t : List Char) (hn : t.length ≤ n) (hm : t.length ≤ m) : turns p n t = turns p m t := by
  induction n generalizing m t with
  | zero =>
    have : t = [] := List.length_eq_zero_iff.1 (by omega)
    subst this
    cases m with
    | zero => rfl
    | succ m =>
      simp only [turns]
      cases h : p [] with
      | none => rfl
      | some x => exact absurd (hp _ _ _ h) (by simp)
  | succ n ih => cases m with
    | zero =>
      have : t = [] := List.length_eq_zero_iff.1 (by omega)
      subst this
      simp only [turns]
      cases h : p [] with
      | none => rfl
      | some x => exact absurd (hp _ _ _ h) (by simp)
    | succ m =>
      simp only [turns]
      cases h : p t with
      | none => rfl
      | some x =>
        obtain ⟨ps, r⟩ := x
        have := hp _ _ _ h
        simp only [ih m r (by omega) (by omega)]

theorem many_none {p : Peg} {t} (h : p t = none) : many p t = some ([], t) := by
  unfold many
  cases t.length with
  | zero => rfl
  | succ n => simp only [turns, h]

theorem many_some {p : Peg} (hp : Progress p) {t ps r} (h : p t = some (ps, r)) : ∃ x v, many p r = some (x, v) ∧ many p t = some (ps ++ x, v) := by
  have hl := hp _ _ _ h
  have tot : ∀ n t, ∃ x v, turns p n t = some (x, v) := by
    intro n
    induction n with
    | zero => intro t; exact ⟨_, _, rfl⟩
    | succ n ih =>
      intro t
      simp only [turns]
      cases p t with
      | none => exact ⟨_, _, rfl⟩
      | some x =>
        obtain ⟨y, v, e⟩ := ih x.2
        simp only [e]
        exact ⟨_, _, rfl⟩
  obtain ⟨x, v, e⟩ := tot r.length r
  refine ⟨x, v, e, ?_⟩
  unfold many
  cases hn : t.length with
  | zero => omega
  | succ n =>
    simp only [turns, h]
    rw [turns_more hp n r.length r (by omega) (Nat.le_refl _), e]

theorem many_eq {p : Peg} (hp : Progress p) (t) : many p t = match p t with
    | none => some ([], t)
    | some (ps, r) => (many p r).map fun x => (ps ++ x.1, x.2) := by
  cases h : p t with
  | none => exact many_none h
  | some x =>
    obtain ⟨y, v, e, e'⟩ := many_some hp h
    simp only [e, e']; rfl

theorem skip_then {p : Peg} {g t} (hg : Blank g) (ht : Solid t) : andThen skip p (g ++ t) = p t := by
  cases h : p t with
  | none => exact andThen_none.2 fun a u e => by rw [skip_blank hg ht] at e; cases e; exact h
  | some x => exact andThen_iff.2 ⟨[], t, x.1, skip_blank hg ht, h, rfl⟩

theorem skip_then_solid {p : Peg} {t} (ht : Solid t) : andThen skip p t = p t := skip_then .nil ht

theorem progress_skip {p : Peg} (hp : Progress p) : Progress (andThen skip p) := by
  intro t ps r h
  obtain ⟨a, u, b, h1, h2, _⟩ := andThen_iff.1 h
  obtain ⟨_, g, _, rfl, _⟩ := skip_iff.1 h1
  have := hp _ _ _ h2
  simp; omega

/-- From a solid place on, a repetition is the same as one that begins with blank text. -/
theorem star_solid {p : Peg} (hp : Progress p) {t} (ht : Solid t) : star p t = many (andThen skip p) t := by
  rw [many_eq (progress_skip hp), skip_then_solid ht]
  unfold star
  cases h : p t with
  | none => exact orElse_right (andThen_none.2 fun a u e => by rw [h] at e; cases e)
  | some x =>
    obtain ⟨y, v, e, _⟩ := many_some (progress_skip hp) (t := t) (ps := x.1) (r := x.2) (by rw [skip_then_solid ht, h])
    refine (orElse_left (andThen_iff.2 ⟨x.1, x.2, y, h, e, rfl⟩)).trans ?_
    simp only [e]; rfl

/-! ## Guest code -/

/-- A character of guest code. -/
abbrev guestChar : Peg := notAhead (lit "<<<GUEST<<<") ~~ oneOf fun _ => true

theorem guestChar_solid {c t} (hs : Solid (c :: t)) (h : ¬ guestCloses <+: c :: t) : guestChar (c :: t) = some ([], t) := by
  refine follow_iff.2 ⟨[], c :: t, [], c :: t, [], ?_, .nil, rfl, hs, rfl, rfl⟩
  unfold notAhead
  rw [lit_none.2 h]

theorem guestChar_iff {t ps r} (hs : Solid t) : guestChar t = some (ps, r) ↔ ps = [] ∧ ∃ c, t = c :: r ∧ ¬ guestCloses <+: t := by
  constructor
  · intro h
    obtain ⟨a, u, g, v, b, h1, hg, rfl, hv, h4, rfl⟩ := follow_iff.1 h
    unfold notAhead at h1
    split at h1
    · cases h1
    · rename_i hn
      cases h1
      obtain ⟨g2, hg2, e2⟩ := blank_cancel hg .nil hs rfl
      have : g = [] := by
        have := congrArg List.length e2
        simp at this
        exact List.length_eq_zero_iff.1 (by omega)
      subst this
      obtain ⟨rfl, c, _, rfl⟩ := oneOf_iff.1 h4
      exact ⟨rfl, c, rfl, lit_none.1 hn⟩
  · rintro ⟨rfl, c, rfl, h⟩
    exact guestChar_solid hs h

theorem progress_guestChar : Progress guestChar := by
  intro t ps r h
  obtain ⟨a, u, g, v, b, h1, hg, rfl, hv, h4, rfl⟩ := follow_iff.1 h
  unfold notAhead at h1
  split at h1
  · cases h1
  · cases h1
    obtain ⟨_, c, _, rfl⟩ := oneOf_iff.1 h4
    simp; omega

theorem solid_closes {r} (h : guestCloses <+: r) : Solid r := by
  obtain ⟨u, rfl⟩ := h
  exact solid_cons (by decide) (by decide)

theorem comment_of_infix {t} (h : ∃ b u, t = '#' :: '|' :: b ++ '|' :: '#' :: u) : ∃ r, comment t = some ([], r) := by
  obtain ⟨b, u, rfl⟩ := h
  suffices ∃ b' u', Before ['|', '#'] b' ∧ b ++ '|' :: '#' :: u = b' ++ '|' :: '#' :: u' by
    obtain ⟨b', u', hb, e⟩ := this
    exact ⟨u', comment_iff.2 ⟨rfl, b', hb, by simp [e]⟩⟩
  induction b with
  | nil => exact ⟨[], u, before_nil, rfl⟩
  | cons c b ih =>
    obtain ⟨b', u', hb, e⟩ := ih
    by_cases h : ['|', '#'] <+: c :: b' ++ ['|', '#']
    · obtain ⟨x, hx⟩ := h
      refine ⟨[], x ++ u', before_nil, ?_⟩
      have : c :: b ++ '|' :: '#' :: u = (c :: b' ++ ['|', '#']) ++ u' := by simp [e]
      rw [this, ← hx]; simp
    · exact ⟨c :: b', u', before_cons.2 ⟨h, hb⟩, by simp [e]⟩

/-- Guest code is read up to blank text before the closing delimiter. -/
theorem many_code {code rest} (h : Code code rest) : ∃ v g, many (andThen skip guestChar) (code ++ rest) = some ([], v) ∧ Blank g ∧ v = g ++ rest := by
  induction h with
  | @done rest h =>
    have hs := solid_closes h
    refine ⟨rest, [], many_none ?_, .nil, rfl⟩
    rw [List.nil_append, skip_then_solid hs]
    cases e : guestChar rest with
    | none => rfl
    | some x => exact absurd h ((guestChar_iff hs).1 e).2.choose_spec.2
  | @space c code rest hc h ih =>
    obtain ⟨v, g, e, hg, ev⟩ := ih
    obtain ⟨g0, w, _, hg0, ew, hw⟩ := skip_ok (code ++ rest)
    have h1 : andThen skip guestChar (code ++ rest) = guestChar w := by rw [ew]; exact skip_then hg0 hw
    have h2 : andThen skip guestChar (c :: code ++ rest) = guestChar w := by
      rw [List.cons_append, ew]; exact skip_then (.space hc hg0) hw
    rw [many_eq (progress_skip progress_guestChar)] at e ⊢
    rw [h1] at e; rw [h2]
    cases hx : guestChar w with
    | none =>
      rw [hx] at e
      simp only [Option.some.injEq, Prod.mk.injEq, true_and] at e
      exact ⟨_, c :: g, rfl, .space hc hg, by rw [List.cons_append, e, ev]; rfl⟩
    | some x => rw [hx] at e; exact ⟨v, g, e, hg, ev⟩
  | @comment b code rest hb h ih =>
    obtain ⟨v, g, e, hg, ev⟩ := ih
    obtain ⟨g0, w, _, hg0, ew, hw⟩ := skip_ok (code ++ rest)
    have h1 : andThen skip guestChar (code ++ rest) = guestChar w := by rw [ew]; exact skip_then hg0 hw
    have e2 : '#' :: '|' :: b ++ '|' :: '#' :: code ++ rest = ('#' :: '|' :: b ++ '|' :: '#' :: g0) ++ w := by simp [ew]
    have h2 : andThen skip guestChar ('#' :: '|' :: b ++ '|' :: '#' :: code ++ rest) = guestChar w := by
      rw [e2]; exact skip_then (.comment hb hg0) hw
    rw [many_eq (progress_skip progress_guestChar)] at e ⊢
    rw [h1] at e; rw [h2]
    cases hx : guestChar w with
    | none =>
      rw [hx] at e
      simp only [Option.some.injEq, Prod.mk.injEq, true_and] at e
      exact ⟨_, '#' :: '|' :: b ++ '|' :: '#' :: g, rfl, .comment hb hg, by simp [e, ev]⟩
    | some x => rw [hx] at e; exact ⟨v, g, e, hg, ev⟩
  | @char c code rest h1 h2 h3 _ ih =>
    obtain ⟨v, g, e, hg, ev⟩ := ih
    have hs : Solid (c :: (code ++ rest)) := by
      refine ⟨fun d u e => ?_, ?_⟩
      · cases e
        exact Bool.eq_false_iff.2 fun h => h1 (isSpace_iff.1 h)
      · cases hc : comment (c :: (code ++ rest)) with
        | none => rfl
        | some x =>
          obtain ⟨_, b, _, hb⟩ := comment_iff.1 hc
          exact absurd ⟨b, _, hb⟩ h3
    refine ⟨v, g, ?_, hg, ev⟩
    rw [many_eq (progress_skip progress_guestChar), List.cons_append, skip_then_solid hs, guestChar_solid hs h2]
    simp [e]

theorem code_blank {g code rest} (hg : Blank g) (h : Code code rest) : Code (g ++ code) rest := by
  induction hg with
  | nil => exact h
  | space hc _ ih => exact .space hc ih
  | comment hb _ ih => rw [List.append_assoc]; exact .comment hb ih

theorem code_many {w ps v g r} (hv : v = g ++ guestCloses ++ r) (hg : Blank g) (h : many (andThen skip guestChar) w = some (ps, v)) :
    ps = [] ∧ ∃ code, w = code ++ guestCloses ++ r ∧ Code code (guestCloses ++ r) := by
  induction hn : w.length using Nat.strongRecOn generalizing w ps with
  | _ n ih =>
    obtain ⟨g0, y, _, hg0, ew, hy⟩ := skip_ok w
    rw [many_eq (progress_skip progress_guestChar), ew, skip_then hg0 hy] at h
    cases hx : guestChar y with
    | none =>
      rw [hx] at h
      simp only [Option.some.injEq, Prod.mk.injEq] at h
      refine ⟨h.1.symm, g, by rw [ew, h.2, hv], ?_⟩
      have := code_blank hg (.done (List.prefix_append guestCloses r))
      simpa using this
    | some x =>
      obtain ⟨xs, r1⟩ := x
      rw [hx] at h
      obtain ⟨rfl, c, rfl, hp⟩ := (guestChar_iff hy).1 hx
      obtain ⟨z, hz, e⟩ := Option.map_eq_some_iff.1 h
      cases e
      obtain ⟨e1, code, e2, hcode⟩ := ih r1.length (by subst hn; rw [ew]; simp; omega) hz rfl
      refine ⟨by simp [e1], g0 ++ c :: code, by rw [ew, e2]; simp, code_blank hg0 (.char ?_ ?_ ?_ hcode)⟩
      · intro hc
        exact absurd (hy.1 c r1 rfl) (by simp [isSpace_iff.2 hc])
      · rw [List.cons_append, ← List.append_assoc, ← e2]; exact hp
      · rw [List.cons_append, ← List.append_assoc, ← e2]
        intro hb
        obtain ⟨u, hu⟩ := comment_of_infix hb
        rw [hy.2] at hu; cases hu

theorem guestBlock_iff {t ps r} : guestBlock t = some (ps, r) ↔ ∃ code, t = guestOpens ++ code ++ guestCloses ++ r ∧ Code code (guestCloses ++ r) ∧
    ps = [.mk .guestBlock (guestOpens ++ code ++ guestCloses) []] := by
  unfold guestBlock
  rw [rule_iff]
  constructor
  · rintro ⟨a, h, rfl⟩
    obtain ⟨a1, u, g, w, b, h1, hg, rfl, hw, h2, rfl⟩ := follow_iff.1 h
    obtain ⟨rfl, rfl⟩ := lit_iff.1 h1
    rw [show ">>>GUEST>>>".toList = guestOpens from rfl]
    obtain ⟨a2, v, g1, x, b2, h3, hg1, rfl, hx, h4, rfl⟩ := follow_iff.1 h2
    obtain ⟨rfl, ex⟩ := lit_iff.1 h4
    replace ex : x = guestCloses ++ r := ex
    subst ex
    rw [star_solid progress_guestChar hw] at h3
    obtain ⟨rfl, code, rfl, hc⟩ := code_many (List.append_assoc _ _ _).symm hg1 h3
    refine ⟨g ++ code, by simp only [List.append_assoc], code_blank hg hc, ?_⟩
    have e : guestOpens ++ (g ++ (code ++ guestCloses ++ r)) = (guestOpens ++ (g ++ code) ++ guestCloses) ++ r := by simp only [List.append_assoc]
    rw [e, List.length_append, Nat.add_sub_cancel, List.take_left]
    rfl
  · rintro ⟨code, rfl, hc, rfl⟩
    have hs : Solid (guestCloses ++ r) := solid_closes (List.prefix_append _ _)
    obtain ⟨v, g, e, hg, rfl⟩ := many_code hc
    obtain ⟨g0, w, _, hg0, ew, hw⟩ := skip_ok (code ++ (guestCloses ++ r))
    have key : ∃ g2, Blank g2 ∧ star guestChar w = some ([], g2 ++ (guestCloses ++ r)) := by
      rw [star_solid progress_guestChar hw, many_eq (progress_skip progress_guestChar), skip_then_solid hw]
      rw [many_eq (progress_skip progress_guestChar), ew, skip_then hg0 hw] at e
      cases hx : guestChar w with
      | none =>
        rw [hx] at e
        simp only [Option.some.injEq, Prod.mk.injEq, true_and] at e
        obtain ⟨g2, hg2, e2⟩ := blank_cancel hg0 hg hs e
        exact ⟨g2, hg2, by simp [e2]⟩
      | some x => rw [hx] at e; exact ⟨g, hg, e⟩
    obtain ⟨g2, hg2, e2⟩ := key
    refine ⟨[], ?_, ?_⟩
    · refine follow_iff.2 ⟨[], code ++ (guestCloses ++ r), g0, w, [], lit_iff.2 ⟨rfl, by simp only [List.append_assoc]; rfl⟩, hg0, ew, hw, ?_, rfl⟩
      exact follow_iff.2 ⟨[], _, g2, guestCloses ++ r, [], e2, hg2, rfl, hs, lit_iff.2 ⟨rfl, rfl⟩, rfl⟩
    · rw [List.length_append (as := guestOpens ++ code ++ guestCloses), Nat.add_sub_cancel, List.take_left]

end Wastrum.Wasp
