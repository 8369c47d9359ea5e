import Verif.NestingSpec
/-! # Nesting: helper lemmas -/

namespace Wastrum

/-! ### Plain instructions -/

theorem LInstr.toBasic_isSome (i : LInstr) : i.toBasic.isSome = i.isPlain := by
  cases i <;> rfl

theorem LInstr.toBasic_toL {i : LInstr} {b : Basic} (h : i.toBasic = some b) : b.toL = i := by
  cases i <;> simp [LInstr.toBasic] at h <;> subst h <;> rfl

theorem Basic.toBasic_toL (b : Basic) : b.toL.toBasic = some b := by cases b <;> rfl

theorem Basic.toL_isPlain (b : Basic) : b.toL.isPlain = true := by cases b <;> rfl

theorem Basic.toL_isHead (b : Basic) : b.toL.isHead = true := by cases b <;> rfl

theorem PState.step_plain (s : PState) {i : LInstr} {b : Basic} (h : i.toBasic = some b) :
    s.step i = .ok { s with cur := s.cur ++ [.basic b] } := by
  cases i <;> simp [LInstr.toBasic] at h <;> subst h <;> rfl

theorem PState.step_toL (s : PState) (b : Basic) :
    s.step b.toL = .ok { s with cur := s.cur ++ [.basic b] } :=
  s.step_plain b.toBasic_toL

theorem TPState.step_plain (s : TPState) {x : TII} {b : Basic} (h : x.instr.toBasic = some b) :
    s.step x = .ok { s with cur := s.cur ++ [.basic (newUninstrumented x.fidx x.iidx x.ty) b] } := by
  obtain ⟨f, k, ty, i⟩ := x
  cases i <;> simp [LInstr.toBasic] at h <;> subst h <;> rfl

/-! ### Running over appended input -/

theorem PState.run_append (s : PState) (a b : List LInstr) :
    s.run (a ++ b) = match s.run a with | .ok s' => s'.run b | .error e => .error e := by
  induction a generalizing s with
  | nil => simp [PState.run]
  | cons i a ih =>
    simp only [List.cons_append, PState.run]
    cases s.step i with
    | ok s' => simp [ih]
    | error e => simp

theorem TPState.run_append (s : TPState) (a b : List TII) :
    s.run (a ++ b) = match s.run a with | .ok s' => s'.run b | .error e => .error e := by
  induction a generalizing s with
  | nil => simp [TPState.run]
  | cons i a ih =>
    simp only [List.cons_append, TPState.run]
    cases s.step i with
    | ok s' => simp [ih]
    | error e => simp

theorem HI.lowerL_append (a b : List HI) : HI.lowerL (a ++ b) = HI.lowerL a ++ HI.lowerL b := by
  induction a with
  | nil => simp [HI.lowerL]
  | cons i a ih => simp [HI.lowerL, ih]

theorem TI.lowerL_append (a b : List TI) : TI.lowerL (a ++ b) = TI.lowerL a ++ TI.lowerL b := by
  induction a with
  | nil => simp [TI.lowerL]
  | cons i a ih => simp [TI.lowerL, ih]

theorem TI.eraseL_append (a b : List TI) : TI.eraseL (a ++ b) = TI.eraseL a ++ TI.eraseL b := by
  induction a with
  | nil => simp [TI.eraseL]
  | cons i a ih => simp [TI.eraseL, ih]

theorem TI.locsL_append (a b : List TI) : TI.locsL (a ++ b) = TI.locsL a ++ TI.locsL b := by
  induction a with
  | nil => simp [TI.locsL]
  | cons i a ih => simp [TI.locsL, ih]

theorem TI.eraseL_eq_map (l : List TI) : TI.eraseL l = l.map TI.erase := by
  induction l with
  | nil => rfl
  | cons i l ih => simp [TI.eraseL, ih]

theorem TI.lower_erase : (∀ i : TI, i.lower = i.erase.lower) ∧ (∀ l, TI.lowerL l = HI.lowerL (TI.eraseL l)) := by
  apply TI.induct
  · intros; simp [TI.lower, TI.erase, HI.lower]
  · intro m t body ih; simp [TI.lower, TI.erase, HI.lower, ih]
  · intro m t body ih; simp [TI.lower, TI.erase, HI.lower, ih]
  · intro m t body ih; simp [TI.lower, TI.erase, HI.lower, ih]
  · intro m t a b ih1 ih2; simp [TI.lower, TI.erase, HI.lower, ih1, ih2]
  · simp [TI.lowerL, TI.eraseL, HI.lowerL]
  · intro i l h1 h2; simp [TI.lowerL, TI.eraseL, HI.lowerL, h1, h2]

/-! ### Parsing what was lowered -/

theorem run_lower :
    (∀ i : HI, ∀ (s : PState) rest, s.run (i.lower ++ rest) = PState.run { s with cur := s.cur ++ [i] } rest) ∧
    (∀ l : List HI, ∀ (s : PState) rest, s.run (HI.lowerL l ++ rest) = PState.run { s with cur := s.cur ++ l } rest) := by
  apply HI.induct
  · intro b s rest
    simp [HI.lower, PState.run, PState.step_toL]
  · intro t body ih s rest
    simp [HI.lower, PState.run, PState.step, ih]
  · intro t body ih s rest
    simp [HI.lower, PState.run, PState.step, ih]
  · intro t body ih s rest
    simp [HI.lower, PState.run, PState.step, ih]
  · intro t a b iha ihb s rest
    simp [HI.lower, PState.run, PState.step, iha, ihb]
  · intro s rest
    simp [HI.lowerL]
  · intro i l hi hl s rest
    simp [HI.lowerL, hi, hl]

/-! ### What has been consumed so far -/

/-- The flat text an open entry stands for. -/
def Entered.flat : Entered → List LInstr
  | .block t => [.block t]
  | .loop t => [.loop t]
  | .ifStart t => [.ite t]
  | .ifThenElse t thn => .ite t :: (HI.lowerL thn ++ [.els])

/-- The flat text of all enclosing open constructs. -/
def flatStack : List Entered → List (List HI) → List LInstr
  | e :: es, b :: bs => flatStack es bs ++ (HI.lowerL b ++ e.flat)
  | _, _ => []

def PState.flat (s : PState) : List LInstr := flatStack s.entered s.bodies ++ HI.lowerL s.cur

theorem PState.step_flat {s s' : PState} {i : LInstr} (hl : s.entered.length = s.bodies.length)
    (h : s.step i = .ok s') : s'.flat = s.flat ++ [i] ∧ s'.entered.length = s'.bodies.length := by
  obtain ⟨en, bo, cur⟩ := s
  cases hb : i.toBasic with
  | some b =>
    rw [PState.step_plain _ hb] at h
    injection h with h; subst h
    exact ⟨by simp [PState.flat, HI.lowerL_append, HI.lowerL, HI.lower, LInstr.toBasic_toL hb], hl⟩
  | none =>
    cases i <;> simp [LInstr.toBasic] at hb
    case block t =>
      simp [PState.step] at h; subst h
      exact ⟨by simp [PState.flat, flatStack, Entered.flat, HI.lowerL], by simpa using hl⟩
    case loop t =>
      simp [PState.step] at h; subst h
      exact ⟨by simp [PState.flat, flatStack, Entered.flat, HI.lowerL], by simpa using hl⟩
    case ite t =>
      simp [PState.step] at h; subst h
      exact ⟨by simp [PState.flat, flatStack, Entered.flat, HI.lowerL], by simpa using hl⟩
    case els =>
      cases en with
      | nil => simp [PState.step] at h
      | cons e es =>
        cases e <;> simp [PState.step] at h
        subst h
        cases bo with
        | nil => simp at hl
        | cons b bs =>
          exact ⟨by simp [PState.flat, flatStack, Entered.flat, HI.lowerL], by simpa using hl⟩
    case fin =>
      cases en with
      | nil => simp [PState.step] at h
      | cons e es =>
        cases bo with
        | nil => simp at hl
        | cons b bs =>
          simp [PState.step] at h; subst h
          refine ⟨?_, by simpa using hl⟩
          cases e <;> simp [PState.flat, flatStack, Entered.flat, HI.lowerL_append, HI.lowerL, HI.lower]

theorem PState.run_flat {s s' : PState} {l : List LInstr} (hl : s.entered.length = s.bodies.length)
    (h : s.run l = .ok s') : s'.flat = s.flat ++ l ∧ s'.entered.length = s'.bodies.length := by
  induction l generalizing s with
  | nil => simp [PState.run] at h; subst h; simp [hl]
  | cons i l ih =>
    simp only [PState.run] at h
    cases hs : s.step i with
    | error e => rw [hs] at h; simp at h
    | ok t =>
      rw [hs] at h
      have h1 := PState.step_flat hl hs
      have h2 := ih h1.2 h
      exact ⟨by rw [h2.1, h1.1]; simp, h2.2⟩

/-! ### Balanced sequences and the machine -/

theorem HI.lower_balanced : (∀ i : HI, ∀ l, Balanced l → Balanced (i.lower ++ l)) ∧
    (∀ b : List HI, ∀ l, Balanced l → Balanced (HI.lowerL b ++ l)) := by
  apply HI.induct
  · intro b l h; exact .plain b.toL_isPlain h
  · intro t body ih l h
    have := Balanced.block (t := t) (ih [] .nil) h
    simpa [HI.lower] using this
  · intro t body ih l h
    have := Balanced.loop (t := t) (ih [] .nil) h
    simpa [HI.lower] using this
  · intro t body ih l h
    have := Balanced.ifThen (t := t) (ih [] .nil) h
    simpa [HI.lower] using this
  · intro t a b iha ihb l h
    have := Balanced.ifElse (t := t) (iha [] .nil) (ihb [] .nil) h
    simpa [HI.lower] using this
  · intro l h; simpa [HI.lowerL] using h
  · intro i b hi hb l h
    simpa [HI.lowerL] using hi _ (hb _ h)

theorem Balanced.exists_lower {l : List LInstr} (h : Balanced l) : ∃ b : List HI, HI.lowerL b = l := by
  induction h with
  | nil => exact ⟨[], rfl⟩
  | @plain i l hp _ ih =>
    obtain ⟨b, rfl⟩ := ih
    have : i.toBasic.isSome = true := by rw [LInstr.toBasic_isSome, hp]
    obtain ⟨x, hx⟩ := Option.isSome_iff_exists.mp this
    exact ⟨.basic x :: b, by simp [HI.lowerL, HI.lower, LInstr.toBasic_toL hx]⟩
  | @block t a b _ _ iha ihb =>
    obtain ⟨x, rfl⟩ := iha; obtain ⟨y, rfl⟩ := ihb
    exact ⟨.block t x :: y, by simp [HI.lowerL, HI.lower]⟩
  | @loop t a b _ _ iha ihb =>
    obtain ⟨x, rfl⟩ := iha; obtain ⟨y, rfl⟩ := ihb
    exact ⟨.loop t x :: y, by simp [HI.lowerL, HI.lower]⟩
  | @ifThen t a b _ _ iha ihb =>
    obtain ⟨x, rfl⟩ := iha; obtain ⟨y, rfl⟩ := ihb
    exact ⟨.ifThen t x :: y, by simp [HI.lowerL, HI.lower]⟩
  | @ifElse t a b c _ _ _ iha ihb ihc =>
    obtain ⟨x, rfl⟩ := iha; obtain ⟨y, rfl⟩ := ihb; obtain ⟨z, rfl⟩ := ihc
    exact ⟨.ifElse t x y :: z, by simp [HI.lowerL, HI.lower]⟩

theorem balanced_lowerL (b : List HI) : Balanced (HI.lowerL b) := by
  have := HI.lower_balanced.2 b [] .nil
  simpa using this

def Entered.kind : Entered → OpenKind
  | .block _ => .block | .loop _ => .loop | .ifStart _ => .ifThen | .ifThenElse _ _ => .ifElse

theorem flatStack_incomplete (es : List Entered) (bs : List (List HI)) (h : es.length = bs.length) (cur : List LInstr)
    (hc : Balanced cur) : Incomplete (es.map Entered.kind) (flatStack es bs ++ cur) := by
  induction es generalizing bs cur with
  | nil => cases bs with
    | nil => simpa [flatStack] using Incomplete.balanced hc
    | cons => simp at h
  | cons e es ih => cases bs with
    | nil => simp at h
    | cons b bs =>
      have := ih bs (by simpa using h) (HI.lowerL b) (balanced_lowerL b)
      cases e with
      | block t => simpa [flatStack, Entered.flat, Entered.kind] using Incomplete.block (t := t) this hc
      | loop t => simpa [flatStack, Entered.flat, Entered.kind] using Incomplete.loop (t := t) this hc
      | ifStart t => simpa [flatStack, Entered.flat, Entered.kind] using Incomplete.ifThen (t := t) this hc
      | ifThenElse t a =>
        simpa [flatStack, Entered.flat, Entered.kind] using
          Incomplete.ifElse (t := t) this (balanced_lowerL a) hc

theorem PState.run_incomplete {s : PState} {l : List LInstr} (h : (PState.mk [] [] []).run l = .ok s) :
    Incomplete (s.entered.map Entered.kind) l ∧ s.entered.length = s.bodies.length := by
  have := PState.run_flat (s := ⟨[], [], []⟩) rfl h
  have hi := flatStack_incomplete s.entered s.bodies this.2 (HI.lowerL s.cur) (balanced_lowerL _)
  refine ⟨?_, this.2⟩
  have e : flatStack s.entered s.bodies ++ HI.lowerL s.cur = l := by
    have := this.1; simpa [PState.flat, flatStack, HI.lowerL] using this
  rwa [e] at hi

theorem Balanced.run {l : List LInstr} (h : Balanced l) (s : PState) :
    ∃ b, s.run l = .ok { s with cur := s.cur ++ b } := by
  obtain ⟨b, rfl⟩ := h.exists_lower
  refine ⟨b, ?_⟩
  have := run_lower.2 b s []
  simpa [PState.run] using this

theorem Incomplete.run {ks : List OpenKind} {l : List LInstr} (h : Incomplete ks l) :
    ∃ s, (PState.mk [] [] []).run l = .ok s ∧ s.entered.map Entered.kind = ks := by
  induction h with
  | balanced hb =>
    obtain ⟨b, hb⟩ := hb.run ⟨[], [], []⟩
    exact ⟨_, hb, rfl⟩
  | @block ks p t l _ hb ih =>
    obtain ⟨s, hs, hk⟩ := ih
    obtain ⟨b, hb⟩ := hb.run ⟨.block t :: s.entered, s.cur :: s.bodies, []⟩
    refine ⟨⟨.block t :: s.entered, s.cur :: s.bodies, [] ++ b⟩, ?_, ?_⟩
    · rw [PState.run_append, hs]; simpa [PState.run, PState.step] using hb
    · simp [Entered.kind, hk]
  | @loop ks p t l _ hb ih =>
    obtain ⟨s, hs, hk⟩ := ih
    obtain ⟨b, hb⟩ := hb.run ⟨.loop t :: s.entered, s.cur :: s.bodies, []⟩
    refine ⟨⟨.loop t :: s.entered, s.cur :: s.bodies, [] ++ b⟩, ?_, ?_⟩
    · rw [PState.run_append, hs]; simpa [PState.run, PState.step] using hb
    · simp [Entered.kind, hk]
  | @ifThen ks p t l _ hb ih =>
    obtain ⟨s, hs, hk⟩ := ih
    obtain ⟨b, hb⟩ := hb.run ⟨.ifStart t :: s.entered, s.cur :: s.bodies, []⟩
    refine ⟨⟨.ifStart t :: s.entered, s.cur :: s.bodies, [] ++ b⟩, ?_, ?_⟩
    · rw [PState.run_append, hs]; simpa [PState.run, PState.step] using hb
    · simp [Entered.kind, hk]
  | @ifElse ks p t a l _ ha hb ih =>
    obtain ⟨s, hs, hk⟩ := ih
    obtain ⟨x, ha⟩ := ha.run ⟨.ifStart t :: s.entered, s.cur :: s.bodies, []⟩
    obtain ⟨b, hb⟩ := hb.run ⟨.ifThenElse t ([] ++ x) :: s.entered, s.cur :: s.bodies, []⟩
    refine ⟨⟨.ifThenElse t ([] ++ x) :: s.entered, s.cur :: s.bodies, [] ++ b⟩, ?_, ?_⟩
    · rw [PState.run_append, hs]
      simp only [PState.run, PState.step]
      rw [PState.run_append, ha]
      simpa [PState.run, PState.step] using hb
    · simp [Entered.kind, hk]

theorem incomplete_nil_iff {l : List LInstr} : Incomplete [] l ↔ Balanced l := by
  constructor
  · intro h; cases h; assumption
  · exact Incomplete.balanced

/-- Where a run fails. -/
theorem PState.run_error {s : PState} {l : List LInstr} {e : LowToHighError} :
    s.run l = .error e ↔ ∃ p i q s', l = p ++ i :: q ∧ s.run p = .ok s' ∧ s'.step i = .error e := by
  induction l generalizing s with
  | nil => simp [PState.run]
  | cons x l ih =>
    simp only [PState.run]
    constructor
    · intro h
      cases hs : s.step x with
      | error e' =>
        rw [hs] at h; simp at h; subst h
        exact ⟨[], x, l, s, by simp, by simp [PState.run], hs⟩
      | ok t =>
        rw [hs] at h
        obtain ⟨p, i, q, s', rfl, h1, h2⟩ := ih.mp h
        exact ⟨x :: p, i, q, s', by simp, by simp [PState.run, hs, h1], h2⟩
    · rintro ⟨p, i, q, s', hl, h1, h2⟩
      cases p with
      | nil =>
        simp [PState.run] at h1 hl; obtain ⟨rfl, rfl⟩ := hl; subst h1
        rw [h2]
      | cons y p =>
        simp at hl; obtain ⟨rfl, rfl⟩ := hl
        simp only [PState.run] at h1
        cases hs : s.step x with
        | error e' => rw [hs] at h1; simp at h1
        | ok t =>
          rw [hs] at h1
          exact ih.mpr ⟨p, i, q, s', rfl, h1, h2⟩

theorem PState.step_error {s : PState} {i : LInstr} {e : LowToHighError}
    (hl : s.entered.length = s.bodies.length) :
    s.step i = .error e ↔
      (i = .els ∧ e = .ifDidNotPrecedeElse ∧ (s.entered.map Entered.kind).head? ≠ some .ifThen) ∨
      (i = .fin ∧ e = .excessiveEnd ∧ s.entered = []) := by
  obtain ⟨en, bo, cur⟩ := s
  cases hb : i.toBasic with
  | some b =>
    rw [PState.step_plain _ hb]
    cases i <;> simp [LInstr.toBasic] at hb <;> simp
  | none =>
    cases i <;> simp [LInstr.toBasic] at hb
    case block => simp [PState.step]
    case loop => simp [PState.step]
    case ite => simp [PState.step]
    case els =>
      cases en with
      | nil => simp [PState.step, @eq_comm _ e]
      | cons x xs => cases x <;> simp [PState.step, Entered.kind, @eq_comm _ e]
    case fin =>
      cases en with
      | nil => simp [PState.step, @eq_comm _ e]
      | cons x xs =>
        cases bo with
        | nil => simp at hl
        | cons b bs => simp [PState.step]

theorem getLast?_eq_some_iff' {α} {l : List α} {a : α} : l.getLast? = some a ↔ ∃ p, l = p ++ [a] :=
  List.getLast?_eq_some_iff

theorem raise_snoc (l : List LInstr) : raise (l ++ [.fin]) =
    match (PState.mk [] [] []).run l with
    | .error e => .error (.err e)
    | .ok s => match s.entered, s.bodies with
      | [], [] => .ok s.cur
      | _, _ => .error .panic := by
  simp only [raise, List.getLast?_append, List.getLast?_singleton, Option.some_or, List.dropLast_concat]
  rfl

/-! ### Typed machine simulates the untyped one -/

def TEnteredType.toE (t : FuncType) : TEnteredType → Entered
  | .block => .block t
  | .loop => .loop t
  | .ifStart => .ifStart t
  | .ifThenElse a => .ifThenElse t (TI.eraseL a)

def TEntered.toE (e : TEntered) : Entered := e.et.toE e.ty

def TPState.erase (s : TPState) : PState :=
  ⟨s.entered.map TEntered.toE, s.bodies.map TI.eraseL, TI.eraseL s.cur⟩

theorem TPState.step_erase (s : TPState) (x : TII) :
    s.erase.step x.instr = (s.step x).map TPState.erase := by
  obtain ⟨en, bo, cur⟩ := s
  obtain ⟨f, k, ty, i⟩ := x
  cases hb : i.toBasic with
  | some b =>
    rw [PState.step_plain _ hb, TPState.step_plain _ (x := ⟨f, k, ty, i⟩) hb]
    simp [TPState.erase, Except.map, TI.eraseL_append, TI.eraseL, TI.erase]
  | none =>
    cases i <;> simp [LInstr.toBasic] at hb
    case block => simp [PState.step, TPState.step, TPState.erase, Except.map, TEntered.toE, TEnteredType.toE, TI.eraseL]
    case loop => simp [PState.step, TPState.step, TPState.erase, Except.map, TEntered.toE, TEnteredType.toE, TI.eraseL]
    case ite => simp [PState.step, TPState.step, TPState.erase, Except.map, TEntered.toE, TEnteredType.toE, TI.eraseL]
    case els =>
      cases en with
      | nil => simp [PState.step, TPState.step, TPState.erase, Except.map]
      | cons e es =>
        obtain ⟨et, a, b, c⟩ := e
        cases et <;> simp [PState.step, TPState.step, TPState.erase, Except.map, TEntered.toE, TEnteredType.toE, TI.eraseL]
    case fin =>
      cases en with
      | nil => simp [PState.step, TPState.step, TPState.erase, Except.map]
      | cons e es =>
        cases bo with
        | nil => simp [PState.step, TPState.step, TPState.erase, Except.map]
        | cons b bs =>
          obtain ⟨et, a, b, c⟩ := e
          cases et <;> simp [PState.step, TPState.step, TPState.erase, Except.map, TEntered.toE, TEnteredType.toE,
            TI.eraseL, TI.eraseL_append, TI.erase]

theorem TPState.run_erase (s : TPState) (l : List TII) :
    s.erase.run (l.map TII.instr) = (s.run l).map TPState.erase := by
  induction l generalizing s with
  | nil => simp [PState.run, TPState.run, Except.map]
  | cons x l ih =>
    simp only [List.map_cons, PState.run, TPState.run, TPState.step_erase]
    cases s.step x with
    | error e => simp [Except.map]
    | ok t => simp [Except.map, ih]

theorem raiseTyped_erase (l : List TII) :
    (raiseTyped l).map TI.eraseL = raise (l.map TII.instr) := by
  rcases List.eq_nil_or_concat l with rfl | ⟨p, x, rfl⟩
  · simp [raiseTyped, raise, Except.map]
  · obtain ⟨f, k, ty, i⟩ := x
    have hrun := TPState.run_erase ⟨[], [], []⟩ p
    by_cases hi : i = .fin
    · subst hi
      simp only [List.concat_eq_append, List.map_append, List.map_cons, List.map_nil]
      rw [raise_snoc]
      have e : (TPState.mk [] [] []).erase = ⟨[], [], []⟩ := rfl
      rw [e] at hrun
      rw [hrun]
      simp only [raiseTyped, List.getLast?_append, List.getLast?_singleton, Option.some_or, List.dropLast_concat]
      cases h : (TPState.mk [] [] []).run p with
      | error e => simp [Except.map]
      | ok s =>
        obtain ⟨en, bo, cur⟩ := s
        cases en <;> cases bo <;> simp [Except.map, TPState.erase]
    · have h1 : raise (p.map TII.instr ++ [i]) = .error (.err .bodyNonEndTermination) := by
        cases i <;> simp [raise] at hi ⊢
      have h2 : raiseTyped (p ++ [⟨f, k, ty, i⟩]) = .error (.err .bodyNonEndTermination) := by
        cases i <;> simp [raiseTyped] at hi ⊢
      simp [h1, h2, Except.map]

/-! ### Locations -/

def TEntered.locs (e : TEntered) (f : Nat) : List (Nat × Nat × Bool × LInstr) :=
  match e.et with
  | .block => [(f, e.index, false, .block e.ty)]
  | .loop => [(f, e.index, false, .loop e.ty)]
  | .ifStart => [(f, e.index, false, .ite e.ty)]
  | .ifThenElse a => (f, e.index, false, .ite e.ty) :: TI.locsL a

def locsStack (f : Nat) : List TEntered → List (List TI) → List (Nat × Nat × Bool × LInstr)
  | e :: es, b :: bs => locsStack f es bs ++ (TI.locsL b ++ e.locs f)
  | _, _ => []

def TPState.locs (f : Nat) (s : TPState) : List (Nat × Nat × Bool × LInstr) :=
  locsStack f s.entered s.bodies ++ TI.locsL s.cur

def TII.headLoc (x : TII) : List (Nat × Nat × Bool × LInstr) :=
  if x.instr.isHead then [(x.fidx, x.iidx, false, x.instr)] else []

theorem TPState.step_locs {s s' : TPState} {x : TII} (hl : s.entered.length = s.bodies.length)
    (h : s.step x = .ok s') :
    s'.locs x.fidx = s.locs x.fidx ++ x.headLoc ∧ s'.entered.length = s'.bodies.length := by
  obtain ⟨en, bo, cur⟩ := s
  cases hb : x.instr.toBasic with
  | some b =>
    rw [TPState.step_plain _ hb] at h
    injection h with h; subst h
    have e := LInstr.toBasic_toL hb
    have hh : x.instr.isHead = true := by rw [← e]; exact b.toL_isHead
    exact ⟨by simp [TPState.locs, TI.locsL_append, TI.locsL, TI.locs, newUninstrumented, TII.headLoc, hh, e], hl⟩
  | none =>
    obtain ⟨f, k, ty, i⟩ := x
    cases i <;> simp [LInstr.toBasic] at hb
    case block t =>
      simp [TPState.step] at h; subst h
      exact ⟨by simp [TPState.locs, locsStack, TEntered.locs, TI.locsL, TII.headLoc, LInstr.isHead], by simpa using hl⟩
    case loop t =>
      simp [TPState.step] at h; subst h
      exact ⟨by simp [TPState.locs, locsStack, TEntered.locs, TI.locsL, TII.headLoc, LInstr.isHead], by simpa using hl⟩
    case ite t =>
      simp [TPState.step] at h; subst h
      exact ⟨by simp [TPState.locs, locsStack, TEntered.locs, TI.locsL, TII.headLoc, LInstr.isHead], by simpa using hl⟩
    case els =>
      cases en with
      | nil => simp [TPState.step] at h
      | cons e es =>
        obtain ⟨et, a, b, c⟩ := e
        cases et <;> simp [TPState.step] at h
        subst h
        cases bo with
        | nil => simp at hl
        | cons b bs =>
          exact ⟨by simp [TPState.locs, locsStack, TEntered.locs, TI.locsL, TII.headLoc, LInstr.isHead], by simpa using hl⟩
    case fin =>
      cases en with
      | nil => simp [TPState.step] at h
      | cons e es =>
        cases bo with
        | nil => simp at hl
        | cons b bs =>
          simp [TPState.step] at h; subst h
          refine ⟨?_, by simpa using hl⟩
          obtain ⟨et, a, b, c⟩ := e
          cases et <;> simp [TPState.locs, locsStack, TEntered.locs, TI.locsL, TI.locsL_append, TI.locs,
            TII.headLoc, LInstr.isHead, newUninstrumented]

theorem TPState.run_locs {s s' : TPState} {l : List TII} (f : Nat) (hf : ∀ x ∈ l, x.fidx = f)
    (hl : s.entered.length = s.bodies.length)
    (h : s.run l = .ok s') :
    s'.locs f = s.locs f ++ l.flatMap TII.headLoc ∧ s'.entered.length = s'.bodies.length := by
  induction l generalizing s with
  | nil => simp [TPState.run] at h; subst h; simp [hl]
  | cons i l ih =>
    simp only [TPState.run] at h
    cases hs : s.step i with
    | error e => rw [hs] at h; simp at h
    | ok t =>
      rw [hs] at h
      have h1 := TPState.step_locs hl hs
      rw [hf i (by simp)] at h1
      have h2 := ih (fun x hx => hf x (by simp [hx])) h1.2 h
      exact ⟨by rw [h2.1, h1.1]; simp, h2.2⟩

theorem typeInferenceFrom_spec {σ : Type} (check : σ → LInstr → Option (σ × InferredTy)) (fidx : Nat)
    (body : List LInstr) (s : σ) (start : Nat) (tis : List TII)
    (h : typeInferenceFrom check fidx s start body = some tis) :
    tis.map TII.instr = body ∧ (∀ x ∈ tis, x.fidx = fidx) ∧
    tis.map (fun x => (x.instr, x.iidx)) = body.zipIdx start := by
  induction body generalizing s start tis with
  | nil => simp [typeInferenceFrom] at h; subst h; simp
  | cons i is ih =>
    simp only [typeInferenceFrom] at h
    split at h
    · simp at h
    · rename_i s' ty hc
      split at h
      · simp at h
      · rename_i rest hr
        simp at h; subst h
        obtain ⟨h1, h2, h3⟩ := ih _ _ _ hr
        refine ⟨by simp [h1], ?_, by simp [h3, List.zipIdx_cons]⟩
        intro x hx
        simp at hx
        rcases hx with rfl | hx
        · rfl
        · exact h2 x hx

theorem headLoc_eq (f : Nat) (l : List TII) (hf : ∀ x ∈ l, x.fidx = f) :
    l.flatMap TII.headLoc =
    ((l.map (fun x => (x.instr, x.iidx))).filter (fun p => p.1.isHead)).map (fun p => (f, p.2, false, p.1)) := by
  induction l with
  | nil => rfl
  | cons x l ih =>
    have h1 := ih (fun y hy => hf y (by simp [hy]))
    have h2 := hf x (by simp)
    simp only [List.flatMap_cons, h1, TII.headLoc, List.map_cons, List.filter_cons]
    split <;> simp [h2]

end Wastrum
