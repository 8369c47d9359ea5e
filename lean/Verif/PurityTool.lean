import Verif.PurityThms
import Verif.StackNames
/-!
# The command that runs the purity analysis

Models `wastrumentation-static-analysis/src/main.rs`, from the decoded module to the bytes in the output.
-/

namespace Wastrum

/-- Is the body of a function at least as long as asked? `none` when `expect` panics because there is no body, or `function` because there is no
such function: `main.rs` 37-45. -/
def longEnough (m : Module) (minimum : Nat) (index : Nat) : Option Bool :=
  match m.functions[index]? with
  | none => none
  | some f => match f.code with
    | .imported .. => none
    | .present c => some (decide (minimum ≤ c.body.length))

/-- `Vec::retain` with a test that may panic: `main.rs` 36. -/
def retainOpt {α : Type} (test : α → Option Bool) : List α → Option (List α)
  | [] => some []
  | x :: l => match test x with
    | none => none
    | some keep => (retainOpt test l).map fun l => if keep then x :: l else l

/-- The elements of a list of numbers as JSON text, after the first: `serde_json::ser::to_vec` in `main.rs` 50. -/
def jsonRest : List Nat → List Char
  | [] => [']']
  | n :: l => ',' :: (n.repr.toList ++ jsonRest l)

/-- `serde_json::ser::to_vec(&results)`: `main.rs` 50. The crate is not in the sandbox; its compact output of a list of numbers is as JSON prescribes. -/
def jsonOf : List Nat → List Char
  | [] => ['[', ']']
  | n :: l => '[' :: (n.repr.toList ++ jsonRest l)

/-- `main` of `wastrumentation-static-analysis` (`main.rs` 24-52), after decoding. The order in which a `HashSet` is iterated over is a parameter, and so is
the number of bytes the output takes: line 50 calls `write`, which may take fewer than it is given, and ignores how many it took. Errors of the operating
system are left out. -/
def purityCommand (C : Checker) (m : Module) (fuel : Nat) (order : List Nat → List Nat) (minimum : Option Nat) (taken : Nat) : Except PurityErr (List Char) :=
  match immutableFunctions C m fuel with
  | .error e => .error e
  | .ok set =>
    match minimum with
    | none => .ok ((jsonOf (order set)).take taken)
    | some n => match retainOpt (longEnough m n) (order set) with
      | none => .error .panic
      | some results => .ok ((jsonOf results).take taken)

/-! ## Specification -/

/-- The characters write the number in decimal. -/
def Decimal (cs : List Char) (n : Nat) : Prop :=
  cs ≠ [] ∧ (∀ c ∈ cs, c.isDigit = true) ∧ cs.foldl (fun sofar c => 10 * sofar + (c.toNat - '0'.toNat)) 0 = n

/-- The characters write the numbers in decimal, separated by commas. -/
inductive JsonItems : List Char → List Nat → Prop where
  | one {cs n} : Decimal cs n → JsonItems cs [n]
  | more {cs n ds l} : Decimal cs n → JsonItems ds l → JsonItems (cs ++ ',' :: ds) (n :: l)

/-- The characters are a JSON array of the numbers. -/
inductive JsonNats : List Char → List Nat → Prop where
  | empty : JsonNats ['[', ']'] []
  | items {cs l} : JsonItems cs l → JsonNats ('[' :: (cs ++ [']'])) l

/-- The function should be reported: it has a body, of at least the length asked for, and nothing it reaches touches state or is recursive through
another function. -/
def Reported (m : Module) (minimum : Option Nat) (i : Nat) : Prop :=
  (∃ f c, m.functions[i]? = some f ∧ f.code = .present c ∧ ∀ n, minimum = some n → n ≤ c.body.length) ∧
  ∀ j, ReachedFrom m i j → Clean m j ∧ ¬ Relation.TransGen (CallsOther m) j j

/-! ## The text -/

theorem decimal_repr (n : Nat) : Decimal n.repr.toList n := by
  refine ⟨?_, repr_digits n, ?_⟩
  · rw [Nat.repr_eq_ofList_toDigits, String.toList_ofList]
    exact Nat.toDigits_ne_nil
  · rw [Nat.repr_eq_ofList_toDigits, String.toList_ofList]
    exact Nat.ofDigitChars_ten_toDigits

theorem jsonRest_items (n : Nat) : ∀ l : List Nat, ∃ cs, JsonItems cs (n :: l) ∧ n.repr.toList ++ jsonRest l = cs ++ [']'] := by
  intro l
  induction l generalizing n with
  | nil => exact ⟨_, .one (decimal_repr n), rfl⟩
  | cons k l ih =>
    obtain ⟨cs, h, e⟩ := ih k
    refine ⟨_, .more (decimal_repr n) h, ?_⟩
    rw [jsonRest, e]
    simp

theorem jsonOf_nats (l : List Nat) : JsonNats (jsonOf l) l := by
  cases l with
  | nil => exact .empty
  | cons n l =>
    obtain ⟨cs, h, e⟩ := jsonRest_items n l
    rw [jsonOf, e]
    exact .items h

theorem digits_cut {cs cs' : List Char} {ds ds' : List Char} (h : ∀ c ∈ cs, c.isDigit = true) (h' : ∀ c ∈ cs', c.isDigit = true)
    (e : cs ++ ',' :: ds = cs' ++ ',' :: ds') : cs = cs' ∧ ds = ds' := by
  induction cs generalizing cs' with
  | nil =>
    cases cs' with
    | nil => simpa using e
    | cons c cs' =>
      simp only [List.nil_append, List.cons_append, List.cons.injEq] at e
      exact absurd (h' c List.mem_cons_self) (by rw [← e.1]; decide)
  | cons c cs ih =>
    cases cs' with
    | nil =>
      simp only [List.nil_append, List.cons_append, List.cons.injEq] at e
      exact absurd (h c List.mem_cons_self) (by rw [e.1]; decide)
    | cons c' cs' =>
      simp only [List.cons_append, List.cons.injEq] at e
      obtain ⟨rfl, e⟩ := e
      obtain ⟨rfl, rfl⟩ := ih (fun x hx => h x (List.mem_cons_of_mem _ hx)) (fun x hx => h' x (List.mem_cons_of_mem _ hx)) e
      exact ⟨rfl, rfl⟩

theorem comma_not_digits {cs : List Char} {a b : List Char} (h : ∀ c ∈ cs, c.isDigit = true) (e : cs = a ++ ',' :: b) : False := by
  have := h ',' (by simp [e])
  exact absurd this (by decide)

theorem JsonItems.unique {cs l} (h : JsonItems cs l) : ∀ {l'}, JsonItems cs l' → l = l' := by
  induction h with
  | one h =>
    intro l' h'
    cases h' with
    | one h' => rw [← h.2.2, ← h'.2.2]
    | more h1 h2 => exact (comma_not_digits h.2.1 rfl).elim
  | @more cs n ds l h1 h2 ih =>
    intro l' h'
    generalize e : cs ++ ',' :: ds = x at h'
    cases h' with
    | one h' => exact (comma_not_digits h'.2.1 e.symm).elim
    | more h1' h2' =>
      obtain ⟨rfl, rfl⟩ := digits_cut h1.2.1 h1'.2.1 e
      rw [ih h2', ← h1.2.2, ← h1'.2.2]

theorem JsonItems.no_bracket {cs l} (h : JsonItems cs l) : ']' ∉ cs := by
  induction h with
  | one h => exact fun hm => absurd (h.2.1 _ hm) (by decide)
  | more h _ ih =>
    simp only [List.mem_append, List.mem_cons, not_or]
    exact ⟨fun hm => absurd (h.2.1 _ hm) (by decide), by decide, ih⟩

theorem JsonItems.nonempty {cs l} (h : JsonItems cs l) : cs ≠ [] := by
  cases h with
  | one h => exact h.1
  | more h => simp

theorem JsonNats.shape {cs l} (h : JsonNats cs l) : ∃ ds, cs = '[' :: (ds ++ [']']) ∧ ']' ∉ ds := by
  cases h with
  | empty => exact ⟨[], rfl, by simp⟩
  | items h => exact ⟨_, rfl, h.no_bracket⟩

theorem JsonNats.unique {cs l l'} (h : JsonNats cs l) (h' : JsonNats cs l') : l = l' := by
  cases h with
  | empty =>
    generalize e : ['[', ']'] = x at h'
    cases h' with
    | empty => rfl
    | @items ds _ h =>
      have hne := h.nonempty
      match ds with
      | [] => exact absurd rfl hne
      | [_] => simp at e
      | _ :: _ :: _ => simp at e
  | @items ds _ h =>
    generalize e : '[' :: (ds ++ [']']) = x at h'
    cases h' with
    | empty =>
      have hne := h.nonempty
      match ds with
      | [] => exact absurd rfl hne
      | [_] => simp at e
      | _ :: _ :: _ => simp at e
    | @items ds' _ h' =>
      simp only [List.cons.injEq, true_and] at e
      obtain rfl := List.append_cancel_right e
      exact h.unique h'

/-! ## The property -/

theorem retainOpt_spec {α : Type} {test : α → Option Bool} {keep : α → Bool} : ∀ {l : List α}, (∀ x ∈ l, test x = some (keep x)) → retainOpt test l = some (l.filter keep) := by
  intro l
  induction l with
  | nil => intro _; rfl
  | cons x l ih =>
    intro h
    rw [retainOpt, h x List.mem_cons_self]
    simp only [ih fun y hy => h y (List.mem_cons_of_mem _ hy), Option.map_some]
    cases hk : keep x <;> simp [hk]

theorem answer_nodup {C : Checker} {m : Module} {fuel : Nat} {answer : List Nat} (h : immutableFunctions C m fuel = .ok answer) : answer.Nodup := by
  unfold immutableFunctions at h
  split at h
  · simp at h
  · rename_i ts hts
    split at h
    · simp at h
    · rename_i out ho
      cases h
      have hI := init_inv hts
      obtain ⟨hI', _⟩ := loop_final (I := PurityInv m) (fun _ _ h1 h2 => round_inv h1 h2) hI ho
      have hidx := hI'.indexed
      have hmap : out.map (·.index) = List.range out.length := by
        apply List.ext_getElem?
        intro i
        rw [List.getElem?_map]
        by_cases hi : i < out.length
        · rw [List.getElem?_eq_getElem hi, List.getElem?_range hi]
          simp [hidx i _ (List.getElem?_eq_getElem hi)]
        · rw [List.getElem?_eq_none (by omega), List.getElem?_eq_none (by simpa using hi)]; rfl
      have : (out.map (·.index)).Nodup := by rw [hmap]; exact List.nodup_range
      exact this.sublist (List.Sublist.map _ (List.filter_sublist))

/-- C86. Let every body of the program type-check and nest, and let calls be to functions that exist. Then, whatever order the set of findings is iterated in and
whatever the minimum asked for, the command does not panic: it has one text to write — a JSON array that has, once each, exactly the functions to be
reported —, and the output holds as many characters of it as it takes. -/
theorem C86_purity_command (C : Checker) (m : Module) (hr : AllRaise C m) (hc : CallsPresent m) (order : List Nat → List Nat) (hperm : ∀ l, (order l).Perm l)
    (minimum : Option Nat) (fuel : Nat) (hfuel : m.functions.length + 1 ≤ fuel) :
    ∃ text l, JsonNats text l ∧ l.Nodup ∧ (∀ i, i ∈ l ↔ Reported m minimum i) ∧
      ∀ taken, purityCommand C m fuel order minimum taken = .ok (text.take taken) := by
  obtain ⟨answer, ha⟩ := C40_purity_terminates C m hr hc
  have ha := ha fuel hfuel
  have hn := answer_nodup ha
  have hmem := C41_purity_complete C m fuel answer hc ha
  have hno : (order answer).Nodup := (hperm answer).nodup_iff.mpr hn
  have hmo : ∀ i, i ∈ order answer ↔ i ∈ answer := fun i => (hperm answer).mem_iff
  have hbody : ∀ i, i ∈ answer → ∃ f c, m.functions[i]? = some f ∧ f.code = .present c := by
    intro i hi
    obtain ⟨code, ⟨f, c, hf, hcode, _⟩, _⟩ := ((hmem i).mp hi i (.inl rfl)).1
    exact ⟨f, c, hf, hcode⟩
  cases minimum with
  | none =>
    refine ⟨_, _, jsonOf_nats (order answer), hno, fun i => ?_, fun taken => by rw [purityCommand, ha]⟩
    rw [hmo, hmem]
    refine ⟨fun h => ⟨?_, h⟩, fun h => h.2⟩
    obtain ⟨f, c, hf, hcode⟩ := hbody i ((hmem i).mpr h)
    exact ⟨f, c, hf, hcode, by simp⟩
  | some n =>
    let keep : Nat → Bool := fun i => match m.functions[i]? with
      | some f => match f.code with | .present c => decide (n ≤ c.body.length) | .imported .. => false
      | none => false
    have hret : retainOpt (longEnough m n) (order answer) = some ((order answer).filter keep) := by
      refine retainOpt_spec fun i hi => ?_
      obtain ⟨f, c, hf, hcode⟩ := hbody i ((hmo i).mp hi)
      simp only [longEnough, keep, hf, hcode]
    refine ⟨_, _, jsonOf_nats ((order answer).filter keep), hno.filter _, fun i => ?_, fun taken => by rw [purityCommand, ha]; simp only [hret]⟩
    rw [List.mem_filter, hmo]
    constructor
    · rintro ⟨hi, hk⟩
      obtain ⟨f, c, hf, hcode⟩ := hbody i hi
      simp only [keep, hf, hcode, decide_eq_true_eq] at hk
      exact ⟨⟨f, c, hf, hcode, fun k e => by cases e; exact hk⟩, (hmem i).mp hi⟩
    · rintro ⟨⟨f, c, hf, hcode, hlen⟩, h⟩
      refine ⟨(hmem i).mpr h, ?_⟩
      simp only [keep, hf, hcode, decide_eq_true_eq]
      exact hlen n rfl

/-- C86, reading the output. What the output holds is the array of one list of numbers only; and when the output did not take all of the text, what it holds is not an
array of numbers: nobody reads a wrong list from it. -/
theorem C86_output_read_once (text : List Char) (l l' : List Nat) (taken : Nat) (h : JsonNats text l) (h' : JsonNats (text.take taken) l') :
    l' = l ∧ text.length ≤ taken := by
  have hall : text.length ≤ taken := by
    obtain ⟨ds, rfl, hds⟩ := h.shape
    obtain ⟨ds', e', _⟩ := h'.shape
    refine Nat.le_of_not_lt fun hlt => ?_
    obtain ⟨t, rfl⟩ : ∃ t, taken = t + 1 := ⟨taken - 1, by
      cases taken with
      | zero => simp at e'
      | succ t => omega⟩
    rw [List.take_succ_cons, List.take_append_of_le_length (by simp at hlt; omega)] at e'
    simp only [List.cons.injEq, true_and] at e'
    exact hds (List.mem_of_mem_take (i := t) (by rw [e']; simp))
  rw [List.take_of_length_le hall] at h'
  exact ⟨h'.unique h, hall⟩

/-- C86, what the report is for. A function read from the output may be called in any two linkings of the program and in any two states: the calls go the same way and leave
both states alone. -/
theorem C86_listed_functions_are_pure {W W' : Type} (C : Checker) (m : Module) (fuel : Nat) (order : List Nat → List Nat) (hperm : ∀ l, (order l).Perm l)
    (minimum : Option Nat) (taken : Nat) (out : List Char) (l : List Nat) (h : purityCommand C m fuel order minimum taken = .ok out) (hl : JsonNats out l)
    (i : Nat) (hi : i ∈ l) (N : Num) (L d : Nat) (H : Imports W) (H' : Imports W') (args : List RVal) (s : Store W) (s' : Store W') :
    (callF N (machineOf H m.functions) L d i args s).Alike s s' (callF N (machineOf H' m.functions) L d i args s') := by
  unfold purityCommand at h
  split at h
  · simp at h
  · rename_i set hset
    refine C39_purity_sound C m fuel set hset i ?_ N L d H H' args s s'
    split at h
    · cases h
      obtain ⟨rfl, _⟩ := C86_output_read_once _ _ _ _ (jsonOf_nats _) hl
      exact (hperm set).mem_iff.mp hi
    · split at h
      · simp at h
      · rename_i results hres
        cases h
        obtain ⟨rfl, _⟩ := C86_output_read_once _ _ _ _ (jsonOf_nats _) hl
        have hsub : ∀ {l l' : List Nat} {test}, retainOpt test l = some l' → ∀ x ∈ l', x ∈ l := by
          intro l
          induction l with
          | nil => intro l' test h x hx; cases h; exact hx
          | cons y l ih =>
            intro l' test h x hx
            rw [retainOpt] at h
            split at h
            · simp at h
            · rename_i keep _
              obtain ⟨l1, h1, rfl⟩ := Option.map_eq_some_iff.mp h
              cases keep
              · exact List.mem_cons_of_mem _ (ih h1 x hx)
              · rcases List.mem_cons.mp hx with rfl | hx
                · exact List.mem_cons_self
                · exact List.mem_cons_of_mem _ (ih h1 x hx)
        exact (hperm set).mem_iff.mp (hsub hres i hi)

-- C86 on the module of `PurityThms`: the functions 1 and 2 are reported, in either order; with a minimum of four instructions only function 1; and an output that
-- takes three characters only holds no list.
example : ∃ text l, JsonNats text l ∧ l.Nodup ∧ (∀ i, i ∈ l ↔ Reported exPurity (some 4) i) ∧
    ∀ taken, purityCommand exChecker exPurity 8 List.reverse (some 4) taken = .ok (text.take taken) :=
  C86_purity_command exChecker exPurity exPurity_raises exPurity_calls _ (fun l => l.reverse_perm) (some 4) 8 (by decide)
example : purityCommand exChecker exPurity 8 List.reverse none 100 = .ok "[2,1]".toList := by cbv
example : purityCommand exChecker exPurity 8 id (some 4) 100 = .ok "[1]".toList := by cbv
example : purityCommand exChecker exPurity 8 id none 3 = .ok "[1,".toList ∧ ¬ ∃ l, JsonNats "[1,".toList l := by
  refine ⟨by cbv, fun ⟨l, h⟩ => ?_⟩
  obtain ⟨ds, e, _⟩ := h.shape
  match ds with
  | [] => simp at e
  | [_] => simp at e
  | _ :: _ :: _ => simp at e
example (N : Num) (H : Imports Nat) (H' : Imports Bool) (args : List RVal) (s : Store Nat) (s' : Store Bool) (d : Nat) :
    (callF N (machineOf H exPurity.functions) 100 d 1 args s).Alike s s' (callF N (machineOf H' exPurity.functions) 100 d 1 args s') :=
  C86_listed_functions_are_pure exChecker exPurity 8 List.reverse (fun l => l.reverse_perm) (some 4) 100 "[1]".toList [1] (by cbv) (jsonOf_nats [1]) 1 (by simp) N 100 d H H' args s s'

end Wastrum
