/-!
# Alphabetic names (C42)
-/

namespace Wastrum

/-- `char::from(b'a' + rem)` for a remainder below 26: `assemblyscript/src/generate/analysis/util.rs` 26. -/
def letter (rem : Nat) : Char := Char.ofNat ('a'.toNat + rem)

/-- The loop of `to_alphabetic`: `util.rs` 24-28, `result` the text so far. -/
def alphabeticLoop (number : Nat) (result : List Char) : List Char :=
  if _h : number = 0 then result
  else alphabeticLoop (number / 26) (result ++ [letter (number % 26)])
termination_by number
decreasing_by omega

/-- `to_alphabetic`: `assemblyscript/src/generate/analysis/util.rs` 18-31, on a `usize` seen as a natural number. (The
division and remainder do not overflow, and the remainder always fits in a `u8`.) -/
def toAlphabetic (n : Nat) : String :=
  if n = 0 then "a" else String.ofList (alphabeticLoop n [])

/-- The value of a text read as a number in base 26, the first letter counting least. -/
def alphabeticValue : List Char → Nat
  | [] => 0
  | c :: l => (c.toNat - 'a'.toNat) + 26 * alphabeticValue l

theorem letter_toNat (r : Nat) (h : r < 26) : (letter r).toNat = 97 + r := by
  have : ∀ r < 26, (letter r).toNat = 97 + r := by decide +kernel
  exact this r h

theorem alphabeticLoop_append (n : Nat) (acc : List Char) : alphabeticLoop n acc = acc ++ alphabeticLoop n [] := by
  induction n using Nat.strongRecOn generalizing acc with
  | ind n ih =>
    rw [alphabeticLoop]
    split
    · next h => subst h; rw [alphabeticLoop]; simp
    · next h =>
      have e : alphabeticLoop n [] = alphabeticLoop (n / 26) ([] ++ [letter (n % 26)]) := by rw [alphabeticLoop, dif_neg h]
      rw [e, ih (n / 26) (by omega), ih (n / 26) (by omega) ([] ++ _)]
      simp

theorem alphabeticLoop_succ (n : Nat) (h : n ≠ 0) : alphabeticLoop n [] = letter (n % 26) :: alphabeticLoop (n / 26) [] := by
  rw [alphabeticLoop, dif_neg h, alphabeticLoop_append]; rfl

theorem alphabeticValue_loop (n : Nat) : alphabeticValue (alphabeticLoop n []) = n := by
  induction n using Nat.strongRecOn with
  | ind n ih =>
    by_cases h : n = 0
    · subst h; rw [alphabeticLoop]; rfl
    · rw [alphabeticLoop_succ n h, alphabeticValue, letter_toNat _ (by omega), ih _ (by omega)]
      have : 'a'.toNat = 97 := by decide
      omega

theorem alphabeticLoop_lower (n : Nat) : ∀ c ∈ alphabeticLoop n [], 'a' ≤ c ∧ c ≤ 'z' := by
  induction n using Nat.strongRecOn with
  | ind n ih =>
    by_cases h : n = 0
    · subst h; rw [alphabeticLoop]; simp
    · rw [alphabeticLoop_succ n h]
      intro c hc
      rcases List.mem_cons.mp hc with rfl | hc
      · have : ∀ r < 26, 'a' ≤ letter r ∧ letter r ≤ 'z' := by decide +kernel
        exact this _ (by omega)
      · exact ih _ (by omega) c hc

theorem alphabeticValue_toAlphabetic (n : Nat) : alphabeticValue (toAlphabetic n).toList = n := by
  unfold toAlphabetic
  split
  · next h => subst h; rfl
  · rw [String.toList_ofList]; exact alphabeticValue_loop n

/-- **C42 (unique).** Two different indices never get the same identifier. -/
theorem C42_alphabetic_injective (m n : Nat) (h : toAlphabetic m = toAlphabetic n) : m = n := by
  rw [← alphabeticValue_toAlphabetic m, ← alphabeticValue_toAlphabetic n, h]

/-- **C42 (letters).** An identifier is not empty and consists of lower-case letters only. -/
theorem C42_alphabetic_lower (n : Nat) : toAlphabetic n ≠ "" ∧ ∀ c ∈ (toAlphabetic n).toList, 'a' ≤ c ∧ c ≤ 'z' := by
  constructor
  · intro h
    unfold toAlphabetic at h
    split at h
    · simp at h
    · next hn =>
      rw [alphabeticLoop_succ n hn] at h
      have := congrArg String.toList h
      rw [String.toList_ofList] at this
      simp at this
  · unfold toAlphabetic
    split
    · decide
    · rw [String.toList_ofList]; exact alphabeticLoop_lower n

/-- **C42 (documentation).** Unlike its documentation says, identifiers of values above 25 may start with an `a`: the digits
come least significant first. -/
theorem C42_digits_reversed : toAlphabetic 26 = "ab" ∧ toAlphabetic 52 = "ac" := by
  constructor <;> cbv

example : toAlphabetic 0 = "a" ∧ toAlphabetic 1 = "b" ∧ toAlphabetic 27 = "bb" := by refine ⟨?_, ?_, ?_⟩ <;> cbv

end Wastrum
