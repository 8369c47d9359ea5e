import Verif.WaspTell
/-!
# What the analysis `signatures-check` establishes (C84)

The test suite of the repository has an analysis, in Rust and in Wasp, that compares the arguments and results of every call with a list of expectations, and
an exported flag that says whether all of them were met. This file models both and says exactly when the instrumented program gets to its end, and what the flag means
then.
-/

set_option linter.unusedSimpArgs false
set_option linter.unusedVariables false

namespace Wastrum

variable {W A : Type}

/-! ## Model: the Rust analysis -/

/-- `CallExpectation`: `/repo/wastrumentation-instr-lib/tests/analyses/rust/signatures-check/src/lib.rs` 21-24. -/
structure CallExpectation where
  arguments : List Val
  results : List Val

/-- The globals `EXPECTATIONS_INDEX` (`signatures-check/src/lib.rs` 97) and `ALL_EXPECTATIONS_MET` (10). The list `EXPECTATIONS` (98-197) never changes and is a parameter. -/
structure SigCheck where
  index : Nat := 0
  allMet : Bool := false
  deriving DecidableEq

/-- `are_all_expectations_met`: `signatures-check/src/lib.rs` 12-19. -/
def SigCheck.areAllExpectationsMet (c : SigCheck) : BitVec 32 := if c.allMet then 1 else 0

/-- The first loop of `validate_call`: `signatures-check/src/lib.rs` 62-73, from position `index` on. The conversion of the position to an `i32` fails if it does not fit. The comparison is that of
`WasmValue` (`wastrumentation-rs-stdlib/src/lib.rs` 189-199), by bits. -/
def LibLink.validateArguments (K : LibLink) (args : RuntimeValues) : (index : Nat) → List Val → Act (World W A) Unit
  | _, [] => pure ()
  | index, expected :: es =>
    if index < 2 ^ 31 then
      match args.argType (BitVec.ofNat 32 index) with
      | none => .panic
      | some ty =>
        if ty = expected.type then do
          let actual ← K.getArg args (BitVec.ofNat 32 index)
          if expected = actual then K.validateArguments args (index + 1) es else .panic
        else .panic
    else .panic

/-- The second loop of `validate_call`: `signatures-check/src/lib.rs` 75-86. -/
def LibLink.validateResults (K : LibLink) (ress : RuntimeValues) : (index : Nat) → List Val → Act (World W A) Unit
  | _, [] => pure ()
  | index, expected :: es =>
    if index < 2 ^ 31 then
      match ress.resType (BitVec.ofNat 32 index) with
      | none => .panic
      | some ty =>
        if ty = expected.type then do
          let actual ← K.getRes ress (BitVec.ofNat 32 index)
          if expected = actual then K.validateResults ress (index + 1) es else .panic
        else .panic
    else .panic

/-- `validate_call`: `signatures-check/src/lib.rs` 61-87. -/
def LibLink.validateCall (K : LibLink) (e : CallExpectation) (args ress : RuntimeValues) : Act (World W A) Unit := do
  K.validateArguments args 0 e.arguments
  K.validateResults ress 0 e.results

/-- The `apply` advice after `func.apply()`: `signatures-check/src/lib.rs` 205-215. (The locks are taken once per advice and released at its end: the program does not run in between.) -/
def sigAfter (K : LibLink) (exps : List CallExpectation) (_ : WasmFunction) (args ress : RuntimeValues) : Act (World W SigCheck) Unit := fun s =>
  match exps[s.world.2.1.index]? with
  | none => .trap s
  | some e => (do
      K.validateCall e args ress
      updateState fun c => ⟨c.index + 1, if c.index + 1 = exps.length then true else c.allMet⟩ : Act (World W SigCheck) Unit) s

/-- The `apply` advice before `func.apply()`: nothing. `signatures-check/src/lib.rs` 200-203. -/
def sigBefore (_ : WasmFunction) (_ _ : RuntimeValues) : Act (World W SigCheck) Unit := pure ()

/-! ## Model: the Wasp analysis -/

/-- The `WasmValue` of the analysis, a type and an `i32`: `/repo/wastrumentation-instr-lib/tests/analyses/wasp-as/signatures_check.wasp` 5-12. -/
structure WaspExpected where
  type : Wasp.WType
  value : BitVec 32
  deriving DecidableEq

/-- `CallExpectation`: `signatures_check.wasp` 35-41. -/
structure WaspExpectation where
  params : List WaspExpected
  results : List WaspExpected
  deriving DecidableEq

/-- The globals `expectations` (`signatures_check.wasp` 86) and `all_expectations_met` (3). -/
structure SigWasp where
  expectations : List WaspExpectation
  all_expectations_met : BitVec 32 := 0
  deriving DecidableEq

/-- The enum `WasmType` of the library, as its numbers: `/repo/supported-languages/assemblyscript/src/generate/analysis/std_analysis_lib_gen_apply.ts` 3-8. -/
def Wasp.WType.code : Wasp.WType → BitVec 32
  | .i32 => 0
  | .f32 => 1
  | .i64 => 2
  | .f64 => 3

/-- The type of that name in the language of the guest. -/
def Wasp.WType.as : Wasp.WType → AsType
  | .i32 => .i32
  | .f32 => .f32
  | .i64 => .i64
  | .f64 => .f64

/-- `assert(b)` for an answer `b` of a comparison: it traps unless the answer is true. -/
def asAssert (b : Bool) : Act W Unit := if b then pure () else .panic

/-- An answer of a comparison, as the condition of `assert`. -/
def truthy : Option Val → Bool
  | some (.i32 b) => b != 0
  | _ => false

/-- `as_i32`, `as_f32`, `as_i64` or `as_f64`, after the `switch` over the type so that its own `assert` holds, and the comparison `===` with the value read: `signatures_check.wasp` 14-32, 48-63. The conversions
from `i32` and the comparisons of floats are the instructions of the machine, with the meaning `N`; on floats `===` is numeric. -/
def WaspExpected.equals (N : Num) (e : WaspExpected) (actual : Val) : Bool :=
  match e.type with
  | .i32 => decide (Val.i32 e.value = actual)
  | .f32 => match N.unary .f32ConvertI32S (.i32 e.value) with
    | some c => truthy (N.binary .f32Eq c actual)
    | none => false
  | .i64 => decide (Val.i64 (e.value.signExtend 64) = actual)
  | .f64 => match N.unary .f64ConvertI32S (.i32 e.value) with
    | some c => truthy (N.binary .f64Eq c actual)
    | none => false

/-- The loop of `validate_post_call_values`: `signatures_check.wasp` 45-64, from position `index` on. -/
def LibLink.validateLoop (K : LibLink) (N : Num) (actual : DynValues) : (index : Nat) → List WaspExpected → Act (World W A) Unit
  | _, [] => pure ()
  | index, e :: es => do
    asAssert (e.type.code == (← K.getType (BitVec.ofNat 32 index) actual))
    asAssert (e.equals N (← K.get e.type.as (BitVec.ofNat 32 index) actual))
    K.validateLoop N actual (index + 1) es

/-- `validate_post_call_values`: `signatures_check.wasp` 43-65. The length of an array is an `i32`; simplified: here it is a number (no array has 2^31 elements). -/
def LibLink.validateValues (K : LibLink) (N : Num) (expected : List WaspExpected) (actual : DynValues) : Act (World W A) Unit := do
  asAssert (actual.length.toNat == expected.length)
  K.validateLoop N actual 0 expected

/-- `take_another_expectation`: `signatures_check.wasp` 73-81. Indexing an empty array traps. The `assert` in it always holds. -/
def takeExpectation : Act (World W SigWasp) WaspExpectation := fun s =>
  match s.world.2.1.expectations with
  | [] => .trap s
  | next :: rest => .ok next (s.setAnalysis ⟨rest, if rest.length = 0 then 1 else s.world.2.1.all_expectations_met⟩)

/-- The advice after `func.apply()`: `signatures_check.wasp` 192-193, with `validate_post_call` (67-70). -/
def sigWaspAfter (K : LibLink) (N : Num) (args results : DynValues) : Act (World W SigWasp) Unit := do
  let e ← takeExpectation
  K.validateValues N e.params args
  K.validateValues N e.results results

/-- The `apply` advice: `signatures_check.wasp` 188-194. -/
def sigWaspApply (K : LibLink) (N : Num) (_ : AsFunction) (call : Act (World W SigWasp) Unit) (args results : DynValues) : Act (World W SigWasp) Unit := do
  call
  sigWaspAfter K N args results

/-- The advice `signatures_check.wasp` declares: 188-194. -/
def sigProg : List Wasp.Advice := [.apply (.gen .mutableDynamic "func" "args" "results") ".."]

/-! ## Vocabulary of the statements -/

/-- **Specification.** The calls of a story that have returned, in the order in which they returned, with their arguments and results. -/
def Story.finished (st : Story) : List (List RVal × List RVal) := st.filterMap fun
  | .leave _ args ress => some (args, ress)
  | _ => none

/-- **Specification.** There is an expectation for every call, in order, and the call meets it. There may be more expectations than calls. -/
def AsExpected {E V : Type} (meets : E → V → V → Prop) (exps : List E) (calls : List (V × V)) : Prop :=
  calls.length ≤ exps.length ∧ ∀ (k : Nat) e xs ys, exps[k]? = some e → calls[k]? = some (xs, ys) → meets e xs ys

/-- **Specification.** What the Rust analysis means by meeting an expectation: the arguments *start with* the expected ones, bit by bit, and the results with the expected ones. -/
def CallExpectation.MetBy (e : CallExpectation) (xs ys : List RVal) : Prop := e.arguments.map .num <+: xs ∧ e.results.map .num <+: ys

/-- **Specification.** A value of the expected type and numerically equal to the expected number, converted to that type. -/
def WaspExpected.MetBy (N : Num) (e : WaspExpected) (x : RVal) : Prop :=
  match e.type with
  | .i32 => x = .i32 e.value
  | .i64 => x = .i64 (e.value.signExtend 64)
  | .f32 => ∃ b c, x = .num (.f32 b) ∧ N.unary .f32ConvertI32S (.i32 e.value) = some c ∧ ∃ yes, N.binary .f32Eq c (.f32 b) = some (.i32 yes) ∧ yes ≠ 0
  | .f64 => ∃ b c, x = .num (.f64 b) ∧ N.unary .f64ConvertI32S (.i32 e.value) = some c ∧ ∃ yes, N.binary .f64Eq c (.f64 b) = some (.i32 yes) ∧ yes ≠ 0

/-- **Specification.** As many values as expected, each as expected. -/
def AllMet (N : Num) (es : List WaspExpected) (xs : List RVal) : Prop := es.length = xs.length ∧ ∀ (k : Nat) e x, es[k]? = some e → xs[k]? = some x → e.MetBy N x

/-- **Specification.** What the Wasp analysis means by meeting an expectation: as many arguments as expected, each as expected, and the same of the results. -/
def WaspExpectation.MetBy (N : Num) (e : WaspExpectation) (xs ys : List RVal) : Prop :=
  AllMet N e.params xs ∧ AllMet N e.results ys

/-! ## The advice as records -/

theorem cons_prefix_drop {xs : List Val} {e : Val} {es : List Val} {i : Nat} {x : Val} (hx : xs[i]? = some x) : e :: es <+: xs.drop i ↔ e = x ∧ es <+: xs.drop (i + 1) := by
  obtain ⟨hi, rfl⟩ := List.getElem?_eq_some_iff.1 hx
  rw [List.drop_eq_getElem_cons hi, List.cons_prefix_cons]

theorem not_cons_prefix {xs : List Val} {e : Val} {es : List Val} {i : Nat} (hx : xs.length ≤ i) : ¬ e :: es <+: xs.drop i := by
  rw [List.drop_eq_nil_of_le hx, List.prefix_nil]
  simp

section
variable {K : LibLink} {l : Lib} {s : Store (World W A)} {t : FuncType} {p : Nat}

theorem validateArguments_ok (hK : K.Good) (ok : l.Ok) (hs : s.getLib = l.store) (hr : t.RefFree) (hn : t.slots < 8192) (hin : p + 8 * t.slots ≤ l.mem.size) : ∀ (es : List Val) (i : Nat),
    i ≤ t.inputs.length → (es <+: (l.mem.args t p).drop i → K.validateArguments (handle t p) i es s = .ok () s) ∧
      (¬ es <+: (l.mem.args t p).drop i → K.validateArguments (handle t p) i es s = .trap s) := by
  have hlen : (l.mem.args t p).length = t.inputs.length := Mem.vals_length ..
  have hsl : t.inputs.length < 8192 := by simp only [FuncType.slots] at hn; omega
  intro es
  induction es with
  | nil => exact fun i hi => ⟨fun _ => rfl, fun h => absurd (List.nil_prefix) h⟩
  | cons e es ih =>
    intro i hi
    have hi31 : i < 2 ^ 31 := by omega
    simp only [LibLink.validateArguments, hi31, if_true, (C24_reads_types hn p i hi31).1]
    by_cases h : i < t.inputs.length
    · obtain ⟨x, hx⟩ : ∃ x, (l.mem.args t p)[i]? = some x := ⟨_, List.getElem?_eq_getElem (by omega)⟩
      have hty : t.inputs[i]? = some x.type := by
        have e1 : ((l.mem.args t p).map Val.type)[i]? = some x.type := by rw [List.getElem?_map, hx]; rfl
        rwa [Mem.args, Mem.vals_types _ _ _ (fun v hv r => hr.both v (List.mem_append_right _ hv) r)] at e1
      rw [cons_prefix_drop hx, hty]
      dsimp only
      have hg := LibLink.getArg_ok (W := W) (A := A) hK ok hs hr.both hn hin hx
      by_cases he : e = x
      · subst he
        simp only [if_true, bind, Act.bind, hg, true_and]
        exact ih (i + 1) h
      · refine ⟨fun h => absurd h.1 he, fun _ => ?_⟩
        by_cases h2 : x.type = e.type
        · simp only [h2, if_true, bind, Act.bind, hg, if_neg he, Act.panic]
        · simp only [if_neg h2, Act.panic]
    · have : t.inputs[i]? = none := List.getElem?_eq_none (by omega)
      rw [this]
      exact ⟨fun h' => absurd h' (not_cons_prefix (by omega)), fun _ => rfl⟩

theorem validateResults_ok (hK : K.Good) (ok : l.Ok) (hs : s.getLib = l.store) (hr : t.RefFree) (hn : t.slots < 8192) (hin : p + 8 * t.slots ≤ l.mem.size) : ∀ (es : List Val) (i : Nat),
    i ≤ t.results.length → (es <+: (l.mem.ress t p).drop i → K.validateResults (handle t p) i es s = .ok () s) ∧
      (¬ es <+: (l.mem.ress t p).drop i → K.validateResults (handle t p) i es s = .trap s) := by
  have hlen : (l.mem.ress t p).length = t.results.length := Mem.vals_length ..
  have hsl : t.results.length < 8192 := by simp only [FuncType.slots] at hn; omega
  intro es
  induction es with
  | nil => exact fun i hi => ⟨fun _ => rfl, fun h => absurd (List.nil_prefix) h⟩
  | cons e es ih =>
    intro i hi
    have hi31 : i < 2 ^ 31 := by omega
    simp only [LibLink.validateResults, hi31, if_true, (C24_reads_types hn p i hi31).2]
    by_cases h : i < t.results.length
    · obtain ⟨x, hx⟩ : ∃ x, (l.mem.ress t p)[i]? = some x := ⟨_, List.getElem?_eq_getElem (by omega)⟩
      have hty : t.results[i]? = some x.type := by
        have e1 : ((l.mem.ress t p).map Val.type)[i]? = some x.type := by rw [List.getElem?_map, hx]; rfl
        rwa [Mem.ress, Mem.vals_types _ _ _ (fun v hv r => hr.both v (List.mem_append_left _ hv) r)] at e1
      rw [cons_prefix_drop hx, hty]
      dsimp only
      have hg := LibLink.getRes_ok (W := W) (A := A) hK ok hs hr.both hn hin hx
      by_cases he : e = x
      · subst he
        simp only [if_true, bind, Act.bind, hg, true_and]
        exact ih (i + 1) h
      · refine ⟨fun h => absurd h.1 he, fun _ => ?_⟩
        by_cases h2 : x.type = e.type
        · simp only [h2, if_true, bind, Act.bind, hg, if_neg he, Act.panic]
        · simp only [if_neg h2, Act.panic]
    · have : t.results[i]? = none := List.getElem?_eq_none (by omega)
      rw [this]
      exact ⟨fun h' => absurd h' (not_cons_prefix (by omega)), fun _ => rfl⟩

end

/-- An analysis that checks every call against the next of a list of expectations: `rest` are those left, `meets` when a call meets one, `next` what a success leaves behind. (Vocabulary of the proofs.) -/
structure Queue {E : Type} (w : CallWatcher A) (rest : A → List E) (meets : E → List Val → List Val → Prop) (next : A → A) : Prop where
  step : ∀ e a, w.step e a = some a
  enter : ∀ i xs a, w.enter i xs a = some a
  empty : ∀ i xs ys a, rest a = [] → w.leave i xs ys a = none
  met : ∀ i xs ys a e es, rest a = e :: es → meets e xs ys → w.leave i xs ys a = some (next a) ∧ rest (next a) = es
  unmet : ∀ i xs ys a e es, rest a = e :: es → ¬ meets e xs ys → w.leave i xs ys a = none

/-- The calls of which an analysis is told that they have returned. (Vocabulary of the proofs.) -/
def returned (tales : List Tale) : List (List Val × List Val) := tales.filterMap fun
  | .leave _ xs ys => some (xs, ys)
  | _ => none

theorem AsExpected.cons {E V : Type} {meets : E → V → V → Prop} {e : E} {es : List E} {c : V × V} {cs : List (V × V)} :
    AsExpected meets (e :: es) (c :: cs) ↔ meets e c.1 c.2 ∧ AsExpected meets es cs := by
  constructor
  · intro h
    exact ⟨h.2 0 _ _ _ rfl rfl, by simpa using h.1, fun k e' xs ys h1 h2 => h.2 (k + 1) e' xs ys h1 h2⟩
  · rintro ⟨h1, h2, h3⟩
    refine ⟨by simpa using h2, fun k e' xs ys h4 h5 => ?_⟩
    cases k with
    | zero => cases h4; cases h5; exact h1
    | succ k => exact h3 k e' xs ys h4 h5

theorem AsExpected.nil {E V : Type} {meets : E → V → V → Prop} {es : List E} : AsExpected meets es ([] : List (V × V)) := ⟨Nat.zero_le _, fun _ _ _ _ _ h => by cases h⟩

theorem Queue.hears {E : Type} {w : CallWatcher A} {rest : A → List E} {meets : E → List Val → List Val → Prop} {next : A → A} (hq : Queue w rest meets next) : ∀ (tales : List Tale) (a : A),
    (AsExpected meets (rest a) (returned tales) → w.hear tales a = some ((returned tales).foldl (fun a _ => next a) a)) ∧
    (¬ AsExpected meets (rest a) (returned tales) → w.hear tales a = none) := by
  intro tales
  induction tales with
  | nil => exact fun a => ⟨fun _ => rfl, fun h => absurd .nil h⟩
  | cons t ts ih =>
    intro a
    cases t with
    | adv e =>
      simp only [CallWatcher.hear, CallWatcher.tell, hq.step, Option.bind_some]
      exact ih a
    | enter i xs =>
      simp only [CallWatcher.hear, CallWatcher.tell, hq.enter, Option.bind_some]
      exact ih a
    | leave i xs ys =>
      have hr : returned (.leave i xs ys :: ts) = (xs, ys) :: returned ts := rfl
      rw [hr]
      simp only [CallWatcher.hear, CallWatcher.tell]
      cases h : rest a with
      | nil => exact ⟨fun h => absurd h.1 (by simp), fun _ => by rw [hq.empty _ _ _ _ h]; rfl⟩
      | cons e es =>
        rw [AsExpected.cons]
        by_cases hm : meets e xs ys
        · obtain ⟨h1, h2⟩ := hq.met i xs ys a e es h hm
          rw [h1, Option.bind_some, List.foldl_cons, ← h2]
          simp only [hm, true_and]
          exact ih (next a)
        · rw [hq.unmet i xs ys a e es h hm]
          exact ⟨fun h => absurd h.1 hm, fun _ => rfl⟩

theorem tells_returned {iface : Interface} {st : Story} {tales : List Tale} (h : iface.Tells st tales) : st.finished = (returned tales).map fun c => (c.1.map .num, c.2.map .num) := by
  have hnum : ∀ {xs : List RVal} {ys : List Val}, xs.mapM RVal.num? = some ys → xs = ys.map .num := by
    intro xs
    induction xs with
    | nil => intro ys h; simp at h; subst h; rfl
    | cons x xs ih =>
      intro ys h
      simp only [List.mapM_cons, Option.pure_def, Option.bind_eq_bind, Option.bind_eq_some_iff, Option.some.injEq] at h
      obtain ⟨v, hv, vs, hvs, rfl⟩ := h
      cases x with
      | num v' => cases hv; rw [ih hvs]; rfl
      | ref _ _ => cases hv
  induction st generalizing tales with
  | nil =>
    simp only [Interface.Tells, List.filter_nil, List.map_nil] at h
    cases tales with
    | nil => rfl
    | cons t ts => cases h
  | cons n st ih =>
    rcases h.cons with ⟨hn, h'⟩ | ⟨t, ts, rfl, ht, hn, h'⟩
    · rw [← ih h']
      cases n with
      | instr t args => rfl
      | enter i args => cases hn
      | leave i args ress => cases hn
    · cases n with
      | instr u args =>
        simp only [Note.tale, Option.map_eq_some_iff] at ht
        obtain ⟨a, _, rfl⟩ := ht
        rw [show returned (.adv a :: ts) = returned ts from rfl, ← ih h']
        rfl
      | enter i args =>
        simp only [Note.tale, Option.map_eq_some_iff] at ht
        obtain ⟨a, _, rfl⟩ := ht
        rw [show returned (.enter i a :: ts) = returned ts from rfl, ← ih h']
        rfl
      | leave i args ress =>
        simp only [Note.tale, Option.bind_eq_some_iff, Option.map_eq_some_iff] at ht
        obtain ⟨xs, hx, ys, hy, rfl⟩ := ht
        have e : returned (.leave i xs ys :: ts) = (xs, ys) :: returned ts := rfl
        rw [e, List.map_cons, ← ih h', ← hnum hx, ← hnum hy]
        rfl

theorem asExpected_map {E V V' : Type} {f : V → V'} {meets : E → V' → V' → Prop} {exps : List E} {calls : List (V × V)} :
    AsExpected meets exps (calls.map fun c => (f c.1, f c.2)) ↔ AsExpected (fun e xs ys => meets e (f xs) (f ys)) exps calls := by
  simp only [AsExpected, List.length_map, List.getElem?_map, Option.map_eq_some_iff, Prod.mk.injEq, Prod.exists]
  constructor
  · rintro ⟨h1, h2⟩
    exact ⟨h1, fun k e xs ys he hc => h2 k e _ _ he ⟨xs, ys, hc, rfl, rfl⟩⟩
  · rintro ⟨h1, h2⟩
    refine ⟨h1, ?_⟩
    rintro k e _ _ he ⟨xs, ys, hc, rfl, rfl⟩
    exact h2 k e xs ys he hc

/-- What holds of any analysis of this kind. -/
theorem queue_checks {C iface ts m r ge cb} (hP : CallWatchable C iface ts m r ge cb) (hno : ∀ t, iface.trap t = none) :
    ∃ base : Nat, (∃ f, r.module.functions[base]? = some f ∧ f.exports = [cb.name]) ∧
      ∀ (W A E : Type) (K : LibLink) (N : Num) (T : List Table) (X : List (RefType × List (Option Nat))) (B : Nat) (w : CallWatcher A) (rest : A → List E) (meets : E → List RVal → List RVal → Prop) (next : A → A)
        (I : Imports W) (IL : Imports (W × Log)) (G : Imports (W × Story)) (H : Imports (World W A)),
        CallHearing iface ts m r ge K base T X B N w G H → (∀ a x, w.after a x = some x) → Queue w rest (fun e xs ys => meets e (xs.map .num) (ys.map .num)) next →
        ImportsAgree m (fun (p : W × Log) w => p.1 = w) IL I → ImportsBeside m IL G → LeavesLog m G → PassesCuts m G →
        ∀ (f : Nat) (ty : FuncType) (args : List RVal) (s : Store W) (a : A) (l : Lib),
          m.ctx.ftype f = some ty → ValsOK m.ctx args ty.inputs → StoreOK m.ctx s →
          l.Ok → l.mem.pages < 65536 → SegmentsIntact m r (s.extend T X (s.world, a, l.store)) →
        ∀ (L d : Nat), l.free + d * B ≤ l.mem.limit * 65536 → l.free + d * B ≤ 65535 * 65536 →
          let told := toldCall C m (bodyTargets m ts) (applyTargets m ts) G N L d f args (s.withAnalysis [])
          let original := callF N (machineOf I m.functions) L d f args s
          let instrumented := fun D => callF N (machineOf H r.module.functions) L D f args (s.extend T X (s.world, a, l.store))
          (∀ vs (s1 : Store W), original = .ok vs s1 → ∃ st : Story, told = .ok vs (s1.withAnalysis st) ∧
            (AsExpected meets (rest a) st.finished → ∃ l1, instrumented (5 * d + 2) = .ok vs (s1.extend T X (s1.world, st.finished.foldl (fun a _ => next a) a, l1.store)) ∧
              Lib.Ok l1 ∧ l1.free = l.free ∧ l1.mem.limit = l.mem.limit) ∧
            (¬ AsExpected meets (rest a) st.finished → ∃ s', instrumented (5 * d + 2) = .trap s')) ∧
          (∀ s1 : Store W, original = .trap s1 → ∃ st : Story, told = .trap (s1.withAnalysis st) ∧ ∃ s', instrumented (5 * d + 2) = .trap s' ∧
            (AsExpected meets (rest a) st.finished → ∃ u, s' = s1.extend T X (s1.world, st.finished.foldl (fun a _ => next a) a, u))) ∧
          (∀ vs s1', instrumented d = .ok vs s1' → ∃ (s1 : Store W) (st : Story) (l1 : Lib), original = .ok vs s1 ∧ told = .ok vs (s1.withAnalysis st) ∧ AsExpected meets (rest a) st.finished ∧
            s1' = s1.extend T X (s1.world, st.finished.foldl (fun a _ => next a) a, l1.store)) := by
  obtain ⟨base, hb, h⟩ := C76_panics_exactly_ahead hP fun i _ f c _ _ b _ t k info _ ht => by rw [hno t] at ht; cases ht
  refine ⟨base, hb, ?_⟩
  intro W A E K N T X B w rest meets next I IL G H hR hq hQ hI hG hLG hC f ty args s a l hf ha hok ok hpg hseg L d hc1 hc2 told original instrumented
  obtain ⟨h1, h2, h3⟩ := h W A K N T X B w G H hR hq hLG hC f ty args s a l hf ha hok ok hpg hseg L d hc1 hc2
  obtain ⟨st, hst, _, htales⟩ := C76_story_is_of_the_program hP.small hP.instruments hP.valid hP.annotated (N := N) hI hG hf ha hok L d
  obtain ⟨tales, ht⟩ := htales iface
  have hst : told = original.withAnalysis st := hst
  obtain ⟨q1, q2⟩ := hQ.hears tales a
  have hfold : ∀ b, (returned tales).foldl (fun a _ => next a) b = st.finished.foldl (fun a _ => next a) b := by
    intro b
    rw [tells_returned ht, List.foldl_map]
  rw [hfold] at q1
  rw [← asExpected_map (f := List.map RVal.num) (meets := meets), ← tells_returned ht] at q1 q2
  refine ⟨fun vs s1 ho => ?_, fun s1 ho => ?_, fun vs s1' hi => ?_⟩
  · rw [ho] at hst
    obtain ⟨k1, k2⟩ := h1 vs s1 st tales hst ht
    exact ⟨st, hst, fun hm => k1 _ (q1 hm), fun hm => k2 (q2 hm)⟩
  · rw [ho] at hst
    obtain ⟨k1, k2⟩ := h2 s1 st tales hst ht
    refine ⟨st, hst, ?_⟩
    by_cases hm : AsExpected meets (rest a) st.finished
    · obtain ⟨u, hu⟩ := k1 _ (q1 hm)
      exact ⟨_, hu, fun _ => ⟨u, rfl⟩⟩
    · obtain ⟨s', hs'⟩ := k2 (q2 hm)
      exact ⟨s', hs', fun h => absurd h hm⟩
  · obtain ⟨s1, st', tales', a1, l1, e1, e2, e3, e4, _⟩ := h3 vs s1' hi
    change told = _ at e1
    have e5 := e1
    rw [hst] at e5
    cases ho : original with
    | ok vs0 s0 =>
      rw [ho] at e5
      simp only [Res.withAnalysis, Res.ok.injEq] at e5
      obtain ⟨rfl, e5⟩ := e5
      obtain ⟨rfl, rfl⟩ := withAnalysis_inj e5
      obtain rfl := tells_unique e2 ht
      by_cases hm : AsExpected meets (rest a) st.finished
      · rw [q1 hm] at e3
        cases e3
        exact ⟨s0, st, l1, rfl, e1, hm, e4⟩
      · rw [q2 hm] at e3
        cases e3
    | _ => rw [ho] at e5; simp [Res.withAnalysis] at e5

/-! ## C84: the Rust analysis -/

/-- What a success leaves behind. -/
def sigNext (exps : List CallExpectation) (c : SigCheck) : SigCheck := ⟨c.index + 1, if c.index + 1 = exps.length then true else c.allMet⟩

open Classical in
/-- `signatures-check` as an analysis that is told of calls. -/
noncomputable def sigWatcher (exps : List CallExpectation) : CallWatcher SigCheck where
  toWatcher := .ahead fun _ c => c
  enter _ _ c := some c
  leave _ xs ys c := match exps[c.index]? with
    | none => none
    | some e => if e.arguments <+: xs ∧ e.results <+: ys then some (sigNext exps c) else none

theorem prefix_nums {es xs : List Val} : es.map RVal.num <+: xs.map RVal.num ↔ es <+: xs := by
  constructor
  · rintro ⟨zs, h⟩
    rw [List.append_eq_map_iff] at h
    obtain ⟨l1, l2, rfl, h1, _⟩ := h
    have : es = l1 := (List.map_inj_right (fun _ _ h => by cases h; rfl)).1 h1.symm
    exact ⟨l2, by rw [this]⟩
  · rintro ⟨zs, rfl⟩
    exact ⟨zs.map .num, by simp⟩

theorem sigWatcher_queue (exps : List CallExpectation) : Queue (sigWatcher exps) (fun c => exps.drop c.index) (fun e xs ys => e.MetBy (xs.map .num) (ys.map .num)) (sigNext exps) := by
  have hrest : ∀ (c : SigCheck) e es, exps.drop c.index = e :: es → exps[c.index]? = some e ∧ exps.drop (c.index + 1) = es := by
    intro c e es h
    have e1 := congrArg (fun l => l[0]?) h
    have e2 := congrArg List.tail h
    simp only [List.getElem?_drop, Nat.add_zero, List.getElem?_cons_zero, List.tail_drop, List.tail_cons] at e1 e2
    exact ⟨e1, e2⟩
  refine ⟨fun _ _ => rfl, fun _ _ _ => rfl, fun i xs ys c h => ?_, fun i xs ys c e es h hm => ?_, fun i xs ys c e es h hm => ?_⟩
  · have : exps[c.index]? = none := List.getElem?_eq_none (List.drop_eq_nil_iff.1 h)
    simp only [sigWatcher, this]
  · obtain ⟨h1, h2⟩ := hrest c e es h
    simp only [CallExpectation.MetBy, prefix_nums] at hm
    simp only [sigWatcher, h1, if_pos hm]
    exact ⟨trivial, h2⟩
  · obtain ⟨h1, h2⟩ := hrest c e es h
    simp only [CallExpectation.MetBy, prefix_nums] at hm
    simp only [sigWatcher, h1, if_neg hm]

theorem sigAfter_records {K : LibLink} (hK : K.Good) (exps : List CallExpectation) {t : FuncType} (hr : t.RefFree) (hn : t.slots < 8192) (p i : Nat) (f : WasmFunction) :
    Records (W := W) t p (·.both t p) (sigAfter K exps f (handle t p) (handle t p)) (fun v => (sigWatcher exps).leave i v.1 v.2) := by
  intro l s ok hs hin hty
  have ha := fun e : CallExpectation => validateArguments_ok (W := W) hK ok hs hr hn (show p + 8 * t.slots ≤ l.mem.size by omega) e.arguments 0 (Nat.zero_le _)
  have hb := fun e : CallExpectation => validateResults_ok (W := W) hK ok hs hr hn (show p + 8 * t.slots ≤ l.mem.size by omega) e.results 0 (Nat.zero_le _)
  simp only [List.drop_zero] at ha hb
  simp only [sigWatcher, sigAfter, Mem.both]
  cases exps[s.world.2.1.index]? with
  | none => exact ⟨s, rfl⟩
  | some e =>
    dsimp only
    by_cases h1 : e.arguments <+: l.mem.args t p
    · by_cases h2 : e.results <+: l.mem.ress t p
      · simp only [h1, h2, and_self, if_true, LibLink.validateCall, bind, Act.bind, (ha e).1 h1, (hb e).1 h2]
        rfl
      · simp only [h2, and_false, if_false, LibLink.validateCall, bind, Act.bind, (ha e).1 h1, (hb e).2 h2]
        exact ⟨_, rfl⟩
    · simp only [h1, false_and, if_false, LibLink.validateCall, bind, Act.bind, (ha e).2 h1]
      exact ⟨_, rfl⟩

theorem sigNext_fold (exps : List CallExpectation) {α : Type} : ∀ (calls : List α) (c : SigCheck), c.index + calls.length ≤ exps.length →
    calls.foldl (fun c _ => sigNext exps c) c = ⟨c.index + calls.length, c.allMet || decide (calls.length ≠ 0 ∧ c.index + calls.length = exps.length)⟩ := by
  intro calls
  induction calls with
  | nil => intro c _; simp
  | cons x xs ih =>
    intro c h
    simp only [List.length_cons] at h
    rw [List.foldl_cons, ih _ (by simp only [sigNext]; omega)]
    simp only [sigNext, List.length_cons, SigCheck.mk.injEq]
    refine ⟨by omega, ?_⟩
    by_cases hx : xs.length = 0
    · simp [hx]
      by_cases h2 : c.index + 1 = exps.length <;> simp [h2]
    · have : ¬ c.index + 1 = exps.length := by omega
      simp [this, hx, show c.index + 1 + xs.length = c.index + (xs.length + 1) by omega]

/-- A program instrumented for an analysis of which only `apply` is advised, linked with `signatures-check` and the stack library generated for it. `G` are the program's imports beside a story. -/
structure SigLinked (m : Module) (r : Instrumented) (ge : WasmExport) (K : LibLink) (base : Nat) (T : List Table) (X : List (RefType × List (Option Nat))) (B : Nat) (exps : List CallExpectation)
    (G : Imports (W × Story)) (H : Imports (World W SigCheck)) : Prop where
  sigs : r.librarySignatures = some K.sigs
  small : SmallSigs K.sigs
  good : K.Good
  lib : HasLib K H
  /-- the exported function of the analysis is the one the library makes of the advice -/
  applies : H analysisModule ge.name = telling K base sigBefore (sigAfter K exps)
  imports : ImportsTold m T X G H
  frame : ∀ t ∈ K.sigs, 12 * t.slots ≤ B

/-- **C84 (Rust).** Let a valid program be instrumented for `signatures-check` with the expectations `exps`, and linked with it and the stack library generated for it. Let the original program get to its end, and let `st.finished` be the calls (of
intercepted functions) it made, in the order in which they returned. If there is an expectation for each and each call meets its expectation — its arguments and results start with the expected ones — then the
instrumented program gets to its end too, with the same results and state, and `are_all_expectations_met` says 1 exactly if there were as many calls as expectations, and at least one. If not, the instrumented program
traps. If the original traps, so does the instrumented program. If the instrumented program gets to its end, then the original does, with the same results, and the expectations are met. -/
theorem C84_signatures_check {C iface ts m r ge cb} (hP : CallWatchable C iface ts m r ge cb) (hno : ∀ t, iface.trap t = none) :
    ∃ base : Nat, (∃ f, r.module.functions[base]? = some f ∧ f.exports = [cb.name]) ∧
      ∀ (W : Type) (K : LibLink) (N : Num) (T : List Table) (X : List (RefType × List (Option Nat))) (B : Nat) (exps : List CallExpectation)
        (I : Imports W) (IL : Imports (W × Log)) (G : Imports (W × Story)) (H : Imports (World W SigCheck)),
        SigLinked m r ge K base T X B exps G H →
        ImportsAgree m (fun (p : W × Log) w => p.1 = w) IL I → ImportsBeside m IL G → LeavesLog m G → PassesCuts m G →
        ∀ (f : Nat) (ty : FuncType) (args : List RVal) (s : Store W) (l : Lib),
          m.ctx.ftype f = some ty → ValsOK m.ctx args ty.inputs → StoreOK m.ctx s →
          l.Ok → l.mem.pages < 65536 → SegmentsIntact m r (s.extend T X (s.world, ({} : SigCheck), l.store)) →
        ∀ (L d : Nat), l.free + d * B ≤ l.mem.limit * 65536 → l.free + d * B ≤ 65535 * 65536 →
          let told := toldCall C m (bodyTargets m ts) (applyTargets m ts) G N L d f args (s.withAnalysis [])
          let original := callF N (machineOf I m.functions) L d f args s
          let instrumented := fun D => callF N (machineOf H r.module.functions) L D f args (s.extend T X (s.world, ({} : SigCheck), l.store))
          (∀ vs (s1 : Store W), original = .ok vs s1 → ∃ st : Story, told = .ok vs (s1.withAnalysis st) ∧
            (AsExpected CallExpectation.MetBy exps st.finished → ∃ c l1, instrumented (5 * d + 2) = .ok vs (s1.extend T X (s1.world, c, Lib.store l1)) ∧
              (c.areAllExpectationsMet = 1 ↔ st.finished.length = exps.length ∧ 0 < st.finished.length)) ∧
            (¬ AsExpected CallExpectation.MetBy exps st.finished → ∃ s', instrumented (5 * d + 2) = .trap s')) ∧
          (∀ s1 : Store W, original = .trap s1 → ∃ s', instrumented (5 * d + 2) = .trap s') ∧
          (∀ vs s1', instrumented d = .ok vs s1' → ∃ (s1 : Store W) (st : Story) (c : SigCheck) (l1 : Lib), original = .ok vs s1 ∧ told = .ok vs (s1.withAnalysis st) ∧
            AsExpected CallExpectation.MetBy exps st.finished ∧ s1' = s1.extend T X (s1.world, c, l1.store) ∧
            (c.areAllExpectationsMet = 1 ↔ st.finished.length = exps.length ∧ 0 < st.finished.length)) := by
  obtain ⟨base, hb, h⟩ := queue_checks hP hno
  refine ⟨base, hb, ?_⟩
  intro W K N T X B exps I IL G H hR hI hG hLG hC f ty args s l hf ha hok ok hpg hseg L d hc1 hc2 told original instrumented
  have hW : CallWatching iface ts m r ge K base T X B N (sigWatcher exps) G H :=
    ⟨hR.sigs, hR.small, hR.good, hR.lib, fun t ht => absurd ht (by rw [hno t]; exact nofun),
      ⟨_, _, hR.applies, fun i hi f hf hr hn j p => ⟨fun _ _ _ _ _ _ => rfl, sigAfter_records hR.good exps hr hn p i _⟩⟩, hR.imports, hR.frame⟩
  obtain ⟨h1, h2, h3⟩ := h W SigCheck CallExpectation K N T X B (sigWatcher exps) _ _ _ I IL G H (C76_rust_analysis_qualifies hP hW) (fun _ _ => rfl) (sigWatcher_queue exps) hI hG hLG hC
    f ty args s {} l hf ha hok ok hpg hseg L d hc1 hc2
  have hflag : ∀ calls : List (List RVal × List RVal), calls.length ≤ exps.length →
      ((calls.foldl (fun c _ => sigNext exps c) {}).areAllExpectationsMet = 1 ↔ calls.length = exps.length ∧ 0 < calls.length) := by
    intro calls hle
    rw [sigNext_fold exps calls {} (by simpa using hle)]
    simp only [SigCheck.areAllExpectationsMet, Bool.false_or, Nat.zero_add, decide_eq_true_eq]
    split
    · simp only [true_iff]; omega
    · simp only [show ¬ (0 : BitVec 32) = 1 by decide, false_iff]; omega
  refine ⟨fun vs s1 ho => ?_, fun s1 ho => ?_, fun vs s1' hi => ?_⟩
  · obtain ⟨st, e1, e2, e3⟩ := h1 vs s1 ho
    refine ⟨st, e1, fun hm => ?_, e3⟩
    obtain ⟨l1, e4, _⟩ := e2 hm
    exact ⟨_, l1, e4, hflag _ hm.1⟩
  · obtain ⟨st, _, s', e, _⟩ := h2 s1 ho
    exact ⟨s', e⟩
  · obtain ⟨s1, st, l1, e1, e2, e3, e4⟩ := h3 vs s1' hi
    exact ⟨s1, st, _, l1, e1, e2, e3, e4, hflag _ e3.1⟩

/-! ## C84: the Wasp analysis -/

theorem typeCode_as {e : Wasp.WType} {v : ValType} {c : BitVec 32} (h : TypeCode v c) : e.code = c ↔ e.as.wasm = v := by
  rcases h with ⟨rfl, rfl⟩ | ⟨rfl, rfl⟩ | ⟨rfl, rfl⟩ | ⟨rfl, rfl⟩ <;> cases e <;> decide

theorem truthy_iff {o : Option Val} : truthy o = true ↔ ∃ yes, o = some (.i32 yes) ∧ yes ≠ 0 := by
  cases o with
  | none => simp [truthy]
  | some v => cases v <;> simp [truthy]

theorem WaspExpected.metBy_iff (N : Num) (e : WaspExpected) (x : Val) : e.MetBy N (.num x) ↔ e.type.as.wasm = x.type ∧ e.equals N x = true := by
  obtain ⟨ty, v⟩ := e
  cases ty <;> cases x <;> simp only [WaspExpected.MetBy, WaspExpected.equals, Wasp.WType.as, AsType.wasm, Val.type, RVal.i32, RVal.i64, reduceCtorEq, false_and, and_false, true_and, exists_false,
    RVal.num.injEq, Val.i32.injEq, Val.i64.injEq, Val.f32.injEq, Val.f64.injEq, decide_eq_true_eq]
  case i32.i32 => exact eq_comm
  case i64.i64 => exact eq_comm
  all_goals
    split
    · rename_i c h
      rw [h]
      constructor
      · rintro ⟨b, c, rfl, hc, ht⟩
        cases hc
        exact truthy_iff.2 ht
      · exact fun ht => ⟨_, _, rfl, rfl, truthy_iff.1 ht⟩
    · rename_i h
      rw [h]
      simp

section
variable {K : LibLink} {N : Num} {s : Store (World W A)} {xs : List Val} {values : DynValues}

theorem validateLoop_ok (hp : Presents K values xs s) (hx : xs.length < 2 ^ 31) : ∀ (es : List WaspExpected) (i : Nat), i + es.length = xs.length →
    ((∀ (k : Nat) e x, es[k]? = some e → xs[i + k]? = some x → e.MetBy N (.num x)) → K.validateLoop N values i es s = .ok () s) ∧
    (¬ (∀ (k : Nat) e x, es[k]? = some e → xs[i + k]? = some x → e.MetBy N (.num x)) → K.validateLoop N values i es s = .trap s) := by
  intro es
  induction es with
  | nil => exact fun i _ => ⟨fun _ => rfl, fun h => absurd (fun k e x h _ => by cases h) h⟩
  | cons e es ih =>
    intro i hi
    simp only [List.length_cons] at hi
    obtain ⟨x, hxi⟩ : ∃ x, xs[i]? = some x := ⟨_, List.getElem?_eq_getElem (by omega)⟩
    obtain ⟨c, hc, hty⟩ := hp.type i x hxi
    have hsplit : (∀ (k : Nat) e' y, (e :: es)[k]? = some e' → xs[i + k]? = some y → e'.MetBy N (.num y)) ↔
        e.MetBy N (.num x) ∧ ∀ (k : Nat) e' y, es[k]? = some e' → xs[i + 1 + k]? = some y → e'.MetBy N (.num y) := by
      constructor
      · intro h
        exact ⟨h 0 e x rfl hxi, fun k e' y h1 h2 => h (k + 1) e' y h1 (by rwa [show i + (k + 1) = i + 1 + k by omega])⟩
      · rintro ⟨h1, h2⟩ k e' y h3 h4
        cases k with
        | zero => cases h3; rw [Nat.add_zero, hxi] at h4; cases h4; exact h1
        | succ k => exact h2 k e' y h3 (by rwa [show i + 1 + k = i + (k + 1) by omega])
    rw [hsplit, WaspExpected.metBy_iff]
    simp only [LibLink.validateLoop, bind, Act.bind, hty]
    by_cases h1 : e.type.as.wasm = x.type
    · have hcode : (e.type.code == c) = true := by rw [beq_iff_eq]; exact (typeCode_as hc).2 h1
      have hg := hp.same i x hxi e.type.as (by cases e.type <;> decide) h1
      simp only [hcode, asAssert, if_true, pure, hg, h1, true_and]
      cases h2 : e.equals N x with
      | true =>
        simp only [if_true, true_and]
        exact ih (i + 1) (by omega)
      | false =>
        simp only [Bool.false_eq_true, if_false, false_and, Act.panic]
        exact ⟨False.elim, fun _ => trivial⟩
    · have hcode : (e.type.code == c) = false := by
        rw [beq_eq_false_iff_ne]
        exact fun h => h1 ((typeCode_as hc).1 h)
      simp only [hcode, asAssert, Bool.false_eq_true, if_false, h1, false_and, Act.panic]
      exact ⟨False.elim, fun _ => trivial⟩

theorem validateValues_ok (hp : Presents K values xs s) (hx : xs.length < 2 ^ 31) {es : List WaspExpected} :
    (AllMet N es (xs.map .num) → K.validateValues N es values s = .ok () s) ∧ (¬ AllMet N es (xs.map .num) → K.validateValues N es values s = .trap s) := by
  have hmap : AllMet N es (xs.map .num) ↔ es.length = xs.length ∧ ∀ (k : Nat) e x, es[k]? = some e → xs[0 + k]? = some x → e.MetBy N (.num x) := by
    simp only [AllMet, List.length_map, List.getElem?_map, Option.map_eq_some_iff, Nat.zero_add]
    constructor
    · rintro ⟨h1, h2⟩
      exact ⟨h1, fun k e x he hx => h2 k e _ he ⟨x, hx, rfl⟩⟩
    · rintro ⟨h1, h2⟩
      refine ⟨h1, ?_⟩
      rintro k e _ he ⟨x, hx, rfl⟩
      exact h2 k e x he hx
  rw [hmap]
  simp only [LibLink.validateValues, bind, Act.bind, hp.length]
  rw [BitVec.toNat_ofNat, Nat.mod_eq_of_lt (by omega)]
  by_cases h1 : es.length = xs.length
  · simp only [h1, beq_self_eq_true, asAssert, if_true, pure, true_and]
    exact validateLoop_ok hp hx es 0 (by omega)
  · have : (xs.length == es.length) = false := by
      rw [beq_eq_false_iff_ne]
      exact fun h => h1 h.symm
    simp only [this, asAssert, Bool.false_eq_true, if_false, h1, false_and, Act.panic]
    exact ⟨False.elim, fun _ => trivial⟩

end

/-- What taking an expectation leaves behind. -/
def sigWaspNext (c : SigWasp) : SigWasp := ⟨c.expectations.tail, if c.expectations.tail.length = 0 then 1 else c.all_expectations_met⟩

open Classical in
/-- `signatures_check.wasp` as an analysis that is told of calls. -/
noncomputable def sigWaspWatcher (N : Num) : CallWatcher SigWasp where
  toWatcher := .ahead fun _ c => c
  enter _ _ c := some c
  leave _ xs ys c := match c.expectations with
    | [] => none
    | e :: _ => if e.MetBy N (xs.map .num) (ys.map .num) then some (sigWaspNext c) else none

theorem sigWaspWatcher_queue (N : Num) : Queue (sigWaspWatcher N) SigWasp.expectations (fun e xs ys => e.MetBy N (xs.map .num) (ys.map .num)) sigWaspNext := by
  refine ⟨fun _ _ => rfl, fun _ _ _ => rfl, fun i xs ys c h => ?_, fun i xs ys c e es h hm => ?_, fun i xs ys c e es h hm => ?_⟩
  · simp only [sigWaspWatcher, h]
  · simp only [sigWaspWatcher, h, if_pos hm, sigWaspNext, List.tail_cons, and_self]
  · simp only [sigWaspWatcher, h, if_neg hm]


theorem sigWaspAfter_records {K : LibLink} (hK : K.Good) (N : Num) {t : FuncType} (hr : t.RefFree) (hn : t.slots < 8192) (p i : Nat) :
    Records (W := W) t p (·.both t p) (sigWaspAfter K N (.args (asHandle t p (p + 8 * t.slots))) (.ress (asHandle t p (p + 8 * t.slots)))) (fun v => (sigWaspWatcher N).leave i v.1 v.2) := by
  intro l s ok hs hin hty
  simp only [sigWaspWatcher, sigWaspAfter, takeExpectation, Mem.both, bind, Act.bind]
  cases hx : s.world.2.1.expectations with
  | nil => exact ⟨s, rfl⟩
  | cons e es =>
    dsimp only
    have e1 : (⟨es, if es.length = 0 then 1 else s.world.2.1.all_expectations_met⟩ : SigWasp) = sigWaspNext s.world.2.1 := by simp only [sigWaspNext, hx, List.tail_cons]
    rw [e1]
    have hs' : (s.setAnalysis (sigWaspNext s.world.2.1)).getLib = l.store := hs
    have hl : ∀ (l : Lib), (l.mem.args t p).length < 2 ^ 31 ∧ (l.mem.ress t p).length < 2 ^ 31 := by
      intro l
      simp only [FuncType.slots] at hn
      simp only [Mem.args, Mem.ress, Mem.vals_length]
      omega
    have pa := DynValues.Of.presents (W := W) (d := .args (asHandle t p (p + 8 * t.slots))) (.inl rfl) hK hr hn ok hs' (by omega) (by omega) hty
    have pr := DynValues.Of.presents (W := W) (d := .ress (asHandle t p (p + 8 * t.slots))) (.inr rfl) hK hr hn ok hs' (by omega) (by omega) hty
    have va := validateValues_ok (N := N) pa (hl l).1 (es := e.params)
    have vr := validateValues_ok (N := N) pr (hl l).2 (es := e.results)
    simp only [DynValues.held] at va vr
    by_cases h1 : AllMet N e.params ((l.mem.args t p).map .num)
    · by_cases h2 : AllMet N e.results ((l.mem.ress t p).map .num)
      · simp only [WaspExpectation.MetBy, h1, h2, and_self, if_true, va.1 h1, vr.1 h2]
      · simp only [WaspExpectation.MetBy, h2, and_false, if_false, va.1 h1, vr.2 h2]
        exact ⟨_, rfl⟩
    · simp only [WaspExpectation.MetBy, h1, false_and, if_false, va.2 h1]
      exact ⟨_, rfl⟩

theorem sigWaspNext_fold {α : Type} : ∀ (calls : List α) (c : SigWasp), calls.length ≤ c.expectations.length →
    calls.foldl (fun c _ => sigWaspNext c) c = ⟨c.expectations.drop calls.length, if calls.length ≠ 0 ∧ calls.length = c.expectations.length then 1 else c.all_expectations_met⟩ := by
  intro calls
  induction calls with
  | nil => intro c _; simp
  | cons x xs ih =>
    intro c h
    simp only [List.length_cons] at h
    rw [List.foldl_cons, ih _ (by simp only [sigWaspNext, List.length_tail]; omega)]
    simp only [sigWaspNext, List.length_cons, List.length_tail, SigWasp.mk.injEq, List.drop_tail]
    refine ⟨trivial, ?_⟩
    by_cases h1 : xs.length + 1 = c.expectations.length
    · rw [if_pos (show xs.length + 1 ≠ 0 ∧ xs.length + 1 = c.expectations.length by omega)]
      split
      · rfl
      · rw [if_pos (by omega)]
    · rw [if_neg (show ¬ (xs.length + 1 ≠ 0 ∧ xs.length + 1 = c.expectations.length) by omega), if_neg (by omega), if_neg (by omega)]

open Wasp in
theorem sigProg_reports {K : LibLink} (hK : K.Good) (N : Num) (ts : Option (List Nat)) (m : Module) :
    WaspReports (W := W) sigProg ts m .idle (sigWaspApply K N) (sigWaspWatcher N) := by
  refine ⟨fun t ⟨x, hx, ha⟩ => ?_, ⟨fun _ _ _ => pure (), fun _ args results => sigWaspAfter K N args results, rfl,
    fun i hi f hf hr hn j p => ⟨fun _ _ _ _ _ _ => rfl, sigWaspAfter_records hK N hr hn p i⟩⟩, fun _ _ => rfl⟩
  simp only [sigProg, List.mem_cons, List.not_mem_nil, or_false] at hx
  subst hx
  cases ha

open Wasp in
/-- **C84 (Wasp).** The same of `signatures_check.wasp`, started with the expectations `exps`: a call meets an expectation if it has as many arguments and results as expected, of the expected types and
numerically equal to the expected numbers. The exported `all_expectations_met` is 1 at the end of a run exactly if there were as many calls as expectations, and at least one. -/
theorem C84_signatures_check_wasp {C iface ts m r} (hi : Wasp.interface sigProg = some iface) (hs : SmallModule m) (h : Instruments C iface ts m r) (hv : ValidModule m)
    (hB : ∀ i ∈ bodyTargets m ts, ∀ f, m.functions[i]? = some f → WellAnnotated m f (bodyOf C m i)) (hres : ∀ name ∈ iface.toolExports, name ∉ m.exportNames) :
    ∃ base : Nat, (∃ f, r.module.functions[base]? = some f ∧ f.exports = ["call_base"]) ∧
      ∀ (W : Type) (K : LibLink) (N : Num) (T : List Table) (X : List (RefType × List (Option Nat))) (B : Nat) (exps : List WaspExpectation)
        (I : Imports W) (IL : Imports (W × Log)) (G : Imports (W × Story)) (H : Imports (World W SigWasp)),
        WaspLinked sigProg ts m r K base T X B .idle (sigWaspApply K N) G H →
        ImportsAgree m (fun (p : W × Log) w => p.1 = w) IL I → ImportsBeside m IL G → LeavesLog m G → PassesCuts m G →
        ∀ (f : Nat) (ty : FuncType) (args : List RVal) (s : Store W) (l : Lib),
          m.ctx.ftype f = some ty → ValsOK m.ctx args ty.inputs → StoreOK m.ctx s →
          l.Ok → l.mem.pages < 65536 → SegmentsIntact m r (s.extend T X (s.world, ({ expectations := exps } : SigWasp), l.store)) →
        ∀ (L d : Nat), l.free + d * B ≤ l.mem.limit * 65536 → l.free + d * B ≤ 65535 * 65536 →
          let told := toldCall C m (bodyTargets m ts) (applyTargets m ts) G N L d f args (s.withAnalysis [])
          let original := callF N (machineOf I m.functions) L d f args s
          let instrumented := fun D => callF N (machineOf H r.module.functions) L D f args (s.extend T X (s.world, ({ expectations := exps } : SigWasp), l.store))
          (∀ vs (s1 : Store W), original = .ok vs s1 → ∃ st : Story, told = .ok vs (s1.withAnalysis st) ∧
            (AsExpected (WaspExpectation.MetBy N) exps st.finished → ∃ c l1, instrumented (5 * d + 2) = .ok vs (s1.extend T X (s1.world, c, Lib.store l1)) ∧
              (c.all_expectations_met = 1 ↔ st.finished.length = exps.length ∧ 0 < st.finished.length)) ∧
            (¬ AsExpected (WaspExpectation.MetBy N) exps st.finished → ∃ s', instrumented (5 * d + 2) = .trap s')) ∧
          (∀ s1 : Store W, original = .trap s1 → ∃ s', instrumented (5 * d + 2) = .trap s') ∧
          (∀ vs s1', instrumented d = .ok vs s1' → ∃ (s1 : Store W) (st : Story) (c : SigWasp) (l1 : Lib), original = .ok vs s1 ∧ told = .ok vs (s1.withAnalysis st) ∧
            AsExpected (WaspExpectation.MetBy N) exps st.finished ∧ s1' = s1.extend T X (s1.world, c, l1.store) ∧
            (c.all_expectations_met = 1 ↔ st.finished.length = exps.length ∧ 0 < st.finished.length)) := by
  have hg : ∃ x ∈ sigProg, IsGeneric x := ⟨.apply (.gen .mutableDynamic "func" "args" "results") "..", by simp [sigProg], ⟨_, _, _, _, _, rfl⟩⟩
  have hno : ∀ t, iface.trap t = none := by
    intro t
    cases e : iface.trap t with
    | none => rfl
    | some x =>
      obtain ⟨_, y, hy, ha⟩ := ((C35_interface_exact_partial sigProg iface hi).1 t x).1 e
      simp only [sigProg, List.mem_cons, List.not_mem_nil, or_false] at hy
      subst hy
      cases ha
  obtain ⟨base, hb, hmain⟩ := queue_checks (wasp_watchable hi hg hs h hv hB hres) hno
  refine ⟨base, hb, ?_⟩
  intro W K N T X B exps I IL G H hR hI hG hLG hC f ty args s l hf ha hok ok hpg hseg L d hc1 hc2 told original instrumented
  obtain ⟨h1, h2, h3⟩ := hmain W SigWasp WaspExpectation K N T X B (sigWaspWatcher N) _ _ _ I IL G H (C83_wasp_analysis_qualifies hi N (sigProg_reports hR.good N ts m) hR) (fun _ _ => rfl) (sigWaspWatcher_queue N)
    hI hG hLG hC f ty args s { expectations := exps } l hf ha hok ok hpg hseg L d hc1 hc2
  have hflag : ∀ calls : List (List RVal × List RVal), calls.length ≤ exps.length →
      ((calls.foldl (fun c _ => sigWaspNext c) { expectations := exps }).all_expectations_met = 1 ↔ calls.length = exps.length ∧ 0 < calls.length) := by
    intro calls hle
    rw [sigWaspNext_fold calls { expectations := exps } hle]
    dsimp only
    split
    · simp only [true_iff]; omega
    · simp only [show ¬ (0 : BitVec 32) = 1 by decide, false_iff]; omega
  refine ⟨fun vs s1 ho => ?_, fun s1 ho => ?_, fun vs s1' hi => ?_⟩
  · obtain ⟨st, e1, e2, e3⟩ := h1 vs s1 ho
    refine ⟨st, e1, fun hm => ?_, e3⟩
    obtain ⟨l1, e4, _⟩ := e2 hm
    exact ⟨_, l1, e4, hflag _ hm.1⟩
  · obtain ⟨st, _, s', e, _⟩ := h2 s1 ho
    exact ⟨s', e⟩
  · obtain ⟨s1, st, l1, e1, e2, e3, e4⟩ := h3 vs s1' hi
    exact ⟨s1, st, _, l1, e1, e2, e3, e4, hflag _ e3.1⟩

/-- **C84 (negation).** The flag of the Wasp analysis does not say that the expectations are met: it is set before the last call is checked. If one expectation is left and the call does not meet it, the analysis traps and leaves the
flag at 1. -/
theorem C84_wasp_flag_before_check {K : LibLink} (hK : K.Good) (N : Num) {t : FuncType} (hr : t.RefFree) (hn : t.slots < 8192) {p : Nat} {l : Lib} {s : Store (World W SigWasp)} (ok : l.Ok) (hs : s.getLib = l.store)
    (hin : p + 12 * t.slots ≤ l.mem.size) (hty : l.mem.Types (p + 8 * t.slots) (t.results ++ t.inputs)) {e : WaspExpectation} (he : s.world.2.1.expectations = [e])
    (hm : ¬ e.MetBy N ((l.mem.args t p).map .num) ((l.mem.ress t p).map .num)) :
    ∃ s', sigWaspAfter K N (.args (asHandle t p (p + 8 * t.slots))) (.ress (asHandle t p (p + 8 * t.slots))) s = .trap s' ∧ s'.world.2.1.all_expectations_met = 1 := by
  simp only [sigWaspAfter, takeExpectation, bind, Act.bind, he, List.length_nil, if_true]
  have hs' : (s.setAnalysis ⟨[], 1⟩).getLib = l.store := hs
  have hl : ∀ (l : Lib), (l.mem.args t p).length < 2 ^ 31 ∧ (l.mem.ress t p).length < 2 ^ 31 := by
    intro l
    simp only [FuncType.slots] at hn
    simp only [Mem.args, Mem.ress, Mem.vals_length]
    omega
  have pa := DynValues.Of.presents (W := W) (d := .args (asHandle t p (p + 8 * t.slots))) (.inl rfl) hK hr hn ok hs' (by omega) (by omega) hty
  have pr := DynValues.Of.presents (W := W) (d := .ress (asHandle t p (p + 8 * t.slots))) (.inr rfl) hK hr hn ok hs' (by omega) (by omega) hty
  have va := validateValues_ok (N := N) pa (hl l).1 (es := e.params)
  have vr := validateValues_ok (N := N) pr (hl l).2 (es := e.results)
  simp only [DynValues.held] at va vr
  by_cases h1 : AllMet N e.params ((l.mem.args t p).map .num)
  · have h2 : ¬ AllMet N e.results ((l.mem.ress t p).map .num) := fun h => hm ⟨h1, h⟩
    simp only [va.1 h1, vr.2 h2]
    exact ⟨_, rfl, rfl⟩
  · simp only [va.2 h1]
    exact ⟨_, rfl, rfl⟩

/-! ## Examples -/

/-- The interface of an analysis with `apply` advice only. -/
def exSigIface : Interface := ⟨some interfaceGenericApply, fun _ => none⟩

/-- The example program instrumented for it. -/
def exSigned : Instrumented := ((instrument exTypedChecker id id exSigIface none exModule).toOption).getD ⟨exModule, none⟩

theorem exSigned_instruments : Instruments exTypedChecker exSigIface none exModule exSigned := by
  have h : (match instrument exTypedChecker id id exSigIface none exModule with | .ok _ => true | .error _ => false) = true := by decide +kernel
  refine ⟨id, id, fun _ => .rfl, fun _ => .rfl, ?_⟩
  unfold exSigned
  split at h
  · rename_i r hr; rw [hr]; rfl
  · simp at h

theorem exSigned_watchable : CallWatchable exTypedChecker exSigIface none exModule exSigned interfaceGenericApply.1 interfaceGenericApply.2 where
  small := exModule_small
  documented := fun t e h => by cases h
  standardApply := exIfaceApply_standard
  instruments := exSigned_instruments
  generic := rfl
  valid := exModule_valid
  annotated := exModule_annotated
  reserved := by decide +kernel

/-- The library generated for it. -/
def exSigLink : LibLink := ⟨libNum, (exSigned.librarySignatures).getD [], 65537, 5⟩

theorem exSigLink_sigs : exSigLink.sigs = [⟨[.i32], []⟩, ⟨[.i32, .i32], [.i32]⟩, ⟨[.i32], [.i32]⟩] := by decide +kernel

/-- The embedder: the stack library, an analysis with the `apply` advice `advice`, and the embedder's `print`. -/
def exSigHost (advice : Host (World (List RVal) A)) : Imports (World (List RVal) A) := fun ns name =>
  if ns = stackModule then libHost exSigLink.N exSigLink.sigs exSigLink.L exSigLink.d name
  else if ns = analysisModule then advice
  else exImports.besideTool 1 0 ns name

/-- The table the tool has added, after instantiation. -/
def exSigTable : Table := ⟨.funcRef, [some 33, some 35, some 37], 3⟩

theorem exSigned_intact {A : Type} (s : Store (List RVal)) (hs : s.tables.length = 1) (w : World (List RVal) A) :
    SegmentsIntact exModule exSigned (s.extend [exSigTable] [] w) := by
  have h : exSigned.module.elements = [⟨.funcRef, [[.refFunc 33, .fin], [.refFunc 35, .fin], [.refFunc 37, .fin]], .active 1 [.const (.i32 0), .fin]⟩] := by
    decide +kernel
  rw [SegmentsIntact, h]
  intro el hel tbl hm k f hk
  simp only [exModule, List.length_nil, List.drop_zero, List.mem_singleton] at hel
  subst hel
  cases hm
  refine ⟨exSigTable, ?_, ?_⟩
  · simp only [Store.extend]
    rw [List.getElem?_append_right (by omega)]
    simp [hs]
  · dsimp only [exSigTable] at hk ⊢
    match k with
    | 0 | 1 | 2 => simpa using hk
    | k + 3 => simp at hk

theorem exSig_frame : (∀ t ∈ exSigLink.sigs, 12 * t.slots ≤ 36) ∧ SmallSigs exSigLink.sigs := by
  rw [exSigLink_sigs]
  refine ⟨fun t ht => ?_, fun t ht => ?_⟩ <;>
  · simp only [List.mem_cons, List.not_mem_nil, or_false] at ht
    obtain rfl | rfl | rfl := ht <;> decide

theorem exSig_imports (advice : Host (World (List RVal) A)) : ImportsTold exModule [exSigTable] [] (exImports.beside Story) (exSigHost advice) := by
  refine .plain _ _ fun f hf ns name hc => ?_
  simp only [exModule, List.mem_cons, List.not_mem_nil, or_false] at hf
  rcases hf with rfl | rfl | rfl | rfl <;> cases hc
  exact ⟨⟨fun _ _ => rfl, fun call args s ha hs => .inl ⟨_, _, rfl, .nil, hs.world rfl rfl rfl rfl rfl⟩⟩, rfl⟩

theorem exSig_linked (base : Nat) (exps : List CallExpectation) : SigLinked exModule exSigned interfaceGenericApply.1 exSigLink base [exSigTable] [] 36 exps (exImports.beside Story)
    (exSigHost (telling exSigLink base sigBefore (sigAfter exSigLink exps))) :=
  ⟨by decide +kernel, exSig_frame.2, ⟨libNum_stack, by decide, by decide⟩, fun _ => rfl, rfl, exSig_imports _, exSig_frame.1⟩

open Wasp in
theorem exSigWasp_linked (base : Nat) : WaspLinked sigProg none exModule exSigned exSigLink base [exSigTable] [] 36 .idle (sigWaspApply exSigLink exNum) (exImports.beside Story)
    (exSigHost (asApplyAdvice base (sigWaspApply exSigLink exNum))) :=
  ⟨by decide +kernel, exSig_frame.2, ⟨libNum_stack, by decide, by decide⟩, fun _ => rfl, (fun t ⟨x, hx, ha⟩ => by
    simp only [sigProg, List.mem_cons, List.not_mem_nil, or_false] at hx
    subst hx
    cases ha), rfl, exSig_imports _, exSig_frame.1⟩

/-- `main(0, 5)`: `print(7)` returns first, then the square of 7, then `main`. -/
theorem exFinished {st : Story} (h : toldCall exTypedChecker exModule (bodyTargets exModule none) (applyTargets exModule none) (exImports.beside Story) exNum 10 10 1 [.i32 0, .i32 5] (exStore.withAnalysis []) =
    .ok [.i32 49] (Store.withAnalysis { exStore with world := [.i32 7] } st)) :
    st.finished = [([.i32 7], []), ([.i32 7], [.i32 49]), ([.i32 0, .i32 5], [.i32 49])] := by
  have e : (match toldCall exTypedChecker exModule (bodyTargets exModule none) (applyTargets exModule none) (exImports.beside Story) exNum 10 10 1 [.i32 0, .i32 5] (exStore.withAnalysis []) with
    | .ok _ s => Story.finished s.world.2
    | _ => []) = [([.i32 7], []), ([.i32 7], [.i32 49]), ([.i32 0, .i32 5], [.i32 49])] := by cbv
  rw [h] at e
  exact e

/-- The expectations of the example; the last of them says nothing about the second argument and the result, which the Rust analysis does not mind. -/
def exExpectations : List CallExpectation := [⟨[.i32 7], []⟩, ⟨[.i32 7], [.i32 49]⟩, ⟨[.i32 0], []⟩]

-- C84: all hypotheses hold of the example. The instrumented program returns what the original returns, and the flag is 1.
example : ∃ (base : Nat) (c : SigCheck) (l1 : Lib), callF exNum (machineOf (exSigHost (telling exSigLink base sigBefore (sigAfter exSigLink exExpectations))) exSigned.module.functions) 10 52 1 [.i32 0, .i32 5]
      (exStore.extend [exSigTable] [] ([], ({} : SigCheck), exLib.store)) =
    .ok [.i32 49] (Store.extend { exStore with world := [RVal.i32 7] } [exSigTable] [] ([RVal.i32 7], c, l1.store)) ∧ c.areAllExpectationsMet = 1 := by
  obtain ⟨base, _, h⟩ := C84_signatures_check exSigned_watchable (fun _ => rfl)
  obtain ⟨st, e1, e2, _⟩ := (h _ _ _ _ _ _ _ _ _ _ _ (exSig_linked base exExpectations) exImports_beside.1 exImports_beside.2 (.beside _) (.beside _) 1 _ [.i32 0, .i32 5] exStore exLib rfl
    (ValsOK.nil.cons rfl (by simp [RVal.OK]) |>.cons rfl (by simp [RVal.OK])) exStore_ok exLib_ok (by decide) (exSigned_intact _ rfl _) 10 10 (by decide) (by decide)).1 _ _ exModule_runs
  have hf := exFinished e1
  rw [hf] at e2
  obtain ⟨c, l1, e3, e4⟩ := e2 (by
    refine ⟨by decide, fun k e xs ys he hc => ?_⟩
    match k with
    | 0 => cases he; cases hc; exact ⟨⟨[], rfl⟩, ⟨[], rfl⟩⟩
    | 1 => cases he; cases hc; exact ⟨⟨[], rfl⟩, ⟨[], rfl⟩⟩
    | 2 => cases he; cases hc; exact ⟨⟨[.i32 5], rfl⟩, ⟨[.i32 49], rfl⟩⟩
    | k + 3 => cases he)
  exact ⟨base, c, l1, e3, e4.2 ⟨rfl, by decide⟩⟩

-- C84: with an expectation that is not met (the square of 7 is not 50), it traps.
example : ∃ (base : Nat) (s' : Store (World (List RVal) SigCheck)),
    callF exNum (machineOf (exSigHost (telling exSigLink base sigBefore (sigAfter exSigLink [⟨[.i32 7], []⟩, ⟨[.i32 7], [.i32 50]⟩]))) exSigned.module.functions) 10 52 1 [.i32 0, .i32 5]
      (exStore.extend [exSigTable] [] ([], ({} : SigCheck), exLib.store)) = .trap s' := by
  obtain ⟨base, _, h⟩ := C84_signatures_check exSigned_watchable (fun _ => rfl)
  obtain ⟨st, e1, _, e2⟩ := (h _ _ _ _ _ _ _ _ _ _ _ (exSig_linked base [⟨[.i32 7], []⟩, ⟨[.i32 7], [.i32 50]⟩]) exImports_beside.1 exImports_beside.2 (.beside _) (.beside _) 1 _ [.i32 0, .i32 5] exStore exLib rfl
    (ValsOK.nil.cons rfl (by simp [RVal.OK]) |>.cons rfl (by simp [RVal.OK])) exStore_ok exLib_ok (by decide) (exSigned_intact _ rfl _) 10 10 (by decide) (by decide)).1 _ _ exModule_runs
  have hf := exFinished e1
  rw [hf] at e2
  exact ⟨base, e2 fun h => absurd h.1 (by decide)⟩

/-- The same expectations, for the Wasp analysis, which does mind. -/
def exWaspExpectations : List WaspExpectation := [⟨[⟨.i32, 7⟩], []⟩, ⟨[⟨.i32, 7⟩], [⟨.i32, 49⟩]⟩, ⟨[⟨.i32, 0⟩, ⟨.i32, 5⟩], [⟨.i32, 49⟩]⟩]

-- C84: the same program under `signatures_check.wasp`.
example : ∃ (base : Nat) (c : SigWasp) (l1 : Lib), callF exNum (machineOf (exSigHost (asApplyAdvice base (sigWaspApply exSigLink exNum))) exSigned.module.functions) 10 52 1 [.i32 0, .i32 5]
      (exStore.extend [exSigTable] [] ([], ({ expectations := exWaspExpectations } : SigWasp), exLib.store)) =
    .ok [.i32 49] (Store.extend { exStore with world := [RVal.i32 7] } [exSigTable] [] ([RVal.i32 7], c, l1.store)) ∧ c.all_expectations_met = 1 := by
  obtain ⟨base, _, h⟩ := C84_signatures_check_wasp (iface := exSigIface) rfl exModule_small exSigned_instruments exModule_valid exModule_annotated exSigned_watchable.reserved
  obtain ⟨st, e1, e2, _⟩ := (h _ _ _ _ _ _ exWaspExpectations _ _ _ _ (exSigWasp_linked base) exImports_beside.1 exImports_beside.2 (.beside _) (.beside _) 1 _ [.i32 0, .i32 5] exStore exLib rfl
    (ValsOK.nil.cons rfl (by simp [RVal.OK]) |>.cons rfl (by simp [RVal.OK])) exStore_ok exLib_ok (by decide) (exSigned_intact _ rfl _) 10 10 (by decide) (by decide)).1 _ _ exModule_runs
  have hf := exFinished e1
  rw [hf] at e2
  have one : ∀ v x, x = RVal.i32 v → AllMet exNum [⟨.i32, v⟩] [x] := by
    rintro v _ rfl
    refine ⟨rfl, fun k e x he hx => ?_⟩
    match k with
    | 0 => cases he; cases hx; rfl
    | k + 1 => cases he
  have none : AllMet exNum [] [] := ⟨rfl, fun k e x he hx => by cases he⟩
  obtain ⟨c, l1, e3, e4⟩ := e2 (by
    refine ⟨by decide, fun k e xs ys he hc => ?_⟩
    match k with
    | 0 => cases he; cases hc; exact ⟨one _ _ rfl, none⟩
    | 1 => cases he; cases hc; exact ⟨one _ _ rfl, one _ _ rfl⟩
    | 2 =>
      cases he; cases hc
      refine ⟨⟨rfl, fun k e x he hx => ?_⟩, one _ _ rfl⟩
      match k with
      | 0 => cases he; cases hx; rfl
      | 1 => cases he; cases hx; rfl
      | k + 2 => cases he
    | k + 3 => cases he)
  exact ⟨base, c, l1, e3, e4.2 ⟨rfl, by decide⟩⟩

-- C84 (negation): a run in which the last call does not meet the last expectation leaves the flag of the Wasp analysis at 1.
example : (match callF exNum (machineOf (exSigHost (asApplyAdvice 38 (sigWaspApply exSigLink exNum))) exSigned.module.functions) 10 52 1 [.i32 0, .i32 5]
      (exStore.extend [exSigTable] [] ([], ({ expectations := [⟨[⟨.i32, 8⟩], []⟩] } : SigWasp), exLib.store)) with
    | .trap s => s.world.2.1.all_expectations_met
    | _ => 0) = 1 := by decide +kernel

end Wastrum
