import Verif.NestingLemmas
/-!
# Nesting: the properties (C01-C04)
-/

namespace Wastrum

/-! ## C01: lowering then nesting is lossless -/

/-- Untyped bodies: writing a nested body as flat Wasm and nesting it again gives the same body. -/
theorem C01_raise_lower (b : List HI) : raise (lower b) = .ok b := by
  have h := run_lower.2 b ⟨[], [], []⟩ []
  simp [PState.run] at h
  unfold lower
  rw [raise_snoc, h]

/-- Typed bodies: whatever the annotations `tis` put on the flat form, nesting it again gives the same
body up to annotations. -/
theorem C01_raiseTyped_lowerTyped (b : List TI) (tis : List TII) (h : tis.map TII.instr = lowerTyped b) :
    ∃ b', raiseTyped tis = .ok b' ∧ TI.eraseL b' = TI.eraseL b := by
  have h1 := raiseTyped_erase tis
  have h2 : raise (tis.map TII.instr) = .ok (TI.eraseL b) := by
    rw [h, lowerTyped, TI.lower_erase.2]; exact C01_raise_lower _
  rw [h2] at h1
  cases hr : raiseTyped tis with
  | error e => rw [hr] at h1; simp [Except.map] at h1
  | ok b' => rw [hr] at h1; simp [Except.map] at h1; exact ⟨b', rfl, h1⟩

/-- Different nested bodies have different flat forms. -/
theorem C01_lower_injective (a b : List HI) (h : lower a = lower b) : a = b := by
  have ha := C01_raise_lower a
  rw [h, C01_raise_lower b] at ha
  simpa using ha.symm

/-- A body with every construct, meeting the (empty) hypotheses of C01 non-trivially. -/
def sampleBody : List HI :=
  [.block ⟨[], [.i32]⟩ [.basic (.const (.i32 1)),
    .ifElse ⟨[], [.i32]⟩ [.loop ⟨[], [.i32]⟩ [.basic (.const (.i32 2)), .basic (.br 1)]] [.basic .unreachable]],
   .ifThen ⟨[], []⟩ [.basic .nop], .basic .ret]

example : raise (lower sampleBody) = .ok sampleBody := rfl

/-! ## C02: nesting then lowering is lossless -/

/-- Untyped bodies: an accepted flat body is reproduced exactly. -/
theorem C02_lower_raise (l : List LInstr) (b : List HI) (h : raise l = .ok b) : lower b = l := by
  rcases List.eq_nil_or_concat l with rfl | ⟨p, x, rfl⟩
  · simp [raise] at h
  · simp only [List.concat_eq_append] at h ⊢
    by_cases hx : x = .fin
    · subst hx
      rw [raise_snoc] at h
      cases hr : (PState.mk [] [] []).run p with
      | error e => rw [hr] at h; simp at h
      | ok s =>
        rw [hr] at h
        have hf := PState.run_flat (s := ⟨[], [], []⟩) rfl hr
        obtain ⟨en, bo, cur⟩ := s
        cases en <;> cases bo <;> simp at h
        subst h
        have := hf.1
        simp [PState.flat, flatStack, HI.lowerL] at this
        simp [lower, this]
    · cases x <;> simp [raise] at h hx

/-- Typed bodies (the ones the instrumentation works on): an accepted flat body is reproduced exactly,
whatever the type checker said. -/
theorem C02_lowerTyped_raiseFunction {σ : Type} (check : σ → LInstr → Option (σ × InferredTy)) (init : σ)
    (fidx : Nat) (l : List LInstr) (b : List TI) (h : raiseFunction check init fidx l = .ok b) :
    lowerTyped b = l := by
  unfold raiseFunction at h
  split at h
  · simp at h
  · rename_i tis ht
    have h1 := raiseTyped_erase tis
    rw [h, (typeInferenceFrom_spec check fidx l init 0 tis ht).1] at h1
    simp [Except.map] at h1
    rw [lowerTyped, TI.lower_erase.2]
    exact C02_lower_raise l _ h1.symm

/-- A concrete accepted body (the checker annotates everything `unreachable`). -/
example : ∃ b, raiseFunction (fun (_ : Unit) _ => some ((), .unreachable)) () 3
    [.block ⟨[], []⟩, .ite ⟨[], []⟩, .nop, .els, .drop, .fin, .fin, .fin] = .ok b ∧ b.length = 1 :=
  ⟨_, rfl, rfl⟩

/-! ## C03: exactly the well-bracketed bodies are accepted -/

theorem raise_cases (p : List LInstr) :
    (∃ b, raise (p ++ [.fin]) = .ok b ∧ Balanced p) ∨
    (raise (p ++ [.fin]) = .error .panic ∧ ∃ k ks, Incomplete (k :: ks) p) ∨
    (∃ e q i r, raise (p ++ [.fin]) = .error (.err e) ∧ p = q ++ i :: r ∧ ∃ ks, Incomplete ks q ∧
      ((i = .els ∧ e = .ifDidNotPrecedeElse ∧ ks.head? ≠ some .ifThen) ∨
       (i = .fin ∧ e = .excessiveEnd ∧ ks = []))) := by
  rw [raise_snoc]
  cases hr : (PState.mk [] [] []).run p with
  | error e =>
    right; right
    obtain ⟨q, i, r, s, hl, h1, h2⟩ := PState.run_error.mp hr
    have hq := PState.run_incomplete h1
    refine ⟨e, q, i, r, rfl, hl, _, hq.1, ?_⟩
    rcases (PState.step_error hq.2).mp h2 with h | ⟨a, b, c⟩
    · exact .inl h
    · exact .inr ⟨a, b, by simp [c]⟩
  | ok s =>
    have hq := PState.run_incomplete hr
    obtain ⟨en, bo, cur⟩ := s
    cases en with
    | nil =>
      cases bo with
      | cons => simp at hq
      | nil => left; exact ⟨_, rfl, incomplete_nil_iff.mp hq.1⟩
    | cons e es => right; left; exact ⟨by cases bo <;> rfl, _, _, hq.1⟩

/-- Accepted iff well bracketed and closed by a final `end`. -/
theorem C03_accepted_iff (l : List LInstr) :
    (∃ b, raise l = .ok b) ↔ ∃ p, l = p ++ [.fin] ∧ Balanced p := by
  constructor
  · rintro ⟨b, h⟩
    have := C02_lower_raise l b h
    exact ⟨HI.lowerL b, this.symm, balanced_lowerL b⟩
  · rintro ⟨p, rfl, hp⟩
    obtain ⟨b, rfl⟩ := hp.exists_lower
    exact ⟨b, C01_raise_lower b⟩

/-- "No final `end`" is reported exactly when there is none. -/
theorem C03_nonEnd_iff (l : List LInstr) :
    raise l = .error (.err .bodyNonEndTermination) ↔ ¬ ∃ p, l = p ++ [.fin] := by
  constructor
  · rintro h ⟨p, rfl⟩
    rcases raise_cases p with ⟨b, hb, _⟩ | ⟨hb, _⟩ | ⟨e, q, i, r, hb, _, _, _, hc⟩
    · rw [hb] at h; simp at h
    · rw [hb] at h; simp at h
    · rw [hb] at h; simp at h; subst h
      rcases hc with ⟨_, h, _⟩ | ⟨_, h, _⟩ <;> simp at h
  · intro h
    rcases List.eq_nil_or_concat l with rfl | ⟨p, x, rfl⟩
    · rfl
    · simp only [List.concat_eq_append] at h ⊢
      by_cases hx : x = .fin
      · subst hx; exact absurd ⟨p, rfl⟩ h
      · cases x <;> simp [raise] at hx ⊢

/-- A stray `else` is reported exactly when the first violation is an `else` whose innermost open
construct is not an else-less `if`. -/
theorem C03_strayElse_iff (p : List LInstr) :
    raise (p ++ [.fin]) = .error (.err .ifDidNotPrecedeElse) ↔
      ∃ q r ks, p = q ++ .els :: r ∧ Incomplete ks q ∧ ks.head? ≠ some .ifThen := by
  constructor
  · intro h
    rcases raise_cases p with ⟨b, hb, _⟩ | ⟨hb, _⟩ | ⟨e, q, i, r, hb, hp, ks, hk, hc⟩
    · rw [hb] at h; simp at h
    · rw [hb] at h; simp at h
    · rw [hb] at h; simp at h; subst h
      rcases hc with ⟨rfl, _, hh⟩ | ⟨_, h, _⟩
      · exact ⟨q, r, ks, hp, hk, hh⟩
      · simp at h
  · rintro ⟨q, r, ks, rfl, hk, hh⟩
    obtain ⟨s, hs, hks⟩ := hk.run
    have hl := (PState.run_incomplete hs).2
    rw [raise_snoc]
    have : (PState.mk [] [] []).run (q ++ .els :: r) = .error .ifDidNotPrecedeElse :=
      PState.run_error.mpr ⟨q, _, r, s, rfl, hs, (PState.step_error hl).mpr (.inl ⟨rfl, rfl, by rw [hks]; exact hh⟩)⟩
    rw [this]

/-- Too many `end`s are reported exactly when some proper well-bracketed prefix is followed by `end`
(before the final one). -/
theorem C03_excessiveEnd_iff (p : List LInstr) :
    raise (p ++ [.fin]) = .error (.err .excessiveEnd) ↔ ∃ q r, p = q ++ .fin :: r ∧ Balanced q := by
  constructor
  · intro h
    rcases raise_cases p with ⟨b, hb, _⟩ | ⟨hb, _⟩ | ⟨e, q, i, r, hb, hp, ks, hk, hc⟩
    · rw [hb] at h; simp at h
    · rw [hb] at h; simp at h
    · rw [hb] at h; simp at h; subst h
      rcases hc with ⟨_, h, _⟩ | ⟨rfl, _, rfl⟩
      · simp at h
      · exact ⟨q, r, hp, incomplete_nil_iff.mp hk⟩
  · rintro ⟨q, r, rfl, hq⟩
    obtain ⟨b, hb⟩ := hq.run ⟨[], [], []⟩
    rw [raise_snoc]
    have : (PState.mk [] [] []).run (q ++ .fin :: r) = .error .excessiveEnd :=
      PState.run_error.mpr ⟨q, _, r, _, rfl, hb, (PState.step_error rfl).mpr (.inr ⟨rfl, rfl, rfl⟩)⟩
    rw [this]

/-- The assertion failure happens exactly when constructs are left open. -/
theorem C03_panic_iff (p : List LInstr) :
    raise (p ++ [.fin]) = .error .panic ↔ ∃ k ks, Incomplete (k :: ks) p := by
  constructor
  · intro h
    rcases raise_cases p with ⟨b, hb, _⟩ | ⟨_, h⟩ | ⟨e, q, i, r, hb, _⟩
    · rw [hb] at h; simp at h
    · exact h
    · rw [hb] at h; simp at h
  · rintro ⟨k, ks, hk⟩
    obtain ⟨s, hs, hks⟩ := hk.run
    rw [raise_snoc, hs]
    obtain ⟨en, bo, cur⟩ := s
    cases en with
    | nil => simp at hks
    | cons e es => cases bo <;> rfl

/-- There is no other way to fail: the remaining error values are dead code. -/
theorem C03_no_other_error (l : List LInstr) :
    raise l ≠ .error (.err .endWithoutParent) ∧ raise l ≠ .error (.err .trivialCastAttempt) ∧
    raise l ≠ .error (.err .typeInference) := by
  by_cases hl : ∃ p, l = p ++ [.fin]
  · obtain ⟨p, rfl⟩ := hl
    rcases raise_cases p with ⟨b, hb, _⟩ | ⟨hb, _⟩ | ⟨e, q, i, r, hb, _, _, _, hc⟩
    · simp [hb]
    · simp [hb]
    · rcases hc with ⟨_, rfl, _⟩ | ⟨_, rfl, _⟩ <;> simp [hb]
  · rw [(C03_nonEnd_iff l).mpr hl]; simp

/-- The typed nesting accepts and rejects exactly like the untyped one once type inference succeeded, and
produces the same body up to annotations. -/
theorem C03_typed_agrees {σ : Type} (check : σ → LInstr → Option (σ × InferredTy)) (init : σ) (fidx : Nat)
    (l : List LInstr) :
    (raiseFunction check init fidx l = .error (.err .typeInference)) ∨
    (raiseFunction check init fidx l).map TI.eraseL = raise l := by
  unfold raiseFunction
  split
  · left; rfl
  · rename_i tis ht
    right
    rw [raiseTyped_erase, (typeInferenceFrom_spec check fidx l init 0 tis ht).1]

example : Balanced [.block ⟨[], []⟩, .ite ⟨[], []⟩, .nop, .els, .drop, .fin, .fin] :=
  .block (a := [.ite ⟨[], []⟩, .nop, .els, .drop, .fin]) (b := [])
    (.ifElse (a := [.nop]) (b := [.drop]) (c := []) (.plain rfl .nil) (.plain rfl .nil) .nil) .nil
example : Incomplete [.ifThen, .block] [.nop, .block ⟨[], []⟩, .ite ⟨[], []⟩, .nop] :=
  .ifThen (p := [.nop, .block ⟨[], []⟩]) (l := [.nop])
    (.block (p := [.nop]) (l := []) (.balanced (.plain rfl .nil)) .nil) (.plain rfl .nil)
example : raise [.loop ⟨[], []⟩, .els, .fin, .fin] = .error (.err .ifDidNotPrecedeElse) := rfl
example : raise [.nop, .fin, .fin] = .error (.err .excessiveEnd) := rfl
example : raise [.block ⟨[], []⟩, .fin] = .error .panic := rfl

/-! ## C04: every instruction carries its own location -/

/-- The nested body lists, in pre-order, exactly the instructions of the flat body other than `else` and
`end`, each tagged with the function index and its own position in the flat body (opening position for
constructs), and marked as original. -/
theorem C04_locations {σ : Type} (check : σ → LInstr → Option (σ × InferredTy)) (init : σ)
    (fidx : Nat) (l : List LInstr) (b : List TI) (h : raiseFunction check init fidx l = .ok b) :
    TI.locsL b = headPositions fidx l := by
  have hl := C02_lowerTyped_raiseFunction check init fidx l b h
  unfold raiseFunction at h
  split at h
  · simp at h
  · rename_i tis ht
    obtain ⟨h1, h2, h3⟩ := typeInferenceFrom_spec check fidx l init 0 tis ht
    rcases List.eq_nil_or_concat tis with rfl | ⟨p, x, rfl⟩
    · simp [raiseTyped] at h
    · simp only [List.concat_eq_append] at h h1 h2 h3
      obtain ⟨f, k, ty, i⟩ := x
      by_cases hx : i = .fin
      · subst hx
        simp only [raiseTyped, List.getLast?_append, List.getLast?_singleton, Option.some_or, List.dropLast_concat] at h
        cases hr : (TPState.mk [] [] []).run p with
        | error e => rw [hr] at h; simp at h
        | ok s =>
          rw [hr] at h
          have hf := TPState.run_locs (s := ⟨[], [], []⟩) fidx (fun x hx => h2 x (by simp [hx])) rfl hr
          obtain ⟨en, bo, cur⟩ := s
          cases en <;> cases bo <;> simp at h
          subst h
          have e := hf.1
          simp only [TPState.locs, locsStack, TI.locsL, List.nil_append] at e
          rw [e, headLoc_eq fidx p (fun x hx => h2 x (by simp [hx])), headPositions, ← h3]
          simp [LInstr.isHead]
      · cases i <;> simp [raiseTyped] at h hx

/-- Hence every listed location points at its own instruction in the flat body. -/
theorem C04_location_points_to_itself {σ : Type} (check : σ → LInstr → Option (σ × InferredTy)) (init : σ)
    (fidx : Nat) (l : List LInstr) (b : List TI) (h : raiseFunction check init fidx l = .ok b)
    (f i : Nat) (fl : Bool) (h0 : LInstr) (hm : (f, i, fl, h0) ∈ TI.locsL b) :
    f = fidx ∧ fl = false ∧ l[i]? = some h0 := by
  rw [C04_locations check init fidx l b h] at hm
  simp only [headPositions, List.mem_map, List.mem_filter] at hm
  obtain ⟨⟨x, j⟩, ⟨hx, _⟩, he⟩ := hm
  simp at he
  obtain ⟨rfl, rfl, rfl, rfl⟩ := he
  refine ⟨rfl, rfl, ?_⟩
  have := List.mem_zipIdx_iff_getElem?.mp hx
  simpa using this

/-- ... and no two instructions of a function share a location. -/
theorem C04_locations_distinct {σ : Type} (check : σ → LInstr → Option (σ × InferredTy)) (init : σ)
    (fidx : Nat) (l : List LInstr) (b : List TI) (h : raiseFunction check init fidx l = .ok b) :
    ((TI.locsL b).map (fun x => x.2.1)).Nodup := by
  rw [C04_locations check init fidx l b h, headPositions, List.map_map]
  have hp : (l.zipIdx.map (fun p => p.2)).Nodup := by
    have : l.zipIdx.map (fun p : LInstr × Nat => p.2) = List.range' 0 l.length := by
      simpa using List.zipIdx_map_snd 0 l
    rw [this]; exact List.nodup_range'
  exact hp.sublist ((List.filter_sublist).map _)

example : (raiseFunction (fun (_ : Unit) _ => some ((), .unreachable)) () 7
    [.nop, .block ⟨[], []⟩, .ite ⟨[], []⟩, .nop, .els, .drop, .fin, .fin, .ret, .fin]).map TI.locsL =
    .ok [(7, 0, false, .nop), (7, 1, false, .block ⟨[], []⟩), (7, 2, false, .ite ⟨[], []⟩), (7, 3, false, .nop),
      (7, 5, false, .drop), (7, 8, false, .ret)] := rfl

end Wastrum
