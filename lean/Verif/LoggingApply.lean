import Verif.LoggingThms
import Verif.Tell
/-!
# What the logging analysis prints about calls (C93)
-/

namespace Wastrum

variable {W : Type}

/-! ## The advice -/

/-- `Debug` derived for `WasmType`: `/repo/wastrumentation-instr-lib/tests/analyses/rust/wastrumentation-rs-stdlib/src/lib.rs` 123-129. (There is no variant for
references; the library panics before it would have one.) -/
def typeName : ValType → String
  | .i32 => "I32" | .f32 => "F32" | .i64 => "I64" | .f64 => "F64" | .ref _ => ""

/-- The elements of a vector of types, as `{:#?}` writes them inside a structure. -/
def typeLines : List ValType → String
  | [] => ""
  | v :: vs => "        " ++ typeName v ++ ",\n" ++ typeLines vs

/-- A vector of types, as `{:#?}` writes it inside a structure. -/
def typesText : List ValType → String
  | [] => "[]"
  | v :: vs => "[\n" ++ typeLines (v :: vs) ++ "    ]"

/-- `Debug for WasmFunction`, with `{:#?}`: `wastrumentation-rs-stdlib/src/lib.rs` 328-336. -/
def WasmFunction.text (f : WasmFunction) : String :=
  "WasmFunction {\n    uninstr_idx: " ++ intText f.instr_f_idx ++ ",\n    sig_pointer: " ++ intText f.sigv ++ ",\n}"

/-- `Debug` derived for `RuntimeValues`, with `{:#?}`: `wastrumentation-rs-stdlib/src/lib.rs` 338-344. -/
def RuntimeValues.text (v : RuntimeValues) : String :=
  "RuntimeValues {\n    argc: " ++ intText v.argc ++ ",\n    resc: " ++ intText v.resc ++ ",\n    sigv: " ++ intText v.sigv ++
    ",\n    signature_types: " ++ typesText v.types ++ ",\n}"

/-- `println!` -/
def printing (e : String) : Act (World W String) Unit := fun s => .ok () (s.setAnalysis (printLine s.world.2.1 (some e)))

/-- The `apply` advice of the logging analysis: `/repo/wastrumentation-instr-lib/tests/analyses/rust/logging/src/lib.rs` 7-12. -/
def loggingApply (K : LibLink) (base : Nat) : Host (World W String) :=
  telling K base (fun func args _ => printing ("[ANALYSIS:] apply (pre) " ++ func.text ++ "(" ++ args.text ++ ")"))
    (fun func args ress => printing ("[ANALYSIS:] apply (post) " ++ func.text ++ "(" ++ args.text ++ ") = " ++ ress.text))

/-! ## What it prints -/

/-- **Specification.** The description of a call's values in the log: the numbers of arguments and results, the address of the frame and the types (results first). -/
def frameShown (t : FuncType) (p : Nat) : String :=
  "RuntimeValues {\n    argc: " ++ intText (BitVec.ofNat 32 t.inputs.length) ++ ",\n    resc: " ++ intText (BitVec.ofNat 32 t.results.length) ++ ",\n    sigv: " ++
    intText (BitVec.ofNat 32 p) ++ ",\n    signature_types: " ++ typesText (t.results ++ t.inputs) ++ ",\n}"

/-- **Specification.** The description of the function called. -/
def functionShown (i p : Nat) : String :=
  "WasmFunction {\n    uninstr_idx: " ++ intText (BitVec.ofNat 32 i) ++ ",\n    sig_pointer: " ++ intText (BitVec.ofNat 32 p) ++ ",\n}"

/-- **Specification.** The entry before a call of function `i` of type `t` whose frame is at `p`. -/
def entryBefore (i : Nat) (t : FuncType) (p : Nat) : String := "[ANALYSIS:] apply (pre) " ++ functionShown i p ++ "(" ++ frameShown t p ++ ")\n"

/-- **Specification.** The entry after it. -/
def entryAfterwards (i : Nat) (t : FuncType) (p : Nat) : String :=
  "[ANALYSIS:] apply (post) " ++ functionShown i p ++ "(" ++ frameShown t p ++ ") = " ++ frameShown t p ++ "\n"

/-- What has been printed. -/
def Store.printed (s : Store (World W String)) : String := s.world.2.1

/-- The state after printing. -/
def Store.printing (s : Store (World W String)) (e : String) : Store (World W String) := s.setAnalysis (s.printed ++ e)

/-- **C93.** The `apply` advice of the logging analysis, asked about a call of function `i` of type `t` whose frame is at `p`, prints the entry before, performs the call (at the index handed to it,
with the same frame), and, if it returns, prints the entry after. If the call traps, so does the advice, and the second entry is missing. The entries depend only on the function, its type and the
place of the frame. -/
theorem C93_apply_entries {K : LibLink} (hK : K.Good) (base : Nat) (call : Nat → List RVal → Store (World W String) → Res (World W String)) {t : FuncType} (j i p : Nat) (present : BitVec 32)
    {l l1 : Lib} {xs : List Val} {s : Store (World W String)} (hr : t.RefFree) (hn : t.slots < 8192) (hP : Prepared l t xs p (p + 8 * t.slots) l1) (hs : s.getLib = l1.store) :
    loggingApply K base call (applyQuestion j i t p (p + 8 * t.slots) present) s =
      match call base [.i32 (BitVec.ofNat 32 j), .i32 (BitVec.ofNat 32 p)] (s.printing (entryBefore i t p)) with
      | .ok [] s1 => .ok [] (s1.printing (entryAfterwards i t p))
      | .ok (_ :: _) _ => .stuck
      | .trap s1 => .trap s1
      | .stuck => .stuck
      | .fuel => .fuel := by
  rw [loggingApply, telling_surrounds hK base _ _ call t j i p present l l1 xs s hr hn hP hs]
  have e1 : ∀ (x y z w : String) (s : Store (World W String)), printLine s.world.2.1 (some (x ++ y ++ "(" ++ z ++ w)) = s.printed ++ (x ++ y ++ "(" ++ z ++ (w ++ "\n")) := by
    intro x y z w s; simp only [printLine, Store.printed, String.append_assoc]
  have e2 : (printing ("[ANALYSIS:] apply (pre) " ++ WasmFunction.text ⟨BitVec.ofNat 32 j, BitVec.ofNat 32 i, BitVec.ofNat 32 p, present⟩ ++ "(" ++ (handle t p).text ++ ")") : Act (World W String) Unit) s =
      .ok () (s.printing (entryBefore i t p)) := by
    unfold printing
    rw [e1]; rfl
  have e3 : ∀ s : Store (World W String), (printing ("[ANALYSIS:] apply (post) " ++ WasmFunction.text ⟨BitVec.ofNat 32 j, BitVec.ofNat 32 i, BitVec.ofNat 32 p, present⟩ ++ "(" ++ (handle t p).text ++ ") = " ++ (handle t p).text) : Act (World W String) Unit) s =
      .ok () (s.printing (entryAfterwards i t p)) := by
    intro s
    unfold printing
    have : ∀ a b c d : String, printLine s.world.2.1 (some (a ++ b ++ "(" ++ c ++ ") = " ++ d)) = s.printed ++ (a ++ b ++ "(" ++ c ++ ") = " ++ d ++ "\n") := by
      intro a b c d; simp only [printLine, Store.printed, String.append_assoc]
    rw [this]; rfl
  simp only [bind, Act.bind, e2, WasmFunction.apply, e3]
  cases call base [.i32 (BitVec.ofNat 32 j), .i32 (BitVec.ofNat 32 p)] (s.printing (entryBefore i t p)) with
  | ok vs s1 => cases vs with
    | nil => simp only [Res.toEff, pure, Eff.done]
    | cons => rfl
  | trap => rfl
  | stuck => rfl
  | fuel => rfl

/-- **C93, values are not shown.** Two calls of the same function with different arguments, the frames at the same place and the same printed before: the advice performs the two calls with the
same printed, and in the end, if the calls print the same, the same has been printed. So the arguments and results cannot be found out from the entries about calls. -/
theorem C93_values_not_shown {K : LibLink} (hK : K.Good) (base : Nat) {t : FuncType} (j i p : Nat) (present : BitVec 32) (hr : t.RefFree) (hn : t.slots < 8192)
    {l l1 l' l1' : Lib} {xs xs' : List Val} {s s' : Store (World W String)} (hP : Prepared l t xs p (p + 8 * t.slots) l1) (hs : s.getLib = l1.store)
    (hP' : Prepared l' t xs' p (p + 8 * t.slots) l1') (hs' : s'.getLib = l1'.store) (he : s.printed = s'.printed) :
    ∃ u u' : Store (World W String), u.printed = u'.printed ∧
      ∀ call call' : Nat → List RVal → Store (World W String) → Res (World W String), ∀ s1 s1',
        call base [.i32 (BitVec.ofNat 32 j), .i32 (BitVec.ofNat 32 p)] u = .ok [] s1 → call' base [.i32 (BitVec.ofNat 32 j), .i32 (BitVec.ofNat 32 p)] u' = .ok [] s1' → s1.printed = s1'.printed →
        ∃ s2 s2', loggingApply K base call (applyQuestion j i t p (p + 8 * t.slots) present) s = .ok [] s2 ∧
          loggingApply K base call' (applyQuestion j i t p (p + 8 * t.slots) present) s' = .ok [] s2' ∧ s2.printed = s2'.printed := by
  refine ⟨s.printing (entryBefore i t p), s'.printing (entryBefore i t p), ?_, ?_⟩
  · show s.printed ++ _ = s'.printed ++ _
    rw [he]
  · intro call call' s1 s1' h h' h1
    refine ⟨s1.printing (entryAfterwards i t p), s1'.printing (entryAfterwards i t p), ?_, ?_, ?_⟩
    · rw [C93_apply_entries hK base call j i p present hr hn hP hs, h]
    · rw [C93_apply_entries hK base call' j i p present hr hn hP' hs', h']
    · show s1.printed ++ _ = s1'.printed ++ _
      rw [h1]

/-! ## What can be read off -/

theorem typeName_inj {v w : ValType} (hv : ∀ r, v ≠ .ref r) (hw : ∀ r, w ≠ .ref r) (h : (typeName v).toList = (typeName w).toList) : v = w := by
  cases v <;> cases w <;> first | rfl | (exact absurd rfl (hv _)) | (exact absurd rfl (hw _)) | exact absurd h (by decide)

theorem typeName_plain (v : ValType) : ',' ∉ (typeName v).toList := by cases v <;> first | decide | exact List.not_mem_nil

/-- Lines of types end where no more spaces of this depth follow. -/
theorem typeLines_cut : ∀ {vs ws : List ValType} {X Y : List Char}, (∀ v ∈ vs, ∀ r, v ≠ .ref r) → (∀ w ∈ ws, ∀ r, w ≠ .ref r) →
    (typeLines vs).toList ++ ("    ]".toList ++ X) = (typeLines ws).toList ++ ("    ]".toList ++ Y) → vs = ws ∧ X = Y
  | [], [], X, Y, _, _, h => ⟨rfl, by simpa [typeLines] using h⟩
  | [], w :: ws, X, Y, _, _, h => by simp [typeLines] at h
  | v :: vs, [], X, Y, _, _, h => by simp [typeLines] at h
  | v :: vs, w :: ws, X, Y, hv, hw, h => by
    simp only [typeLines] at h
    simp only [String.toList_append, List.append_assoc] at h
    have h := lit_cut h
    have e : ",\n".toList = [',', '\n'] := by decide
    rw [e] at h
    obtain ⟨h1, h2⟩ := text_cut (typeName_plain v) (typeName_plain w) h
    have h2 : '\n' :: ((typeLines vs).toList ++ ("    ]".toList ++ X)) = '\n' :: ((typeLines ws).toList ++ ("    ]".toList ++ Y)) := h2
    obtain ⟨rfl, h4⟩ := typeLines_cut (fun x hx => hv x (List.mem_cons_of_mem _ hx)) (fun x hx => hw x (List.mem_cons_of_mem _ hx)) (List.cons.inj h2).2
    rw [typeName_inj (hv v List.mem_cons_self) (hw w List.mem_cons_self) h1]
    exact ⟨rfl, h4⟩

theorem typesText_cut {vs ws : List ValType} {X Y : List Char} (hv : ∀ v ∈ vs, ∀ r, v ≠ .ref r) (hw : ∀ w ∈ ws, ∀ r, w ≠ .ref r)
    (h : (typesText vs).toList ++ X = (typesText ws).toList ++ Y) : vs = ws ∧ X = Y := by
  cases vs with
  | nil => cases ws with
    | nil => exact ⟨rfl, List.append_cancel_left h⟩
    | cons w ws => simp [typesText] at h
  | cons v vs => cases ws with
    | nil => simp [typesText] at h
    | cons w ws =>
      simp only [typesText] at h
      simp only [String.toList_append, List.append_assoc] at h
      exact typeLines_cut hv hw (lit_cut h)

theorem intText_cut {v w : BitVec 32} {z : String} {rest X Y : List Char} (hz : z.toList = ',' :: rest) (h : (intText v).toList ++ (z.toList ++ X) = (intText w).toList ++ (z.toList ++ Y)) : v = w ∧ X = Y := by
  rw [hz] at h
  obtain ⟨h1, h2⟩ := text_cut (intText_no (by decide) (by decide) v) (intText_no (by decide) (by decide) w) h
  exact ⟨intText_inj h1, List.append_cancel_left h2⟩

theorem small_inj {a b : Nat} (ha : a < 2 ^ 32) (hb : b < 2 ^ 32) (h : BitVec.ofNat 32 a = BitVec.ofNat 32 b) : a = b := by
  have := congrArg BitVec.toNat h
  rwa [BitVec.toNat_ofNat, BitVec.toNat_ofNat, Nat.mod_eq_of_lt ha, Nat.mod_eq_of_lt hb] at this

theorem frameShown_cut {t t' : FuncType} {p p' : Nat} (hr : t.RefFree) (hr' : t'.RefFree) (hn : t.slots < 8192) (hn' : t'.slots < 8192) (hp : p < 2 ^ 32) (hp' : p' < 2 ^ 32) {X Y : List Char}
    (h : (frameShown t p).toList ++ X = (frameShown t' p').toList ++ Y) : t = t' ∧ p = p' ∧ X = Y := by
  unfold frameShown at h
  simp only [String.toList_append, List.append_assoc] at h
  obtain ⟨_, h⟩ := intText_cut (rest := _) rfl (lit_cut h)
  obtain ⟨h1, h⟩ := intText_cut (rest := _) rfl h
  obtain ⟨h2, h⟩ := intText_cut (rest := _) rfl h
  obtain ⟨h3, h⟩ := typesText_cut hr.both hr'.both h
  refine ⟨?_, small_inj hp hp' h2, lit_cut h⟩
  have hl : t.results.length = t'.results.length := by
    unfold FuncType.slots at hn hn'
    exact small_inj (by omega) (by omega) h1
  obtain ⟨e1, e2⟩ := List.append_inj h3 hl
  cases t; cases t'; simp_all

/-- **C93, what can be read off.** An entry about a call tells the function, its type and the place of the frame. -/
theorem C93_entries_tell {i i' p p' : Nat} {t t' : FuncType} (hi : i < 2 ^ 32) (hi' : i' < 2 ^ 32) (hr : t.RefFree) (hr' : t'.RefFree) (hn : t.slots < 8192) (hn' : t'.slots < 8192)
    (hp : p < 2 ^ 32) (hp' : p' < 2 ^ 32) (h : entryBefore i t p = entryBefore i' t' p' ∨ entryAfterwards i t p = entryAfterwards i' t' p') : i = i' ∧ t = t' ∧ p = p' := by
  rcases h with h | h
  · have h := congrArg String.toList h
    unfold entryBefore functionShown at h
    simp only [String.toList_append, List.append_assoc] at h
    obtain ⟨h1, h⟩ := intText_cut (rest := _) rfl (lit_cut (lit_cut h))
    obtain ⟨_, h⟩ := intText_cut (rest := _) rfl h
    obtain ⟨h2, h3, _⟩ := frameShown_cut hr hr' hn hn' hp hp' (lit_cut h)
    exact ⟨small_inj hi hi' h1, h2, h3⟩
  · have h := congrArg String.toList h
    unfold entryAfterwards functionShown at h
    simp only [String.toList_append, List.append_assoc] at h
    obtain ⟨h1, h⟩ := intText_cut (rest := _) rfl (lit_cut (lit_cut h))
    obtain ⟨_, h⟩ := intText_cut (rest := _) rfl h
    obtain ⟨h2, h3, _⟩ := frameShown_cut hr hr' hn hn' hp hp' (lit_cut h)
    exact ⟨small_inj hi hi' h1, h2, h3⟩

-- The entries in the output that the test of the logging analysis expects (`/repo/wastrumentation-instr-lib/tests/integration_tests.rs` 481-493, 576-601).
example : entryBefore 0 ⟨[.i32], [.i32]⟩ 1179632 = "[ANALYSIS:] apply (pre) WasmFunction {
    uninstr_idx: 0,
    sig_pointer: 1179632,
}(RuntimeValues {
    argc: 1,
    resc: 1,
    sigv: 1179632,
    signature_types: [
        I32,
        I32,
    ],
})
" ∧ entryAfterwards 0 ⟨[.i32], [.i32]⟩ 1179632 = "[ANALYSIS:] apply (post) WasmFunction {
    uninstr_idx: 0,
    sig_pointer: 1179632,
}(RuntimeValues {
    argc: 1,
    resc: 1,
    sigv: 1179632,
    signature_types: [
        I32,
        I32,
    ],
}) = RuntimeValues {
    argc: 1,
    resc: 1,
    sigv: 1179632,
    signature_types: [
        I32,
        I32,
    ],
}
" := by decide +kernel

theorem exPrepared (n : BitVec 64) (hn : n = 7 ∨ n = 8) :
    Prepared exLib ⟨[.i64, .f32], []⟩ [.i64 n, .f32 0x3f800000] 0 16 ⟨24, (((exLib.mem.put 0 8 n.toNat).put 8 8 0x3f800000).put 16 4 2).put 20 4 1⟩ := by
  rcases hn with rfl | rfl <;>
  · refine ⟨⟨⟨by decide, by decide, by decide, by decide⟩, rfl, rfl, Nat.le_refl _, fun h => h, fun i hi => absurd hi (Nat.not_lt_zero _)⟩, rfl, rfl, by decide +kernel, ?_⟩
    intro k v hv
    match k with
    | 0 | 1 => cases hv; decide +kernel
    | k + 2 => simp at hv

/-- A state of the example's library, in which nothing has been printed. -/
def exQuiet (l : Lib) : Store (World Unit String) := ⟨[], [], [], [], [], ((), "", l.store)⟩

-- C93: all hypotheses hold of calls with the arguments `(7, 1.0)` and `(8, 1.0)`; the advice, with a call that only returns, prints the two entries.
example : ∀ n : BitVec 64, n = 7 ∨ n = 8 →
    loggingApply exLink 0 (fun _ _ s => .ok [] s) (applyQuestion 3 2 ⟨[.i64, .f32], []⟩ 0 16 0) (exQuiet ⟨24, (((exLib.mem.put 0 8 n.toNat).put 8 8 0x3f800000).put 16 4 2).put 20 4 1⟩) =
      .ok [] (((exQuiet ⟨24, (((exLib.mem.put 0 8 n.toNat).put 8 8 0x3f800000).put 16 4 2).put 20 4 1⟩).printing (entryBefore 2 ⟨[.i64, .f32], []⟩ 0)).printing
        (entryAfterwards 2 ⟨[.i64, .f32], []⟩ 0)) := by
  intro n hn
  exact C93_apply_entries exLink_good 0 (fun _ _ s => .ok [] s) 3 2 0 0 (by simp [FuncType.RefFree]) (by decide) (exPrepared n hn) rfl

end Wastrum
