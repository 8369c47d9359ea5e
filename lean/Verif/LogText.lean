import Verif.Logging
/-!
# The log can be read back (lemmas for C91)
-/

set_option linter.unusedSimpArgs false
set_option linter.unusedVariables false

namespace Wastrum

/-! ## What the entries are about -/

/-- What an entry of the log is about. -/
inductive Event where
  | came (a : Advice)
  | loaded (i : BitVec 32) (offset : BitVec 64) (op : LoadOp) (v : Val) (l : Location)

/-- What the analysis prints something about: everything it is told but the loads, which it prints when it has got the value. -/
def Remark.event : Remark → Option Event
  | .told (.load _ _ _ _) => none
  | .told a => some (.came a)
  | .got (.load i offset op l) [.num v] => some (.loaded i offset op v l)
  | .got _ _ => none

/-- Values printed alike: the same value, or floating point numbers that are written in the same way. -/
inductive Val.Alike (F : FloatText) : Val → Val → Prop where
  | same (v) : Alike F v v
  | f32 {x y} : F.f32 x = F.f32 y → Alike F (.f32 x) (.f32 y)
  | f64 {x y} : F.f64 x = F.f64 y → Alike F (.f64 x) (.f64 y)

/-- The same event, but for floating point numbers that are written in the same way. -/
inductive Event.Alike (F : FloatText) : Event → Event → Prop where
  | same (e) : Alike F e e
  | loaded {i offset op l v w} : v.Alike F w → Alike F (.loaded i offset op v l) (.loaded i offset op w l)
  | const {v w l} : v.Alike F w → Alike F (.came (.const v l)) (.came (.const w l))
  | unary {op v w l} : v.Alike F w → Alike F (.came (.unary op v l)) (.came (.unary op w l))
  | binary {op v w v' w' l} : v.Alike F v' → w.Alike F w' → Alike F (.came (.binary op v w l)) (.came (.binary op v' w' l))
  | memorySize {v w i l} : v.Alike F w → Alike F (.came (.memorySize v i l)) (.came (.memorySize w i l))
  | memoryGrow {v w i l} : v.Alike F w → Alike F (.came (.memoryGrow v i l)) (.came (.memoryGrow w i l))
  | loc {v w i op l} : v.Alike F w → Alike F (.came (.loc v i op l)) (.came (.loc w i op l))
  | glob {v w i op l} : v.Alike F w → Alike F (.came (.glob v i op l)) (.came (.glob w i op l))
  | store {v w i offset op l} : v.Alike F w → Alike F (.came (.store i v offset op l)) (.came (.store i w offset op l))

/-- The entry of an event. -/
def Event.text (F : FloatText) : Event → Option String
  | .came a => a.entry F
  | .loaded i offset op v l => (Advice.load i offset op l).entryAfter F [.num v]

theorem logging_tell {F : FloatText} (out : String) (x : Remark) : (logging F).tell out x = printLine out (x.event.bind (·.text F)) := by
  rcases x with a | ⟨a, vs⟩
  · cases a <;> rfl
  · cases a <;> first | rfl | skip
    rcases vs with _ | ⟨v, _ | ⟨w, vs⟩⟩
    · rfl
    · cases v <;> rfl
    · cases v <;> rfl

/-! ## Cutting text -/

theorem text_cut {c : Char} {u v x y : List Char} (hu : c ∉ u) (hv : c ∉ v) (e : u ++ c :: x = v ++ c :: y) : u = v ∧ x = y := by
  induction u generalizing v with
  | nil =>
    cases v with
    | nil => simpa using e
    | cons b v =>
      simp only [List.nil_append, List.cons_append, List.cons.injEq] at e
      exact absurd (by rw [e.1]; exact List.mem_cons_self) hv
  | cons b u ih =>
    cases v with
    | nil =>
      simp only [List.nil_append, List.cons_append, List.cons.injEq] at e
      exact absurd (by rw [e.1]; exact List.mem_cons_self) hu
    | cons b' v =>
      simp only [List.cons_append, List.cons.injEq] at e
      obtain ⟨rfl, e⟩ := e
      obtain ⟨rfl, rfl⟩ := ih (fun h => hu (List.mem_cons_of_mem _ h)) (fun h => hv (List.mem_cons_of_mem _ h)) e
      exact ⟨rfl, rfl⟩

theorem repr_no {c : Char} (h : c.isDigit = false) (h' : c ≠ '-') (i : Int) : c ∉ i.repr.toList := by
  intro hc
  cases i with
  | ofNat n => exact absurd (repr_digits n c hc) (by simp [h])
  | negSucc n =>
    have e : (Int.negSucc n).repr = "-" ++ (n + 1).repr := rfl
    rw [e, String.toList_append, List.mem_append] at hc
    rcases hc with hc | hc
    · have : c = '-' := by simpa using hc
      exact h' this
    · exact absurd (repr_digits _ c hc) (by simp [h])

theorem repr_int_inj {i j : Int} (h : i.repr.toList = j.repr.toList) : i = j := by
  have neg : ∀ (m n : Nat), (Int.ofNat m).repr.toList ≠ (Int.negSucc n).repr.toList := by
    intro m n e
    have e1 : (Int.negSucc n).repr.toList = '-' :: (n + 1).repr.toList := by
      show ("-" ++ (n + 1).repr).toList = _
      rw [String.toList_append]; rfl
    have : '-' ∈ (m : Nat).repr.toList := by
      show '-' ∈ (Int.ofNat m).repr.toList
      rw [e, e1]; exact List.mem_cons_self
    exact absurd (repr_digits _ _ this) (by decide)
  cases i with
  | ofNat m =>
    cases j with
    | ofNat n => rw [repr_toList_inj (m := m) (n := n) h]
    | negSucc n => exact absurd h (neg m n)
  | negSucc m =>
    cases j with
    | ofNat n => exact absurd h.symm (neg n m)
    | negSucc n =>
      have : ("-" ++ (m + 1).repr).toList = ("-" ++ (n + 1).repr).toList := h
      simp only [String.toList_append, List.append_cancel_left_eq] at this
      have := repr_toList_inj this
      simp only [Nat.add_right_cancel_iff] at this
      rw [this]

theorem intText_no {c : Char} (h : c.isDigit = false) (h' : c ≠ '-') {n : Nat} (v : BitVec n) : c ∉ (intText v).toList := repr_no h h' _

theorem intText_inj {n : Nat} {v w : BitVec n} (h : (intText v).toList = (intText w).toList) : v = w := BitVec.eq_of_toInt_eq (repr_int_inj h)

theorem lit_cut {s : String} {X Y : List Char} (e : s.toList ++ X = s.toList ++ Y) : X = Y := List.append_cancel_left e

theorem pretty_cut {name s t : String} {X Y : List Char} (hs : ',' ∉ s.toList) (ht : ',' ∉ t.toList) (e : (pretty name s).toList ++ X = (pretty name t).toList ++ Y) :
    s = t ∧ X = Y := by
  simp -implicitDefEqProofs only [pretty, String.toList_append, List.append_assoc] at e
  have e := List.append_cancel_left (List.append_cancel_left e)
  obtain ⟨h, e⟩ := text_cut (c := ',') (x := '\n' :: ')' :: X) (y := '\n' :: ')' :: Y) hs ht e
  simp only [List.cons.injEq, true_and] at e
  exact ⟨String.ext h, e⟩

theorem prettyInt_cut {name : String} {n : Nat} {v w : BitVec n} {X Y : List Char} (e : (pretty name (intText v)).toList ++ X = (pretty name (intText w)).toList ++ Y) :
    v = w ∧ X = Y := by
  obtain ⟨h, e⟩ := pretty_cut (intText_no (by decide) (by decide) v) (intText_no (by decide) (by decide) w) e
  exact ⟨intText_inj (by rw [h]), e⟩

theorem compactInt_cut {name : String} {n : Nat} {v w : BitVec n} {X Y : List Char} (e : (compact name (intText v)).toList ++ X = (compact name (intText w)).toList ++ Y) :
    v = w ∧ X = Y := by
  simp only [compact, String.toList_append, List.append_assoc] at e
  have e := List.append_cancel_left (List.append_cancel_left e)
  obtain ⟨h, e⟩ := text_cut (c := ')') (x := X) (y := Y) (intText_no (by decide) (by decide) v) (intText_no (by decide) (by decide) w) e
  exact ⟨intText_inj h, e⟩

theorem at_cut {l k : Location} {X Y : List Char} (e : l.at.toList ++ X = k.at.toList ++ Y) : l = k ∧ X = Y := by
  have z : ", funct_index: ".toList = ',' :: " funct_index: ".toList := by decide +kernel
  have z' : " }".toList = [' ', '}'] := by decide +kernel
  unfold Location.at Location.text at e
  simp only [String.toList_append] at e
  simp only [List.append_assoc] at e
  simp only [List.append_cancel_left_eq] at e
  rw [z, z'] at e
  simp only [List.cons_append, List.nil_append] at e
  generalize " funct_index: ".toList = q at e
  obtain ⟨h1, e1⟩ := text_cut (intText_no (by decide) (by decide) _) (intText_no (by decide) (by decide) _) e
  obtain ⟨h2, e2⟩ := text_cut (intText_no (by decide) (by decide) _) (intText_no (by decide) (by decide) _) (List.append_cancel_left e1)
  simp only [List.cons.injEq, true_and] at e2
  have h1 := intText_inj h1
  have h2 := intText_inj h2
  cases l; cases k
  simp only at h1 h2
  exact ⟨by rw [h1, h2], e2⟩

theorem val_cut {F : FloatText} {v w : Val} {X Y : List Char} (e : (v.text F).toList ++ X = (w.text F).toList ++ Y) : v.Alike F w ∧ X = Y := by
  cases v <;> cases w <;> simp only [Val.text] at e
  · obtain ⟨h, e'⟩ := prettyInt_cut e; rw [h]; exact ⟨.same _, e'⟩
  · simp [pretty] at e
  · simp [pretty] at e
  · simp [pretty] at e
  · simp [pretty] at e
  · obtain ⟨h, e'⟩ := prettyInt_cut e; rw [h]; exact ⟨.same _, e'⟩
  · simp [pretty] at e
  · simp [pretty] at e
  · simp [pretty] at e
  · simp [pretty] at e
  · obtain ⟨h, e⟩ := pretty_cut (F.f32_plain _) (F.f32_plain _) e; exact ⟨.f32 h, e⟩
  · simp [pretty] at e
  · simp [pretty] at e
  · simp [pretty] at e
  · simp [pretty] at e
  · obtain ⟨h, e⟩ := pretty_cut (F.f64_plain _) (F.f64_plain _) e; exact ⟨.f64 h, e⟩

/-! ## The names of the operators -/

theorem UnaryOp.variant_back (op : UnaryOp) : UnaryOp.all.find? (fun o => o.variant == op.variant) = some op := by cases op <;> decide +kernel
theorem BinaryOp.variant_back (op : BinaryOp) : BinaryOp.all.find? (fun o => o.variant == op.variant) = some op := by cases op <;> decide +kernel

theorem UnaryOp.variant_inj {a b : UnaryOp} (h : a.variant = b.variant) : a = b := by
  have := a.variant_back
  rw [h, b.variant_back] at this
  exact (Option.some.inj this).symm

theorem BinaryOp.variant_inj {a b : BinaryOp} (h : a.variant = b.variant) : a = b := by
  have := a.variant_back
  rw [h, b.variant_back] at this
  exact (Option.some.inj this).symm

theorem LoadOp.variant_inj {a b : LoadOp} (h : a.variant = b.variant) : a = b := by cases a <;> cases b <;> first | rfl | exact absurd h (by decide)
theorem StoreOp.variant_inj {a b : StoreOp} (h : a.variant = b.variant) : a = b := by cases a <;> cases b <;> first | rfl | exact absurd h (by decide)
theorem LocalOp.variant_inj {a b : LocalOp} (h : a.variant = b.variant) : a = b := by cases a <;> cases b <;> first | rfl | exact absurd h (by decide)
theorem GlobOp.variant_inj {a b : GlobOp} (h : a.variant = b.variant) : a = b := by cases a <;> cases b <;> first | rfl | exact absurd h (by decide)

theorem UnaryOp.variant_plain (op : UnaryOp) : ' ' ∉ op.variant.toList := by cases op <;> decide +kernel
theorem BinaryOp.variant_plain (op : BinaryOp) : ' ' ∉ op.variant.toList := by cases op <;> decide +kernel
theorem LoadOp.variant_plain (op : LoadOp) : ' ' ∉ op.variant.toList := by cases op <;> decide +kernel
theorem StoreOp.variant_plain (op : StoreOp) : ' ' ∉ op.variant.toList := by cases op <;> decide +kernel
theorem LocalOp.variant_plain (op : LocalOp) : ',' ∉ op.variant.toList := by cases op <;> decide +kernel
theorem GlobOp.variant_plain (op : GlobOp) : ',' ∉ op.variant.toList := by cases op <;> decide +kernel

/-- A name up to the character that follows it. -/
theorem name_cut {s t : String} (z : String) {c : Char} {rest : List Char} (hz : z.toList = c :: rest) {X Y : List Char} (hs : c ∉ s.toList) (ht : c ∉ t.toList)
    (e : s.toList ++ (z.toList ++ X) = t.toList ++ (z.toList ++ Y)) : s = t ∧ X = Y := by
  rw [hz] at e
  obtain ⟨h, e⟩ := text_cut hs ht e
  exact ⟨String.ext h, List.append_cancel_left e⟩

/-! ## The entries -/

/-- The beginnings of the entries. -/
def logHeads : List String := [
  "[ANALYSIS:] if_ ",
  "if_post (",
  "[ANALYSIS:] if_then ",
  "if_then_post (",
  "[ANALYSIS:] br ",
  "[ANALYSIS:] br_if ",
  "[ANALYSIS:] br_table ",
  "[ANALYSIS:] select ",
  "[ANALYSIS:] call pre ",
  "[ANALYSIS:] call post ",
  "[ANALYSIS:] call_indirect pre ",
  "[ANALYSIS:] call_indirect post ",
  "[ANALYSIS:] unary generic ",
  "[ANALYSIS:] binary generic ",
  "[ANALYSIS:] Drop called! ",
  "[ANALYSIS:] Return called! ",
  "[ANALYSIS:] const_ generic ",
  "[ANALYSIS:] local generic ",
  "[ANALYSIS:] global generic ",
  "[ANALYSIS:] load generic ",
  "[ANALYSIS:] store generic ",
  "[ANALYSIS:] memory_size ",
  "[ANALYSIS:] memory_grow ",
  "[ANALYSIS:] block pre [block_input_count: ",
  "[ANALYSIS:] block post, ",
  "[ANALYSIS:] loop_ pre [loop_input_count: ",
  "[ANALYSIS:] loop_ post, "]

/-- Which of the beginnings. -/
def Event.kind : Event → Nat
  | .came (.ifThenElse _ _ _ _) => 0
  | .came (.ifThenElsePost _) => 1
  | .came (.ifThen _ _ _ _) => 2
  | .came (.ifThenPost _) => 3
  | .came (.br _ _) => 4
  | .came (.brIf _ _ _) => 5
  | .came (.brTable _ _ _ _) => 6
  | .came (.select _ _) => 7
  | .came (.callPre _ _) => 8
  | .came (.callPost _ _) => 9
  | .came (.callIndirectPre _ _ _) => 10
  | .came (.callIndirectPost _ _) => 11
  | .came (.unary _ _ _) => 12
  | .came (.binary _ _ _ _) => 13
  | .came (.drop _) => 14
  | .came (.ret _) => 15
  | .came (.const _ _) => 16
  | .came (.loc _ _ _ _) => 17
  | .came (.glob _ _ _ _) => 18
  | .came (.load _ _ _ _) => 19
  | .came (.store _ _ _ _ _) => 20
  | .came (.memorySize _ _ _) => 21
  | .came (.memoryGrow _ _ _) => 22
  | .came (.blockPre _ _ _) => 23
  | .came (.blockPost _) => 24
  | .came (.loopPre _ _ _) => 25
  | .came (.loopPost _) => 26
  | .loaded _ _ _ _ _ => 19

theorem logHeads_apart : ∀ i ∈ List.range 27, ∀ j ∈ List.range 27, i ≠ j → ((logHeads.getD i "").toList.isPrefixOf (logHeads.getD j "").toList) = false := by decide +kernel

theorem Event.kind_lt (e : Event) : e.kind < 27 := by
  cases e with
  | came a => cases a <;> simp [Event.kind]
  | loaded => simp [Event.kind]

theorem Event.text_head {F : FloatText} {e : Event} {s : String} (h : e.text F = some s) : ∃ rest, s.toList = (logHeads.getD e.kind "").toList ++ rest := by
  cases e with
  | came a =>
    cases a <;> simp only [Event.text, Advice.entry, reduceCtorEq, Option.some.injEq] at h <;> subst h <;>
      exact ⟨_, by simp only [String.toList_append, List.append_assoc]; rfl⟩
  | loaded =>
    simp only [Event.text, Advice.entryAfter, Option.some.injEq] at h
    subst h
    exact ⟨_, by simp only [String.toList_append, List.append_assoc]; rfl⟩

theorem Event.same_kind {F : FloatText} {a b : Event} {s t : String} (ha : a.text F = some s) (hb : b.text F = some t) {X Y : List Char} (e : s.toList ++ X = t.toList ++ Y) :
    a.kind = b.kind := by
  obtain ⟨x, hx⟩ := Event.text_head ha
  obtain ⟨y, hy⟩ := Event.text_head hb
  rw [hx, hy, List.append_assoc, List.append_assoc] at e
  by_cases hk : a.kind = b.kind
  · exact hk
  · exfalso
    have h1 := logHeads_apart a.kind (List.mem_range.2 a.kind_lt) b.kind (List.mem_range.2 b.kind_lt) hk
    have h2 := logHeads_apart b.kind (List.mem_range.2 b.kind_lt) a.kind (List.mem_range.2 a.kind_lt) (Ne.symm hk)
    rcases List.prefix_or_prefix_of_prefix (l₃ := (logHeads.getD a.kind "").toList ++ (x ++ X)) ⟨_, rfl⟩ ⟨_, e.symm⟩ with h | h
    · rw [← List.isPrefixOf_iff_prefix] at h; rw [h] at h1; cases h1
    · rw [← List.isPrefixOf_iff_prefix] at h; rw [h] at h2; cases h2

theorem prettyInt_iff {name : String} {n : Nat} {v w : BitVec n} {X Y : List Char} :
    (pretty name (intText v)).toList ++ X = (pretty name (intText w)).toList ++ Y ↔ v = w ∧ X = Y :=
  ⟨prettyInt_cut, fun h => by rw [h.1, h.2]⟩

theorem compactInt_iff {name : String} {n : Nat} {v w : BitVec n} {X Y : List Char} :
    (compact name (intText v)).toList ++ X = (compact name (intText w)).toList ++ Y ↔ v = w ∧ X = Y :=
  ⟨compactInt_cut, fun h => by rw [h.1, h.2]⟩

theorem at_iff {l k : Location} {X Y : List Char} : l.at.toList ++ X = k.at.toList ++ Y ↔ l = k ∧ X = Y := ⟨at_cut, fun h => by rw [h.1, h.2]⟩

theorem val_iff {F : FloatText} {v w : Val} {X Y : List Char} : (v.text F).toList ++ X = (w.text F).toList ++ Y ↔ v.Alike F w ∧ X = Y := by
  refine ⟨val_cut, fun ⟨h, e⟩ => ?_⟩
  subst e
  cases h with
  | same => rfl
  | f32 h => simp only [Val.text, h]
  | f64 h => simp only [Val.text, h]

theorem unary_iff {a b : UnaryOp} {X Y : List Char} : a.variant.toList ++ (" ".toList ++ X) = b.variant.toList ++ (" ".toList ++ Y) ↔ a = b ∧ X = Y :=
  ⟨fun e => (name_cut " " (c := ' ') (rest := []) (by decide +kernel) a.variant_plain b.variant_plain e).imp UnaryOp.variant_inj id, fun h => by rw [h.1, h.2]⟩

theorem binary_iff {a b : BinaryOp} {X Y : List Char} : a.variant.toList ++ (" ".toList ++ X) = b.variant.toList ++ (" ".toList ++ Y) ↔ a = b ∧ X = Y :=
  ⟨fun e => (name_cut " " (c := ' ') (rest := []) (by decide +kernel) a.variant_plain b.variant_plain e).imp BinaryOp.variant_inj id, fun h => by rw [h.1, h.2]⟩

theorem load_iff {a b : LoadOp} {X Y : List Char} : a.variant.toList ++ (" @ (CONST ".toList ++ X) = b.variant.toList ++ (" @ (CONST ".toList ++ Y) ↔ a = b ∧ X = Y :=
  ⟨fun e => (name_cut " @ (CONST " (c := ' ') (rest := "@ (CONST ".toList) (by decide +kernel) a.variant_plain b.variant_plain e).imp LoadOp.variant_inj id, fun h => by rw [h.1, h.2]⟩

theorem store_iff {a b : StoreOp} {X Y : List Char} : a.variant.toList ++ (" @ (CONST ".toList ++ X) = b.variant.toList ++ (" @ (CONST ".toList ++ Y) ↔ a = b ∧ X = Y :=
  ⟨fun e => (name_cut " @ (CONST " (c := ' ') (rest := "@ (CONST ".toList) (by decide +kernel) a.variant_plain b.variant_plain e).imp StoreOp.variant_inj id, fun h => by rw [h.1, h.2]⟩

theorem localOp_iff {a b : LocalOp} {X Y : List Char} : a.variant.toList ++ (", ".toList ++ X) = b.variant.toList ++ (", ".toList ++ Y) ↔ a = b ∧ X = Y :=
  ⟨fun e => (name_cut ", " (c := ',') (rest := [' ']) (by decide +kernel) a.variant_plain b.variant_plain e).imp LocalOp.variant_inj id, fun h => by rw [h.1, h.2]⟩

theorem globOp_iff {a b : GlobOp} {X Y : List Char} : a.variant.toList ++ (", ".toList ++ X) = b.variant.toList ++ (", ".toList ++ Y) ↔ a = b ∧ X = Y :=
  ⟨fun e => (name_cut ", " (c := ',') (rest := [' ']) (by decide +kernel) a.variant_plain b.variant_plain e).imp GlobOp.variant_inj id, fun h => by rw [h.1, h.2]⟩

/-- **The text of an event can be cut off**, giving back the event but for the floating point numbers. -/
theorem Event.text_cut {F : FloatText} {a b : Event} {s t : String} (ha : a.text F = some s) (hb : b.text F = some t) {X Y : List Char}
    (e : s.toList ++ X = t.toList ++ Y) : a.Alike F b ∧ X = Y := by
  have hk := Event.same_kind ha hb e
  cases a with
  | loaded i offset op v l =>
    cases b with
    | came b => cases b <;> first | (cases hk; done) | cases hb
    | loaded i' offset' op' v' l' =>
      simp only [Event.text, Advice.entryAfter, Option.some.injEq] at ha hb
      rw [← ha, ← hb] at e
      simp only [String.toList_append] at e
      simp only [List.append_assoc] at e
      simp only [List.append_cancel_left_eq, load_iff, prettyInt_iff, val_iff, at_iff] at e
      obtain ⟨rfl, rfl, rfl, h, rfl, e⟩ := e
      exact ⟨.loaded h, e⟩
  | came a =>
    cases b with
    | loaded => cases a <;> first | (cases hk; done) | cases ha
    | came b =>
      cases a <;> cases b <;> first | (cases hk; done) | skip
      all_goals simp only [Event.text, Advice.entry, reduceCtorEq, Option.some.injEq] at ha hb
      all_goals rw [← ha, ← hb] at e
      all_goals simp only [String.toList_append] at e
      all_goals simp only [List.append_assoc] at e
      all_goals simp only [List.append_cancel_left_eq, unary_iff, binary_iff, store_iff, localOp_iff, globOp_iff, prettyInt_iff, compactInt_iff, val_iff, at_iff] at e
      case const.const => obtain ⟨h, rfl, e⟩ := e; exact ⟨.const h, e⟩
      case unary.unary => obtain ⟨rfl, h, rfl, e⟩ := e; exact ⟨.unary h, e⟩
      case binary.binary => obtain ⟨rfl, h, h', rfl, e⟩ := e; exact ⟨.binary h h', e⟩
      case memorySize.memorySize => obtain ⟨h, rfl, rfl, e⟩ := e; exact ⟨.memorySize h, e⟩
      case memoryGrow.memoryGrow => obtain ⟨h, rfl, rfl, e⟩ := e; exact ⟨.memoryGrow h, e⟩
      case loc.loc => obtain ⟨h, rfl, rfl, rfl, e⟩ := e; exact ⟨.loc h, e⟩
      case glob.glob => obtain ⟨h, rfl, rfl, rfl, e⟩ := e; exact ⟨.glob h, e⟩
      case store.store => obtain ⟨rfl, rfl, rfl, h, rfl, e⟩ := e; exact ⟨.store h, e⟩
      all_goals first
        | (obtain ⟨rfl, e⟩ := e; exact ⟨.same _, e⟩)
        | (obtain ⟨rfl, rfl, e⟩ := e; exact ⟨.same _, e⟩)
        | (obtain ⟨rfl, rfl, rfl, e⟩ := e; exact ⟨.same _, e⟩)
        | (obtain ⟨rfl, rfl, rfl, rfl, e⟩ := e; exact ⟨.same _, e⟩)

end Wastrum
