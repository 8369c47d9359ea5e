import Verif.TellThms
/-!
# The whole `call-stack` analysis (C77)

`/repo/wastrumentation-instr-lib/tests/analyses/rust/call-stack/src/lib.rs`, its `apply` advice included.
-/

set_option linter.unusedSimpArgs false
set_option linter.unusedVariables false

namespace Wastrum

variable {W A : Type}

/-! ## The analysis -/

/-- `NUMBER_OF_APPLIES`, `MAX_APPLY_DEPTH`, `APPLY_STACK` beside those of the call advice: `call-stack/src/lib.rs` 35-40. -/
structure CallStackFull where
  numberOfApplies : BitVec 32
  maxApplyDepth : BitVec 32
  applyStack : BitVec 32
  calls : CallStack
deriving DecidableEq
/-- All start at 0: `call-stack/src/lib.rs` 35-40. -/
def CallStackFull.init : CallStackFull := ⟨0, 0, 0, .init⟩
/-- What the `apply` advice does before it resumes the call: `call-stack/src/lib.rs` 93-105 (additions of `i32` wrap, as in a release build). -/
def CallStackFull.enter (c : CallStackFull) : CallStackFull :=
  { c with applyStack := c.applyStack + 1, maxApplyDepth := i32Max c.maxApplyDepth (c.applyStack + 1), numberOfApplies := c.numberOfApplies + 1 }
/-- What it does after: `call-stack/src/lib.rs` 107-110. -/
def CallStackFull.leave (c : CallStackFull) : CallStackFull := { c with applyStack := c.applyStack - 1 }
/-- `get_number_of_applies`: `call-stack/src/lib.rs` 15-18. -/
def CallStackFull.getNumberOfApplies (c : CallStackFull) : BitVec 32 := c.numberOfApplies
/-- `get_max_apply_depth`: `call-stack/src/lib.rs` 20-23. -/
def CallStackFull.getMaxApplyDepth (c : CallStackFull) : BitVec 32 := c.maxApplyDepth
/-- `get_number_of_calls`: `call-stack/src/lib.rs` 25-28. -/
def CallStackFull.getNumberOfCalls (c : CallStackFull) : BitVec 32 := c.calls.getNumberOfCalls
/-- `get_max_call_depth`: `call-stack/src/lib.rs` 30-33. -/
def CallStackFull.getMaxCallDepth (c : CallStackFull) : BitVec 32 := c.calls.getMaxCallDepth

/-- The `apply` advice before `func.apply()`: `call-stack/src/lib.rs` 93-105. -/
def callStackBefore (_ : WasmFunction) (_ _ : RuntimeValues) : Act (World W CallStackFull) Unit := updateState CallStackFull.enter
/-- The `apply` advice after `func.apply()`: `call-stack/src/lib.rs` 107-110. -/
def callStackAfter (_ : WasmFunction) (_ _ : RuntimeValues) : Act (World W CallStackFull) Unit := updateState CallStackFull.leave

/-- The analysis: call advice (`callStack`, C66) and `apply` advice: `call-stack/src/lib.rs` 42-112. -/
def callStackFull : CallWatcher CallStackFull where
  toWatcher := .ahead fun e c => { c with calls := callStack e c.calls }
  enter _ _ c := some c.enter
  leave _ _ _ c := some c.leave

/-- The advice as the analysis has it does what `callStackFull` says. -/
theorem callStackFull_records (i : Nat) (t : FuncType) (p : Nat) (f : WasmFunction) :
    Records (W := W) t p (·.args t p) (callStackBefore f (handle t p) (handle t p)) (callStackFull.enter i) ∧
    Records (W := W) t p (·.both t p) (callStackAfter f (handle t p) (handle t p)) (fun v => callStackFull.leave i v.1 v.2) :=
  ⟨fun _ _ _ _ _ _ => rfl, fun _ _ _ _ _ _ => rfl⟩

/-! ## Vocabulary -/

/-- A function was entered. (Vocabulary of the statement, not code.) -/
def Note.isEnter : Note → Bool
  | .enter .. => true
  | _ => false
/-- A function was left. -/
def Note.isLeave : Note → Bool
  | .leave .. => true
  | _ => false

/-- How many times a function was entered. -/
def Story.applies (st : Story) : Nat := st.countP Note.isEnter

/-- How many of these functions have not been left. -/
def Story.openApplies (st : Story) : Nat := st.countP Note.isEnter - st.countP Note.isLeave

/-- `d` is the largest number of functions that were open at the same time. -/
def Story.Deepest (st : Story) (d : Nat) : Prop := (∃ p, p <+: st ∧ Story.openApplies p = d) ∧ ∀ p, p <+: st → Story.openApplies p ≤ d

/-! ## Counting -/

/-- What is told of a story, the first event first. -/
theorem Interface.Tells.cons {iface : Interface} {n : Note} {st : Story} {tales : List Tale} (h : iface.Tells (n :: st) tales) :
    (iface.hasHook n = false ∧ iface.Tells st tales) ∨ ∃ t ts, tales = t :: ts ∧ n.tale = some t ∧ iface.hasHook n = true ∧ iface.Tells st ts := by
  unfold Interface.Tells at *
  rw [List.filter_cons] at h
  split at h
  · rename_i hn
    cases tales with
    | nil => cases h
    | cons t ts =>
      simp only [List.map_cons, List.cons.injEq] at h
      exact .inr ⟨t, ts, rfl, h.1, hn, h.2⟩
  · rename_i hn
    exact .inl ⟨by simpa using hn, h⟩

/-- What a sequence of tales does to the counters. -/
def callStackHears (tales : List Tale) (c : CallStackFull) : CallStackFull := tales.foldl (fun c t => match t with
  | .adv e => { c with calls := callStack e c.calls }
  | .enter .. => c.enter
  | .leave .. => c.leave) c

theorem callStackFull_hear (tales : List Tale) (c : CallStackFull) : callStackFull.hear tales c = some (callStackHears tales c) := by
  induction tales generalizing c with
  | nil => rfl
  | cons t ts ih =>
    simp only [CallWatcher.hear]
    cases t <;> exact ih _

/-- The counters of the `apply` advice, driven by the story. -/
def applyCounts (st : Story) (c : BitVec 32 × BitVec 32 × BitVec 32) : BitVec 32 × BitVec 32 × BitVec 32 := st.foldl (fun c n => match n with
  | .enter .. => (c.1 + 1, i32Max c.2.1 (c.2.2 + 1), c.2.2 + 1)
  | .leave .. => (c.1, c.2.1, c.2.2 - 1)
  | .instr .. => c) c

/-- The two kinds of counters are driven by the two parts of the story. -/
theorem callStackHears_split {iface : Interface} {st : Story} {tales : List Tale} (h : iface.Tells st tales) (c : CallStackFull) :
    ∃ advs, iface.Hears st.instrs advs ∧ (callStackHears tales c).calls = advs.foldl (fun x e => callStack e x) c.calls ∧
      ((callStackHears tales c).numberOfApplies, (callStackHears tales c).maxApplyDepth, (callStackHears tales c).applyStack) = applyCounts st (c.numberOfApplies, c.maxApplyDepth, c.applyStack) := by
  induction st generalizing tales c with
  | nil =>
    have : tales = [] := by simpa [Interface.Tells] using h.symm
    subst this
    exact ⟨[], rfl, rfl, rfl⟩
  | cons n st ih =>
    rcases h.cons with ⟨hn, h⟩ | ⟨t, ts, rfl, ht, hn, h'⟩
    · obtain ⟨advs, h1, h2, h3⟩ := ih h c
      cases n with
      | instr t args =>
        refine ⟨advs, ?_, h2, h3⟩
        simp only [Interface.hasHook] at hn
        simp only [Interface.Hears, Interface.observed, Story.instrs, List.filterMap_cons, List.filter_cons] at h1 ⊢
        simp only [hn]
        exact h1
      | enter => cases hn
      | leave => cases hn
    · cases n with
      | instr t' args =>
        simp only [Note.tale, Option.map_eq_some_iff] at ht
        obtain ⟨adv, he, rfl⟩ := ht
        obtain ⟨advs, h1, h2, h3⟩ := ih h' { c with calls := callStack adv c.calls }
        refine ⟨adv :: advs, ?_, h2, h3⟩
        simp only [Interface.hasHook] at hn
        simp only [Interface.Hears, Interface.observed, Story.instrs, List.filterMap_cons, List.filter_cons] at h1 ⊢
        simp only [hn, if_true, List.map_cons, he, h1]
      | enter i args =>
        simp only [Note.tale, Option.map_eq_some_iff] at ht
        obtain ⟨xs, _, rfl⟩ := ht
        obtain ⟨advs, h1, h2, h3⟩ := ih h' c.enter
        exact ⟨advs, h1, h2, h3⟩
      | leave i args ress =>
        simp only [Note.tale, Option.map_eq_some_iff, Option.bind_eq_some_iff] at ht
        obtain ⟨xs, _, ys, _, rfl⟩ := ht
        obtain ⟨advs, h1, h2, h3⟩ := ih h' c.leave
        exact ⟨advs, h1, h2, h3⟩

theorem i32Max_ofNat {a b : Nat} (ha : a < 2 ^ 31) (hb : b < 2 ^ 31) : i32Max (BitVec.ofNat 32 a) (BitVec.ofNat 32 b) = BitVec.ofNat 32 (max a b) := by
  have e : ∀ n : Nat, n < 2 ^ 31 → (BitVec.ofNat 32 n).toInt = n := by
    intro n hn
    rw [BitVec.toInt_eq_toNat_cond, BitVec.toNat_ofNat, Nat.mod_eq_of_lt (by omega)]
    split <;> omega
  unfold i32Max
  rw [e a ha, e b hb]
  split
  · rw [Nat.max_eq_right (by omega)]
  · rw [Nat.max_eq_left (by omega)]

theorem prefix_snoc {α : Type} {q l : List α} {a : α} (hq : q <+: l ++ [a]) : q <+: l ∨ q = l ++ [a] := by
  rcases prefix_append_cases hq with h | ⟨q', rfl, h⟩
  · exact .inl h
  · cases q' with
    | nil => exact .inl (by rw [List.append_nil]; exact List.prefix_rfl)
    | cons x q' =>
      obtain ⟨rfl, h'⟩ := List.cons_prefix_cons.1 h
      rw [List.prefix_nil.1 h']; exact .inr rfl

/-- The counters after a story all of whose beginnings have at least as many functions entered as left. -/
theorem applyCounts_eq (st : Story) (hp : ∀ p, p <+: st → p.countP Note.isLeave ≤ p.countP Note.isEnter) (hb : st.applies < 2 ^ 31) :
    ∃ d, st.Deepest d ∧ applyCounts st (0, 0, 0) = (BitVec.ofNat 32 st.applies, BitVec.ofNat 32 d, BitVec.ofNat 32 st.openApplies) := by
  induction st using snoc_induction with
  | h0 => exact ⟨0, ⟨⟨[], List.prefix_rfl, rfl⟩, fun p hp => by rw [List.prefix_nil.1 hp]; exact Nat.le_refl _⟩, rfl⟩
  | h1 l n ih =>
    have hb' : Story.applies l < 2 ^ 31 := by unfold Story.applies at hb ⊢; rw [List.countP_append] at hb; omega
    obtain ⟨d, ⟨⟨p, hp1, hp2⟩, i3⟩, e⟩ := ih (fun p h => hp p (h.trans (List.prefix_append _ _))) hb'
    have hd : d ≤ Story.applies l := by
      rw [← hp2]
      have : List.countP Note.isEnter p ≤ Story.applies l := by
        obtain ⟨r, rfl⟩ := hp1
        unfold Story.applies; rw [List.countP_append]; omega
      unfold Story.openApplies; omega
    have ho : Story.openApplies l ≤ d := i3 l List.prefix_rfl
    have hl := hp l (List.prefix_append _ _)
    have hla := hp (l ++ [n]) List.prefix_rfl
    have hsnoc : applyCounts (l ++ [n]) (0, 0, 0) = match n with
        | .enter .. => (BitVec.ofNat 32 (Story.applies l) + 1, i32Max (BitVec.ofNat 32 d) (BitVec.ofNat 32 (Story.openApplies l) + 1), BitVec.ofNat 32 (Story.openApplies l) + 1)
        | .leave .. => (BitVec.ofNat 32 (Story.applies l), BitVec.ofNat 32 d, BitVec.ofNat 32 (Story.openApplies l) - 1)
        | .instr .. => (BitVec.ofNat 32 (Story.applies l), BitVec.ofNat 32 d, BitVec.ofNat 32 (Story.openApplies l)) := by
      unfold applyCounts at e ⊢
      rw [List.foldl_append, e]
      cases n <;> rfl
    rw [hsnoc]
    have hsame : Story.openApplies (l ++ [n]) ≤ d → Story.Deepest (l ++ [n]) d := by
      intro hxd
      refine ⟨⟨p, hp1.trans (List.prefix_append _ _), hp2⟩, fun q hq => ?_⟩
      rcases prefix_snoc hq with h | rfl
      · exact i3 q h
      · exact hxd
    have add1 : ∀ k : Nat, BitVec.ofNat 32 k + 1 = BitVec.ofNat 32 (k + 1) := fun k => by simp [BitVec.ofNat_add]
    cases n with
    | instr t args =>
      have t1 : Story.applies (l ++ [.instr t args]) = Story.applies l := by simp [Story.applies, Note.isEnter]
      have t3 : Story.openApplies (l ++ [.instr t args]) = Story.openApplies l := by simp [Story.openApplies, Note.isEnter, Note.isLeave]
      exact ⟨d, hsame (by omega), by rw [t1, t3]⟩
    | enter i args =>
      have t1 : Story.applies (l ++ [.enter i args]) = Story.applies l + 1 := by simp [Story.applies, Note.isEnter]
      have t3 : Story.openApplies (l ++ [.enter i args]) = Story.openApplies l + 1 := by
        simp only [Story.openApplies, List.countP_append, List.countP_cons, List.countP_nil, Note.isEnter, Note.isLeave, if_true, Bool.false_eq_true, if_false]
        omega
      rw [t1] at hb
      refine ⟨max d (Story.openApplies l + 1), ⟨?_, fun q hq => ?_⟩, ?_⟩
      · by_cases hm : d ≤ Story.openApplies l + 1
        · exact ⟨_, List.prefix_rfl, by rw [t3, Nat.max_eq_right hm]⟩
        · exact ⟨p, hp1.trans (List.prefix_append _ _), by rw [hp2, Nat.max_eq_left (by omega)]⟩
      · rcases prefix_snoc hq with h | rfl
        · exact Nat.le_trans (i3 q h) (Nat.le_max_left _ _)
        · rw [t3]; exact Nat.le_max_right _ _
      · simp only [add1, t1, t3, i32Max_ofNat (a := d) (b := Story.openApplies l + 1) (by omega) (by omega)]
    | leave i args ress =>
      have t1 : Story.applies (l ++ [.leave i args ress]) = Story.applies l := by simp [Story.applies, Note.isEnter]
      have t3 : Story.openApplies l = Story.openApplies (l ++ [.leave i args ress]) + 1 := by
        simp only [Story.openApplies, List.countP_append, List.countP_cons, List.countP_nil, Note.isEnter, Note.isLeave, if_true, Bool.false_eq_true, if_false] at hla ⊢
        omega
      refine ⟨d, hsame (by omega), ?_⟩
      simp only [t1, t3, ← add1, BitVec.add_sub_cancel]

theorem Story.Nested.counts {l : Story} (h : l.Nested) : l.countP Note.isEnter = l.countP Note.isLeave ∧ ∀ q, q <+: l → q.countP Note.isLeave ≤ q.countP Note.isEnter := by
  induction h with
  | nil => exact ⟨rfl, fun q hq => by rw [List.prefix_nil.1 hq]; exact Nat.le_refl _⟩
  | instr _ ih =>
    refine ⟨by simpa [List.countP_cons, Note.isEnter, Note.isLeave] using ih.1, fun q hq => ?_⟩
    cases q with
    | nil => exact Nat.le_refl _
    | cons e q =>
      obtain ⟨rfl, hq'⟩ := List.cons_prefix_cons.1 hq
      simpa [List.countP_cons, Note.isEnter, Note.isLeave] using ih.2 q hq'
  | call h1 _ ih1 ih2 =>
    refine ⟨?_, fun q hq => ?_⟩
    · simp only [List.countP_cons, List.countP_append, Note.isEnter, Note.isLeave, if_true, Bool.false_eq_true, if_false]
      omega
    · cases q with
      | nil => exact Nat.le_refl _
      | cons e q =>
        obtain ⟨rfl, hq'⟩ := List.cons_prefix_cons.1 hq
        simp only [List.countP_cons, Note.isEnter, Note.isLeave, if_true, Bool.false_eq_true, if_false]
        rcases prefix_append_cases hq' with hq | ⟨q', rfl, hq3⟩
        · exact Nat.le_succ_of_le (ih1.2 q hq)
        · cases q' with
          | nil => rw [List.append_nil]; omega
          | cons e q' =>
            obtain ⟨rfl, hq''⟩ := List.cons_prefix_cons.1 hq3
            have := ih2.2 q' hq''
            simp only [List.countP_cons, List.countP_append, Note.isEnter, Note.isLeave, if_true, Bool.false_eq_true, if_false]
            omega

/-! ## C77 -/

/-- What the analysis reports after a run with this story. -/
def CallStackFull.Reports (iface : Interface) (st : Story) (c : CallStackFull) : Prop :=
  (st.applies < 2 ^ 31 → c.getNumberOfApplies = BitVec.ofNat 32 st.applies ∧ (∃ depth, st.Deepest depth ∧ c.getMaxApplyDepth = BitVec.ofNat 32 depth) ∧ c.applyStack = BitVec.ofNat 32 st.openApplies) ∧
  ∃ advs, iface.Hears st.instrs advs ∧ (times advs Advice.isCallPre < 2 ^ 31 → c.getNumberOfCalls = BitVec.ofNat 32 (times advs Advice.isCallPre) ∧
    (∃ depth, DeepestCalls advs depth ∧ c.getMaxCallDepth = BitVec.ofNat 32 depth) ∧ c.calls.callStack = BitVec.ofNat 32 (openCalls advs))

theorem reports_of_nested {iface : Interface} (h1 : (iface.trap .preTrapCall).isSome) (h2 : (iface.trap .postTrapCall).isSome) {st : Story} {tales : List Tale} (ht : iface.Tells st tales)
    (hn : ∃ rest, Story.Nested (st ++ rest)) (hc : ∃ rest, CallsNested (st.instrs ++ rest)) : CallStackFull.Reports iface st (callStackHears tales .init) := by
  obtain ⟨advs, hh, e1, e2⟩ := callStackHears_split ht .init
  refine ⟨fun hb => ?_, advs, hh, fun hb => ?_⟩
  · obtain ⟨rest, hn⟩ := hn
    obtain ⟨d, hd, e⟩ := applyCounts_eq st (fun p hp => hn.counts.2 p (hp.trans (List.prefix_append _ _))) hb
    have e3 := e2.trans e
    simp only [Prod.mk.injEq] at e3
    exact ⟨e3.1, ⟨d, hd, e3.2.1⟩, e3.2.2⟩
  · obtain ⟨rest, hc⟩ := hc
    have hp : ∀ p, p <+: advs → times p Advice.isCallPost ≤ times p Advice.isCallPre := by
      intro p hp
      obtain ⟨q, hq, hh⟩ := hh.prefix hp
      obtain ⟨e1, e2⟩ := hh.counts h1 h2
      rw [e1, e2]
      exact hc.counts.2 q (hq.trans (List.prefix_append _ _))
    obtain ⟨g1, g2, d, g3, g4⟩ := callStack_counts advs hp hb
    have e1' : (callStackHears tales CallStackFull.init).calls = advs.foldl (fun x e => callStack e x) CallStack.init := e1
    unfold CallStackFull.getNumberOfCalls CallStackFull.getMaxCallDepth CallStack.getNumberOfCalls CallStack.getMaxCallDepth
    rw [e1']
    exact ⟨g1, ⟨d, g3, g4⟩, g2⟩

/-- An analysis whose state shows the counters of `call-stack`, and changes them as that analysis does. -/
structure Counts (w : CallWatcher A) (view : A → CallStackFull) : Prop where
  quiet : ∀ a x, w.after a x = some x
  tell : ∀ t x, ∃ x', w.tell t x = some x' ∧ callStackFull.tell t (view x) = some (view x')

theorem Counts.hear {w : CallWatcher A} {view : A → CallStackFull} (h : Counts w view) : ∀ tales x x', w.hear tales x = some x' → callStackFull.hear tales (view x) = some (view x')
  | [], x, x', e => by cases e; rfl
  | t :: ts, x, x', e => by
    obtain ⟨y, h1, h2⟩ := h.tell t x
    simp only [CallWatcher.hear, h1, h2, Option.bind_some] at e ⊢
    exact h.hear ts y x' e

/-- C77, of any analysis that counts as `call-stack` does. -/
theorem counting_reports {C iface ts m r ge cb} (hP : CallWatchable C iface ts m r ge cb) (h1 : (iface.trap .preTrapCall).isSome) (h2 : (iface.trap .postTrapCall).isSome)
    (hoff : ∀ i ∈ bodyTargets m ts, ∀ f c, m.functions[i]? = some f → f.code = .present c → OnlyCode (OffsetsAre iface fun o => o = 0) c.body) :
    ∃ base : Nat, (∃ f, r.module.functions[base]? = some f ∧ f.exports = [cb.name]) ∧
      ∀ (W A : Type) (w : CallWatcher A) (view : A → CallStackFull) (K : LibLink) (N : Num) (T : List Table) (X : List (RefType × List (Option Nat))) (B : Nat) (I : Imports W) (IL : Imports (W × Log)) (G : Imports (W × Story)) (H : Imports (World W A)),
        CallHearing iface ts m r ge K base T X B N w G H → Counts w view →
        ImportsAgree m (fun (p : W × Log) w => p.1 = w) IL I → ImportsBeside m IL G → LeavesLog m IL → LeavesLog m G →
        ∀ (f : Nat) (ty : FuncType) (args : List RVal) (s : Store W) (a : A) (l : Lib), view a = .init →
          m.ctx.ftype f = some ty → ValsOK m.ctx args ty.inputs → StoreOK m.ctx s →
          l.Ok → l.mem.pages < 65536 → SegmentsIntact m r (s.extend T X (s.world, a, l.store)) →
        ∀ (L d : Nat), l.free + d * B ≤ l.mem.limit * 65536 → l.free + d * B ≤ 65535 * 65536 →
          let told := toldCall C m (bodyTargets m ts) (applyTargets m ts) G N L d f args (s.withAnalysis [])
          let original := callF N (machineOf I m.functions) L d f args s
          let instrumented := callF N (machineOf H r.module.functions) L d f args (s.extend T X (s.world, a, l.store))
          instrumented = .fuel ∨ ∃ (s1 : Store W) (st : Story) (c : A) (u : Store Unit), (view c).Reports iface st ∧
            ((∃ vs, original = .ok vs s1 ∧ told = .ok vs (s1.withAnalysis st) ∧ instrumented = .ok vs (s1.extend T X (s1.world, c, u)) ∧ st.openApplies = 0 ∧ ∀ advs, iface.Hears st.instrs advs → openCalls advs = 0) ∨
              original = .trap s1 ∧ told = .trap (s1.withAnalysis st) ∧ instrumented = .trap (s1.extend T X (s1.world, c, u))) := by
  obtain ⟨base, hb, h⟩ := C76_analysis_hears_the_story hP hoff
  refine ⟨base, hb, ?_⟩
  intro W A w view K N T X B I IL G H hW hC hI hG hIL hLG f ty args s a l hv hf hargs hok ok hpg hseg L d hc1 hc2 told original instrumented
  obtain ⟨_, _, g3, g4, _, g6⟩ := h W A K N T X B w G H hW hC.quiet (fun t x => by obtain ⟨x', e, _⟩ := hC.tell t x; rw [e]; exact nofun) f ty args s a l hf hargs hok ok hpg hseg L d hc1 hc2
  obtain ⟨st0, k1, k2, _⟩ := C76_story_is_of_the_program (iface := iface) (ts := ts) hP.small hP.instruments hP.valid hP.annotated (N := N) hI hG hf hargs hok L d
  have kn := C76_calls_nest (C := C) (targets := bodyTargets m ts) (intercepted := applyTargets m ts) hLG (N := N) (L := L) (d := d) (f := f) (args := args) (s := s)
  have kc := C64_calls_nest (C := C) (targets := bodyTargets m ts) hIL (N := N) (L := L) (d := d) (f := f) (args := args) (s := s)
  cases ho : instrumented with
  | fuel => exact .inl rfl
  | stuck => exact absurd ho g6
  | ok vs s1' =>
    obtain ⟨s1, st, tales, c, l1, e1, ht, hh, rfl, _⟩ := g3 vs s1' ho
    have hh := hC.hear _ _ _ hh
    rw [callStackFull_hear, hv] at hh
    have hh := Option.some.inj hh
    have hn := kn.1 _ _ _ e1
    have e1' := e1
    rw [k1] at e1'
    have ho' : original = .ok vs s1 ∧ st0 = st := by
      change original.withAnalysis st0 = _ at e1'
      cases hr : original <;> rw [hr] at e1' <;> simp only [Res.withAnalysis, Res.ok.injEq, reduceCtorEq] at e1'
      obtain ⟨rfl, e⟩ := e1'
      obtain ⟨rfl, rfl⟩ := withAnalysis_inj e
      exact ⟨rfl, rfl⟩
    obtain ⟨ho1, rfl⟩ := ho'
    change _ = original.withAnalysis _ at k2
    rw [ho1] at k2
    have hc := kc.1 _ _ _ k2
    refine .inr ⟨s1, st0, c, _, hh ▸ reports_of_nested h1 h2 ht ⟨[], by simpa using hn⟩ ⟨[], by simpa using hc⟩, .inl ⟨vs, ho1, e1, rfl, ?_, ?_⟩⟩
    · unfold Story.openApplies; rw [hn.counts.1]; exact Nat.sub_self _
    · intro advs hh
      obtain ⟨q1, q2⟩ := hh.counts h1 h2
      unfold openCalls; rw [q1, q2, hc.counts.1]; exact Nat.sub_self _
  | trap s1' =>
    obtain ⟨s1, st, tales, c, u, e1, ht, hh, rfl⟩ := g4 s1' ho
    have hh := hC.hear _ _ _ hh
    rw [callStackFull_hear, hv] at hh
    have hh := Option.some.inj hh
    have hn := kn.2 _ _ e1
    have e1' := e1
    rw [k1] at e1'
    have ho' : original = .trap s1 ∧ st0 = st := by
      change original.withAnalysis st0 = _ at e1'
      cases hr : original <;> rw [hr] at e1' <;> simp only [Res.withAnalysis, Res.trap.injEq, reduceCtorEq] at e1'
      obtain ⟨rfl, rfl⟩ := withAnalysis_inj e1'
      exact ⟨rfl, rfl⟩
    obtain ⟨ho1, rfl⟩ := ho'
    change _ = original.withAnalysis _ at k2
    rw [ho1] at k2
    exact .inr ⟨s1, st0, c, u, hh ▸ reports_of_nested h1 h2 ht hn (kc.2 _ _ k2), .inr ⟨ho1, e1, rfl⟩⟩

/-- **C77.** The whole `call-stack` analysis, its `apply` advice included. After a run of the instrumented program from the start of the analysis: the program did what the original does;
`get_number_of_applies` is the number of times the original program entered one of the intercepted functions — by direct call, indirect call or from outside —, `get_max_apply_depth`
the largest number of them that were open at the same time, provided there were fewer than 2^31; and `get_number_of_calls` and `get_max_call_depth` are
what C66 says about them. The counters of open functions and calls end at the number of those that were interrupted, which is zero if the run ended normally. -/
theorem C77_call_stack_reports {C iface ts m r ge cb} (hP : CallWatchable C iface ts m r ge cb) (h1 : (iface.trap .preTrapCall).isSome) (h2 : (iface.trap .postTrapCall).isSome)
    (hoff : ∀ i ∈ bodyTargets m ts, ∀ f c, m.functions[i]? = some f → f.code = .present c → OnlyCode (OffsetsAre iface fun o => o = 0) c.body) :
    ∃ base : Nat, (∃ f, r.module.functions[base]? = some f ∧ f.exports = [cb.name]) ∧
      ∀ (W : Type) (K : LibLink) (N : Num) (T : List Table) (X : List (RefType × List (Option Nat))) (B : Nat) (I : Imports W) (IL : Imports (W × Log)) (G : Imports (W × Story)) (H : Imports (World W CallStackFull)),
        CallWatching iface ts m r ge K base T X B N callStackFull G H →
        ImportsAgree m (fun (p : W × Log) w => p.1 = w) IL I → ImportsBeside m IL G → LeavesLog m IL → LeavesLog m G →
        ∀ (f : Nat) (ty : FuncType) (args : List RVal) (s : Store W) (l : Lib),
          m.ctx.ftype f = some ty → ValsOK m.ctx args ty.inputs → StoreOK m.ctx s →
          l.Ok → l.mem.pages < 65536 → SegmentsIntact m r (s.extend T X (s.world, CallStackFull.init, l.store)) →
        ∀ (L d : Nat), l.free + d * B ≤ l.mem.limit * 65536 → l.free + d * B ≤ 65535 * 65536 →
          let told := toldCall C m (bodyTargets m ts) (applyTargets m ts) G N L d f args (s.withAnalysis [])
          let original := callF N (machineOf I m.functions) L d f args s
          let instrumented := callF N (machineOf H r.module.functions) L d f args (s.extend T X (s.world, CallStackFull.init, l.store))
          instrumented = .fuel ∨ ∃ (s1 : Store W) (st : Story) (c : CallStackFull) (u : Store Unit), c.Reports iface st ∧
            ((∃ vs, original = .ok vs s1 ∧ told = .ok vs (s1.withAnalysis st) ∧ instrumented = .ok vs (s1.extend T X (s1.world, c, u)) ∧ st.openApplies = 0 ∧ ∀ advs, iface.Hears st.instrs advs → openCalls advs = 0) ∨
              original = .trap s1 ∧ told = .trap (s1.withAnalysis st) ∧ instrumented = .trap (s1.extend T X (s1.world, c, u))) := by
  obtain ⟨base, hb, h⟩ := counting_reports hP h1 h2 hoff
  refine ⟨base, hb, ?_⟩
  intro W K N T X B I IL G H hW hI hG hIL hLG f ty args s l hf hargs hok ok hpg hseg L d hc1 hc2
  exact h W CallStackFull callStackFull id K N T X B I IL G H (C76_rust_analysis_qualifies hP hW) ⟨fun _ _ => rfl, fun t x => by cases t <;> exact ⟨_, rfl, rfl⟩⟩ hI hG hIL hLG
    f ty args s .init l rfl hf hargs hok ok hpg hseg L d hc1 hc2

theorem exCallStack_watching (base : Nat) : CallWatching exIfaceApply none exModule exResumed interfaceGenericApply.1 exResumeLink base [exToolTable] [] 36 exNum callStackFull (exImports.beside Story)
    (exTeller callStackFull callStackBefore callStackAfter base) :=
  exTeller_watching _ _ _ base fun i hi f hr hn j p => callStackFull_records i f.type p _

-- C77: `main(0, 5)` enters main, function 2 and `print`, one within the other, and makes two direct calls.
example : ∃ (base : Nat) (l1 : Lib) (c : CallStackFull), callF exNum (machineOf (exTeller callStackFull callStackBefore callStackAfter base) exResumed.module.functions) 10 52 1 [.i32 0, .i32 5]
      (exStore.extend [exToolTable] [] ([], CallStackFull.init, exLib.store)) =
    .ok [.i32 49] (Store.extend { exStore with world := [RVal.i32 7] } [exToolTable] [] ([RVal.i32 7], c, l1.store)) ∧
    c.getNumberOfApplies = 3 ∧ c.getMaxApplyDepth = 3 ∧ c.getNumberOfCalls = 2 ∧ c.getMaxCallDepth = 2 ∧ c.applyStack = 0 ∧ c.calls.callStack = 0 := by
  obtain ⟨base, _, h⟩ := C76_analysis_hears_the_story exWatchable (exOffsets fun o => o = 0)
  obtain ⟨st, hst, ht⟩ := exTold_run
  obtain ⟨tales, a1, l1, h1, h2, h3, _, h4, _⟩ := (h _ _ _ _ _ _ _ _ _ _ (C76_rust_analysis_qualifies exWatchable (exCallStack_watching base)) (fun _ _ => rfl) (fun t x => by cases t <;> exact nofun) 1 _ [.i32 0, .i32 5] exStore .init exLib rfl
    (ValsOK.nil.cons rfl (by simp [RVal.OK]) |>.cons rfl (by simp [RVal.OK])) exStore_ok exLib_ok (by decide) (exResumed_intact _ rfl _) 10 10 (by decide) (by decide)).1 _ _ _ hst
  rw [tells_unique h1 ht, callStackFull_hear] at h2
  cases h2
  exact ⟨base, l1, _, h3, by decide +kernel, by decide +kernel, by decide +kernel, by decide +kernel, by decide +kernel, by decide +kernel⟩
example : (exIfaceApply.trap .preTrapCall).isSome ∧ (exIfaceApply.trap .postTrapCall).isSome := ⟨rfl, rfl⟩
-- C77: the theorem applies to it.
example : ∃ base : Nat, callF exNum (machineOf (exTeller callStackFull callStackBefore callStackAfter base) exResumed.module.functions) 10 10 1 [.i32 0, .i32 5]
      (exStore.extend [exToolTable] [] ([], CallStackFull.init, exLib.store)) = .fuel ∨ ∃ (st : Story) (c : CallStackFull), c.Reports exIfaceApply st := by
  obtain ⟨base, _, h⟩ := C77_call_stack_reports exWatchable rfl rfl (exOffsets fun o => o = 0)
  refine ⟨base, ?_⟩
  rcases h _ _ _ _ _ _ _ _ _ _ (exCallStack_watching base) exImports_beside.1 exImports_beside.2 (.beside _) (.beside _) 1 _ [.i32 0, .i32 5] exStore exLib rfl
    (ValsOK.nil.cons rfl (by simp [RVal.OK]) |>.cons rfl (by simp [RVal.OK])) exStore_ok exLib_ok (by decide) (exResumed_intact _ rfl _) 10 10 (by decide) (by decide) with h | ⟨s1, st, c, u, h, _⟩
  · exact .inl h
  · exact .inr ⟨st, c, h⟩

end Wastrum
