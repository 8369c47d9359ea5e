import Verif.MemoSim
import Verif.ShippedForward
/-!
# Memoising pure functions (C55, C56)
-/

set_option linter.unusedSimpArgs false
set_option linter.unusedVariables false

namespace Wastrum

variable {W : Type}

/-- Function `i` contains a call of function `j`. -/
def DirectlyCalls (m : Module) (i j : Nat) : Prop := ∃ code, HasCode m i code ∧ .call j ∈ code

/-- No target calls a target, directly or through other functions. -/
def NoNesting (m : Module) (ts : Option (List Nat)) : Prop :=
  ∀ i ∈ applyTargets m ts, ∀ j, Relation.TransGen (DirectlyCalls m) i j → j ∉ applyTargets m ts

section
variable {C : Checker} {iface : Interface} {ts : Option (List Nat)} {m : Module} {r : Instrumented} {ge : WasmExport} {cb : WasmImport}
  {order : List Nat} {hooks : FuncType → StackHooks} {copy : Nat} {K : LibLink} {H : Imports (World W MemoState)} {N : Num} {L : Nat}

theorem quiet_of (hA : Applied C iface ts m r ge cb order m.functions K.sigs hooks copy) {Cp : Checker} {fuel : Nat} {answer : List Nat}
    (hpure : immutableFunctions Cp m fuel = .ok answer) (hin : ∀ i ∈ applyTargets m ts, i ∈ answer) (hn : NoNesting m ts) : Quiet r order copy N L H := by
  obtain ⟨out, hI, hfix, hmem⟩ := answer_mem hpure
  have code : ∀ i, calleeEstimate out i = some .pure → ∃ code, HasCode m i code ∧ ∀ x ∈ code, x.Safe fun g => calleeEstimate out g = some .pure := by
    intro i hi
    obtain ⟨code, hcode, hf⟩ := hI.pure i hi
    refine ⟨code, hcode, fun x hx => ⟨(hf x hx).1, fun k hk => ?_⟩⟩
    rcases (hf x hx).2 k hk with rfl | h
    · exact hi
    · exact h
  have reach : ∀ i k, calleeEstimate out i = some .pure → Relation.TransGen (DirectlyCalls m) i k → calleeEstimate out k = some .pure := by
    intro i k hi hk
    have step : ∀ a b, calleeEstimate out a = some .pure → DirectlyCalls m a b → calleeEstimate out b = some .pure := by
      rintro a b ha ⟨c, hc, hb⟩
      obtain ⟨c', hc', hs⟩ := code a ha
      rw [hc.unique hc'] at hb
      exact (hs _ hb).2 b rfl
    induction hk with
    | single h => exact step _ _ hi h
    | tail _ h ih => exact step _ _ ih h
  have hP : ∀ k, ((∃ i ∈ order, Relation.TransGen (DirectlyCalls m) i k) ∨ ∃ (j i : Nat), order[j]? = some i ∧ k = copy + 2 * j) →
      ∃ code, HasCode r.module k code ∧ ∀ x ∈ code, x.Safe fun k => (∃ i ∈ order, Relation.TransGen (DirectlyCalls m) i k) ∨ ∃ (j i : Nat), order[j]? = some i ∧ k = copy + 2 * j := by
    rintro k (⟨i, hi, hk⟩ | ⟨j, i, hj, rfl⟩)
    · have hit := (hA.mem i).1 hi
      obtain ⟨c, hc, hs⟩ := code k (reach i k ((hmem i).1 (hin i hit)) hk)
      have hko : k ∉ order := fun h => hn i hit k hk ((hA.mem k).1 h)
      refine ⟨c, ?_, fun x hx => ⟨(hs x hx).1, fun g hg => .inl ⟨i, hi, hk.tail ⟨c, hc, hg ▸ hx⟩⟩⟩⟩
      obtain ⟨f, c', hf, hfc, rfl⟩ := hc
      exact ⟨f, c', hA.at.untouched k f hko hf, hfc, rfl⟩
    · have hi := List.mem_of_getElem? hj
      have hit := (hA.mem i).1 hi
      obtain ⟨c, hc, hs⟩ := code i ((hmem i).1 (hin i hit))
      refine ⟨c, ?_, fun x hx => ⟨(hs x hx).1, fun g hg => .inl ⟨i, hi, .single ⟨c, hc, hg ▸ hx⟩⟩⟩⟩
      obtain ⟨f, c', hf, hfc, rfl⟩ := hc
      exact ⟨_, c', (hA.at.target j i f hj hf).2.2.2.1, hfc, rfl⟩
  intro j hj d args s vs s1 e
  have := calls_alike hP N L d H H (copy + 2 * j) (.inr ⟨j, _, List.getElem?_eq_getElem hj, rfl⟩) args s s
  rw [e] at this
  exact this.2.1

end

/-- Programs behind the memoization analysis, given an invariant `J` of the cache; `TR` says with which caches the memoised program may trap on its own. -/
theorem memo_transparent {C iface ts m r ge cb} (hs : SmallModule m) (hsa : iface.StandardApply) (h : Instruments C iface ts m r)
    (hg : iface.generic = some (ge, cb)) (hnone : ∀ t, iface.trap t = none) (hv : ValidModule m) :
    ∃ base : Nat, (∃ f, r.module.functions[base]? = some f ∧ f.exports = [cb.name]) ∧
      ∀ (W : Type) (K : LibLink) (N : Num) (T : List Table) (X : List (RefType × List (Option Nat))) (B : Nat) (H : Imports W) (H' : Imports (World W MemoState)),
        Memoizing C iface ts m r ge K N base T X B H H' →
        ∀ (L : Nat) (J TR : MemoState → Prop), CacheInv m ts (callF N (machineOf H m.functions) L) J →
          (FullTraps m ts J TR ∨ NoNesting m ts ∧ ∃ Cp fuel answer, immutableFunctions Cp m fuel = .ok answer ∧ ∀ i ∈ applyTargets m ts, i ∈ answer) →
        ∀ (f : Nat) (ty : FuncType) (args : List RVal) (s : Store W) (c : MemoState) (l : Lib),
          m.ctx.ftype f = some ty → ValsOK m.ctx args ty.inputs → StoreOK m.ctx s → J c →
          l.Ok → l.mem.pages < 65536 → SegmentsIntact m r (s.extend T X (s.world, c, l.store)) →
        ∀ d : Nat, l.free + d * B ≤ l.mem.limit * 65536 → l.free + d * B ≤ 65535 * 65536 →
          let original := callF N (machineOf H m.functions) L
          let memoised := callF N (machineOf H' r.module.functions) L
          let s' := s.extend T X (s.world, c, l.store)
          (∀ vs s1, original d f args s = .ok vs s1 →
            (∃ c1 l1, memoised (5 * d + 1) f args s' = .ok vs (s1.extend T X (s1.world, c1, l1.store)) ∧
              J c1 ∧ Lib.Ok l1 ∧ l1.free = l.free ∧ l1.mem.limit = l.mem.limit ∧ l1.mem.pages < 65536) ∨
            ∃ s1', memoised (5 * d + 1) f args s' = .trap s1' ∧ TR s1'.world.2.1) ∧
          (∀ s1, original d f args s = .trap s1 →
            (∃ c1 st1, memoised (5 * d + 1) f args s' = .trap (s1.extend T X (s1.world, c1, st1))) ∨
            ∃ s1', memoised (5 * d + 1) f args s' = .trap s1' ∧ TR s1'.world.2.1) ∧
          (∀ vs s1', memoised d f args s' = .ok vs s1' →
            ∃ e s1 c1 l1, original e f args s = .ok vs s1 ∧ s1' = s1.extend T X (s1.world, c1, l1.store) ∧
              J c1 ∧ Lib.Ok l1 ∧ l1.free = l.free ∧ l1.mem.limit = l.mem.limit ∧ l1.mem.pages < 65536) ∧
          (∀ s1', memoised d f args s' = .trap s1' →
            (∃ e s1 c1 st1, original e f args s = .trap s1 ∧ s1' = s1.extend T X (s1.world, c1, st1)) ∨ TR s1'.world.2.1) ∧
          memoised d f args s' ≠ .stuck := by
  obtain ⟨order, fs, sigs, hooks, copy, hA⟩ := applied hs h hg
  have hstd := hsa ge cb hg
  refine ⟨copy + 2 * order.length, ⟨_, hA.at.callBase, rfl⟩, ?_⟩
  intro W K N T X B H H' hR L J TR hJ hTR f ty args s c l hf ha hok hcc ok hpg hseg d hc1 hc2
  have hsigs : sigs = K.sigs := by have := hA.sigs_eq; rw [hR.sigs] at this; exact (Option.some.inj this).symm
  subst hsigs
  have hfs := hookless hs hnone hA
  subst hfs
  have hTR' : FullTraps m ts J TR ∨ Quiet r order copy N L H' := hTR.imp_right fun ⟨hn, _, _, _, hpure, hin⟩ => quiet_of hA hpure hin hn
  have hsz : order.length < 2 ^ 32 := by
    have := hA.count
    have := hs.functions
    omega
  have hseg' : ∀ s : Store (World W MemoState), s.tables[m.tables.length]? = T[0]? → SegmentsIntact m r s := by
    intro s2 e
    refine intact_of hA hseg ?_
    rw [e]
    have hl := tables_length hok
    simp only [Store.extend]
    rw [List.getElem?_append_right (by omega)]
    simp [hl]
  have hS : ∀ fl fr, (besideLib m.ctx T X (fun c st => J c ∧ LibAt l.free l.mem.limit st) TR fl fr).S s (s.extend T X (s.world, c, l.store)) :=
    fun fl fr => ⟨hok, _, ⟨rfl, hcc, l, rfl, ok, rfl, rfl, hpg⟩, rfl⟩
  have k1 := memo_forward (L := L) hs hA ⟨hstd.1, hstd.2.1⟩ ⟨hstd.2.2.1, hstd.2.2.2.1⟩ hsz hv hR hseg' hJ hTR' (M := l.mem.limit) d (5 * d + 1) l.free (Nat.le_refl _) hc1 hc2
    f ty args s _ hf ha (hS _ _)
  have k2 := memo_backward (L := L) hs hA ⟨hstd.1, hstd.2.1⟩ ⟨hstd.2.2.1, hstd.2.2.2.1⟩ hsz hv hR hseg' hJ hTR' (M := l.mem.limit) d l.free hc1 hc2
    f ty args s _ hf ha (hS _ _)
  obtain ⟨e, he⟩ := callLim_spec (N := N) (L := L) (m := m) (H := H) f args s
  rw [he] at k2
  intro original memoised s'
  change (besideLib m.ctx T X (fun c st => J c ∧ LibAt l.free l.mem.limit st) TR true false).Ress m.ctx ty.results (original d f args s) (memoised (5 * d + 1) f args s') at k1
  change (besideLib m.ctx T X (fun c st => J c ∧ LibAt l.free l.mem.limit st) TR false true).Ress m.ctx ty.results (original e f args s) (memoised d f args s') at k2
  clear he
  have unS : ∀ {fl fr} {s1 : Store W} {s1' : Store (World W MemoState)},
      (besideLib m.ctx T X (fun c st => J c ∧ LibAt l.free l.mem.limit st) TR fl fr).S s1 s1' →
      ∃ c1 l1, s1' = s1.extend T X (s1.world, c1, l1.store) ∧ J c1 ∧ Lib.Ok l1 ∧ l1.free = l.free ∧ l1.mem.limit = l.mem.limit ∧ l1.mem.pages < 65536 := by
    rintro fl fr s1 s1' ⟨_, ⟨w, a1, st⟩, ⟨e, hc, l1, e1, ok1, h1, h2, h3⟩, rfl⟩
    dsimp only at e e1
    subst e e1
    exact ⟨a1, l1, rfl, hc, ok1, h1, h2, h3⟩
  have unT : ∀ {fl fr} {s1 : Store W} {s1' : Store (World W MemoState)},
      (besideLib m.ctx T X (fun c st => J c ∧ LibAt l.free l.mem.limit st) TR fl fr).T s1 s1' →
      ∃ a1 st1, s1' = s1.extend T X (s1.world, a1, st1) := by
    rintro fl fr s1 s1' ⟨_, ⟨w, a1, st⟩, e, rfl⟩
    dsimp only at e
    subst e
    exact ⟨a1, st, rfl⟩
  generalize memoised (5 * d + 1) f args s' = o1 at k1 ⊢
  generalize memoised d f args s' = o0 at k2 ⊢
  refine ⟨?_, ?_, ?_, ?_, ?_⟩
  · intro vs s1 e1
    rw [e1] at k1
    cases k1 with
    | ok hv hS1 => obtain ⟨a1, l1, rfl, hl⟩ := unS hS1; exact .inl ⟨a1, l1, rfl, hl⟩
    | fuelR h => cases h
    | trapR h => exact .inr ⟨_, rfl, h⟩
  · intro s1 e1
    rw [e1] at k1
    cases k1 with
    | trap hS1 => obtain ⟨a1, l1, rfl, hl⟩ := unS hS1; exact .inl ⟨a1, _, rfl⟩
    | trapT hT => obtain ⟨a1, st1, rfl⟩ := unT hT; exact .inl ⟨a1, st1, rfl⟩
    | trapL h => cases h
    | fuelR h => cases h
    | trapR h => exact .inr ⟨_, rfl, h⟩
  · rintro vs s1' rfl
    generalize ho : original e f args s = o at k2
    cases k2 with
    | ok hv hS1 => obtain ⟨a1, l1, rfl, hl⟩ := unS hS1; exact ⟨e, _, a1, l1, ho, rfl, hl⟩
    | fuelL h => cases h
    | trapL h => cases h
  · rintro s1' rfl
    generalize ho : original e f args s = o at k2
    cases k2 with
    | trap hS1 => obtain ⟨a1, l1, rfl, hl⟩ := unS hS1; exact .inl ⟨e, _, a1, _, ho, rfl⟩
    | trapT hT => obtain ⟨a1, st1, rfl⟩ := unT hT; exact .inl ⟨e, _, a1, st1, ho, rfl⟩
    | trapL h => cases h
    | fuelL h => cases h
    | trapR h => exact .inr h
  · rintro rfl
    generalize ho : original e f args s = o at k2
    cases k2 with
    | fuelL h => cases h
    | trapL h => cases h

/-- C55 (partial). Let the purity analysis report `answer` for a valid program; let functions among those reported be selected as targets of the
memoization analysis (whose only hook is `apply`), and let the program be linked with it and the stack library. A state of the instrumented program is
a state `s` of the original, extended by the tables `T` and segments `X` the tool has added, the cache `c` and the library's state `l`. If the cache
is correct (as the empty one is: `CacheCorrect.empty`), then for every function `f` of the program, every signature, all arguments and every state:
* if calling `f` in the original returns `vs` in state `s1`, then in the memoised program the call returns `vs` in the same program state, and the cache is
correct again; *or the memoised program traps with its cache full*;
* if it traps in the original, it traps in the memoised program;
* if it returns in the memoised program, it returns the same in the original;
* if it traps in the memoised program, it does so in the original, *or the cache is full*;
* it does not go wrong.
What is missing from the full claim are the two alternatives in italics. They cannot be removed: `C55_cache_overflow_traps`. -/
theorem C55_memoization_is_transparent_partial {C iface ts m r ge cb Cp fuel answer} (hs : SmallModule m) (hsa : iface.StandardApply) (h : Instruments C iface ts m r)
    (hg : iface.generic = some (ge, cb)) (hnone : ∀ t, iface.trap t = none) (hv : ValidModule m)
    (hpure : immutableFunctions Cp m fuel = .ok answer) (hin : ∀ i ∈ applyTargets m ts, i ∈ answer) :
    ∃ base : Nat, (∃ f, r.module.functions[base]? = some f ∧ f.exports = [cb.name]) ∧
      ∀ (W : Type) (K : LibLink) (N : Num) (T : List Table) (X : List (RefType × List (Option Nat))) (B : Nat) (H : Imports W) (H' : Imports (World W MemoState)),
        Memoizing C iface ts m r ge K N base T X B H H' →
        ∀ (L : Nat) (f : Nat) (ty : FuncType) (args : List RVal) (s : Store W) (c : MemoState) (l : Lib),
          m.ctx.ftype f = some ty → ValsOK m.ctx args ty.inputs → StoreOK m.ctx s → CacheCorrect m ts (callF N (machineOf H m.functions) L) c →
          l.Ok → l.mem.pages < 65536 → SegmentsIntact m r (s.extend T X (s.world, c, l.store)) →
        ∀ d : Nat, l.free + d * B ≤ l.mem.limit * 65536 → l.free + d * B ≤ 65535 * 65536 →
          let original := callF N (machineOf H m.functions) L
          let memoised := callF N (machineOf H' r.module.functions) L
          let s' := s.extend T X (s.world, c, l.store)
          (∀ vs s1, original d f args s = .ok vs s1 →
            (∃ c1 l1, memoised (5 * d + 1) f args s' = .ok vs (s1.extend T X (s1.world, c1, l1.store)) ∧
              CacheCorrect m ts original c1 ∧ Lib.Ok l1 ∧ l1.free = l.free ∧ l1.mem.limit = l.mem.limit ∧ l1.mem.pages < 65536) ∨
            ∃ s1', memoised (5 * d + 1) f args s' = .trap s1' ∧ s1'.world.2.1.cache.length = 1024) ∧
          (∀ s1, original d f args s = .trap s1 →
            (∃ c1 st1, memoised (5 * d + 1) f args s' = .trap (s1.extend T X (s1.world, c1, st1))) ∨
            ∃ s1', memoised (5 * d + 1) f args s' = .trap s1' ∧ s1'.world.2.1.cache.length = 1024) ∧
          (∀ vs s1', memoised d f args s' = .ok vs s1' →
            ∃ e s1 c1 l1, original e f args s = .ok vs s1 ∧ s1' = s1.extend T X (s1.world, c1, l1.store) ∧
              CacheCorrect m ts original c1 ∧ Lib.Ok l1 ∧ l1.free = l.free ∧ l1.mem.limit = l.mem.limit ∧ l1.mem.pages < 65536) ∧
          (∀ s1', memoised d f args s' = .trap s1' →
            (∃ e s1 c1 st1, original e f args s = .trap s1 ∧ s1' = s1.extend T X (s1.world, c1, st1)) ∨ s1'.world.2.1.cache.length = 1024) ∧
          memoised d f args s' ≠ .stuck := by
  obtain ⟨base, hb, h⟩ := memo_transparent hs hsa h hg hnone hv
  refine ⟨base, hb, ?_⟩
  intro W K N T X B H H' hR L
  exact h W K N T X B H H' hR L _ MemoState.IsFull (.correct (by have := hs.functions; omega) hpure hin H) (.inl fun _ _ _ _ _ _ _ _ h => h)

/-- C55, for programs in which no target calls a target. Then the memoised program behaves exactly as the original, without exception. -/
theorem C55_memoization_without_nesting {C iface ts m r ge cb Cp fuel answer} (hs : SmallModule m) (hsa : iface.StandardApply) (h : Instruments C iface ts m r)
    (hg : iface.generic = some (ge, cb)) (hnone : ∀ t, iface.trap t = none) (hv : ValidModule m)
    (hpure : immutableFunctions Cp m fuel = .ok answer) (hin : ∀ i ∈ applyTargets m ts, i ∈ answer)
    (hn : NoNesting m ts) :
    ∃ base : Nat, (∃ f, r.module.functions[base]? = some f ∧ f.exports = [cb.name]) ∧
      ∀ (W : Type) (K : LibLink) (N : Num) (T : List Table) (X : List (RefType × List (Option Nat))) (B : Nat) (H : Imports W) (H' : Imports (World W MemoState)),
        Memoizing C iface ts m r ge K N base T X B H H' →
        ∀ (L : Nat) (f : Nat) (ty : FuncType) (args : List RVal) (s : Store W) (c : MemoState) (l : Lib),
          m.ctx.ftype f = some ty → ValsOK m.ctx args ty.inputs → StoreOK m.ctx s → CacheCorrect m ts (callF N (machineOf H m.functions) L) c →
          l.Ok → l.mem.pages < 65536 → SegmentsIntact m r (s.extend T X (s.world, c, l.store)) →
        ∀ d : Nat, l.free + d * B ≤ l.mem.limit * 65536 → l.free + d * B ≤ 65535 * 65536 →
          let original := callF N (machineOf H m.functions) L
          let memoised := callF N (machineOf H' r.module.functions) L
          let s' := s.extend T X (s.world, c, l.store)
          (∀ vs s1, original d f args s = .ok vs s1 →
            ∃ c1 l1, memoised (5 * d + 1) f args s' = .ok vs (s1.extend T X (s1.world, c1, l1.store)) ∧
              CacheCorrect m ts original c1 ∧ Lib.Ok l1 ∧ l1.free = l.free ∧ l1.mem.limit = l.mem.limit ∧ l1.mem.pages < 65536) ∧
          (∀ s1, original d f args s = .trap s1 → ∃ c1 st1, memoised (5 * d + 1) f args s' = .trap (s1.extend T X (s1.world, c1, st1))) ∧
          (∀ vs s1', memoised d f args s' = .ok vs s1' →
            ∃ e s1 c1 l1, original e f args s = .ok vs s1 ∧ s1' = s1.extend T X (s1.world, c1, l1.store) ∧
              CacheCorrect m ts original c1 ∧ Lib.Ok l1 ∧ l1.free = l.free ∧ l1.mem.limit = l.mem.limit ∧ l1.mem.pages < 65536) ∧
          (∀ s1', memoised d f args s' = .trap s1' → ∃ e s1 c1 st1, original e f args s = .trap s1 ∧ s1' = s1.extend T X (s1.world, c1, st1)) ∧
          memoised d f args s' ≠ .stuck := by
  obtain ⟨base, hb, h⟩ := memo_transparent hs hsa h hg hnone hv
  refine ⟨base, hb, ?_⟩
  intro W K N T X B H H' hR L f ty args s c l hf ha hok hcc ok hpg hseg d hc1 hc2
  obtain ⟨h1, h2, h3, h4, h5⟩ := h W K N T X B H H' hR L _ (fun _ => False) (.correct (by have := hs.functions; omega) hpure hin H) (.inr ⟨hn, _, _, _, hpure, hin⟩) f ty args s c l hf ha hok hcc ok hpg hseg d hc1 hc2
  refine ⟨fun vs s1 e => (h1 vs s1 e).resolve_right ?_, fun s1 e => (h2 s1 e).resolve_right ?_, h3, fun s1' e => (h4 s1' e).resolve_right id, h5⟩
  · rintro ⟨_, _, h⟩; exact h
  · rintro ⟨_, _, h⟩; exact h

/-- C56. A memoised function is run once for every tuple of arguments: after a call of a pure target (of at most ten parameters and results) has returned, and as
long as the cache has not become full, the same call returns the same results without running the function (a call depth of 2 is enough: the trap and the
analysis' advice), counts one hit, adds nothing to the cache, and changes nothing of the program's state. -/
theorem C56_repeated_call_is_a_hit {C iface ts m r ge cb Cp fuel answer} (hs : SmallModule m) (hsa : iface.StandardApply) (h : Instruments C iface ts m r)
    (hg : iface.generic = some (ge, cb)) (hnone : ∀ t, iface.trap t = none) (hv : ValidModule m)
    (hpure : immutableFunctions Cp m fuel = .ok answer) (hin : ∀ i ∈ applyTargets m ts, i ∈ answer) :
    ∃ base : Nat, (∃ f, r.module.functions[base]? = some f ∧ f.exports = [cb.name]) ∧
      ∀ (W : Type) (K : LibLink) (N : Num) (T : List Table) (X : List (RefType × List (Option Nat))) (B : Nat) (H : Imports W) (H' : Imports (World W MemoState)),
        Memoizing C iface ts m r ge K N base T X B H H' →
        ∀ (L : Nat), ∀ i ∈ applyTargets m ts, ∀ (f : Func) (args : List RVal) (s : Store W) (c : MemoState) (l : Lib),
          m.functions[i]? = some f → f.type.inputs.length ≤ 10 → f.type.results.length ≤ 10 → ValsOK m.ctx args f.type.inputs → StoreOK m.ctx s →
          CacheCorrect m ts (callF N (machineOf H m.functions) L) c → c.cache.length ≠ 1024 →
          l.Ok → l.mem.pages < 65536 → SegmentsIntact m r (s.extend T X (s.world, c, l.store)) →
        ∀ d : Nat, l.free + d * B ≤ l.mem.limit * 65536 → l.free + d * B ≤ 65535 * 65536 →
          let memoised := callF N (machineOf H' r.module.functions) L
          ∀ vs s1', memoised d i args (s.extend T X (s.world, c, l.store)) = .ok vs s1' →
            ∃ (c1 : MemoState) (l1 : Lib), s1' = s.extend T X (s.world, c1, l1.store) ∧
              (c1.cache.length ≠ 1024 → ∃ l2 : Lib, memoised 2 i args s1' = .ok vs (s.extend T X (s.world, { c1 with hits := c1.hits + 1 }, l2.store))) := by
  obtain ⟨order, fs, sigs, hooks, copy, hA⟩ := applied hs h hg
  have hstd := hsa ge cb hg
  refine ⟨copy + 2 * order.length, ⟨_, hA.at.callBase, rfl⟩, ?_⟩
  intro W K N T X B H H' hR L i hi f args s c l hf ha10 hr10 ha hok hcc hnf ok hpg hseg d hc1 hc2 memoised vs s1' e
  have hsigs : sigs = K.sigs := by have := hA.sigs_eq; rw [hR.sigs] at this; exact (Option.some.inj this).symm
  subst hsigs
  have hfs := hookless hs hnone hA
  subst hfs
  have hsz : order.length < 2 ^ 32 := by
    have := hA.count
    have := hs.functions
    omega
  have hseg' : ∀ s : Store (World W MemoState), s.tables[m.tables.length]? = T[0]? → SegmentsIntact m r s := by
    intro s2 e
    refine intact_of hA hseg ?_
    rw [e]
    have hl := tables_length hok
    simp only [Store.extend]
    rw [List.getElem?_append_right (by omega)]
    simp [hl]
  have skips : ∀ c : MemoState, c.cache.length ≠ 1024 → c.skips f.type = false := by
    intro c hc
    have e1 := toInt_small (n := f.type.inputs.length) (by omega)
    have e2 := toInt_small (n := f.type.results.length) (by omega)
    refine decide_eq_false ?_
    simp only [e1, e2, cachedValuesMax, cacheCapacity]
    rintro (h | h | h)
    · omega
    · omega
    · exact hc h
  have ho : i ∈ order := (hA.mem i).2 hi
  obtain ⟨j, hj⟩ := List.getElem?_of_mem ho
  have hr := applyTarget_refFree hA hj hf
  obtain ⟨xs, rfl, hx⟩ := args_nums ha.1 hr.inputs
  obtain ⟨hmem, _⟩ := hA.at.target j i f hj hf
  have hb : 12 * f.type.slots ≤ B := hR.frame _ hmem
  match d, e with
  | 0, e => cases e
  | 1, e =>
    have := call_shallow_one (N := N) (L := L) (H := H') hA hj hf hx (s := s.extend T X (s.world, c, l.store))
    exact absurd (this.symm.trans e) (by simp)
  | D + 2, e =>
  have k := memo_stored (L := L) hs hA ⟨hstd.1, hstd.2.1⟩ ⟨hstd.2.2.1, hstd.2.2.2.1⟩ hsz hv hR hseg' (.correct (by have := hs.functions; omega) hpure hin H) (M := l.mem.limit) hc1 hc2 hj hf hx (s := s)
    (s' := s.extend T X (s.world, c, l.store)) (skips c hnf) ⟨hok, _, ⟨rfl, hcc, l, rfl, ok, rfl, rfl, hpg⟩, rfl⟩
  change (besideLib _ _ _ _ _ _ _).Ress _ _ _ (memoised (D + 2) i (xs.map .num) (s.extend T X (s.world, c, l.store))) at k
  rw [e] at k
  generalize ho : callLim N H m.functions L i (xs.map .num) s = o at k
  cases k with
  | fuelL h => cases h
  | trapL h => cases h
  | @ok _ s1 _ hv1 hS1 =>
    obtain ⟨h1, ⟨w, c1, st⟩, ⟨hw, ⟨ys, s2, ho2, hty, hfi⟩, l1, rfl, ok1, hf1, hl1, hp1⟩, rfl⟩ := hS1
    cases ho2
    dsimp only at hw hfi
    subst hw
    obtain ⟨d0, hd0⟩ := callLim_spec (N := N) (L := L) (m := m) (H := H) i (xs.map .num) s
    rw [hd0] at ho
    have hsame := pure_everywhere hpure (hin i hi) ho s
    rw [ho] at hsame
    cases hsame
    refine ⟨c1, l1, rfl, fun hnf1 => ?_⟩
    rw [Nat.add_mul] at hc1 hc2
    have hfull : ¬ Full l1 (12 * f.type.slots) := by
      rintro (h | h | h)
      · omega
      · omega
      · omega
    obtain ⟨lc, _, _, _, _, hhit, _⟩ := memo_call (N := N) (L := L) hA ⟨hstd.1, hstd.2.1⟩ ⟨hstd.2.2.1, hstd.2.2.2.1⟩ hsz hR.good hR.small hR.lib hR.memo hj hf ok1
      (s := s.extend T X (s.world, c1, l1.store)) rfl (intact_of hA hseg rfl) hx hfull hp1 0
    obtain ⟨l2, e2, _⟩ := hhit (skips c1 hnf1) ys hfi hty
    exact ⟨l2, e2⟩

/-- A cache that is skipped for every intercepted function is not used. -/
theorem skipped_cache_is_unused {C iface ts m r ge cb} (hs : SmallModule m) (hsa : iface.StandardApply) (h : Instruments C iface ts m r)
    (hg : iface.generic = some (ge, cb)) (hnone : ∀ t, iface.trap t = none) (hv : ValidModule m) :
    ∃ base : Nat, (∃ f, r.module.functions[base]? = some f ∧ f.exports = [cb.name]) ∧
      ∀ (W : Type) (K : LibLink) (N : Num) (T : List Table) (X : List (RefType × List (Option Nat))) (B : Nat) (H : Imports W) (H' : Imports (World W MemoState)),
        Memoizing C iface ts m r ge K N base T X B H H' →
        ∀ (L : Nat) (f : Nat) (ty : FuncType) (args : List RVal) (s : Store W) (c : MemoState) (l : Lib),
          m.ctx.ftype f = some ty → ValsOK m.ctx args ty.inputs → StoreOK m.ctx s → (∀ i ∈ applyTargets m ts, ∀ f, m.functions[i]? = some f → c.skips f.type = true) →
          l.Ok → l.mem.pages < 65536 → SegmentsIntact m r (s.extend T X (s.world, c, l.store)) →
        ∀ d : Nat, l.free + d * B ≤ l.mem.limit * 65536 → l.free + d * B ≤ 65535 * 65536 →
          let original := callF N (machineOf H m.functions) L
          let memoised := callF N (machineOf H' r.module.functions) L
          let s' := s.extend T X (s.world, c, l.store)
          (∀ vs s1, original d f args s = .ok vs s1 → ∃ l1 : Lib, memoised (5 * d + 1) f args s' = .ok vs (s1.extend T X (s1.world, c, l1.store))) ∧
          (∀ s1, original d f args s = .trap s1 → ∃ s1', memoised (5 * d + 1) f args s' = .trap s1') ∧
          (∀ vs s1', memoised d f args s' = .ok vs s1' → ∃ e s1, ∃ l1 : Lib, original e f args s = .ok vs s1 ∧ s1' = s1.extend T X (s1.world, c, l1.store)) ∧
          (∀ s1', memoised d f args s' = .trap s1' → ∃ e s1, original e f args s = .trap s1) := by
  obtain ⟨base, hb, h⟩ := memo_transparent hs hsa h hg hnone hv
  refine ⟨base, hb, ?_⟩
  intro W K N T X B H H' hR L f ty args s c l hf ha hok hc ok hpg hseg d hc1 hc2
  obtain ⟨h1, h2, h3, h4, h5⟩ := h W K N T X B H H' hR L (· = c) (fun _ => False) (.skipped hc _) (.inl (.skipped hc _)) f ty args s c l hf ha hok rfl ok hpg hseg d hc1 hc2
  refine ⟨fun vs s1 e => ?_, fun s1 e => ?_, fun vs s1' e => ?_, fun s1' e => ?_⟩
  · rcases h1 vs s1 e with ⟨c1, l1, e1, rfl, _⟩ | ⟨_, _, h⟩
    · exact ⟨l1, e1⟩
    · exact h.elim
  · rcases h2 s1 e with ⟨c1, st1, e1⟩ | ⟨_, _, h⟩
    · exact ⟨_, e1⟩
    · exact h.elim
  · obtain ⟨e', s1, c1, l1, e1, e2, rfl, _⟩ := h3 vs s1' e
    exact ⟨e', s1, l1, e1, e2⟩
  · obtain ⟨e', s1, _, _, e1, _⟩ := (h4 s1' e).resolve_right id
    exact ⟨e', s1, e1⟩

/-- C56, the other half. Once the cache is full, it is never used again: whatever function of the program is called, pure or not, with arguments that are in
the cache or not, the cache and the number of hits stay as they are, and everything is computed anew as in the original. -/
theorem C56_full_cache_is_unused {C iface ts m r ge cb} (hs : SmallModule m) (hsa : iface.StandardApply) (h : Instruments C iface ts m r)
    (hg : iface.generic = some (ge, cb)) (hnone : ∀ t, iface.trap t = none) (hv : ValidModule m) :
    ∃ base : Nat, (∃ f, r.module.functions[base]? = some f ∧ f.exports = [cb.name]) ∧
      ∀ (W : Type) (K : LibLink) (N : Num) (T : List Table) (X : List (RefType × List (Option Nat))) (B : Nat) (H : Imports W) (H' : Imports (World W MemoState)),
        Memoizing C iface ts m r ge K N base T X B H H' →
        ∀ (L : Nat) (f : Nat) (ty : FuncType) (args : List RVal) (s : Store W) (c : MemoState) (l : Lib),
          m.ctx.ftype f = some ty → ValsOK m.ctx args ty.inputs → StoreOK m.ctx s → c.cache.length = 1024 →
          l.Ok → l.mem.pages < 65536 → SegmentsIntact m r (s.extend T X (s.world, c, l.store)) →
        ∀ d : Nat, l.free + d * B ≤ l.mem.limit * 65536 → l.free + d * B ≤ 65535 * 65536 →
          let original := callF N (machineOf H m.functions) L
          let memoised := callF N (machineOf H' r.module.functions) L
          let s' := s.extend T X (s.world, c, l.store)
          (∀ vs s1, original d f args s = .ok vs s1 → ∃ l1 : Lib, memoised (5 * d + 1) f args s' = .ok vs (s1.extend T X (s1.world, c, l1.store))) ∧
          (∀ s1, original d f args s = .trap s1 → ∃ s1', memoised (5 * d + 1) f args s' = .trap s1') ∧
          (∀ vs s1', memoised d f args s' = .ok vs s1' → ∃ e s1, ∃ l1 : Lib, original e f args s = .ok vs s1 ∧ s1' = s1.extend T X (s1.world, c, l1.store)) ∧
          (∀ s1', memoised d f args s' = .trap s1' → ∃ e s1, original e f args s = .trap s1) := by
  obtain ⟨base, hb, h⟩ := skipped_cache_is_unused hs hsa h hg hnone hv
  exact ⟨base, hb, fun W K N T X B H H' hR L f ty args s c l hf ha hok hc => h W K N T X B H H' hR L f ty args s c l hf ha hok fun _ _ _ _ => MemoState.IsFull.skips hc _⟩

/-- C56, the limit on the number of arguments and results. If every intercepted function has more than ten parameters or more than ten results, the cache is
neither consulted nor changed, full or not: no such call is ever answered from the cache or stored in it. -/
theorem C56_wide_functions_are_not_cached {C iface ts m r ge cb} (hs : SmallModule m) (hsa : iface.StandardApply) (h : Instruments C iface ts m r)
    (hg : iface.generic = some (ge, cb)) (hnone : ∀ t, iface.trap t = none) (hv : ValidModule m)
    (hw : ∀ i ∈ applyTargets m ts, ∀ f, m.functions[i]? = some f → 10 < f.type.inputs.length ∨ 10 < f.type.results.length) :
    ∃ base : Nat, (∃ f, r.module.functions[base]? = some f ∧ f.exports = [cb.name]) ∧
      ∀ (W : Type) (K : LibLink) (N : Num) (T : List Table) (X : List (RefType × List (Option Nat))) (B : Nat) (H : Imports W) (H' : Imports (World W MemoState)),
        Memoizing C iface ts m r ge K N base T X B H H' →
        ∀ (L : Nat) (f : Nat) (ty : FuncType) (args : List RVal) (s : Store W) (c : MemoState) (l : Lib),
          m.ctx.ftype f = some ty → ValsOK m.ctx args ty.inputs → StoreOK m.ctx s → 
          l.Ok → l.mem.pages < 65536 → SegmentsIntact m r (s.extend T X (s.world, c, l.store)) →
        ∀ d : Nat, l.free + d * B ≤ l.mem.limit * 65536 → l.free + d * B ≤ 65535 * 65536 →
          let original := callF N (machineOf H m.functions) L
          let memoised := callF N (machineOf H' r.module.functions) L
          let s' := s.extend T X (s.world, c, l.store)
          (∀ vs s1, original d f args s = .ok vs s1 → ∃ l1 : Lib, memoised (5 * d + 1) f args s' = .ok vs (s1.extend T X (s1.world, c, l1.store))) ∧
          (∀ s1, original d f args s = .trap s1 → ∃ s1', memoised (5 * d + 1) f args s' = .trap s1') ∧
          (∀ vs s1', memoised d f args s' = .ok vs s1' → ∃ e s1, ∃ l1 : Lib, original e f args s = .ok vs s1 ∧ s1' = s1.extend T X (s1.world, c, l1.store)) ∧
          (∀ s1', memoised d f args s' = .trap s1' → ∃ e s1, original e f args s = .trap s1) := by
  obtain ⟨base, hb, h⟩ := skipped_cache_is_unused hs hsa h hg hnone hv
  refine ⟨base, hb, fun W K N T X B H H' hR L f ty args s c l hf ha hok => h W K N T X B H H' hR L f ty args s c l hf ha hok fun i hi g hg => ?_⟩
  have hm := List.mem_of_getElem? hg
  have e1 := toInt_small (hs.arity g hm).1
  have e2 := toInt_small (hs.arity g hm).2
  refine decide_eq_true ?_
  simp only [e1, e2, cachedValuesMax]
  rcases hw i hi g hg with h | h
  · exact .inl (by omega)
  · exact .inr (.inl (by omega))

/-! ## Programs that meet the hypotheses -/

/-- An import; a function that squares; a function that calls it; a function that uses both and the import. -/
def exMemo : Module where
  functions := [
    ⟨⟨[.i32], []⟩, .imported "env" "print", []⟩,
    ⟨⟨[.i32], [.i32]⟩, .present ⟨[], [.loc .get 0, .loc .get 0, .binary .i32Mul, .fin]⟩, ["square"]⟩,
    ⟨⟨[.i32], [.i32]⟩, .present ⟨[], [.loc .get 0, .call 1, .fin]⟩, ["via"]⟩,
    ⟨⟨[.i32], [.i32]⟩, .present ⟨[], [.loc .get 0, .call 1, .call 0, .loc .get 0, .call 2, .fin]⟩, ["main"]⟩]
  tables := []
  elements := []
  memories := []
  globals := []
  datas := []
  start := none

/-- The hooks of the memoization analysis: `apply` only. -/
def exMemoIface : Interface where
  generic := some interfaceGenericApply
  trap := fun _ => none

theorem exMemo_small : SmallModule exMemo where
  functions := by decide
  arity := by decide
  length := by
    simp only [exMemo, List.mem_cons, List.not_mem_nil, or_false, forall_eq_or_imp, forall_eq]
    simp
  body := by
    simp only [exMemo, List.mem_cons, List.not_mem_nil, or_false, forall_eq_or_imp, forall_eq]
    simp [LInstr.Small]

theorem exMemoIface_standard : exMemoIface.StandardApply := by
  intro ge cb h
  simp only [exMemoIface, Option.some.injEq] at h
  obtain ⟨rfl, rfl⟩ := Prod.mk.inj h
  exact ⟨rfl, rfl, rfl, rfl, by decide +kernel⟩

theorem exMemo_valid : ValidModule exMemo where
  functions := by
    intro f hf c hc
    simp only [exMemo, List.mem_cons, List.not_mem_nil, or_false] at hf
    rcases hf with rfl | rfl | rfl | rfl
    · simp at hc
    · simp only [FuncCode.present.injEq] at hc; subst hc
      refine .straight (bs := [.loc .get 0, .loc .get 0, .binary .i32Mul]) rfl ?_
      exact .cons (.basic ⟨.i32, rfl, [], rfl, rfl⟩) (.cons (.basic ⟨.i32, rfl, _, rfl, rfl⟩) (.ofBasic ⟨[], rfl, rfl⟩))
    · simp only [FuncCode.present.injEq] at hc; subst hc
      refine .straight (bs := [.loc .get 0, .call 1]) rfl ?_
      exact .cons (.basic ⟨.i32, rfl, [], rfl, rfl⟩) (.ofBasic ⟨_, rfl, [], rfl, rfl⟩)
    · simp only [FuncCode.present.injEq] at hc; subst hc
      refine .straight (bs := [.loc .get 0, .call 1, .call 0, .loc .get 0, .call 2]) rfl ?_
      exact .cons (.basic ⟨.i32, rfl, [], rfl, rfl⟩) (.cons (.basic ⟨_, rfl, [], rfl, rfl⟩) (.cons (.basic ⟨_, rfl, [], rfl, rfl⟩)
        (.cons (.basic ⟨.i32, rfl, [], rfl, rfl⟩) (.ofBasic ⟨_, rfl, [], rfl, rfl⟩))))
  elements := by simp [exMemo]
  start := by simp [exMemo]
  exports := by decide +kernel

/-- The purity analysis reports the two functions. -/
theorem exMemo_pure : immutableFunctions exChecker exMemo 5 = .ok [1, 2] := by cbv

/-- The program, with the targets `ts` memoised. -/
def exMemoised (ts : List Nat) : Instrumented := ((instrument exChecker id id exMemoIface (some ts) exMemo).toOption).getD ⟨exMemo, none⟩

theorem exMemoised_both : Instruments exChecker exMemoIface (some [1, 2]) exMemo (exMemoised [1, 2]) := by
  have h : (match instrument exChecker id id exMemoIface (some [1, 2]) exMemo with | .ok _ => true | .error _ => false) = true := by decide +kernel
  refine ⟨id, id, fun _ => .rfl, fun _ => .rfl, ?_⟩
  unfold exMemoised
  split at h
  · rename_i r hr; rw [hr]; rfl
  · simp at h

theorem exMemoised_one : Instruments exChecker exMemoIface (some [1]) exMemo (exMemoised [1]) := by
  have h : (match instrument exChecker id id exMemoIface (some [1]) exMemo with | .ok _ => true | .error _ => false) = true := by decide +kernel
  refine ⟨id, id, fun _ => .rfl, fun _ => .rfl, ?_⟩
  unfold exMemoised
  split at h
  · rename_i r hr; rw [hr]; rfl
  · simp at h

theorem exMemo_noNesting : NoNesting exMemo (some [1]) := by
  have ht : applyTargets exMemo (some [1]) = [1] := by decide +kernel
  intro i hi j hj
  rw [ht, List.mem_singleton] at hi
  subst hi
  exfalso
  have none : ∀ k, ¬ DirectlyCalls exMemo 1 k := by
    rintro k ⟨code, ⟨f, c, hf, hc, rfl⟩, hk⟩
    simp only [exMemo, List.getElem?_cons_succ, List.getElem?_cons_zero, Option.some.injEq] at hf
    subst hf
    simp only [FuncCode.present.injEq] at hc
    subst hc
    simp at hk
  induction hj with
  | single h => exact none _ h
  | tail _ _ ih => exact ih

/-- The library generated for the example. -/
def exMemoLink : LibLink := ⟨libNum, [⟨[.i32], [.i32]⟩], 65537, 5⟩

/-- The embedder: the stack library, the memoization analysis, and the embedder's `print`. -/
def exMemoHost (base : Nat) : Imports (World (List RVal) MemoState) := fun ns name =>
  if ns = stackModule then libHost exMemoLink.N exMemoLink.sigs exMemoLink.L exMemoLink.d name
  else if ns = analysisModule then memoHost exMemoLink base
  else exImports.besideTool 0 0 ns name

theorem exMemoHost_memoizing {ts : List Nat} (hs : (exMemoised ts).librarySignatures = some [⟨[.i32], [.i32]⟩]) (T : Table) (base : Nat) :
    Memoizing exChecker exMemoIface (some ts) exMemo (exMemoised ts) interfaceGenericApply.1 exMemoLink exNum base [T] [] 24 exImports (exMemoHost base) where
  sigs := hs
  small := by
    intro t ht
    simp only [exMemoLink, List.mem_singleton] at ht
    subst ht
    decide
  good := ⟨libNum_stack, by decide, by decide⟩
  lib := fun name => rfl
  memo := rfl
  imports := by
    refine .plain _ _ fun f hf ns name hc => ?_
    simp only [exMemo, List.mem_cons, List.not_mem_nil, or_false] at hf
    rcases hf with rfl | rfl | rfl | rfl <;> cases hc
    exact ⟨⟨fun _ _ => rfl, fun call args s ha hs => .inl ⟨_, _, rfl, .nil, hs.world rfl rfl rfl rfl rfl⟩⟩, rfl⟩
  steady := by
    intro f hf ns name hc
    exact Steady.plain fun _ _ => rfl
  frame := by
    intro t ht
    simp only [exMemoLink, List.mem_singleton] at ht
    subst ht
    decide

/-- The program's state. -/
def exMemoStore : Store (List RVal) := ⟨[], [], [], [], [], []⟩

theorem exMemoStore_ok : StoreOK exMemo.ctx exMemoStore where
  globals := .nil
  mems := rfl
  tables := rfl
  tableElems := by simp [exMemoStore]
  datas := rfl
  elems := rfl
  elemElems := by simp [exMemoStore]
  pages := by simp [exMemoStore]

theorem exMemo_main : callF exNum (machineOf exImports exMemo.functions) 10 4 3 [.i32 5] exMemoStore = .ok [.i32 25] { exMemoStore with world := [RVal.i32 25] } := by
  cbv

/-- The table the tool has added, after instantiation. -/
def exMemoTable : Table := ⟨.funcRef, [some 15, some 17], 2⟩

theorem exMemoised_intact (s : Store (List RVal)) (hs : s.tables = []) (w : World (List RVal) MemoState) :
    SegmentsIntact exMemo (exMemoised [1, 2]) (s.extend [exMemoTable] [] w) := by
  have h : (exMemoised [1, 2]).module.elements = [⟨.funcRef, [[.refFunc 15, .fin], [.refFunc 17, .fin]], .active 0 [.const (.i32 0), .fin]⟩] := by
    decide +kernel
  rw [SegmentsIntact, h]
  intro el hel tbl hm k f hk
  simp only [exMemo, List.length_nil, List.drop_zero, List.mem_singleton] at hel
  subst hel
  cases hm
  refine ⟨exMemoTable, by simp [Store.extend, hs], ?_⟩
  dsimp only [exMemoTable] at hk ⊢
  match k with
  | 0 | 1 => simpa using hk
  | k + 2 => simp at hk

theorem exMemoised_intact_one (s : Store (List RVal)) (hs : s.tables = []) (w : World (List RVal) MemoState) :
    SegmentsIntact exMemo (exMemoised [1]) (s.extend [⟨.funcRef, [some 15], 1⟩] [] w) := by
  have h : (exMemoised [1]).module.elements = [⟨.funcRef, [[.refFunc 15, .fin]], .active 0 [.const (.i32 0), .fin]⟩] := by
    decide +kernel
  rw [SegmentsIntact, h]
  intro el hel tbl hm k f hk
  simp only [exMemo, List.length_nil, List.drop_zero, List.mem_singleton] at hel
  subst hel
  cases hm
  refine ⟨⟨.funcRef, [some 15], 1⟩, by simp [Store.extend, hs], ?_⟩
  match k with
  | 0 => simpa using hk
  | k + 1 => simp at hk

theorem exMemo_targets : applyTargets exMemo (some [1, 2]) = [1, 2] ∧ applyTargets exMemo (some [1]) = [1] := by decide +kernel

-- C55: all hypotheses hold of the example; with `square` memoised, `main(5)` prints 25 and returns 25, as in the original.
example : ∃ base c1 l1, callF exNum (machineOf (exMemoHost base) (exMemoised [1]).module.functions) 10 21 3 [.i32 5]
      (exMemoStore.extend [⟨.funcRef, [some 15], 1⟩] [] ([], ⟨[], 0⟩, exLib.store)) =
    .ok [.i32 25] (Store.extend { exMemoStore with world := [RVal.i32 25] } [⟨.funcRef, [some 15], 1⟩] [] ([RVal.i32 25], c1, Lib.store l1)) ∧ l1.free = 0 := by
  obtain ⟨base, _, h⟩ := C55_memoization_without_nesting exMemo_small exMemoIface_standard exMemoised_one rfl (fun _ => rfl) exMemo_valid exMemo_pure
    (by rw [exMemo_targets.2]; simp) exMemo_noNesting
  obtain ⟨c1, l1, e, _, _, e1, _⟩ := (h _ _ _ _ _ _ _ _ (exMemoHost_memoizing (by decide +kernel) _ base) 10 3 _ [.i32 5] exMemoStore ⟨[], 0⟩ exLib rfl
    (ValsOK.nil.cons rfl (by simp [RVal.OK])) exMemoStore_ok (.empty _ _ _ _) exLib_ok (by decide) (exMemoised_intact_one _ rfl _) 4 (by decide) (by decide)).1 _ _ exMemo_main
  exact ⟨base, c1, l1, e, e1⟩

-- C55: and with both functions memoised it does so as well, or its cache is full.
example : ∃ base, (∃ c1 l1, callF exNum (machineOf (exMemoHost base) (exMemoised [1, 2]).module.functions) 10 21 3 [.i32 5]
      (exMemoStore.extend [exMemoTable] [] ([], ⟨[], 0⟩, exLib.store)) =
    .ok [.i32 25] (Store.extend { exMemoStore with world := [RVal.i32 25] } [exMemoTable] [] ([RVal.i32 25], c1, Lib.store l1))) ∨
    ∃ s1', callF exNum (machineOf (exMemoHost base) (exMemoised [1, 2]).module.functions) 10 21 3 [.i32 5]
      (exMemoStore.extend [exMemoTable] [] ([], ⟨[], 0⟩, exLib.store)) = .trap s1' ∧ s1'.world.2.1.cache.length = 1024 := by
  obtain ⟨base, _, h⟩ := C55_memoization_is_transparent_partial exMemo_small exMemoIface_standard exMemoised_both rfl (fun _ => rfl) exMemo_valid exMemo_pure
    (by rw [exMemo_targets.1]; simp)
  rcases (h _ _ _ _ _ _ _ _ (exMemoHost_memoizing (by decide +kernel) _ base) 10 3 _ [.i32 5] exMemoStore ⟨[], 0⟩ exLib rfl
    (ValsOK.nil.cons rfl (by simp [RVal.OK])) exMemoStore_ok (.empty _ _ _ _) exLib_ok (by decide) (exMemoised_intact _ rfl _) 4 (by decide) (by decide)).1 _ _ exMemo_main with
    ⟨c1, l1, e, _⟩ | h
  · exact ⟨base, .inl ⟨c1, l1, e⟩⟩
  · exact ⟨base, .inr h⟩

/-! ## The cache overflows -/

/-- One call after the other, until one does not return. -/
def runAll (call : CallFn W) : List (Nat × List RVal) → Store W → Res W
  | [], s => .ok [] s
  | (f, args) :: rest, s =>
    match call f args s with
    | .ok _ s1 => runAll call rest s1
    | o => o

theorem runAll_append (call : CallFn W) (xs ys : List (Nat × List RVal)) (s s1 : Store W) (h : runAll call xs s = .ok [] s1) : runAll call (xs ++ ys) s = runAll call ys s1 := by
  induction xs generalizing s with
  | nil => cases h; rfl
  | cons x xs ih =>
    obtain ⟨f, args⟩ := x
    simp only [runAll, List.cons_append] at h ⊢
    cases e : call f args s with
    | ok vs s2 => rw [e] at h; exact ih s2 h
    | _ => rw [e] at h; cases h

/-- The embedder calls `square` with 0 to 1022, then `via` with 5000. -/
def overflowing : List (Nat × List RVal) := (List.range 1023).map (fun k => (1, [.i32 (BitVec.ofNat 32 k)])) ++ [(2, [.i32 5000])]

/-- The cache after `square` has been called with the numbers below `n`. -/
def squares (n : Nat) : MemoState := ⟨(List.range n).map fun k => (memoKey 1 [.i32 (BitVec.ofNat 32 k)], [.i32 (BitVec.ofNat 32 k * BitVec.ofNat 32 k)]), 0⟩

theorem small_skips {c : MemoState} (h : c.cache.length ≠ 1024) : c.skips ⟨[.i32], [.i32]⟩ = false := by
  refine decide_eq_false ?_
  rintro (h' | h' | h')
  · exact absurd h' (by decide)
  · exact absurd h' (by decide)
  · exact h h'

theorem squares_find {n : Nat} {i : Nat} (hi : i < 2 ^ 32) {x : BitVec 32} (h : i ≠ 1 ∨ n ≤ x.toNat) (hn : n < 2 ^ 32) : (squares n).find (memoKey i [.i32 x]) = none := by
  unfold MemoState.find squares
  rw [List.lookup_eq_none_iff]
  intro p hp
  simp only [List.mem_map, List.mem_range] at hp
  obtain ⟨k, hk, rfl⟩ := hp
  rw [bne_iff_ne]
  intro e
  simp only [memoKey, MemoKey.mk.injEq, List.map_cons, List.map_nil, List.cons.injEq, and_true] at e
  rcases h with h | h
  · have := congrArg BitVec.toNat e.1
    rw [BitVec.toNat_ofNat, BitVec.toNat_ofNat, Nat.mod_eq_of_lt hi] at this
    exact h this
  · have := bitPattern_inj (x := .i32 x) (y := .i32 (BitVec.ofNat 32 k)) rfl e.2
    simp only [Val.i32.injEq] at this
    rw [this, BitVec.toNat_ofNat, Nat.mod_eq_of_lt (by omega)] at h
    omega

section
variable {order : List Nat} {hooks : FuncType → StackHooks} {copy L : Nat}

/-- Calling `square` with a number the cache does not hold: the result is computed and stored. -/
theorem square_miss (hA : Applied exChecker exMemoIface (some [1, 2]) exMemo (exMemoised [1, 2]) interfaceGenericApply.1 interfaceGenericApply.2 order exMemo.functions exMemoLink.sigs hooks copy)
    (x : BitVec 32) (w : List RVal) {c : MemoState} (hlen : c.cache.length < 1024) (hfind : c.find (memoKey 1 [.i32 x]) = none)
    {l : Lib} (ok : l.Ok) (hf : l.free + 24 ≤ l.mem.limit * 65536 ∧ l.free + 24 ≤ 65535 * 65536) (hpg : l.mem.pages < 65536) {d : Nat} (hd : 5 ≤ d) :
    ∃ l3 : Lib, callF exNum (machineOf (exMemoHost (copy + 2 * order.length)) (exMemoised [1, 2]).module.functions) L d 1 [.i32 x] (exMemoStore.extend [exMemoTable] [] (w, c, l.store)) =
      .ok [.i32 (x * x)] (exMemoStore.extend [exMemoTable] [] (w, { c with cache := c.cache ++ [(memoKey 1 [.i32 x], [.i32 (x * x)])] }, l3.store)) ∧
      l3.Ok ∧ l3.free = l.free ∧ l3.mem.limit = l.mem.limit ∧ l3.mem.pages < 65536 := by
  obtain ⟨j, hj⟩ := List.getElem?_of_mem ((hA.mem 1).2 (by rw [exMemo_targets.1]; simp))
  have hM := exMemoHost_memoizing (ts := [1, 2]) (by decide +kernel) exMemoTable (copy + 2 * order.length)
  have hsz : order.length < 2 ^ 32 := by have := hA.count; simp only [exMemo, List.length_cons, List.length_nil] at this; omega
  obtain ⟨d, rfl⟩ : ∃ e, d = e + 3 + 2 := ⟨d - 5, by omega⟩
  obtain ⟨lc, okc, hfc, hlc, hpc, _, hmiss⟩ := memo_call (N := exNum) (L := L) hA ⟨rfl, rfl⟩ ⟨rfl, rfl⟩ hsz hM.good hM.small hM.lib hM.memo hj rfl ok
    (s := exMemoStore.extend [exMemoTable] [] (w, c, l.store)) rfl (exMemoised_intact _ rfl _) (xs := [.i32 x]) rfl
    (show ¬ Full l 24 by rintro (h | h | h) <;> omega) hpg (d + 3)
  have hm := hmiss (.inr hfind)
  have hcp := (hA.at.target j 1 _ hj rfl).2.2.2.1
  have e : callF exNum (machineOf (exMemoHost (copy + 2 * order.length)) (exMemoised [1, 2]).module.functions) L (d + 1) (copy + 2 * j) [.i32 x]
      ((exMemoStore.extend [exMemoTable] [] (w, c, l.store)).setLib lc.store) = .ok [.i32 (x * x)] ((exMemoStore.extend [exMemoTable] [] (w, c, l.store)).setLib lc.store) := by
    rw [callF_code hcp rfl]
    rfl
  rw [if_pos (by omega), show d + 3 - 2 = d + 1 by omega, show ([Val.i32 x].map RVal.num) = [RVal.i32 x] from rfl, e] at hm
  have hm2 := hm [.i32 (x * x)] lc rfl rfl rfl okc rfl
  have hsk := small_skips (show c.cache.length ≠ 1024 by omega)
  have hins : c.insert (memoKey 1 [.i32 x]) [.i32 (x * x)] = some { c with cache := c.cache ++ [(memoKey 1 [.i32 x], [.i32 (x * x)])] } := by
    unfold MemoState.insert
    rw [hfind, if_neg (by simp), if_neg (by unfold cacheCapacity; omega)]
  have hc1 : ((exMemoStore.extend [exMemoTable] [] (w, c, l.store)).setLib lc.store).world.2.1 = c := rfl
  have hc2 : (exMemoStore.extend [exMemoTable] [] (w, c, l.store)).world.2.1 = c := rfl
  dsimp only at hm2
  rw [hc1, hc2, hsk, hins] at hm2
  obtain ⟨l3, e3, ok3, f3, m3, p3⟩ := hm2
  exact ⟨l3, e3, ok3, f3, by rw [m3, hlc], by rw [p3]; exact hpc⟩

/-- Calling `via` with 5000 when one place is left in the cache. -/
theorem via_overflow (hA : Applied exChecker exMemoIface (some [1, 2]) exMemo (exMemoised [1, 2]) interfaceGenericApply.1 interfaceGenericApply.2 order exMemo.functions exMemoLink.sigs hooks copy)
    {c : MemoState} (hlen : c.cache.length = 1023) (hfind1 : c.find (memoKey 1 [.i32 5000]) = none) (hfind : c.find (memoKey 2 [.i32 5000]) = none)
    {l : Lib} (ok : l.Ok) (hf : l.free = 0) (hl : l.mem.limit = 16) (hp : l.mem.pages < 65536) (d : Nat) :
    ∃ s1, callF exNum (machineOf (exMemoHost (copy + 2 * order.length)) (exMemoised [1, 2]).module.functions) L (d + 10) 2 [.i32 5000]
      (exMemoStore.extend [exMemoTable] [] ([], c, l.store)) = .trap s1 := by
  obtain ⟨j, hj⟩ := List.getElem?_of_mem ((hA.mem 2).2 (by rw [exMemo_targets.1]; simp))
  have hM := exMemoHost_memoizing (ts := [1, 2]) (by decide +kernel) exMemoTable (copy + 2 * order.length)
  have hsz : order.length < 2 ^ 32 := by have := hA.count; simp only [exMemo, List.length_cons, List.length_nil] at this; omega
  obtain ⟨lc, okc, hfc, hlc, hpc, _, hmiss⟩ := memo_call (N := exNum) (L := L) hA ⟨rfl, rfl⟩ ⟨rfl, rfl⟩ hsz hM.good hM.small hM.lib hM.memo hj rfl ok
    (s := exMemoStore.extend [exMemoTable] [] ([], c, l.store)) rfl (exMemoised_intact _ rfl _) (xs := [.i32 5000]) rfl
    (show ¬ Full l 24 by rintro (h | h | h) <;> omega) hp (d + 8)
  have hm := hmiss (.inr hfind)
  have hcp := (hA.at.target j 2 _ hj rfl).2.2.2.1
  obtain ⟨l3, e3, ok3, f3, m3, p3⟩ := square_miss (L := L) hA 5000 [] (c := c) (by omega)
    hfind1 okc (by rw [hfc, hlc, hf, hl]; decide) hpc (d := d + 5) (by omega)
  have ein : callF exNum (machineOf (exMemoHost (copy + 2 * order.length)) (exMemoised [1, 2]).module.functions) L (d + 6) (copy + 2 * j) [.i32 5000]
      (exMemoStore.extend [exMemoTable] [] ([], c, lc.store)) = .ok [.i32 (5000 * 5000)]
        (exMemoStore.extend [exMemoTable] [] ([], { c with cache := (c).cache ++ [(memoKey 1 [.i32 5000], [.i32 (5000 * 5000)])] }, l3.store)) := by
    rw [callF_code hcp rfl, runBody_eq]
    have hcode : denFlat (envAt exNum (machineOf (exMemoHost (copy + 2 * order.length)) (exMemoised [1, 2]).module.functions) L (d + 5)) [.loc .get 0, .call 1, .fin] =
        runs (envAt exNum (machineOf (exMemoHost (copy + 2 * order.length)) (exMemoised [1, 2]).module.functions) L (d + 5)) [.loc .get 0, .call 1] := by
      funext c
      rw [← denFlat_straight]
      rfl
    rw [hcode]
    obtain ⟨j1, hj1⟩ := List.getElem?_of_mem ((hA.mem 1).2 (by rw [exMemo_targets.1]; simp))
    have hty : (envAt exNum (machineOf (exMemoHost (copy + 2 * order.length)) (exMemoised [1, 2]).module.functions) L (d + 5)).ftype 1 = some ⟨[.i32], [.i32]⟩ := by
      rw [envAt_types]
      simp only [(hA.at.target j1 1 _ hj1 rfl).2.2.1, Option.map_some]
      rfl
    show (runs _ _ ⟨[], [.i32 5000], _⟩).result 1 = _
    rw [runs_get (v := .i32 5000) rfl]
    have := runs_call (bs := []) (args := [.i32 5000]) (st := []) (lo := [.i32 5000]) (s := exMemoStore.extend [exMemoTable] [] ([], c, lc.store)) hty rfl
    simp only [List.reverse_cons, List.reverse_nil, List.nil_append, List.cons_append] at this
    rw [this]
    simp only [envAt]
    rw [e3]
    rfl
  have hst : (exMemoStore.extend [exMemoTable] [] (([], c, l.store) : World (List RVal) MemoState)).setLib lc.store = exMemoStore.extend [exMemoTable] [] (([], c, lc.store) : World (List RVal) MemoState) := rfl
  rw [hst, if_pos (by omega), show d + 8 - 2 = d + 6 by omega, show ([Val.i32 5000].map RVal.num) = [RVal.i32 5000] from rfl, ein] at hm
  have hm2 := hm [.i32 (5000 * 5000)] l3 rfl rfl rfl ok3 f3
  have hsk := small_skips (show (c).cache.length ≠ 1024 by omega)
  have hins : MemoState.insert { c with cache := (c).cache ++ [(memoKey 1 [.i32 5000], [.i32 (5000 * 5000)])] } (memoKey 2 [.i32 5000]) [.i32 (5000 * 5000)] = none := by
    unfold MemoState.insert
    rw [if_neg, if_pos]
    · simp [hlen, cacheCapacity]
    · have : MemoState.find { c with cache := (c).cache ++ [(memoKey 1 [.i32 5000], [.i32 (5000 * 5000)])] } (memoKey 2 [.i32 5000]) = none := by
        unfold MemoState.find at hfind ⊢
        rw [List.lookup_append, hfind]
        decide +kernel
      rw [this]
      simp
  dsimp only at hm2
  have hc2 : (exMemoStore.extend [exMemoTable] [] (([], c, l.store) : World (List RVal) MemoState)).world.2.1 = c := rfl
  have hc1 : ∀ c, (exMemoStore.extend [exMemoTable] [] (([], c, l3.store) : World (List RVal) MemoState)).world.2.1 = c := fun _ => rfl
  rw [hc2, hsk, hc1, hins] at hm2
  obtain ⟨l4, e4⟩ := hm2
  exact ⟨_, e4⟩

end

/-- C55, the exception. Both `square` and `via` are reported as pure, and both are memoised. In the original, calling `square` with 0 to 1022 and then
`via` with 5000 returns every time. In the memoised program, starting with an empty cache, the last call traps — whatever the bounds `L` on loops and `d ≥ 10`
on calls: while `via` runs, `square(5000)` takes the last place in the cache, and `cache_insert` panics (`lib.rs` 64-69). -/
theorem C55_cache_overflow_traps : ∃ base : Nat, (∃ f, (exMemoised [1, 2]).module.functions[base]? = some f ∧ f.exports = [interfaceGenericApply.2.name]) ∧
    ∀ L d, 10 ≤ d →
      runAll (callF exNum (machineOf exImports exMemo.functions) L d) overflowing exMemoStore = .ok [] exMemoStore ∧
      ∃ s1, runAll (callF exNum (machineOf (exMemoHost base) (exMemoised [1, 2]).module.functions) L d) overflowing
        (exMemoStore.extend [exMemoTable] [] ([], ⟨[], 0⟩, exLib.store)) = .trap s1 := by
  obtain ⟨order, fs, sigs, hooks, copy, hA⟩ := applied exMemo_small exMemoised_both rfl
  have hsigs : sigs = exMemoLink.sigs := by
    have := hA.sigs_eq
    rw [show (exMemoised [1, 2]).librarySignatures = some exMemoLink.sigs by decide +kernel] at this
    exact (Option.some.inj this).symm
  subst hsigs
  have hfs := hookless exMemo_small (fun _ => rfl) hA
  subst hfs
  refine ⟨copy + 2 * order.length, ⟨_, hA.at.callBase, rfl⟩, ?_⟩
  intro L d hd
  obtain ⟨d, rfl⟩ : ∃ e, d = e + 10 := ⟨d - 10, by omega⟩
  constructor
  · unfold overflowing
    generalize List.range 1023 = ks
    induction ks with
    | nil => rfl
    | cons k ks ih => exact ih
  · have hsq : ∀ n ≤ 1023, ∃ l : Lib, l.Ok ∧ l.free = 0 ∧ l.mem.limit = 16 ∧ l.mem.pages < 65536 ∧
        runAll (callF exNum (machineOf (exMemoHost (copy + 2 * order.length)) (exMemoised [1, 2]).module.functions) L (d + 10)) ((List.range n).map fun k => (1, [.i32 (BitVec.ofNat 32 k)]))
          (exMemoStore.extend [exMemoTable] [] ([], ⟨[], 0⟩, exLib.store)) = .ok [] (exMemoStore.extend [exMemoTable] [] ([], squares n, l.store)) := by
      intro n
      induction n with
      | zero => intro _; exact ⟨exLib, exLib_ok, rfl, rfl, by decide, rfl⟩
      | succ n ih =>
        intro hn
        obtain ⟨l, ok, hf, hl, hp, e⟩ := ih (by omega)
        obtain ⟨l3, e3, ok3, f3, m3, p3⟩ := square_miss (L := L) hA (BitVec.ofNat 32 n) [] (c := squares n) (by simp [squares]; omega)
          (squares_find (by omega) (.inr (by rw [BitVec.toNat_ofNat, Nat.mod_eq_of_lt (by omega)]; exact Nat.le_refl _)) (by omega)) ok (by rw [hf, hl]; decide) hp (d := d + 10) (by omega)
        refine ⟨l3, ok3, by rw [f3, hf], by rw [m3, hl], p3, ?_⟩
        rw [List.range_succ, List.map_append, runAll_append _ _ _ _ _ e]
        simp only [List.map_cons, List.map_nil, runAll]
        rw [e3]
        simp only [squares, List.range_succ, List.map_append, List.map_cons, List.map_nil]
    obtain ⟨l, ok, hf, hl, hp, e⟩ := hsq 1023 (by omega)
    unfold overflowing
    rw [runAll_append _ _ _ _ _ e]
    simp only [runAll]
    obtain ⟨s1, e1⟩ := via_overflow (L := L) hA (c := squares 1023) (by simp [squares]) (squares_find (by omega) (.inr (by decide)) (by omega)) (squares_find (by omega) (.inl (by omega)) (by omega)) ok hf hl hp d
    exact ⟨s1, by rw [e1]⟩

/-! ## The cache is used, and then not -/

theorem exMemoised_base {k : Nat} {f : Func} (h : (exMemoised [1, 2]).module.functions[k]? = some f) (he : f.exports = [interfaceGenericApply.2.name]) : k = 18 := by
  have all : ∀ k < (exMemoised [1, 2]).module.functions.length, ((exMemoised [1, 2]).module.functions[k]?.map (·.exports)) = some [interfaceGenericApply.2.name] → k = 18 := by
    decide +kernel
  exact all k (List.getElem?_eq_some_iff.1 h).1 (by rw [h, Option.map_some, he])

-- C56: all hypotheses hold of the example; the second `square(5)` is a hit.
example : ∃ c1 l1 l2, callF exNum (machineOf (exMemoHost 18) (exMemoised [1, 2]).module.functions) 10 7 1 [.i32 5] (exMemoStore.extend [exMemoTable] [] ([], ⟨[], 0⟩, exLib.store)) =
      .ok [.i32 25] (exMemoStore.extend [exMemoTable] [] ([], c1, Lib.store l1)) ∧
    callF exNum (machineOf (exMemoHost 18) (exMemoised [1, 2]).module.functions) 10 2 1 [.i32 5] (exMemoStore.extend [exMemoTable] [] ([], c1, Lib.store l1)) =
      .ok [.i32 25] (exMemoStore.extend [exMemoTable] [] ([], { c1 with hits := 1 }, Lib.store l2)) := by
  obtain ⟨order, fs, sigs, hooks, copy, hA⟩ := applied exMemo_small exMemoised_both rfl
  have hsigs : sigs = exMemoLink.sigs := by
    have := hA.sigs_eq
    rw [show (exMemoised [1, 2]).librarySignatures = some exMemoLink.sigs by decide +kernel] at this
    exact (Option.some.inj this).symm
  subst hsigs
  have hfs := hookless exMemo_small (fun _ => rfl) hA
  subst hfs
  obtain ⟨l1, e1, _⟩ := square_miss (L := 10) hA 5 [] (c := ⟨[], 0⟩) (by simp) rfl exLib_ok (by decide) (by decide) (d := 7) (by omega)
  rw [exMemoised_base hA.at.callBase rfl] at e1
  obtain ⟨base, ⟨f, hf, hfe⟩, h⟩ := C56_repeated_call_is_a_hit exMemo_small exMemoIface_standard exMemoised_both rfl (fun _ => rfl) exMemo_valid exMemo_pure
    (by rw [exMemo_targets.1]; simp)
  cases exMemoised_base hf hfe
  obtain ⟨c2, l2, e2, h2⟩ := h _ _ _ _ _ _ _ _ (exMemoHost_memoizing (by decide +kernel) exMemoTable 18) 10 1 (by rw [exMemo_targets.1]; simp) _ [.i32 5] exMemoStore ⟨[], 0⟩ exLib rfl
    (by decide) (by decide) (ValsOK.nil.cons rfl (by simp [RVal.OK])) exMemoStore_ok (.empty _ _ _ _) (by simp) exLib_ok (by decide) (exMemoised_intact _ rfl _) 7 (by decide) (by decide) _ _ e1
  have hc := congrArg (fun s : Store (World (List RVal) MemoState) => s.world.2.1) e2
  dsimp only [Store.extend] at hc
  subst hc
  obtain ⟨l3, e3⟩ := h2 (by simp)
  exact ⟨_, l1, l3, e1, e3⟩

-- C56: and with a full cache (which has `square(5)` in it), `square(5)` is computed anew.
example : ∃ base, ∃ l1 : Lib, callF exNum (machineOf (exMemoHost base) (exMemoised [1, 2]).module.functions) 10 6 1 [.i32 5] (exMemoStore.extend [exMemoTable] [] ([], squares 1024, exLib.store)) =
      .ok [.i32 25] (exMemoStore.extend [exMemoTable] [] ([], squares 1024, l1.store)) := by
  obtain ⟨base, _, h⟩ := C56_full_cache_is_unused exMemo_small exMemoIface_standard exMemoised_both rfl (fun _ => rfl) exMemo_valid
  obtain ⟨l1, e⟩ := (h _ _ _ _ _ _ _ _ (exMemoHost_memoizing (by decide +kernel) exMemoTable base) 10 1 _ [.i32 5] exMemoStore (squares 1024) exLib rfl
    (ValsOK.nil.cons rfl (by simp [RVal.OK])) exMemoStore_ok (by simp [squares]) exLib_ok (by decide) (exMemoised_intact _ rfl _) 1 (by decide) (by decide)).1 [.i32 25] exMemoStore (by cbv)
  exact ⟨base, l1, e⟩

/-! ### A function with eleven parameters -/

def exWideType : FuncType := ⟨List.replicate 11 .i32, [.i32]⟩

/-- A function that adds the first and the last of its eleven parameters. -/
def exWide : Module where
  functions := [⟨exWideType, .present ⟨[], [.loc .get 0, .loc .get 10, .binary .i32Add, .fin]⟩, ["ends"]⟩]
  tables := []
  elements := []
  memories := []
  globals := []
  datas := []
  start := none

theorem exWide_small : SmallModule exWide where
  functions := by decide
  arity := by decide
  length := by
    simp only [exWide, List.mem_cons, List.not_mem_nil, or_false, forall_eq]
    simp
  body := by
    simp only [exWide, List.mem_cons, List.not_mem_nil, or_false, forall_eq]
    simp [LInstr.Small]

theorem exWide_valid : ValidModule exWide where
  functions := by
    intro f hf c hc
    simp only [exWide, List.mem_cons, List.not_mem_nil, or_false] at hf
    subst hf
    simp only [FuncCode.present.injEq] at hc; subst hc
    refine .straight (bs := [.loc .get 0, .loc .get 10, .binary .i32Add]) rfl ?_
    exact .cons (.basic ⟨.i32, rfl, [], rfl, rfl⟩) (.cons (.basic ⟨.i32, rfl, _, rfl, rfl⟩) (.ofBasic ⟨[], rfl, rfl⟩))
  elements := by simp [exWide]
  start := by simp [exWide]
  exports := by decide +kernel

def exWideMemoised : Instrumented := ((instrument exChecker id id exMemoIface none exWide).toOption).getD ⟨exWide, none⟩

theorem exWide_instruments : Instruments exChecker exMemoIface none exWide exWideMemoised := by
  have h : (match instrument exChecker id id exMemoIface none exWide with | .ok _ => true | .error _ => false) = true := by decide +kernel
  refine ⟨id, id, fun _ => .rfl, fun _ => .rfl, ?_⟩
  unfold exWideMemoised
  split at h
  · rename_i r hr; rw [hr]; rfl
  · simp at h

def exWideLink : LibLink := ⟨libNum, [exWideType], 65537, 5⟩

def exWideHost (base : Nat) : Imports (World (List RVal) MemoState) := fun ns name =>
  if ns = stackModule then libHost exWideLink.N exWideLink.sigs exWideLink.L exWideLink.d name
  else if ns = analysisModule then memoHost exWideLink base
  else exImports.besideTool 0 0 ns name

def exWideTable : Table := ⟨.funcRef, [some 32], 1⟩

theorem exWideHost_memoizing (base : Nat) :
    Memoizing exChecker exMemoIface none exWide exWideMemoised interfaceGenericApply.1 exWideLink exNum base [exWideTable] [] 144 exImports (exWideHost base) where
  sigs := by decide +kernel
  small := by
    intro t ht
    simp only [exWideLink, List.mem_singleton] at ht
    subst ht
    decide
  good := ⟨libNum_stack, by decide, by decide⟩
  lib := fun name => rfl
  memo := rfl
  imports := by
    refine .plain _ _ fun f hf ns name hc => ?_
    simp only [exWide, List.mem_cons, List.not_mem_nil, or_false] at hf
    subst hf
    cases hc
  steady := by
    intro f hf ns name hc
    exact Steady.plain fun _ _ => rfl
  frame := by
    intro t ht
    simp only [exWideLink, List.mem_singleton] at ht
    subst ht
    decide

theorem exWide_storeOK : StoreOK exWide.ctx exMemoStore where
  globals := .nil
  mems := rfl
  tables := rfl
  tableElems := by simp [exMemoStore]
  datas := rfl
  elems := rfl
  elemElems := by simp [exMemoStore]
  pages := by simp [exMemoStore]

theorem exWide_intact (s : Store (List RVal)) (hs : s.tables = []) (w : World (List RVal) MemoState) :
    SegmentsIntact exWide exWideMemoised (s.extend [exWideTable] [] w) := by
  have h : exWideMemoised.module.elements = [⟨.funcRef, [[.refFunc 32, .fin]], .active 0 [.const (.i32 0), .fin]⟩] := by
    decide +kernel
  rw [SegmentsIntact, h]
  intro el hel tbl hm k f hk
  simp only [exWide, List.length_nil, List.drop_zero, List.mem_singleton] at hel
  subst hel
  cases hm
  refine ⟨exWideTable, by simp [Store.extend, hs], ?_⟩
  dsimp only [exWideTable] at hk ⊢
  match k with
  | 0 => simpa using hk
  | k + 1 => simp at hk

-- C56: a call of the function with eleven parameters is not stored.
example : ∃ base, ∃ l1 : Lib, callF exNum (machineOf (exWideHost base) exWideMemoised.module.functions) 10 6 0 ((List.range 11).map fun k => .i32 (BitVec.ofNat 32 k))
        (exMemoStore.extend [exWideTable] [] ([], ⟨[], 0⟩, exLib.store)) =
      .ok [.i32 10] (exMemoStore.extend [exWideTable] [] ([], ⟨[], 0⟩, l1.store)) := by
  obtain ⟨base, _, h⟩ := C56_wide_functions_are_not_cached exWide_small exMemoIface_standard exWide_instruments rfl (fun _ => rfl) exWide_valid
    (fun i hi f hf => by
      have := List.mem_of_getElem? hf
      simp only [exWide, List.mem_singleton] at this
      subst this
      exact .inl (by decide))
  obtain ⟨l1, e⟩ := (h _ _ _ _ _ _ _ _ (exWideHost_memoizing base) 10 0 _ ((List.range 11).map fun k => .i32 (BitVec.ofNat 32 k)) exMemoStore ⟨[], 0⟩ exLib rfl
    ⟨by decide, by simp [RVal.OK, RVal.i32]⟩ exWide_storeOK exLib_ok (by decide) (exWide_intact _ rfl _) 1 (by decide) (by decide)).1 [.i32 10] exMemoStore (by cbv)
  exact ⟨base, l1, e⟩

end Wastrum
