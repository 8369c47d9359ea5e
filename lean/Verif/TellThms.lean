import Verif.TellTrack
/-!
# Analyses that watch instructions and calls (C76)
-/

set_option linter.unusedSimpArgs false
set_option linter.unusedVariables false

namespace Wastrum

variable {W A : Type}

/-! ## The story -/

/-- C76, what the story is. Running the original program with its story being noted changes nothing about the run: results, traps and state are those
of the program. The instructions of the story, in order, are those of the program's trace (C11), and everything in the story can be presented to an
analysis, whatever its hooks. -/
theorem C76_story_is_of_the_program {C iface ts m r} (hs : SmallModule m) (hi : Instruments C iface ts m r) (hv : ValidModule m)
    (hB : ∀ i ∈ bodyTargets m ts, ∀ f, m.functions[i]? = some f → WellAnnotated m f (bodyOf C m i)) {N : Num} {H : Imports W} {T : Imports (W × Log)} {G : Imports (W × Story)}
    (hI : ImportsAgree m (fun (p : W × Log) w => p.1 = w) T H) (hG : ImportsBeside m T G)
    {f : Nat} {ty : FuncType} {args : List RVal} {s : Store W} (hf : m.ctx.ftype f = some ty) (hargs : ValsOK m.ctx args ty.inputs) (hok : StoreOK m.ctx s) (L d : Nat) :
    ∃ st : Story, toldCall C m (bodyTargets m ts) (applyTargets m ts) G N L d f args (s.withAnalysis []) = (callF N (machineOf H m.functions) L d f args s).withAnalysis st ∧
      callF N (traced C m (bodyTargets m ts) T logEvent) L d f args (s.withAnalysis []) = (callF N (machineOf H m.functions) L d f args s).withAnalysis st.instrs ∧
      ∀ iface' : Interface, ∃ tales, iface'.Tells st tales := by
  obtain ⟨log, hlog⟩ := C11_traced_program_is_the_program (instruments_raises hs hi) hv hB hI hf hargs hok [] L d (N := N)
  have hrf : ∀ i ∈ applyTargets m ts, ∀ f, m.functions[i]? = some f → f.type.RefFree := by
    intro i hi f hf
    obtain ⟨f', hf', hu, _⟩ := mem_applyTargets.1 hi
    rw [hf, Option.some.injEq] at hf'
    subst hf'
    exact usesReferenceTypes_false.1 hu
  have k := traced_told (C := C) hv hB hrf hG (N := N) (L := L) d f ty args (s.withAnalysis []) (s.withAnalysis []) hf hargs ((SameState.iff (Q := fun (p : W × Log) (q : W × Story) => p.1 = q.1 ∧ SameRun p.2 q.2)).2
    ⟨hok.world rfl rfl rfl rfl rfl, ⟨rfl, rfl, fun n hn => by cases hn⟩, rfl, rfl, rfl, rfl, rfl⟩)
  rw [hlog] at k ⊢
  generalize callF N (machineOf H m.functions) L d f args s = o at k ⊢
  generalize toldCall C m (bodyTargets m ts) (applyTargets m ts) G N L d f args (s.withAnalysis []) = o1 at k ⊢
  cases k' : o with
  | ok vs s1 =>
    subst k'
    cases k with
    | ok hv hS =>
      obtain ⟨p, l, st, e1, rfl, h1, h2⟩ := watched_state hS
      obtain ⟨rfl, rfl⟩ := withAnalysis_inj e1
      subst h1
      exact ⟨st, rfl, rfl, fun iface' => h2.tales iface'⟩
    | fuelR h => cases h
    | trapR h => exact absurd h id
  | trap s1 =>
    subst k'
    cases k with
    | trap hS =>
      obtain ⟨p, l, st, e1, rfl, h1, h2⟩ := watched_state hS
      obtain ⟨rfl, rfl⟩ := withAnalysis_inj e1
      subst h1
      exact ⟨st, rfl, rfl, fun iface' => h2.tales iface'⟩
    | fuelR h => cases h
    | trapL h => cases h
    | trapT h => exact absurd h id
    | trapR h => exact absurd h id
  | stuck =>
    subst k'
    cases k with
    | fuelR h => cases h
    | trapR h => exact absurd h id
  | fuel =>
    subst k'
    cases k with
    | fuel => exact ⟨[], rfl, rfl, fun iface' => ⟨[], rfl⟩⟩
    | fuelL h => cases h
    | fuelR h => cases h
    | trapR h => exact absurd h id

/-- C76, how the story is built up. When a call ends normally, the calls noted in the story are properly nested: every function entered has been left,
and what happened in between is properly nested. When it traps, the story is the beginning of such a story. -/
theorem C76_calls_nest {C m targets intercepted} {G : Imports (W × Story)} (hG : LeavesLog m G) {N : Num} {L d f : Nat} {args : List RVal} {s : Store W} :
    (∀ vs (s1 : Store W) (st : Story), toldCall C m targets intercepted G N L d f args (s.withAnalysis []) = .ok vs (s1.withAnalysis st) → st.Nested) ∧
    (∀ (s1 : Store W) (st : Story), toldCall C m targets intercepted G N L d f args (s.withAnalysis []) = .trap (s1.withAnalysis st) → ∃ rest, Story.Nested (st ++ rest)) := by
  have k := told_nested (C := C) (targets := targets) (intercepted := intercepted) hG N L d f args (s.withAnalysis [])
  refine ⟨?_, ?_⟩
  · intro vs s1 st h
    rw [h] at k
    obtain ⟨new, e, h⟩ := k
    simp only [Store.withAnalysis, List.nil_append] at e
    rw [e]; exact h
  · intro s1 st h
    rw [h] at k
    obtain ⟨new, e, h⟩ := k
    simp only [Store.withAnalysis, List.nil_append] at e
    rw [e]; exact h

/-! ## What the analysis learns -/

/-- The two executions in step, in both directions. -/
theorem telling_agrees {C iface ts m r ge cb} (hs : SmallModule m) (hst : iface.Standard) (hsa : iface.StandardApply) (h : Instruments C iface ts m r)
    (hg : iface.generic = some (ge, cb)) (hv : ValidModule m)
    (hB : ∀ i ∈ bodyTargets m ts, ∀ f, m.functions[i]? = some f → WellAnnotated m f (bodyOf C m i)) (hres : ∀ name ∈ iface.toolExports, name ∉ m.exportNames) :
    ∃ base : Nat, (∃ f, r.module.functions[base]? = some f ∧ f.exports = [cb.name]) ∧
      ∀ (exact : Bool), (∀ i ∈ bodyTargets m ts, ∀ f c, m.functions[i]? = some f → f.code = .present c →
        OnlyCode (OffsetsAre iface (fun o => o.toNat < 2 ^ 31 ∧ (exact = true → o = 0))) c.body) →
      ∀ (W A : Type) (K : LibLink) (N : Num) (T : List Table) (X : List (RefType × List (Option Nat))) (B : Nat) (w : CallWatcher A) (G : Imports (W × Story)) (H : Imports (World W A)),
        CallHearing iface ts m r ge K base T X B N w G H → (exact = true → ∀ a x, w.after a x = some x) →
        ∀ (f : Nat) (ty : FuncType) (args : List RVal) (s : Store W) (a : A) (l : Lib),
          m.ctx.ftype f = some ty → ValsOK m.ctx args ty.inputs → StoreOK m.ctx s →
          l.Ok → l.mem.pages < 65536 → SegmentsIntact m r (s.extend T X (s.world, a, l.store)) →
        ∀ (ρ : Story → Prop) (pn : Prop), Panics iface w a ρ pn →
        ∀ (L d : Nat), l.free + d * B ≤ l.mem.limit * 65536 → l.free + d * B ≤ 65535 * 65536 →
          (toldAt m.ctx T X (Knows iface w a) l.free l.mem.limit l.mem.bytes pn true false (!exact)).Ress m.ctx ty.results
            (heldCall ρ C m (bodyTargets m ts) (applyTargets m ts) G N L d f args (s.withAnalysis []))
            (callF N (machineOf H r.module.functions) L (5 * d + 2) f args (s.extend T X (s.world, a, l.store))) ∧
          ((∀ st, ρ st) → (toldAt m.ctx T X (Knows iface w a) l.free l.mem.limit l.mem.bytes pn false true (!exact)).Ress m.ctx ty.results
            (heldCall ρ C m (bodyTargets m ts) (applyTargets m ts) G N L d f args (s.withAnalysis []))
            (callF N (machineOf H r.module.functions) L d f args (s.extend T X (s.world, a, l.store)))) := by
  obtain ⟨order, fs, sigs, hooks, copy, hA⟩ := applied hs h hg
  have hstd := hsa ge cb hg
  have hn := (C15_instrumented_module_valid hs hst hsa h hv hB hres).exports
  refine ⟨copy + 2 * order.length, ⟨_, hA.at.callBase, rfl⟩, ?_⟩
  intro exact hoff W A K N T X B w G H hR hq f ty args s a l hf ha hok ok hpg hseg ρ pn hpn L d hc1 hc2
  have hsigs : sigs = K.sigs := by have := hA.sigs_eq; rw [hR.sigs] at this; exact (Option.some.inj this).symm
  subst hsigs
  have hsz : order.length < 2 ^ 32 := by
    have := hA.count
    have := hs.functions
    omega
  have hseg' : ∀ s : Store (World W A), s.tables[m.tables.length]? = T[0]? → SegmentsIntact m r s := by
    intro s2 e
    refine intact_of hA hseg ?_
    rw [e]
    have hl := tables_length hok
    simp only [Store.extend]
    rw [List.getElem?_append_right (by omega)]
    simp [hl]
  have hS : ∀ fl fr, (toldAt m.ctx T X (Knows iface w a) l.free l.mem.limit l.mem.bytes pn fl fr (!exact)).S (s.withAnalysis []) (s.extend T X (s.world, a, l.store)) :=
    fun fl fr => ⟨hok.world rfl rfl rfl rfl rfl, (s.world, a, l.store), ⟨rfl, ⟨[], rfl, rfl⟩, l, rfl, ok, rfl, rfl, hpg, fun _ _ => rfl⟩, rfl⟩
  exact ⟨held_forward (L := L) hs hst h hn hA ⟨hstd.1, hstd.2.1⟩ ⟨hstd.2.2.1, hstd.2.2.2.1⟩ hsz hv hB hoff hq hR hpn hseg' (M := l.mem.limit) d (5 * d + 2) l.free _ (Nat.le_refl _) hc1 hc2
      f ty args _ _ hf ha (hS _ _),
    fun hρ => held_backward (L := L) hs hst h hn hA ⟨hstd.1, hstd.2.1⟩ ⟨hstd.2.2.1, hstd.2.2.2.1⟩ hsz hv hB hoff hq hR hpn (.inr hρ) hseg' (M := l.mem.limit) d d l.free _ (Nat.le_refl _) hc1 hc2
      f ty args _ _ hf ha (hS _ _)⟩

/-- Related states, spelled out. -/
theorem toldAt_unS {Γ : Ctx} {T X} {iface : Interface} {w : CallWatcher A} {a : A} {l : Lib} {pn : Prop} {fl fr tl : Bool} {s1 : Store (W × Story)} {s1' : Store (World W A)}
    (h : (toldAt Γ T X (Knows iface w a) l.free l.mem.limit l.mem.bytes pn fl fr tl).S s1 s1') :
    ∃ (p : Store W) (st : Story) (tales : List Tale) (a1 : A) (l1 : Lib), s1 = p.withAnalysis st ∧ s1' = p.extend T X (p.world, a1, l1.store) ∧ iface.Tells st tales ∧
      w.hear tales a = some a1 ∧ Lib.Ok l1 ∧ l1.free = l.free ∧ l1.mem.limit = l.mem.limit := by
  obtain ⟨_, ⟨w', a1, u⟩, ⟨e, ⟨tales, ht, hh⟩, l1, e1, ok1, h1, h2, _⟩, rfl⟩ := h
  dsimp only at e e1 ht hh
  subst e e1
  exact ⟨⟨s1.globals, s1.mems, s1.tables, s1.datas, s1.elems, s1.world.1⟩, s1.world.2, tales, a1, l1, rfl, rfl, ht, hh, ok1, h1, h2⟩

/-- States related after a trap, spelled out. -/
theorem toldAt_unT {Γ : Ctx} {T X} {iface : Interface} {w : CallWatcher A} {a : A} {l : Lib} {pn : Prop} {fl fr tl : Bool} {s1 : Store (W × Story)} {s1' : Store (World W A)}
    (h : (toldAt Γ T X (Knows iface w a) l.free l.mem.limit l.mem.bytes pn fl fr tl).T s1 s1') :
    ∃ (p : Store W) (st : Story) (tales : List Tale) (a1 : A) (u : Store Unit), s1 = p.withAnalysis st ∧ s1' = p.extend T X (p.world, a1, u) ∧ iface.Tells st tales ∧ w.hear tales a = some a1 := by
  obtain ⟨_, ⟨w', a1, u⟩, ⟨e, ⟨tales, ht, hh⟩⟩, rfl⟩ := h
  dsimp only at e ht hh
  subst e
  exact ⟨⟨s1.globals, s1.mems, s1.tables, s1.datas, s1.elems, s1.world.1⟩, s1.world.2, tales, a1, u, rfl, rfl, ht, hh⟩

/-- A program, its instrumented version and the analysis it runs with; what C76 assumes of them. -/
structure CallWatchable (C : Checker) (iface : Interface) (ts : Option (List Nat)) (m : Module) (r : Instrumented) (ge : WasmExport) (cb : WasmImport) : Prop where
  small : SmallModule m
  documented : iface.Documented
  standardApply : iface.StandardApply
  instruments : Instruments C iface ts m r
  generic : iface.generic = some (ge, cb)
  valid : ValidModule m
  annotated : ∀ i ∈ bodyTargets m ts, ∀ f, m.functions[i]? = some f → WellAnnotated m f (bodyOf C m i)
  reserved : ∀ name ∈ iface.toolExports, name ∉ m.exportNames

/-- C76: analyses written with the Rust library, whose hooks are the library's and whose `apply` advice is the library's around `pre`, `func.apply()` and
`post`, are analyses the theorems below are about. -/
theorem C76_rust_analysis_qualifies {C iface ts m r ge cb} (hP : CallWatchable C iface ts m r ge cb) {K : LibLink} {base : Nat} {T : List Table} {X : List (RefType × List (Option Nat))} {B : Nat}
    {N : Num} {w : CallWatcher A} {G : Imports (W × Story)} {H : Imports (World W A)} (hR : CallWatching iface ts m r ge K base T X B N w G H) :
    CallHearing iface ts m r ge K base T X B N w G H :=
  hR.hearing hP.small hP.documented hP.instruments

/-- C76, for analyses that never panic and record before they perform. Let a valid program be instrumented by an analysis that
watches instructions and whose `apply` advice records, resumes the call and records; linked with it and the stack library generated for it. The
instrumented program does what the original does — results, traps and state — and at the end the analysis is in the state that results from telling it,
in order, the story of the original program: instructions reached, functions entered with their arguments, functions left with their arguments and results. The stack
allocator is back where it was. Conversely, what the instrumented program does, the original does. Provisos: static offsets of loads and stores that go
through the analysis are 0 (C48), and the library's memory has room for `d` nested frames of at most `B` bytes. -/
theorem C76_analysis_hears_the_story {C iface ts m r ge cb} (hP : CallWatchable C iface ts m r ge cb)
    (hoff : ∀ i ∈ bodyTargets m ts, ∀ f c, m.functions[i]? = some f → f.code = .present c → OnlyCode (OffsetsAre iface fun o => o = 0) c.body) :
    ∃ base : Nat, (∃ f, r.module.functions[base]? = some f ∧ f.exports = [cb.name]) ∧
      ∀ (W A : Type) (K : LibLink) (N : Num) (T : List Table) (X : List (RefType × List (Option Nat))) (B : Nat) (w : CallWatcher A) (G : Imports (W × Story)) (H : Imports (World W A)),
        CallHearing iface ts m r ge K base T X B N w G H → (∀ a x, w.after a x = some x) → (∀ t x, w.tell t x ≠ none) →
        ∀ (f : Nat) (ty : FuncType) (args : List RVal) (s : Store W) (a : A) (l : Lib),
          m.ctx.ftype f = some ty → ValsOK m.ctx args ty.inputs → StoreOK m.ctx s →
          l.Ok → l.mem.pages < 65536 → SegmentsIntact m r (s.extend T X (s.world, a, l.store)) →
        ∀ (L d : Nat), l.free + d * B ≤ l.mem.limit * 65536 → l.free + d * B ≤ 65535 * 65536 →
          let told := toldCall C m (bodyTargets m ts) (applyTargets m ts) G N L d f args (s.withAnalysis [])
          let instrumented := fun D => callF N (machineOf H r.module.functions) L D f args (s.extend T X (s.world, a, l.store))
          (∀ vs (s1 : Store W) (st : Story), told = .ok vs (s1.withAnalysis st) → ∃ tales a1 l1, iface.Tells st tales ∧ w.hear tales a = some a1 ∧
            instrumented (5 * d + 2) = .ok vs (s1.extend T X (s1.world, a1, l1.store)) ∧ Lib.Ok l1 ∧ l1.free = l.free ∧ l1.mem.limit = l.mem.limit) ∧
          (∀ (s1 : Store W) (st : Story), told = .trap (s1.withAnalysis st) → ∃ tales a1 u, iface.Tells st tales ∧ w.hear tales a = some a1 ∧
            instrumented (5 * d + 2) = .trap (s1.extend T X (s1.world, a1, u))) ∧
          (∀ vs s1', instrumented d = .ok vs s1' → ∃ (s1 : Store W) (st : Story) (tales : List Tale) (a1 : A) (l1 : Lib), told = .ok vs (s1.withAnalysis st) ∧ iface.Tells st tales ∧ w.hear tales a = some a1 ∧
            s1' = s1.extend T X (s1.world, a1, l1.store) ∧ Lib.Ok l1 ∧ l1.free = l.free ∧ l1.mem.limit = l.mem.limit) ∧
          (∀ s1', instrumented d = .trap s1' → ∃ (s1 : Store W) (st : Story) (tales : List Tale) (a1 : A) (u : Store Unit), told = .trap (s1.withAnalysis st) ∧ iface.Tells st tales ∧ w.hear tales a = some a1 ∧
            s1' = s1.extend T X (s1.world, a1, u)) ∧
          told ≠ .stuck ∧ instrumented d ≠ .stuck := by
  obtain ⟨base, hb, hall⟩ := telling_agrees hP.small hP.documented.standard hP.standardApply hP.instruments hP.generic hP.valid hP.annotated hP.reserved
  have hoff' : ∀ i ∈ bodyTargets m ts, ∀ f c, m.functions[i]? = some f → f.code = .present c →
      OnlyCode (OffsetsAre iface (fun o => o.toNat < 2 ^ 31 ∧ (true = true → o = 0))) c.body := by
    intro i hi f c hf hc b hb t k info hd ht
    have := hoff i hi f c hf hc b hb t k info hd ht
    cases b <;> first | trivial | (simp only at this ⊢; rw [this]; exact ⟨by decide, fun _ => rfl⟩)
  refine ⟨base, hb, ?_⟩
  intro W A K N T X B w G H hR hq hnp f ty args s a l hf ha hok ok hpg hseg L d hc1 hc2 told instrumented
  obtain ⟨k1, k2⟩ := hall true hoff' W A K N T X B w G H hR (fun _ => hq) f ty args s a l hf ha hok ok hpg hseg (fun _ => True) False
    (fun st x n t _ _ _ _ h => absurd h (hnp t x)) L d hc1 hc2
  have k2 := k2 fun _ => trivial
  rw [heldCall_free] at k1 k2
  have e0 : toldCall C m (bodyTargets m ts) (applyTargets m ts) G N L d f args (s.withAnalysis []) = told := rfl
  have e1 : callF N (machineOf H r.module.functions) L (5 * d + 2) f args (s.extend T X (s.world, a, l.store)) = instrumented (5 * d + 2) := rfl
  have e2 : callF N (machineOf H r.module.functions) L d f args (s.extend T X (s.world, a, l.store)) = instrumented d := rfl
  rw [e0, e1] at k1
  rw [e0, e2] at k2
  generalize told = o at k1 k2 ⊢
  generalize instrumented (5 * d + 2) = o1 at k1 ⊢
  generalize instrumented d = o0 at k2 ⊢
  refine ⟨?_, ?_, ?_, ?_, ?_, ?_⟩
  · rintro vs s1 st rfl
    cases k1 with
    | ok hv hS1 =>
      obtain ⟨p, st', tales, a1, l1, e1, rfl, h⟩ := toldAt_unS hS1
      obtain ⟨rfl, rfl⟩ := withAnalysis_inj e1
      exact ⟨tales, a1, l1, h.1, h.2.1, rfl, h.2.2⟩
    | fuelR h => cases h
    | trapR h => exact absurd h id
  · rintro s1 st rfl
    cases k1 with
    | trap hS1 =>
      obtain ⟨p, st', tales, a1, l1, e1, rfl, h⟩ := toldAt_unS hS1
      obtain ⟨rfl, rfl⟩ := withAnalysis_inj e1
      exact ⟨tales, a1, _, h.1, h.2.1, rfl⟩
    | trapT hT =>
      obtain ⟨p, st', tales, a1, u, e1, rfl, h⟩ := toldAt_unT hT
      obtain ⟨rfl, rfl⟩ := withAnalysis_inj e1
      exact ⟨tales, a1, _, h.1, h.2, rfl⟩
    | trapL h => cases h
    | fuelR h => cases h
    | trapR h => exact absurd h id
  · rintro vs s1' rfl
    cases k2 with
    | ok hv hS1 =>
      obtain ⟨p, st', tales, a1, l1, rfl, rfl, h⟩ := toldAt_unS hS1
      exact ⟨p, st', tales, a1, l1, rfl, h.1, h.2.1, rfl, h.2.2⟩
    | fuelL h => cases h
    | trapL h => cases h
  · rintro s1' rfl
    cases k2 with
    | trap hS1 =>
      obtain ⟨p, st', tales, a1, l1, rfl, rfl, h⟩ := toldAt_unS hS1
      exact ⟨p, st', tales, a1, _, rfl, h.1, h.2.1, rfl⟩
    | trapT hT =>
      obtain ⟨p, st', tales, a1, u, rfl, rfl, h⟩ := toldAt_unT hT
      exact ⟨p, st', tales, a1, _, rfl, h.1, h.2, rfl⟩
    | trapL h => cases h
    | fuelL h => cases h
    | trapR h => exact absurd h id
  · rintro rfl
    cases k1 with
    | fuelR h => cases h
    | trapR h => exact absurd h id
  · rintro rfl
    cases k2 with
    | fuelL h => cases h
    | trapL h => cases h

/-- Analyses that may panic, in both versions. -/
theorem panicking_agrees {C iface ts m r ge cb} (hP : CallWatchable C iface ts m r ge cb) (exact : Bool)
    (hoff : ∀ i ∈ bodyTargets m ts, ∀ f c, m.functions[i]? = some f → f.code = .present c → OnlyCode (OffsetsAre iface (fun o => o.toNat < 2 ^ 31 ∧ (exact = true → o = 0))) c.body) :
    ∃ base : Nat, (∃ f, r.module.functions[base]? = some f ∧ f.exports = [cb.name]) ∧
      ∀ (W A : Type) (K : LibLink) (N : Num) (T : List Table) (X : List (RefType × List (Option Nat))) (B : Nat) (w : CallWatcher A) (G : Imports (W × Story)) (H : Imports (World W A)),
        CallHearing iface ts m r ge K base T X B N w G H → (exact = true → ∀ a x, w.after a x = some x) → LeavesLog m G → PassesCuts m G →
        ∀ (f : Nat) (ty : FuncType) (args : List RVal) (s : Store W) (a : A) (l : Lib),
          m.ctx.ftype f = some ty → ValsOK m.ctx args ty.inputs → StoreOK m.ctx s →
          l.Ok → l.mem.pages < 65536 → SegmentsIntact m r (s.extend T X (s.world, a, l.store)) →
        ∀ (L d : Nat), l.free + d * B ≤ l.mem.limit * 65536 → l.free + d * B ≤ 65535 * 65536 →
          let told := toldCall C m (bodyTargets m ts) (applyTargets m ts) G N L d f args (s.withAnalysis [])
          let instrumented := fun D => callF N (machineOf H r.module.functions) L D f args (s.extend T X (s.world, a, l.store))
          (∀ vs (s1 : Store W) (st : Story) (tales : List Tale), told = .ok vs (s1.withAnalysis st) → iface.Tells st tales →
            (∀ a1, w.hear tales a = some a1 → ∃ l1, instrumented (5 * d + 2) = .ok vs (s1.extend T X (s1.world, a1, l1.store)) ∧ Lib.Ok l1 ∧ l1.free = l.free ∧ l1.mem.limit = l.mem.limit) ∧
            (w.hear tales a = none → ∃ s', instrumented (5 * d + 2) = .trap s')) ∧
          (exact = true → ∀ (s1 : Store W) (st : Story) (tales : List Tale), told = .trap (s1.withAnalysis st) → iface.Tells st tales →
            (∀ a1, w.hear tales a = some a1 → ∃ u, instrumented (5 * d + 2) = .trap (s1.extend T X (s1.world, a1, u))) ∧
            (w.hear tales a = none → ∃ s', instrumented (5 * d + 2) = .trap s')) ∧
          (∀ vs s1', instrumented d = .ok vs s1' →
            (∃ (s1 : Store W) (st : Story) (tales : List Tale) (a1 : A) (l1 : Lib), told = .ok vs (s1.withAnalysis st) ∧ iface.Tells st tales ∧ w.hear tales a = some a1 ∧
              s1' = s1.extend T X (s1.world, a1, l1.store) ∧ Lib.Ok l1 ∧ l1.free = l.free ∧ l1.mem.limit = l.mem.limit) ∨
            exact = false ∧ ∃ s1, told = .trap s1) := by
  obtain ⟨base, hb, hall⟩ := telling_agrees hP.small hP.documented.standard hP.standardApply hP.instruments hP.generic hP.valid hP.annotated hP.reserved
  refine ⟨base, hb, ?_⟩
  intro W A K N T X B w G H hR hq hG hC f ty args s a l hf ha hok ok hpg hseg L d hc1 hc2 told instrumented
  have hrun := hall exact hoff W A K N T X B w G H hR hq f ty args s a l hf ha hok ok hpg hseg
  obtain ⟨k1, k2⟩ := hrun (fun _ => True) True (fun _ _ _ _ _ _ _ _ _ => trivial) L d hc1 hc2
  have k2 := k2 fun _ => trivial
  have k3 := fun F => held_tracks (C := C) (targets := bodyTargets m ts) (intercepted := applyTargets m ts) hG hC F N L d
  have k4 := fun F hF => (hrun (· <+: F) False hF L d hc1 hc2).1
  rw [heldCall_free] at k1 k2
  have e0 : toldCall C m (bodyTargets m ts) (applyTargets m ts) G N L d f args (s.withAnalysis []) = told := rfl
  have e1 : callF N (machineOf H r.module.functions) L (5 * d + 2) f args (s.extend T X (s.world, a, l.store)) = instrumented (5 * d + 2) := rfl
  have e2 : callF N (machineOf H r.module.functions) L d f args (s.extend T X (s.world, a, l.store)) = instrumented d := rfl
  refine ⟨?_, ?_, ?_⟩
  · intro vs s1 st tales htold ht
    refine ⟨?_, ?_⟩
    · intro a1 hr
      have k5 := (k3 st).2 f args (s.withAnalysis [])
      rw [e0, htold] at k5
      have k6 := k4 st fun st' x n t hk hn htl hp hw => (hk.survives ht hr hn htl hp hw).elim
      rcases k5 with k5 | ⟨_, k5⟩
      · rw [k5, e1] at k6
        generalize instrumented (5 * d + 2) = o1 at k6 ⊢
        cases k6 with
        | ok hv hS1 =>
          obtain ⟨p, st', tales', a1', l1, e1, rfl, h⟩ := toldAt_unS hS1
          obtain ⟨rfl, rfl⟩ := withAnalysis_inj e1
          obtain rfl := tells_unique h.1 ht
          have := h.2.1
          rw [hr] at this
          cases this
          exact ⟨l1, rfl, h.2.2⟩
        | fuelR h => cases h
        | trapR h => exact absurd h id
      · exact absurd (List.prefix_refl _) k5
    · intro hr
      rw [e0, htold, e1] at k1
      generalize instrumented (5 * d + 2) = o1 at k1 ⊢
      cases k1 with
      | ok hv hS1 =>
        obtain ⟨p, st', tales', a1', l1, e1, rfl, h⟩ := toldAt_unS hS1
        obtain ⟨rfl, rfl⟩ := withAnalysis_inj e1
        obtain rfl := tells_unique h.1 ht
        have := h.2.1
        rw [hr] at this
        cases this
      | fuelR h => cases h
      | trapR h => exact ⟨_, rfl⟩
  · intro hex s1 st tales htold ht
    subst hex
    refine ⟨?_, ?_⟩
    · intro a1 hr
      have k5 := (k3 st).2 f args (s.withAnalysis [])
      rw [e0, htold] at k5
      have k6 := k4 st fun st' x n t hk hn htl hp hw => (hk.survives ht hr hn htl hp hw).elim
      rcases k5 with k5 | ⟨_, k5⟩
      · rw [k5, e1] at k6
        generalize instrumented (5 * d + 2) = o1 at k6 ⊢
        cases k6 with
        | trap hS1 =>
          obtain ⟨p, st', tales', a1', l1, e1, rfl, h⟩ := toldAt_unS hS1
          obtain ⟨rfl, rfl⟩ := withAnalysis_inj e1
          obtain rfl := tells_unique h.1 ht
          have := h.2.1
          rw [hr] at this
          cases this
          exact ⟨_, rfl⟩
        | trapT hT =>
          obtain ⟨p, st', tales', a1', u, e1, rfl, h⟩ := toldAt_unT hT
          obtain ⟨rfl, rfl⟩ := withAnalysis_inj e1
          obtain rfl := tells_unique h.1 ht
          have := h.2
          rw [hr] at this
          cases this
          exact ⟨_, rfl⟩
        | trapL h => cases h
        | fuelR h => cases h
        | trapR h => exact absurd h id
      · exact absurd (List.prefix_refl _) k5
    · intro hr
      rw [e0, htold, e1] at k1
      generalize instrumented (5 * d + 2) = o1 at k1 ⊢
      cases k1 with
      | trap hS1 => exact ⟨_, rfl⟩
      | trapT hT => exact ⟨_, rfl⟩
      | trapL h => cases h
      | fuelR h => cases h
      | trapR h => exact ⟨_, rfl⟩
  · intro vs s1' hi
    rw [e0, e2, hi] at k2
    generalize told = o at k2 ⊢
    cases k2 with
    | ok hv hS1 =>
      obtain ⟨p, st', tales, a1, l1, rfl, rfl, h⟩ := toldAt_unS hS1
      exact .inl ⟨p, st', tales, a1, l1, rfl, h.1, h.2.1, rfl, h.2.2⟩
    | fuelL h => cases h
    | trapL h => exact .inr ⟨by have h : (!exact) = true := h; simpa using h, _, rfl⟩

/-- C76, for analyses that may panic, and static offsets below 2^31. Let the original program end normally, with a story of which the analysis is told `tales`.
The instrumented program ends normally, with the same results and state and the stack allocator back where it was, if telling the analysis these tales
one by one, from its state `a`, does not make it panic — and then the analysis ends in the state this results in. Otherwise the instrumented program
traps. Conversely, if the instrumented program ends normally, the original does so too, and so it is with the analysis; or the original traps (it may
where the instrumented one does not, when an address plus offset exceeds 2^32: C19). -/
theorem C76_panics_exactly {C iface ts m r ge cb} (hP : CallWatchable C iface ts m r ge cb)
    (hoff : ∀ i ∈ bodyTargets m ts, ∀ f c, m.functions[i]? = some f → f.code = .present c → OnlyCode (OffsetsAre iface fun o => o.toNat < 2 ^ 31) c.body) :
    ∃ base : Nat, (∃ f, r.module.functions[base]? = some f ∧ f.exports = [cb.name]) ∧
      ∀ (W A : Type) (K : LibLink) (N : Num) (T : List Table) (X : List (RefType × List (Option Nat))) (B : Nat) (w : CallWatcher A) (G : Imports (W × Story)) (H : Imports (World W A)),
        CallHearing iface ts m r ge K base T X B N w G H → LeavesLog m G → PassesCuts m G →
        ∀ (f : Nat) (ty : FuncType) (args : List RVal) (s : Store W) (a : A) (l : Lib),
          m.ctx.ftype f = some ty → ValsOK m.ctx args ty.inputs → StoreOK m.ctx s →
          l.Ok → l.mem.pages < 65536 → SegmentsIntact m r (s.extend T X (s.world, a, l.store)) →
        ∀ (L d : Nat), l.free + d * B ≤ l.mem.limit * 65536 → l.free + d * B ≤ 65535 * 65536 →
          let told := toldCall C m (bodyTargets m ts) (applyTargets m ts) G N L d f args (s.withAnalysis [])
          let instrumented := fun D => callF N (machineOf H r.module.functions) L D f args (s.extend T X (s.world, a, l.store))
          (∀ vs (s1 : Store W) (st : Story) (tales : List Tale), told = .ok vs (s1.withAnalysis st) → iface.Tells st tales →
            (∀ a1, w.hear tales a = some a1 → ∃ l1, instrumented (5 * d + 2) = .ok vs (s1.extend T X (s1.world, a1, l1.store)) ∧ Lib.Ok l1 ∧ l1.free = l.free ∧ l1.mem.limit = l.mem.limit) ∧
            (w.hear tales a = none → ∃ s', instrumented (5 * d + 2) = .trap s')) ∧
          (∀ vs s1', instrumented d = .ok vs s1' →
            (∃ (s1 : Store W) (st : Story) (tales : List Tale) (a1 : A) (l1 : Lib), told = .ok vs (s1.withAnalysis st) ∧ iface.Tells st tales ∧ w.hear tales a = some a1 ∧
              s1' = s1.extend T X (s1.world, a1, l1.store) ∧ Lib.Ok l1 ∧ l1.free = l.free ∧ l1.mem.limit = l.mem.limit) ∨
            ∃ s1, told = .trap s1) := by
  obtain ⟨base, hb, h⟩ := panicking_agrees hP false fun i hi f c hf hc b hb t k info hd ht => by
    have := hoff i hi f c hf hc b hb t k info hd ht
    cases b <;> first | trivial | exact ⟨this, fun h => by cases h⟩
  refine ⟨base, hb, ?_⟩
  intro W A K N T X B w G H hR hG hC f ty args s a l hf ha hok ok hpg hseg L d hc1 hc2
  obtain ⟨h1, _, h3⟩ := h W A K N T X B w G H hR (fun h => by cases h) hG hC f ty args s a l hf ha hok ok hpg hseg L d hc1 hc2
  exact ⟨h1, fun vs s1' e => (h3 vs s1' e).imp id fun h => h.2⟩

/-- C76, for analyses that may panic but record before they perform, and static offsets 0. As `C76_panics_exactly`, and exact in the case of a trap too: let the original program end, normally or with a trap. The instrumented
program ends in the same way, with the same results and state, and the analysis in the state that telling it the story results in, if telling it the story does not make it panic; otherwise the
instrumented program traps. Conversely, if the instrumented program ends normally the original does. -/
theorem C76_panics_exactly_ahead {C iface ts m r ge cb} (hP : CallWatchable C iface ts m r ge cb)
    (hoff : ∀ i ∈ bodyTargets m ts, ∀ f c, m.functions[i]? = some f → f.code = .present c → OnlyCode (OffsetsAre iface fun o => o = 0) c.body) :
    ∃ base : Nat, (∃ f, r.module.functions[base]? = some f ∧ f.exports = [cb.name]) ∧
      ∀ (W A : Type) (K : LibLink) (N : Num) (T : List Table) (X : List (RefType × List (Option Nat))) (B : Nat) (w : CallWatcher A) (G : Imports (W × Story)) (H : Imports (World W A)),
        CallHearing iface ts m r ge K base T X B N w G H → (∀ a x, w.after a x = some x) → LeavesLog m G → PassesCuts m G →
        ∀ (f : Nat) (ty : FuncType) (args : List RVal) (s : Store W) (a : A) (l : Lib),
          m.ctx.ftype f = some ty → ValsOK m.ctx args ty.inputs → StoreOK m.ctx s →
          l.Ok → l.mem.pages < 65536 → SegmentsIntact m r (s.extend T X (s.world, a, l.store)) →
        ∀ (L d : Nat), l.free + d * B ≤ l.mem.limit * 65536 → l.free + d * B ≤ 65535 * 65536 →
          let told := toldCall C m (bodyTargets m ts) (applyTargets m ts) G N L d f args (s.withAnalysis [])
          let instrumented := fun D => callF N (machineOf H r.module.functions) L D f args (s.extend T X (s.world, a, l.store))
          (∀ vs (s1 : Store W) (st : Story) (tales : List Tale), told = .ok vs (s1.withAnalysis st) → iface.Tells st tales →
            (∀ a1, w.hear tales a = some a1 → ∃ l1, instrumented (5 * d + 2) = .ok vs (s1.extend T X (s1.world, a1, l1.store)) ∧ Lib.Ok l1 ∧ l1.free = l.free ∧ l1.mem.limit = l.mem.limit) ∧
            (w.hear tales a = none → ∃ s', instrumented (5 * d + 2) = .trap s')) ∧
          (∀ (s1 : Store W) (st : Story) (tales : List Tale), told = .trap (s1.withAnalysis st) → iface.Tells st tales →
            (∀ a1, w.hear tales a = some a1 → ∃ u, instrumented (5 * d + 2) = .trap (s1.extend T X (s1.world, a1, u))) ∧
            (w.hear tales a = none → ∃ s', instrumented (5 * d + 2) = .trap s')) ∧
          (∀ vs s1', instrumented d = .ok vs s1' →
            ∃ (s1 : Store W) (st : Story) (tales : List Tale) (a1 : A) (l1 : Lib), told = .ok vs (s1.withAnalysis st) ∧ iface.Tells st tales ∧ w.hear tales a = some a1 ∧
              s1' = s1.extend T X (s1.world, a1, l1.store) ∧ Lib.Ok l1 ∧ l1.free = l.free ∧ l1.mem.limit = l.mem.limit) := by
  obtain ⟨base, hb, h⟩ := panicking_agrees hP true fun i hi f c hf hc b hb t k info hd ht => by
    have := hoff i hi f c hf hc b hb t k info hd ht
    cases b <;> first | trivial | (simp only at this ⊢; rw [this]; exact ⟨by decide, fun _ => rfl⟩)
  refine ⟨base, hb, ?_⟩
  intro W A K N T X B w G H hR hq hG hC f ty args s a l hf ha hok ok hpg hseg L d hc1 hc2
  obtain ⟨h1, h2, h3⟩ := h W A K N T X B w G H hR (fun _ => hq) hG hC f ty args s a l hf ha hok ok hpg hseg L d hc1 hc2
  exact ⟨h1, h2 rfl, fun vs s1' e => (h3 vs s1' e).resolve_right fun h => by cases h.1⟩

/-! ## An analysis that writes down the story -/

/-- Reading all arguments (`args.args_iter()`) and then recording something. -/
theorem Records.ofArgs {K : LibLink} (hK : K.Good) {t : FuncType} (hr : t.RefFree) (hn : t.slots < 8192) {p : Nat} {g : List Val → Act (World W A) Unit} {upd : List Val → A → Option A}
    (hg : ∀ xs (s : Store (World W A)), match upd xs s.world.2.1 with
      | some a => g xs s = .ok () (s.setAnalysis a)
      | none => ∃ s', g xs s = .trap s') :
    Records (W := W) t p (·.args t p) (do g (← K.iterate (handle t p) t.results.length t.inputs.length)) upd := by
  intro l s ok hs hin _
  have h := LibLink.iterate_ok (W := W) (A := A) hK ok hs hr.both hn (show p + 8 * t.slots ≤ l.mem.size by omega) t.inputs.length t.results.length (by simp [FuncType.slots])
  rw [List.drop_left, List.take_length] at h
  have e : (do g (← K.iterate (handle t p) t.results.length t.inputs.length) : Act (World W A) Unit) s = g (l.mem.args t p) s := by
    simp only [bind, Act.bind, h]
    rfl
  rw [e]
  exact hg _ s

/-- Reading all results (`results.ress_iter()`) and then recording something. -/
theorem Records.ofRess {K : LibLink} (hK : K.Good) {t : FuncType} (hr : t.RefFree) (hn : t.slots < 8192) {p : Nat} {g : List Val → Act (World W A) Unit} {upd : List Val → A → Option A}
    (hg : ∀ xs (s : Store (World W A)), match upd xs s.world.2.1 with
      | some a => g xs s = .ok () (s.setAnalysis a)
      | none => ∃ s', g xs s = .trap s') :
    Records (W := W) t p (·.ress t p) (do g (← K.iterate (handle t p) 0 t.results.length)) upd := by
  intro l s ok hs hin _
  have h := LibLink.iterate_ok (W := W) (A := A) hK ok hs hr.both hn (show p + 8 * t.slots ≤ l.mem.size by omega) t.results.length 0 (by simp [FuncType.slots])
  rw [List.drop_zero, List.take_left] at h
  have e : (do g (← K.iterate (handle t p) 0 t.results.length) : Act (World W A) Unit) s = g (l.mem.ress t p) s := by
    simp only [bind, Act.bind, h]
    rfl
  rw [e]
  exact hg _ s

theorem Records.ofBoth {K : LibLink} {t : FuncType} (hK : K.Good) (hr : t.RefFree) (hn : t.slots < 8192) {p : Nat} {g : List Val → List Val → Act (World W A) Unit}
    {upd : List Val → List Val → A → Option A}
    (hg : ∀ xs ys s, match upd xs ys s.world.2.1 with
      | some a => g xs ys s = .ok () (s.setAnalysis a)
      | none => ∃ s', g xs ys s = .trap s') :
    Records (W := W) t p (·.both t p) (do g (← K.iterate (handle t p) t.results.length t.inputs.length) (← K.iterate (handle t p) 0 t.results.length)) fun v => upd v.1 v.2 := by
  intro l s ok hs hin _
  have h1 := LibLink.iterate_ok (W := W) (A := A) hK ok hs hr.both hn (show p + 8 * t.slots ≤ l.mem.size by omega) t.inputs.length t.results.length (by simp [FuncType.slots])
  rw [List.drop_left, List.take_length] at h1
  have h2 := LibLink.iterate_ok (W := W) (A := A) hK ok hs hr.both hn (show p + 8 * t.slots ≤ l.mem.size by omega) t.results.length 0 (by simp [FuncType.slots])
  rw [List.drop_zero, List.take_left] at h2
  have e : (do g (← K.iterate (handle t p) t.results.length t.inputs.length) (← K.iterate (handle t p) 0 t.results.length) : Act (World W A) Unit) s =
      g (l.mem.args t p) (l.mem.ress t p) s := by
    simp only [bind, Act.bind, h1, h2]
    rfl
  rw [e]
  exact hg _ _ s

/-- An analysis that writes down everything it is told. -/
def scribe : CallWatcher (List Tale) where
  toWatcher := .ahead fun e a => a ++ [.adv e]
  enter i xs a := some (a ++ [.enter i xs])
  leave i xs ys a := some (a ++ [.leave i xs ys])

theorem scribe_hear (tales a : List Tale) : scribe.hear tales a = some (a ++ tales) := by
  induction tales generalizing a with
  | nil => simp [CallWatcher.hear]
  | cons t ts ih =>
    have : scribe.tell t a = some (a ++ [t]) := by cases t <;> rfl
    simp only [CallWatcher.hear, this, Option.bind_some, ih]
    simp

/-- Its `apply` advice, before and after it resumes the call. -/
def scribeBefore (K : LibLink) (func : WasmFunction) (args : RuntimeValues) (_ : RuntimeValues) : Act (World W (List Tale)) Unit := do
  let xs ← K.iterate args args.resc.toNat args.argc.toNat
  updateState (· ++ [.enter func.instr_f_idx.toNat xs])
def scribeAfter (K : LibLink) (func : WasmFunction) (args : RuntimeValues) (ress : RuntimeValues) : Act (World W (List Tale)) Unit := do
  let xs ← K.iterate args args.resc.toNat args.argc.toNat
  let ys ← K.iterate ress 0 ress.resc.toNat
  updateState (· ++ [.leave func.instr_f_idx.toNat xs ys])

/-- The embedder of the example: the stack library, an analysis that watches instructions and calls, and the embedder's `print`. -/
def exTeller (w : CallWatcher A) (pre post : WasmFunction → RuntimeValues → RuntimeValues → Act (World (List RVal) A) Unit) (base : Nat) : Imports (World (List RVal) A) := fun ns name =>
  if ns = stackModule then libHost exResumeLink.N exResumeLink.sigs exResumeLink.L exResumeLink.d name
  else if ns = analysisModule then
    if name = interfaceGenericApply.1.name then telling exResumeLink base pre post
    else match [Trap.ifThenElseTrap, .preTrapCall, .postTrapCall, .binaryI32I32ToI32].find? fun t => t.exportName == name with
    | some t => stdHook (w.toWatcher.beside.body exNum exResumed.module.exported) t
    | none => fun _ _ _ => .stuck
  else exImports.besideTool 1 0 ns name

theorem exTeller_watching (w : CallWatcher A) (pre post : WasmFunction → RuntimeValues → RuntimeValues → Act (World (List RVal) A) Unit) (base : Nat)
    (hrec : ∀ i ∈ [0, 1, 2], ∀ f : Func, f.type.RefFree → f.type.slots < 8192 → ∀ j p,
      Records f.type p (·.args f.type p) (pre ⟨BitVec.ofNat 32 j, BitVec.ofNat 32 i, BitVec.ofNat 32 p, codePresent f⟩ (handle f.type p) (handle f.type p)) (w.enter i) ∧
      Records f.type p (·.both f.type p) (post ⟨BitVec.ofNat 32 j, BitVec.ofNat 32 i, BitVec.ofNat 32 p, codePresent f⟩ (handle f.type p) (handle f.type p)) fun v => w.leave i v.1 v.2) :
    CallWatching exIfaceApply none exModule exResumed interfaceGenericApply.1 exResumeLink base [exToolTable] [] 36 exNum w (exImports.beside Story) (exTeller w pre post base) where
  sigs := (exResumer_resuming base).sigs
  small := (exResumer_resuming base).small
  good := (exResumer_resuming base).good
  lib := fun name => rfl
  linked := by
    intro t ht
    rw [C49_library_exports_what_is_imported]
    have ht' : t = .ifThenElseTrap ∨ t = .preTrapCall ∨ t = .postTrapCall ∨ t = .binaryI32I32ToI32 := by
      simp only [exIfaceApply, exIface] at ht
      split at ht
      · assumption
      · cases ht
    have e1 : t.exportName ≠ interfaceGenericApply.1.name := by rcases ht' with rfl | rfl | rfl | rfl <;> decide +kernel
    have e2 : List.find? (fun u => u.exportName == t.exportName) [Trap.ifThenElseTrap, .preTrapCall, .postTrapCall, .binaryI32I32ToI32] = some t := by
      rcases ht' with rfl | rfl | rfl | rfl <;> decide +kernel
    have e3 : ("WASTRUMENTATION_ANALYSIS" : String) ≠ stackModule := by decide
    simp only [exTeller, e1, e2, e3, if_false, analysisModule, if_true]
  advice := by
    refine ⟨pre, post, rfl, ?_⟩
    intro i hi f hf hr hn j p
    have ht : applyTargets exModule none = [0, 1, 2] := by decide +kernel
    rw [ht] at hi
    exact hrec i hi f hr hn j p
  imports := by
    refine .plain _ _ fun f hf ns name hc => ?_
    simp only [exModule, List.mem_cons, List.not_mem_nil, or_false] at hf
    rcases hf with rfl | rfl | rfl | rfl <;> cases hc
    exact ⟨⟨fun _ _ => rfl, fun call args s ha hs => .inl ⟨_, _, rfl, .nil, hs.world rfl rfl rfl rfl rfl⟩⟩, rfl⟩
  frame := (exResumer_resuming base).frame

theorem exScribe_records (base : Nat) : CallWatching exIfaceApply none exModule exResumed interfaceGenericApply.1 exResumeLink base [exToolTable] [] 36 exNum scribe (exImports.beside Story)
    (exTeller scribe (scribeBefore exResumeLink) (scribeAfter exResumeLink) base) := by
  refine exTeller_watching _ _ _ base fun i hi f hr hn j p => ?_
  have hi' : (BitVec.ofNat 32 i).toNat = i := by
    simp only [List.mem_cons, List.not_mem_nil, or_false] at hi
    rcases hi with rfl | rfl | rfl <;> rfl
  have h1 : (handle f.type p).resc.toNat = f.type.results.length := by
    simp only [handle, BitVec.toNat_ofNat]
    simp only [FuncType.slots] at hn
    omega
  have h2 : (handle f.type p).argc.toNat = f.type.inputs.length := by
    simp only [handle, BitVec.toNat_ofNat]
    simp only [FuncType.slots] at hn
    omega
  unfold scribeBefore scribeAfter
  rw [h1, h2]
  dsimp only
  rw [hi']
  exact ⟨Records.ofArgs (exResumer_resuming base).good hr hn (g := fun xs => updateState (· ++ [Tale.enter i xs])) fun xs s => rfl,
    Records.ofBoth (exResumer_resuming base).good hr hn (g := fun xs ys => updateState (· ++ [Tale.leave i xs ys])) fun xs ys s => rfl⟩

theorem exWatchable : CallWatchable exTypedChecker exIfaceApply none exModule exResumed interfaceGenericApply.1 interfaceGenericApply.2 where
  small := exModule_small
  documented := exIface_documented
  standardApply := exIfaceApply_standard
  instruments := exResumed_instruments
  generic := rfl
  valid := exModule_valid
  annotated := exModule_annotated
  reserved := by decide +kernel

/-- The story of `main(0, 5)`, as the analysis is told it. -/
def exTales : List Tale := [.enter 1 [.i32 0, .i32 5], .adv (.ifThenElse 0 0 1 (.new 1 1)), .adv (.callPre 2 (.new 1 5)), .enter 2 [.i32 7], .adv (.callPre 0 (.new 2 1)), .enter 0 [.i32 7],
  .leave 0 [.i32 7] [], .adv (.callPost 0 (.new 2 1)), .adv (.binary .i32Mul (.i32 7) (.i32 7) (.new 2 4)), .leave 2 [.i32 7] [.i32 49], .adv (.callPost 2 (.new 1 5)), .leave 1 [.i32 0, .i32 5] [.i32 49]]

theorem exImports_beside : ImportsAgree exModule (fun (p : List RVal × Log) w => p.1 = w) (exImports.beside Log) exImports ∧ ImportsBeside exModule (exImports.beside Log) (exImports.beside Story) := by
  refine ⟨fun f hf ns name hc fl fr tl call call' _ args s s' ha hS => ?_, .plain fun f hf ns name hc => ?_⟩
  · simp only [exModule, List.mem_cons, List.not_mem_nil, or_false] at hf
    rcases hf with rfl | rfl | rfl | rfl <;> cases hc
    simp only [agreeing, SameState.iff] at hS
    obtain ⟨h1, h2, h3, h4, h5, h6, h7⟩ := hS
    refine .ok .nil ?_
    simp only [agreeing, SameState.iff]
    exact ⟨h1.world rfl rfl rfl rfl rfl, by dsimp only [Store.withAnalysis]; rw [h2], h3, h4, h5, h6, h7⟩
  · simp only [exModule, List.mem_cons, List.not_mem_nil, or_false] at hf
    rcases hf with rfl | rfl | rfl | rfl <;> cases hc
    exact ⟨⟨fun _ _ => rfl, fun call args s ha hs => .inl ⟨_, _, rfl, .nil, hs.world rfl rfl rfl rfl rfl⟩⟩, rfl⟩

theorem exTold_run : ∃ st : Story, toldCall exTypedChecker exModule (bodyTargets exModule none) (applyTargets exModule none) (exImports.beside Story) exNum 10 10 1 [.i32 0, .i32 5] (exStore.withAnalysis []) =
    .ok [.i32 49] (Store.withAnalysis { exStore with world := [.i32 7] } st) ∧ exIfaceApply.Tells st exTales := by
  obtain ⟨st, h, _⟩ := C76_story_is_of_the_program (iface := exIfaceApply) (ts := none) exModule_small exResumed_instruments exModule_valid exModule_annotated (N := exNum) exImports_beside.1 exImports_beside.2
    (f := 1) rfl (args := [.i32 0, .i32 5]) (ValsOK.nil.cons rfl (by simp [RVal.OK]) |>.cons rfl (by simp [RVal.OK])) exStore_ok 10 10
  rw [exModule_runs] at h
  refine ⟨st, h, ?_⟩
  have e : ((match toldCall exTypedChecker exModule (bodyTargets exModule none) (applyTargets exModule none) (exImports.beside Story) exNum 10 10 1 [.i32 0, .i32 5] (exStore.withAnalysis []) with
    | .ok _ s => s.world.2
    | _ => []).filter exIfaceApply.hasHook).map Note.tale = exTales.map some := by cbv
  rw [h] at e
  exact e

-- C76: the story of `main(0, 5)` is properly nested.
example : ∃ st : Story, exIfaceApply.Tells st exTales ∧ st.Nested := by
  obtain ⟨st, h, ht⟩ := exTold_run
  exact ⟨st, ht, (C76_calls_nest (.beside _)).1 _ _ _ h⟩
-- Leaving a function that has not been entered is not.
example : ¬ Story.Nested [.leave 0 [] [], .enter 0 []] := by
  intro h
  generalize hl : [Note.leave 0 [] [], .enter 0 []] = l at h
  cases h <;> cases hl

-- C76: all hypotheses hold of the example, and the analysis writes down the story of `main(0, 5)`: main is entered with 0 and 5, calls function 2 with 7, which calls `print` with 7 ...
example : ∃ (base : Nat) (l1 : Lib), callF exNum (machineOf (exTeller scribe (scribeBefore exResumeLink) (scribeAfter exResumeLink) base) exResumed.module.functions) 10 52 1 [.i32 0, .i32 5]
      (exStore.extend [exToolTable] [] ([], [], exLib.store)) =
    .ok [.i32 49] (Store.extend { exStore with world := [RVal.i32 7] } [exToolTable] [] ([RVal.i32 7], exTales, l1.store)) ∧ l1.free = 0 := by
  obtain ⟨base, _, h⟩ := C76_analysis_hears_the_story exWatchable (exOffsets fun o => o = 0)
  obtain ⟨st, hst, ht⟩ := exTold_run
  obtain ⟨tales, a1, l1, h1, h2, h3, _, h4, _⟩ := (h _ _ _ _ _ _ _ _ _ _ (C76_rust_analysis_qualifies exWatchable (exScribe_records base)) (fun _ _ => rfl) (fun t x => by cases t <;> exact nofun) 1 _ [.i32 0, .i32 5] exStore [] exLib rfl
    (ValsOK.nil.cons rfl (by simp [RVal.OK]) |>.cons rfl (by simp [RVal.OK])) exStore_ok exLib_ok (by decide) (exResumed_intact _ rfl _) 10 10 (by decide) (by decide)).1 _ _ _ hst
  rw [tells_unique h1 ht, scribe_hear] at h2
  cases h2
  exact ⟨base, l1, h3, h4⟩

/-- An analysis that panics when function `k` is entered. -/
def guard (k : Nat) : CallWatcher Unit where
  toWatcher := .ahead fun _ a => a
  enter i _ a := if i = k then none else some a
  leave _ _ _ a := some a
def guardBefore (k : Nat) (func : WasmFunction) (_ _ : RuntimeValues) : Act (World W Unit) Unit := if func.instr_f_idx.toNat = k then .panic else pure ()

theorem exGuard_watching (k base : Nat) : CallWatching exIfaceApply none exModule exResumed interfaceGenericApply.1 exResumeLink base [exToolTable] [] 36 exNum (guard k) (exImports.beside Story)
    (exTeller (guard k) (guardBefore k) (fun _ _ _ => pure ()) base) := by
  refine exTeller_watching _ _ _ base fun i hi f hr hn j p => ?_
  have hi' : (BitVec.ofNat 32 i).toNat = i := by
    simp only [List.mem_cons, List.not_mem_nil, or_false] at hi
    rcases hi with rfl | rfl | rfl <;> rfl
  refine ⟨fun l s _ _ _ _ => ?_, fun l s _ _ _ _ => rfl⟩
  simp only [guard, guardBefore, hi']
  by_cases h : i = k
  · simp only [h, if_true]; exact ⟨_, rfl⟩
  · simp only [h, if_false]; rfl

-- C76, of an analysis that may panic: `main(0, 5)` enters `print` (function 0), so with a guard for it the instrumented program traps; it does not enter function 3, and
-- with a guard for that function returns 49.
example : ∃ base : Nat, (∃ s', callF exNum (machineOf (exTeller (guard 0) (guardBefore 0) (fun _ _ _ => pure ()) base) exResumed.module.functions) 10 52 1 [.i32 0, .i32 5]
      (exStore.extend [exToolTable] [] ([], (), exLib.store)) = .trap s') ∧
    ∃ l1 : Lib, callF exNum (machineOf (exTeller (guard 3) (guardBefore 3) (fun _ _ _ => pure ()) base) exResumed.module.functions) 10 52 1 [.i32 0, .i32 5]
      (exStore.extend [exToolTable] [] ([], (), exLib.store)) = .ok [.i32 49] (Store.extend { exStore with world := [RVal.i32 7] } [exToolTable] [] ([RVal.i32 7], (), l1.store)) := by
  obtain ⟨base, _, h⟩ := C76_panics_exactly exWatchable (exOffsets fun o => o.toNat < 2 ^ 31)
  obtain ⟨st, hst, ht⟩ := exTold_run
  have run := fun k => (h _ _ _ _ _ _ _ _ _ _ (C76_rust_analysis_qualifies exWatchable (exGuard_watching k base)) (.beside _) (.beside _) 1 _ [.i32 0, .i32 5] exStore () exLib rfl
    (ValsOK.nil.cons rfl (by simp [RVal.OK]) |>.cons rfl (by simp [RVal.OK])) exStore_ok exLib_ok (by decide) (exResumed_intact _ rfl _) 10 10 (by decide) (by decide)).1 _ _ _ _ hst ht
  refine ⟨base, (run 0).2 rfl, ?_⟩
  obtain ⟨l1, h3, _⟩ := (run 3).1 () rfl
  exact ⟨l1, h3⟩
-- The same with `C76_panics_exactly_ahead`: the guard records nothing after performing.
example : ∃ base : Nat, ∃ s', callF exNum (machineOf (exTeller (guard 0) (guardBefore 0) (fun _ _ _ => pure ()) base) exResumed.module.functions) 10 52 1 [.i32 0, .i32 5]
      (exStore.extend [exToolTable] [] ([], (), exLib.store)) = .trap s' := by
  obtain ⟨base, _, h⟩ := C76_panics_exactly_ahead exWatchable (exOffsets fun o => o = 0)
  obtain ⟨st, hst, ht⟩ := exTold_run
  exact ⟨base, ((h _ _ _ _ _ _ _ _ _ _ (C76_rust_analysis_qualifies exWatchable (exGuard_watching 0 base)) (fun _ _ => rfl) (.beside _) (.beside _) 1 _ [.i32 0, .i32 5] exStore () exLib rfl
    (ValsOK.nil.cons rfl (by simp [RVal.OK]) |>.cons rfl (by simp [RVal.OK])) exStore_ok exLib_ok (by decide) (exResumed_intact _ rfl _) 10 10 (by decide) (by decide)).1 _ _ _ _ hst ht).2 rfl⟩

end Wastrum
