import Verif.ReviseHooks
import Verif.ResumeThms
/-!
# The whole shipped forwarding analysis, with its `apply` advice, is transparent (C71)
-/

set_option linter.unusedSimpArgs false
set_option linter.unusedVariables false

namespace Wastrum

variable {W A : Type}

/-- The two executions in step, in both directions. -/
theorem looking_agrees {C iface ts m r ge cb} (hs : SmallModule m) (hst : iface.Documented) (hsa : iface.StandardApply) (h : Instruments C iface ts m r)
    (hg : iface.generic = some (ge, cb)) (hv : ValidModule m)
    (hB : ∀ i ∈ bodyTargets m ts, ∀ f, m.functions[i]? = some f → WellAnnotated m f (bodyOf C m i)) (hres : ∀ name ∈ iface.toolExports, name ∉ m.exportNames) :
    ∃ base : Nat, (∃ f, r.module.functions[base]? = some f ∧ f.exports = [cb.name]) ∧
      ∀ (exact : Bool), (∀ i ∈ bodyTargets m ts, ∀ f c, m.functions[i]? = some f → f.code = .present c →
        OnlyCode (OffsetsAre iface (fun o => o.toNat < 2 ^ 31 ∧ (exact = true → o = 0))) c.body) →
      ∀ (W A : Type) (K : LibLink) (N : Num) (T : List Table) (X : List (RefType × List (Option Nat))) (B : Nat) (H : Imports W) (H' : Imports (World W A))
        (pre post : RuntimeValues → RuntimeValues → Act (World W A) Unit),
        Deployed iface m r ge K base T X B (forwardBody N r.module.exported) pre post H H' →
        (∀ i ∈ applyTargets m ts, ∀ f, m.functions[i]? = some f → ∀ p q, Looks f.type p q (pre (handle f.type p) (handle f.type p)) ∧ Looks f.type p q (post (handle f.type p) (handle f.type p))) →
        ∀ (f : Nat) (ty : FuncType) (args : List RVal) (s : Store W) (a : A) (l : Lib),
          m.ctx.ftype f = some ty → ValsOK m.ctx args ty.inputs → StoreOK m.ctx s →
          l.Ok → l.mem.pages < 65536 → SegmentsIntact m r (s.extend T X (s.world, a, l.store)) →
        ∀ (L d : Nat), l.free + d * B ≤ l.mem.limit * 65536 → l.free + d * B ≤ 65535 * 65536 →
          (besideLib m.ctx T X (fun _ => LibAt l.free l.mem.limit) never true false (!exact)).Ress m.ctx ty.results (callF N (machineOf H m.functions) L d f args s)
            (callF N (machineOf H' r.module.functions) L (5 * d + 2) f args (s.extend T X (s.world, a, l.store))) ∧
          (besideLib m.ctx T X (fun _ => LibAt l.free l.mem.limit) never false true (!exact)).Ress m.ctx ty.results (callF N (machineOf H m.functions) L d f args s)
            (callF N (machineOf H' r.module.functions) L d f args (s.extend T X (s.world, a, l.store))) := by
  obtain ⟨order, fs, sigs, hooks, copy, hA⟩ := applied hs h hg
  have hstd := hsa ge cb hg
  have hn := (C15_instrumented_module_valid hs hst.standard hsa h hv hB hres).exports
  refine ⟨copy + 2 * order.length, ⟨_, hA.at.callBase, rfl⟩, ?_⟩
  intro exact hoff W A K N T X B H H' pre post hR hlook f ty args s a l hf ha hok ok hpg hseg L d hc1 hc2
  have hsigs : sigs = K.sigs := by have := hA.sigs_eq; rw [hR.sigs] at this; exact (Option.some.inj this).symm
  subst hsigs
  have hsz : order.length < 2 ^ 32 := by
    have := hA.count
    have := hs.functions
    omega
  have hseg' : ∀ s : Store (World W A), s.tables[m.tables.length]? = T[0]? → SegmentsIntact m r s := by
    intro s2 e
    refine intact_of hA hseg ?_
    rw [e]
    have hl := tables_length hok
    simp only [Store.extend]
    rw [List.getElem?_append_right (by omega)]
    simp [hl]
  have hS : ∀ fl fr, (besideLib m.ctx T X (fun _ => LibAt l.free l.mem.limit) never fl fr (!exact)).S s (s.extend T X (s.world, a, l.store)) :=
    fun fl fr => ⟨hok, _, ⟨rfl, l, rfl, ok, rfl, rfl, hpg⟩, rfl⟩
  exact ⟨looked_forward (L := L) hs hst.standard h hA ⟨hstd.1, hstd.2.1⟩ ⟨hstd.2.2.1, hstd.2.2.2.1⟩ hsz hv hB hR.good hR.small hR.lib (hR.advice ▸ around_surrounds hR.good _ _ _) (fun i hi f hf _ => hlook i hi f hf) hR.imports hR.frame hoff
      (fun F fl fr D E hk hE => shipped_hooks hs hst h hn hR.linked hk hE) hseg' (M := l.mem.limit) d (5 * d + 2) l.free (Nat.le_refl _) hc1 hc2 f ty args s _ hf ha (hS _ _),
    looked_backward (L := L) hs hst.standard h hA ⟨hstd.1, hstd.2.1⟩ ⟨hstd.2.2.1, hstd.2.2.2.1⟩ hsz hv hB hR.good hR.small hR.lib (hR.advice ▸ around_surrounds hR.good _ _ _) (fun i hi f hf _ => hlook i hi f hf) hR.imports hR.frame hoff (q := 2)
      (fun F fl fr D E hk hE => shipped_hooks hs hst h hn hR.linked hk hE) hseg' (M := l.mem.limit) d d l.free (Nat.le_refl _) hc1 hc2 f ty args s _ hf ha (hS _ _)⟩

/-- Related states, spelled out. -/
theorem besideLib_unS {Γ : Ctx} {T X} {l : Lib} {fl fr tl : Bool} {s1 : Store W} {s1' : Store (World W A)} (h : (besideLib Γ T X (fun _ => LibAt l.free l.mem.limit) never fl fr tl).S s1 s1') :
    ∃ a1 l1, s1' = s1.extend T X (s1.world, a1, l1.store) ∧ Lib.Ok l1 ∧ l1.free = l.free ∧ l1.mem.limit = l.mem.limit := by
  obtain ⟨_, ⟨w, a1, st⟩, ⟨e, l1, e1, ok1, h1, h2, _⟩, rfl⟩ := h
  dsimp only at e e1
  subst e e1
  exact ⟨a1, l1, rfl, ok1, h1, h2⟩

/-- States related after a trap, spelled out. -/
theorem besideLib_unT {Γ : Ctx} {T X} {l : Lib} {fl fr tl : Bool} {s1 : Store W} {s1' : Store (World W A)} (h : (besideLib Γ T X (fun _ => LibAt l.free l.mem.limit) never fl fr tl).T s1 s1') :
    ∃ a1 st1, s1' = s1.extend T X (s1.world, a1, st1) := by
  obtain ⟨_, ⟨w, a1, st⟩, e, rfl⟩ := h
  dsimp only at e
  subst e
  exact ⟨a1, st, rfl⟩

/-- From the two relations to what they say about outcomes. -/
theorem exact_outcomes {Γ : Ctx} {T X} {l : Lib} {ts : List ValType} {o : Res W} {o1 o0 : Res (World W A)}
    (k1 : (besideLib Γ T X (fun _ => LibAt l.free l.mem.limit) never true false false).Ress Γ ts o o1)
    (k2 : (besideLib Γ T X (fun _ => LibAt l.free l.mem.limit) never false true false).Ress Γ ts o o0) :
    (∀ vs s1, o = .ok vs s1 → ∃ a1 l1, o1 = .ok vs (s1.extend T X (s1.world, a1, l1.store)) ∧ Lib.Ok l1 ∧ l1.free = l.free ∧ l1.mem.limit = l.mem.limit) ∧
    (∀ s1, o = .trap s1 → ∃ a1 st1, o1 = .trap (s1.extend T X (s1.world, a1, st1))) ∧
    (∀ vs s1', o0 = .ok vs s1' → ∃ s1 a1 l1, o = .ok vs s1 ∧ s1' = s1.extend T X (s1.world, a1, l1.store) ∧ Lib.Ok l1 ∧ l1.free = l.free ∧ l1.mem.limit = l.mem.limit) ∧
    (∀ s1', o0 = .trap s1' → ∃ s1 a1 st1, o = .trap s1 ∧ s1' = s1.extend T X (s1.world, a1, st1)) ∧
    o ≠ .stuck ∧ o0 ≠ .stuck := by
  refine ⟨?_, ?_, ?_, ?_, ?_, ?_⟩
  · rintro vs s1 rfl
    cases k1 with
    | ok hv hS1 => obtain ⟨a1, l1, rfl, hl⟩ := besideLib_unS hS1; exact ⟨a1, l1, rfl, hl⟩
    | fuelR h => cases h
    | trapR h => exact absurd h id
  · rintro s1 rfl
    cases k1 with
    | trap hS1 => obtain ⟨a1, l1, rfl, hl⟩ := besideLib_unS hS1; exact ⟨a1, _, rfl⟩
    | trapT hT => obtain ⟨a1, st1, rfl⟩ := besideLib_unT hT; exact ⟨a1, st1, rfl⟩
    | trapL h => cases h
    | fuelR h => cases h
    | trapR h => exact absurd h id
  · rintro vs s1' rfl
    cases k2 with
    | ok hv hS1 => obtain ⟨a1, l1, rfl, hl⟩ := besideLib_unS hS1; exact ⟨_, a1, l1, rfl, rfl, hl⟩
    | fuelL h => cases h
    | trapL h => cases h
  · rintro s1' rfl
    cases k2 with
    | trap hS1 => obtain ⟨a1, l1, rfl, hl⟩ := besideLib_unS hS1; exact ⟨_, a1, _, rfl, rfl⟩
    | trapT hT => obtain ⟨a1, st1, rfl⟩ := besideLib_unT hT; exact ⟨_, a1, st1, rfl, rfl⟩
    | trapL h => cases h
    | fuelL h => cases h
    | trapR h => exact absurd h id
  · rintro rfl
    cases k1 with
    | fuelR h => cases h
    | trapR h => exact absurd h id
  · rintro rfl
    cases k2 with
    | fuelL h => cases h
    | trapL h => cases h

/-- The same, where nothing is claimed once the program has trapped. -/
theorem loose_outcomes {Γ : Ctx} {T X} {l : Lib} {ts : List ValType} {o : Res W} {o1 o0 : Res (World W A)}
    (k1 : (besideLib Γ T X (fun _ => LibAt l.free l.mem.limit) never true false true).Ress Γ ts o o1)
    (k2 : (besideLib Γ T X (fun _ => LibAt l.free l.mem.limit) never false true true).Ress Γ ts o o0) :
    (∀ vs s1, o = .ok vs s1 → ∃ a1 l1, o1 = .ok vs (s1.extend T X (s1.world, a1, l1.store)) ∧ Lib.Ok l1 ∧ l1.free = l.free ∧ l1.mem.limit = l.mem.limit) ∧
    (∀ vs s1', o0 = .ok vs s1' → (∃ s1 a1 l1, o = .ok vs s1 ∧ s1' = s1.extend T X (s1.world, a1, l1.store) ∧ Lib.Ok l1 ∧ l1.free = l.free ∧ l1.mem.limit = l.mem.limit) ∨ ∃ s1, o = .trap s1) := by
  refine ⟨?_, ?_⟩
  · rintro vs s1 rfl
    cases k1 with
    | ok hv hS1 => obtain ⟨a1, l1, rfl, hl⟩ := besideLib_unS hS1; exact ⟨a1, l1, rfl, hl⟩
    | fuelR h => cases h
    | trapR h => exact absurd h id
  · rintro vs s1' rfl
    cases k2 with
    | ok hv hS1 => obtain ⟨a1, l1, rfl, hl⟩ := besideLib_unS hS1; exact .inl ⟨_, a1, l1, rfl, rfl, hl⟩
    | fuelL h => cases h
    | trapL h => exact .inr ⟨_, rfl⟩

/-- C71. The shipped forwarding analysis as it stands — every hook, those for loads, stores and `memory.grow` included, and its `apply`
advice, `function.apply()` — linked with a valid program it instruments and the stack library generated for it, is transparent, provided every
load and store that goes through the analysis has static offset 0 (the proviso of C48). A state of the instrumented program is a state `s`
of the original, extended by the tables `T` and segments `X` the tool has added, the analysis' state `a` (which it never touches) and the
library's state `l`. For every function `f` of the program, all arguments and every state:
* if calling `f` in the original returns `vs` in state `s1`, calling it in the instrumented program returns `vs` in the same program
state, and the stack allocator is back where it was;
* if it traps in the original, it traps in the instrumented program, in the same program state;
* and conversely: if it returns or traps in the instrumented program, it does so in the original;
* neither goes wrong.
`L` bounds loop iterations and `d` the depth of calls. The library's memory must have room for `d` nested frames of at most `B` bytes. -/
theorem C71_shipped_forward_transparent {C iface ts m r ge cb} (hs : SmallModule m) (hst : iface.Documented) (hsa : iface.StandardApply) (h : Instruments C iface ts m r)
    (hg : iface.generic = some (ge, cb)) (hv : ValidModule m)
    (hB : ∀ i ∈ bodyTargets m ts, ∀ f, m.functions[i]? = some f → WellAnnotated m f (bodyOf C m i)) (hres : ∀ name ∈ iface.toolExports, name ∉ m.exportNames)
    (hoff : ∀ i ∈ bodyTargets m ts, ∀ f c, m.functions[i]? = some f → f.code = .present c → OnlyCode (OffsetsAre iface fun o => o = 0) c.body) :
    ∃ base : Nat, (∃ f, r.module.functions[base]? = some f ∧ f.exports = [cb.name]) ∧
      ∀ (W A : Type) (K : LibLink) (N : Num) (T : List Table) (X : List (RefType × List (Option Nat))) (B : Nat) (H : Imports W) (H' : Imports (World W A)),
        Deployed iface m r ge K base T X B (forwardBody N r.module.exported) forwardIdle forwardIdle H H' →
        ∀ (f : Nat) (ty : FuncType) (args : List RVal) (s : Store W) (a : A) (l : Lib),
          m.ctx.ftype f = some ty → ValsOK m.ctx args ty.inputs → StoreOK m.ctx s →
          l.Ok → l.mem.pages < 65536 → SegmentsIntact m r (s.extend T X (s.world, a, l.store)) →
        ∀ (L d : Nat), l.free + d * B ≤ l.mem.limit * 65536 → l.free + d * B ≤ 65535 * 65536 →
          let original := callF N (machineOf H m.functions) L
          let instrumented := callF N (machineOf H' r.module.functions) L
          let s' := s.extend T X (s.world, a, l.store)
          (∀ vs s1, original d f args s = .ok vs s1 →
            ∃ a1 l1, instrumented (5 * d + 2) f args s' = .ok vs (s1.extend T X (s1.world, a1, l1.store)) ∧ Lib.Ok l1 ∧ l1.free = l.free ∧ l1.mem.limit = l.mem.limit) ∧
          (∀ s1, original d f args s = .trap s1 → ∃ a1 st1, instrumented (5 * d + 2) f args s' = .trap (s1.extend T X (s1.world, a1, st1))) ∧
          (∀ vs s1', instrumented d f args s' = .ok vs s1' →
            ∃ s1 a1 l1, original d f args s = .ok vs s1 ∧ s1' = s1.extend T X (s1.world, a1, l1.store) ∧ Lib.Ok l1 ∧ l1.free = l.free ∧ l1.mem.limit = l.mem.limit) ∧
          (∀ s1', instrumented d f args s' = .trap s1' → ∃ s1 a1 st1, original d f args s = .trap s1 ∧ s1' = s1.extend T X (s1.world, a1, st1)) ∧
          original d f args s ≠ .stuck ∧ instrumented d f args s' ≠ .stuck := by
  obtain ⟨base, hb, hall⟩ := looking_agrees hs hst hsa h hg hv hB hres
  have hoff' : ∀ i ∈ bodyTargets m ts, ∀ f c, m.functions[i]? = some f → f.code = .present c →
      OnlyCode (OffsetsAre iface (fun o => o.toNat < 2 ^ 31 ∧ (true = true → o = 0))) c.body := by
    intro i hi f c hf hc b hb t k info hd ht
    have := hoff i hi f c hf hc b hb t k info hd ht
    cases b <;> first | trivial | (simp only at this ⊢; rw [this]; exact ⟨by decide, fun _ => rfl⟩)
  refine ⟨base, hb, ?_⟩
  intro W A K N T X B H H' hR f ty args s a l hf ha hok ok hpg hseg L d hc1 hc2 original instrumented s'
  obtain ⟨k1, k2⟩ := hall true hoff' W A K N T X B H H' _ _ hR (fun i hi f hf p q => ⟨Looks.pure (), Looks.pure ()⟩) f ty args s a l hf ha hok ok hpg hseg L d hc1 hc2
  exact exact_outcomes k1 k2

/-- C71, for an analysis whose `apply` advice also looks at the call before and after resuming it and keeps a state of its own, and for static
offsets below 2^31: whenever the original ends normally, so does the instrumented program, with the same results and state; and when the
instrumented program ends normally, the original does so with the same results and state, or traps. (It may trap where the instrumented one
does not, when an address plus offset exceeds 2^32: C19.) -/
theorem C71_looking_preserves_results {C iface ts m r ge cb} (hs : SmallModule m) (hst : iface.Documented) (hsa : iface.StandardApply) (h : Instruments C iface ts m r)
    (hg : iface.generic = some (ge, cb)) (hv : ValidModule m)
    (hB : ∀ i ∈ bodyTargets m ts, ∀ f, m.functions[i]? = some f → WellAnnotated m f (bodyOf C m i)) (hres : ∀ name ∈ iface.toolExports, name ∉ m.exportNames)
    (hoff : ∀ i ∈ bodyTargets m ts, ∀ f c, m.functions[i]? = some f → f.code = .present c → OnlyCode (OffsetsAre iface fun o => o.toNat < 2 ^ 31) c.body) :
    ∃ base : Nat, (∃ f, r.module.functions[base]? = some f ∧ f.exports = [cb.name]) ∧
      ∀ (W A : Type) (K : LibLink) (N : Num) (T : List Table) (X : List (RefType × List (Option Nat))) (B : Nat) (H : Imports W) (H' : Imports (World W A))
        (pre post : RuntimeValues → RuntimeValues → Act (World W A) Unit),
        Deployed iface m r ge K base T X B (forwardBody N r.module.exported) pre post H H' →
        (∀ i ∈ applyTargets m ts, ∀ f, m.functions[i]? = some f → ∀ p q, Looks f.type p q (pre (handle f.type p) (handle f.type p)) ∧ Looks f.type p q (post (handle f.type p) (handle f.type p))) →
        ∀ (f : Nat) (ty : FuncType) (args : List RVal) (s : Store W) (a : A) (l : Lib),
          m.ctx.ftype f = some ty → ValsOK m.ctx args ty.inputs → StoreOK m.ctx s →
          l.Ok → l.mem.pages < 65536 → SegmentsIntact m r (s.extend T X (s.world, a, l.store)) →
        ∀ (L d : Nat), l.free + d * B ≤ l.mem.limit * 65536 → l.free + d * B ≤ 65535 * 65536 →
          let original := callF N (machineOf H m.functions) L
          let instrumented := callF N (machineOf H' r.module.functions) L
          let s' := s.extend T X (s.world, a, l.store)
          (∀ vs s1, original d f args s = .ok vs s1 →
            ∃ a1 l1, instrumented (5 * d + 2) f args s' = .ok vs (s1.extend T X (s1.world, a1, l1.store)) ∧ Lib.Ok l1 ∧ l1.free = l.free ∧ l1.mem.limit = l.mem.limit) ∧
          (∀ vs s1', instrumented d f args s' = .ok vs s1' →
            (∃ s1 a1 l1, original d f args s = .ok vs s1 ∧ s1' = s1.extend T X (s1.world, a1, l1.store) ∧ Lib.Ok l1 ∧ l1.free = l.free ∧ l1.mem.limit = l.mem.limit) ∨
            ∃ s1, original d f args s = .trap s1) := by
  obtain ⟨base, hb, hall⟩ := looking_agrees hs hst hsa h hg hv hB hres
  have hoff' : ∀ i ∈ bodyTargets m ts, ∀ f c, m.functions[i]? = some f → f.code = .present c →
      OnlyCode (OffsetsAre iface (fun o => o.toNat < 2 ^ 31 ∧ (false = true → o = 0))) c.body := by
    intro i hi f c hf hc b hb t k info hd ht
    have := hoff i hi f c hf hc b hb t k info hd ht
    cases b <;> first | trivial | exact ⟨this, fun h => by cases h⟩
  refine ⟨base, hb, ?_⟩
  intro W A K N T X B H H' pre post hR hlook f ty args s a l hf ha hok ok hpg hseg L d hc1 hc2 original instrumented s'
  obtain ⟨k1, k2⟩ := hall false hoff' W A K N T X B H H' _ _ hR hlook f ty args s a l hf ha hok ok hpg hseg L d hc1 hc2
  exact loose_outcomes k1 k2

end Wastrum
