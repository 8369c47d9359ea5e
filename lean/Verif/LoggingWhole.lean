import Verif.LoggingApply
import Verif.ExNan
/-!
# The whole logging analysis, with its `apply` advice, is transparent (C93)
-/

set_option linter.unusedVariables false

namespace Wastrum

variable {W A : Type}

/-- `telling` runs `pre`, resumes the call and runs `post`. -/
theorem telling_surrounds_each {K : LibLink} (hK : K.Good) (base : Nat) (pre post : WasmFunction → RuntimeValues → RuntimeValues → Act (World W A) Unit) :
    SurroundsEach base (fun f t p _ => pre f (handle t p) (handle t p)) (fun f t p _ => post f (handle t p) (handle t p)) (telling K base pre post) := by
  intro call t j i p q present l l1 xs s hr hn hP hs
  have hrv := LibLink.runtimeValues_ok (W := W) (A := A) (s := s) (p := p) hK hP.alloc.ok hs hr.both hn hP.types hP.types_in
  have e : ∀ body : RuntimeValues → RuntimeValues → Act (World W A) Unit,
      (do let args ← K.runtimeValues (BitVec.ofNat 32 t.inputs.length) (BitVec.ofNat 32 t.results.length) (BitVec.ofNat 32 p) (BitVec.ofNat 32 q)
          let ress ← K.runtimeValues (BitVec.ofNat 32 t.inputs.length) (BitVec.ofNat 32 t.results.length) (BitVec.ofNat 32 p) (BitVec.ofNat 32 q)
          body args ress : Act (World W A) Unit) s = body (handle t p) (handle t p) s := by
    intro body
    simp only [bind, Act.bind, hrv]
  simp only [telling, applyAdvice, applyQuestion, RVal.i32]
  rw [e]
  generalize (do pre _ (handle t p) (handle t p); _ : Act (World W A) Unit) s = x
  cases x <;> rfl

/-- An observing analysis, beside the stack library, which it leaves alone. -/
def Observer.beside (o : Observer A) : Observer (A × Store Unit) where
  before a x := (o.before a x.1, x.2)
  after a vs x := (o.after a vs x.1, x.2)

section
variable {C : Checker} {iface : Interface} {ts : Option (List Nat)} {m : Module} {r : Instrumented} {H : Imports (World W A)} {N : Num} {L : Nat}

/-- The hooks of an observing analysis keep the executions in step, beside the stack library. -/
theorem observer_hooks_beside (hs : SmallModule m) (hst : iface.Documented) (h : Instruments C iface ts m r) (hn : r.module.exportNames.Nodup) {o : Observer A}
    (hL : LinkedTo iface (o.beside.body N r.module.exported) H) {J : Store Unit → Prop} {TR : A → Prop} {T X} {exact fl fr : Bool} {D : Nat} (hk : fr = true ∨ 2 ≤ D) {E : Env W} (hE : E.num = N) :
    (besideLib m.ctx T X (fun _ => J) TR fl fr (!exact)).Hooks m.ctx (OffsetsAre iface (fun o => o.toNat < 2 ^ 31 ∧ (exact = true → o = 0))) (hookSel iface m.functions.length)
      (fun _ _ w => w) E (envAt N (machineOf H r.module.functions) L D) := by
  have hm1 : m.memories.length ≤ 1 := by
    obtain ⟨ord, ord', ho, ho', h⟩ := h
    exact ((instrument_ok_iff ho ho' hs).1 ⟨r, h⟩).1
  have hobs := observer_observes (m := m) hm1 hst (exact := exact) (mo := fr) hL
  have hook : ∀ {t : Trap} {k : Nat}, hookSel iface m.functions.length t = some k → ∃ e, iface.trap t = some e ∧
      ∀ d args s, callF N (machineOf H r.module.functions) L (d + 1) k args s = H analysisModule e.name (callF N (machineOf H r.module.functions) L d) args s := by
    intro t k hk
    cases he : iface.trap t with
    | none => rw [hookSel_none_iff.2 he] at hk; cases hk
    | some e =>
      obtain ⟨k', h1, h2, h3⟩ := hook_installed hs h he
      rw [hk] at h1; cases h1
      exact ⟨e, rfl, fun d args s => callF_import h3 rfl d args s H⟩
  refine ⟨fun _ _ _ _ _ hS => hS, ?_, ?_⟩
  · intro t i hσ ho hpre args s s' hty hS
    obtain ⟨e, he, hcall⟩ := hook hσ
    refine ⟨_, .refl _ _, ?_⟩
    simp only [envAt]
    cases D with
    | zero => exact .fuelR (by rcases hk with hk | hk; exact hk; omega)
    | succ d' =>
      obtain ⟨h1, ⟨w, a, st⟩, ⟨h2, h3⟩, rfl⟩ := hS
      dsimp only at h2
      subst h2
      obtain ⟨adv, _, hans⟩ := hobs.shown t e he ho _ (base_calls (W := World W A) hs h hn N H L d' fr (hk.imp id (by omega))) args (s.extend T X s.world) (a, st) hty
      rw [hcall]
      have hst' : s.extend T X (s.world, a, st) = (s.extend T X s.world).withAnalysis (a, st) := rfl
      rw [hst']
      have hans' : H analysisModule e.name (callF N (machineOf H r.module.functions) L d') args ((s.extend T X s.world).withAnalysis (a, st)) = _ := hans
      rw [hans']
      refine .ok ⟨by rw [List.map_take, hty, hpre], ?_⟩ ⟨h1, (s.world, o.before adv a, st), ⟨rfl, h3⟩, rfl⟩
      intro v hv f hf
      have : v.type ∈ t.args := by rw [← hty]; exact List.mem_map_of_mem (List.mem_of_mem_take hv)
      rw [hf] at this
      exact absurd this (t.args_num _)
  · intro b t j info i hd hσ hB hm ops loc s s' hops hloc hty hS
    obtain ⟨e, he, hcall⟩ := hook hσ
    simp only [envAt]
    cases D with
    | zero => exact .fuelR (by rcases hk with hk | hk; exact hk; omega)
    | succ d' =>
      obtain ⟨h1, ⟨w, a, st⟩, ⟨h2, h3⟩, rfl⟩ := hS
      dsimp only at h2
      subst h2
      have hp := hobs.performed t e he b j info hd ⟨hB, hm⟩ _ (base_calls (W := World W A) hs h hn N H L d' fr (hk.imp id (by omega))) ops loc (s.extend T X s.world) (a, st) hops hloc hty h1.pages
      have hx := execute_sim (Γ := m.ctx) (N := N) (T := T) (X := X) (s := s) (s' := s.extend T X s.world) hd rfl hm hops hloc hty ⟨h1, s.world, ⟨rfl, rfl⟩, rfl⟩
      show Rel.Ress _ _ _ (execInstr E b ops s) _
      rw [execInstr_execute E hd, hE, hcall]
      have hst' : s.extend T X (s.world, a, st) = (s.extend T X s.world).withAnalysis (a, st) := rfl
      rw [hst']
      have lift : ∀ {s1 s1' : Store W} (a' : A), SameState m.ctx T X (fun v v' => v = s.world ∧ v' = (s.extend T X s.world).world) s1 s1' →
          SameState m.ctx T X (fun v (v' : World W A) => v = v'.1 ∧ J v'.2.2) s1 (s1'.withAnalysis (a', st)) := by
        rintro s1 s1' a' ⟨g1, w1, ⟨g2, rfl⟩, rfl⟩
        exact ⟨g1, (s.world, a', st), ⟨g2, h3⟩, rfl⟩
      generalize execute N b ops s = x at hx ⊢
      generalize execute N b ops (s.extend T X s.world) = x' at hx hp
      rcases hp with ⟨g1, s1, rfl⟩ | ⟨g1, g2⟩ | ⟨adv, _, g1⟩
      · cases hx with
        | trap _ => exact .trapL g1
        | fuelL h => cases h
        | trapT h => cases h
        | trapR h => cases h
        | trapL h => cases h
      · rw [show H analysisModule e.name _ _ _ = _ from g2]; exact .fuelR g1
      · rw [show H analysisModule e.name _ _ _ = _ from g1]
        cases hx with
        | ok hv hS => exact .ok hv (lift _ hS)
        | trap hS => exact .trap (lift _ hS)
        | fuel => exact .fuel
        | fuelL h => cases h
        | fuelR h => cases h
        | trapL h => cases h
        | trapT h => cases h
        | trapR h => cases h

end

/-! ## The two executions -/

/-- A program instrumented by an analysis written with the Rust library, linked with the stack library generated for it. Like `Deployed`, but the `apply` advice
is whatever `advice` says. -/
structure DeployedAll (iface : Interface) (m : Module) (r : Instrumented) (ge : WasmExport) (K : LibLink) (base : Nat) (T : List Table) (X : List (RefType × List (Option Nat))) (B : Nat)
    (body : Advice → (Nat → List RVal → Store (World W A) → Res (World W A)) → Store (World W A) → Res (World W A)) (advice : Host (World W A))
    (H : Imports W) (H' : Imports (World W A)) : Prop where
  sigs : r.librarySignatures = some K.sigs
  small : SmallSigs K.sigs
  good : K.Good
  lib : HasLib K H'
  linked : LinkedTo iface body H'
  advice : H' analysisModule ge.name = advice
  imports : ImportsAgreeBeside m T X H H'
  frame : ∀ t ∈ K.sigs, 12 * t.slots ≤ B

/-- The two executions in step, in both directions. (Like `looking_agrees`.) -/
theorem observing_agrees {C iface ts m r ge cb} (hs : SmallModule m) (hst : iface.Documented) (hsa : iface.StandardApply) (h : Instruments C iface ts m r)
    (hg : iface.generic = some (ge, cb)) (hv : ValidModule m)
    (hB : ∀ i ∈ bodyTargets m ts, ∀ f, m.functions[i]? = some f → WellAnnotated m f (bodyOf C m i)) (hres : ∀ name ∈ iface.toolExports, name ∉ m.exportNames) :
    ∃ base : Nat, (∃ f, r.module.functions[base]? = some f ∧ f.exports = [cb.name]) ∧
      ∀ (exact : Bool), (∀ i ∈ bodyTargets m ts, ∀ f c, m.functions[i]? = some f → f.code = .present c →
        OnlyCode (OffsetsAre iface (fun o => o.toNat < 2 ^ 31 ∧ (exact = true → o = 0))) c.body) →
      ∀ (W A : Type) (K : LibLink) (N : Num) (T : List Table) (X : List (RefType × List (Option Nat))) (B : Nat) (H : Imports W) (H' : Imports (World W A)) (o : Observer A)
        (pre post : WasmFunction → RuntimeValues → RuntimeValues → Act (World W A) Unit),
        DeployedAll iface m r ge K base T X B (o.beside.body N r.module.exported) (telling K base pre post) H H' →
        (∀ i ∈ applyTargets m ts, ∀ f, m.functions[i]? = some f → ∀ w p q, Looks f.type p q (pre w (handle f.type p) (handle f.type p)) ∧ Looks f.type p q (post w (handle f.type p) (handle f.type p))) →
        ∀ (f : Nat) (ty : FuncType) (args : List RVal) (s : Store W) (a : A) (l : Lib),
          m.ctx.ftype f = some ty → ValsOK m.ctx args ty.inputs → StoreOK m.ctx s →
          l.Ok → l.mem.pages < 65536 → SegmentsIntact m r (s.extend T X (s.world, a, l.store)) →
        ∀ (L d : Nat), l.free + d * B ≤ l.mem.limit * 65536 → l.free + d * B ≤ 65535 * 65536 →
          (besideLib m.ctx T X (fun _ => LibAt l.free l.mem.limit) never true false (!exact)).Ress m.ctx ty.results (callF N (machineOf H m.functions) L d f args s)
            (callF N (machineOf H' r.module.functions) L (5 * d + 2) f args (s.extend T X (s.world, a, l.store))) ∧
          (besideLib m.ctx T X (fun _ => LibAt l.free l.mem.limit) never false true (!exact)).Ress m.ctx ty.results (callF N (machineOf H m.functions) L d f args s)
            (callF N (machineOf H' r.module.functions) L d f args (s.extend T X (s.world, a, l.store))) := by
  obtain ⟨order, fs, sigs, hooks, copy, hA⟩ := applied hs h hg
  have hstd := hsa ge cb hg
  have hn := (C15_instrumented_module_valid hs hst.standard hsa h hv hB hres).exports
  refine ⟨copy + 2 * order.length, ⟨_, hA.at.callBase, rfl⟩, ?_⟩
  intro exact hoff W A K N T X B H H' o pre post hR hlook f ty args s a l hf ha hok ok hpg hseg L d hc1 hc2
  have hsigs : sigs = K.sigs := by have := hA.sigs_eq; rw [hR.sigs] at this; exact (Option.some.inj this).symm
  subst hsigs
  have hsz : order.length < 2 ^ 32 := by
    have := hA.count
    have := hs.functions
    omega
  have hseg' : ∀ s : Store (World W A), s.tables[m.tables.length]? = T[0]? → SegmentsIntact m r s := by
    intro s2 e
    refine intact_of hA hseg ?_
    rw [e]
    have hl := tables_length hok
    simp only [Store.extend]
    rw [List.getElem?_append_right (by omega)]
    simp [hl]
  have hS : ∀ fl fr, (besideLib m.ctx T X (fun _ => LibAt l.free l.mem.limit) never fl fr (!exact)).S s (s.extend T X (s.world, a, l.store)) :=
    fun fl fr => ⟨hok, _, ⟨rfl, l, rfl, ok, rfl, rfl, hpg⟩, rfl⟩
  exact ⟨looked_forward (L := L) hs hst.standard h hA ⟨hstd.1, hstd.2.1⟩ ⟨hstd.2.2.1, hstd.2.2.2.1⟩ hsz hv hB hR.good hR.small hR.lib (hR.advice ▸ telling_surrounds_each hR.good _ _ _) hlook hR.imports hR.frame hoff
      (fun F fl fr D E hk hE => observer_hooks_beside hs hst h hn hR.linked hk hE) hseg' (M := l.mem.limit) d (5 * d + 2) l.free (Nat.le_refl _) hc1 hc2 f ty args s _ hf ha (hS _ _),
    looked_backward (L := L) hs hst.standard h hA ⟨hstd.1, hstd.2.1⟩ ⟨hstd.2.2.1, hstd.2.2.2.1⟩ hsz hv hB hR.good hR.small hR.lib (hR.advice ▸ telling_surrounds_each hR.good _ _ _) hlook hR.imports hR.frame hoff (q := 2)
      (fun F fl fr D E hk hE => observer_hooks_beside hs hst h hn hR.linked hk hE) hseg' (M := l.mem.limit) d d l.free (Nat.le_refl _) hc1 hc2 f ty args s _ hf ha (hS _ _)⟩

/-- Printing only looks. -/
theorem printing_looks (t : FuncType) (p q : Nat) (e : String) : Looks t p q (printing e : Act (World W String) Unit) := fun _ _ _ _ _ _ => ⟨(), _, rfl⟩

/-- **C93, any observing analysis.** An analysis on the Rust library that does what it likes with its own state at every hook, seeing results (`o`), and before and after it resumes a call, seeing the function and its
values (`pre`, `post`, which only look), linked with a valid program it instruments and the stack library generated for it, is transparent, provided every load and store that goes through the analysis has static
offset 0: results, traps and program states are those of the original, in both directions, neither gets stuck, and the stack allocator is back where it was. -/
theorem C93_observing_transparent {C iface ts m r ge cb} (hs : SmallModule m) (hst : iface.Documented) (hsa : iface.StandardApply) (h : Instruments C iface ts m r)
    (hg : iface.generic = some (ge, cb)) (hv : ValidModule m)
    (hB : ∀ i ∈ bodyTargets m ts, ∀ f, m.functions[i]? = some f → WellAnnotated m f (bodyOf C m i)) (hres : ∀ name ∈ iface.toolExports, name ∉ m.exportNames)
    (hoff : ∀ i ∈ bodyTargets m ts, ∀ f c, m.functions[i]? = some f → f.code = .present c → OnlyCode (OffsetsAre iface fun o => o = 0) c.body) :
    ∃ base : Nat, (∃ f, r.module.functions[base]? = some f ∧ f.exports = [cb.name]) ∧
      ∀ (W A : Type) (o : Observer A) (K : LibLink) (N : Num) (T : List Table) (X : List (RefType × List (Option Nat))) (B : Nat) (H : Imports W) (H' : Imports (World W A))
        (pre post : WasmFunction → RuntimeValues → RuntimeValues → Act (World W A) Unit),
        DeployedAll iface m r ge K base T X B (o.beside.body N r.module.exported) (telling K base pre post) H H' →
        (∀ i ∈ applyTargets m ts, ∀ f, m.functions[i]? = some f → ∀ w p q, Looks f.type p q (pre w (handle f.type p) (handle f.type p)) ∧ Looks f.type p q (post w (handle f.type p) (handle f.type p))) →
        ∀ (f : Nat) (ty : FuncType) (args : List RVal) (s : Store W) (x : A) (l : Lib),
          m.ctx.ftype f = some ty → ValsOK m.ctx args ty.inputs → StoreOK m.ctx s →
          l.Ok → l.mem.pages < 65536 → SegmentsIntact m r (s.extend T X (s.world, x, l.store)) →
        ∀ (L d : Nat), l.free + d * B ≤ l.mem.limit * 65536 → l.free + d * B ≤ 65535 * 65536 →
          let original := callF N (machineOf H m.functions) L
          let instrumented := callF N (machineOf H' r.module.functions) L
          let s' := s.extend T X (s.world, x, l.store)
          (∀ vs s1, original d f args s = .ok vs s1 →
            ∃ x1 l1, instrumented (5 * d + 2) f args s' = .ok vs (s1.extend T X (s1.world, x1, l1.store)) ∧ Lib.Ok l1 ∧ l1.free = l.free ∧ l1.mem.limit = l.mem.limit) ∧
          (∀ s1, original d f args s = .trap s1 → ∃ x1 st1, instrumented (5 * d + 2) f args s' = .trap (s1.extend T X (s1.world, x1, st1))) ∧
          (∀ vs s1', instrumented d f args s' = .ok vs s1' →
            ∃ s1 x1 l1, original d f args s = .ok vs s1 ∧ s1' = s1.extend T X (s1.world, x1, l1.store) ∧ Lib.Ok l1 ∧ l1.free = l.free ∧ l1.mem.limit = l.mem.limit) ∧
          (∀ s1', instrumented d f args s' = .trap s1' → ∃ s1 x1 st1, original d f args s = .trap s1 ∧ s1' = s1.extend T X (s1.world, x1, st1)) ∧
          original d f args s ≠ .stuck ∧ instrumented d f args s' ≠ .stuck := by
  obtain ⟨base, hb, hall⟩ := observing_agrees hs hst hsa h hg hv hB hres
  have hoff' : ∀ i ∈ bodyTargets m ts, ∀ f c, m.functions[i]? = some f → f.code = .present c →
      OnlyCode (OffsetsAre iface (fun o => o.toNat < 2 ^ 31 ∧ (true = true → o = 0))) c.body := by
    intro i hi f c hf hc b hb t k info hd ht
    have := hoff i hi f c hf hc b hb t k info hd ht
    cases b <;> first | trivial | (have : _ = _ := this; exact ⟨by rw [this]; decide, fun _ => this⟩)
  refine ⟨base, hb, ?_⟩
  intro W A o K N T X B H H' pre post hR hlook f ty args s a l hf ha hok ok hpg hseg L d hc1 hc2 original instrumented s'
  obtain ⟨k1, k2⟩ := hall true hoff' W A K N T X B H H' o _ _ hR hlook f ty args s a l hf ha hok ok hpg hseg L d hc1 hc2
  exact exact_outcomes k1 k2

/-- **C93, whole.** The shipped logging analysis as it stands — every hook, and its `apply` advice — linked with a valid program it instruments and the stack library generated for it, is
transparent, provided every load and store that goes through the analysis has static offset 0 (the proviso of C48). A state of the instrumented program is a state `s` of the original, extended
by the tables `T` and segments `X` the tool has added, what has been printed, and the library's state. For every function `f` of the program, all arguments and every state:
* if calling `f` in the original returns `vs` in state `s1`, calling it in the instrumented program returns `vs` in the same program state, with the stack allocator back where it was;
* if the original traps, so does the instrumented program, in the same program state;
* if the instrumented program returns or traps, so does the original, with the same values and the same program state;
* neither gets stuck. -/
theorem C93_logging_transparent {C iface ts m r ge cb} (hs : SmallModule m) (hst : iface.Documented) (hsa : iface.StandardApply) (h : Instruments C iface ts m r)
    (hg : iface.generic = some (ge, cb)) (hv : ValidModule m)
    (hB : ∀ i ∈ bodyTargets m ts, ∀ f, m.functions[i]? = some f → WellAnnotated m f (bodyOf C m i)) (hres : ∀ name ∈ iface.toolExports, name ∉ m.exportNames)
    (hoff : ∀ i ∈ bodyTargets m ts, ∀ f c, m.functions[i]? = some f → f.code = .present c → OnlyCode (OffsetsAre iface fun o => o = 0) c.body) :
    ∃ base : Nat, (∃ f, r.module.functions[base]? = some f ∧ f.exports = [cb.name]) ∧
      ∀ (W : Type) (F : FloatText) (K : LibLink) (N : Num) (T : List Table) (X : List (RefType × List (Option Nat))) (B : Nat) (H : Imports W) (H' : Imports (World W String)),
        DeployedAll iface m r ge K base T X B ((logging F).beside.body N r.module.exported) (loggingApply K base) H H' →
        ∀ (f : Nat) (ty : FuncType) (args : List RVal) (s : Store W) (out : String) (l : Lib),
          m.ctx.ftype f = some ty → ValsOK m.ctx args ty.inputs → StoreOK m.ctx s →
          l.Ok → l.mem.pages < 65536 → SegmentsIntact m r (s.extend T X (s.world, out, l.store)) →
        ∀ (L d : Nat), l.free + d * B ≤ l.mem.limit * 65536 → l.free + d * B ≤ 65535 * 65536 →
          let original := callF N (machineOf H m.functions) L
          let instrumented := callF N (machineOf H' r.module.functions) L
          let s' := s.extend T X (s.world, out, l.store)
          (∀ vs s1, original d f args s = .ok vs s1 →
            ∃ out1 l1, instrumented (5 * d + 2) f args s' = .ok vs (s1.extend T X (s1.world, out1, l1.store)) ∧ Lib.Ok l1 ∧ l1.free = l.free ∧ l1.mem.limit = l.mem.limit) ∧
          (∀ s1, original d f args s = .trap s1 → ∃ out1 st1, instrumented (5 * d + 2) f args s' = .trap (s1.extend T X (s1.world, out1, st1))) ∧
          (∀ vs s1', instrumented d f args s' = .ok vs s1' →
            ∃ s1 out1 l1, original d f args s = .ok vs s1 ∧ s1' = s1.extend T X (s1.world, out1, l1.store) ∧ Lib.Ok l1 ∧ l1.free = l.free ∧ l1.mem.limit = l.mem.limit) ∧
          (∀ s1', instrumented d f args s' = .trap s1' → ∃ s1 out1 st1, original d f args s = .trap s1 ∧ s1' = s1.extend T X (s1.world, out1, st1)) ∧
          original d f args s ≠ .stuck ∧ instrumented d f args s' ≠ .stuck := by
  obtain ⟨base, hb, hall⟩ := C93_observing_transparent hs hst hsa h hg hv hB hres hoff
  exact ⟨base, hb, fun W F K N T X B H H' hR => hall W String (logging F) K N T X B H H' _ _ hR (fun _ _ _ _ _ _ _ => ⟨printing_looks _ _ _ _, printing_looks _ _ _ _⟩)⟩

/-- **C93, with static offsets.** For static offsets below 2³¹, the logging analysis preserves results: what the original returns, the instrumented program returns, in the same program state;
what the instrumented program returns, the original returns, or it traps. -/
theorem C93_logging_preserves_results {C iface ts m r ge cb} (hs : SmallModule m) (hst : iface.Documented) (hsa : iface.StandardApply) (h : Instruments C iface ts m r)
    (hg : iface.generic = some (ge, cb)) (hv : ValidModule m)
    (hB : ∀ i ∈ bodyTargets m ts, ∀ f, m.functions[i]? = some f → WellAnnotated m f (bodyOf C m i)) (hres : ∀ name ∈ iface.toolExports, name ∉ m.exportNames)
    (hoff : ∀ i ∈ bodyTargets m ts, ∀ f c, m.functions[i]? = some f → f.code = .present c → OnlyCode (OffsetsAre iface fun o => o.toNat < 2 ^ 31) c.body) :
    ∃ base : Nat, (∃ f, r.module.functions[base]? = some f ∧ f.exports = [cb.name]) ∧
      ∀ (W : Type) (F : FloatText) (K : LibLink) (N : Num) (T : List Table) (X : List (RefType × List (Option Nat))) (B : Nat) (H : Imports W) (H' : Imports (World W String)),
        DeployedAll iface m r ge K base T X B ((logging F).beside.body N r.module.exported) (loggingApply K base) H H' →
        ∀ (f : Nat) (ty : FuncType) (args : List RVal) (s : Store W) (out : String) (l : Lib),
          m.ctx.ftype f = some ty → ValsOK m.ctx args ty.inputs → StoreOK m.ctx s →
          l.Ok → l.mem.pages < 65536 → SegmentsIntact m r (s.extend T X (s.world, out, l.store)) →
        ∀ (L d : Nat), l.free + d * B ≤ l.mem.limit * 65536 → l.free + d * B ≤ 65535 * 65536 →
          let original := callF N (machineOf H m.functions) L
          let instrumented := callF N (machineOf H' r.module.functions) L
          let s' := s.extend T X (s.world, out, l.store)
          (∀ vs s1, original d f args s = .ok vs s1 →
            ∃ out1 l1, instrumented (5 * d + 2) f args s' = .ok vs (s1.extend T X (s1.world, out1, l1.store)) ∧ Lib.Ok l1 ∧ l1.free = l.free ∧ l1.mem.limit = l.mem.limit) ∧
          (∀ vs s1', instrumented d f args s' = .ok vs s1' →
            (∃ s1 out1 l1, original d f args s = .ok vs s1 ∧ s1' = s1.extend T X (s1.world, out1, l1.store) ∧ Lib.Ok l1 ∧ l1.free = l.free ∧ l1.mem.limit = l.mem.limit) ∨
            ∃ s1, original d f args s = .trap s1) := by
  obtain ⟨base, hb, hall⟩ := observing_agrees hs hst hsa h hg hv hB hres
  have hoff' : ∀ i ∈ bodyTargets m ts, ∀ f c, m.functions[i]? = some f → f.code = .present c →
      OnlyCode (OffsetsAre iface (fun o => o.toNat < 2 ^ 31 ∧ (false = true → o = 0))) c.body := by
    intro i hi f c hf hc b hb t k info hd ht
    have := hoff i hi f c hf hc b hb t k info hd ht
    cases b <;> first | trivial | exact ⟨this, fun h => by cases h⟩
  refine ⟨base, hb, ?_⟩
  intro W F K N T X B H H' hR f ty args s a l hf ha hok ok hpg hseg L d hc1 hc2 original instrumented s'
  obtain ⟨k1, k2⟩ := hall false hoff' W String K N T X B H H' (logging F) _ _ hR (fun _ _ _ _ _ _ _ => ⟨printing_looks _ _ _ _, printing_looks _ _ _ _⟩) f ty args s a l hf ha hok ok hpg hseg L d hc1 hc2
  exact loose_outcomes k1 k2

/-! ## An example -/

/-- The embedder of `exNanned`: the stack library, and the logging analysis. -/
def exLogHost (F : FloatText) (base : Nat) : Imports (World Unit String) := fun ns name =>
  if ns = stackModule then libHost exNanLink.N exNanLink.sigs exNanLink.L exNanLink.d name
  else if name = interfaceGenericApply.1.name then loggingApply exNanLink base
  else match denanIface.selected.find? fun t => t.exportName == name with
  | some t => stdHook ((logging F).beside.body exNum exNanned.module.exported) t
  | none => fun _ _ _ => .stuck

theorem exLogHost_deployed (F : FloatText) (base : Nat) :
    DeployedAll denanIface exNan exNanned interfaceGenericApply.1 exNanLink base [exNanTable] [] 36 ((logging F).beside.body exNum exNanned.module.exported) (loggingApply exNanLink base)
      (fun _ _ _ _ _ => .stuck) (exLogHost F base) where
  sigs := by decide +kernel
  small := by
    rw [exNanned_sigs]
    intro t ht
    simp only [List.mem_singleton] at ht
    subst ht; decide
  good := ⟨libNum_stack, by decide, by decide⟩
  lib := fun name => rfl
  linked := by
    intro t ht
    rw [C49_library_exports_what_is_imported]
    have hd := denanIface_hooks ht
    have e : t.exportName ≠ interfaceGenericApply.1.name ∧ List.find? (fun u => u.exportName == t.exportName) denanIface.selected = some t := by
      revert hd; clear ht
      have : ∀ t : Trap, (!t.denans || (decide (t.exportName ≠ interfaceGenericApply.1.name) && decide (List.find? (fun u => u.exportName == t.exportName) denanIface.selected = some t))) = true := by
        intro t; cases t <;> decide +kernel
      intro hd
      have := this t
      simpa [hd] using this
    have e3 : ("WASTRUMENTATION_ANALYSIS" : String) ≠ stackModule := by decide
    simp only [exLogHost, e.1, e.2, e3, if_false]
  advice := rfl
  imports := fun f hf ns name hc => (exNan_noImports hf hc).elim
  frame := by
    rw [exNanned_sigs]
    intro t ht
    simp only [List.mem_singleton] at ht
    subst ht; decide

-- C93: all hypotheses hold of the example. With the call, the store and the load going through the analysis, `main(8, NaN)` returns the bits of
-- the NaN, as in the original, and the stack allocator is back at 0, whatever is printed.
example (F : FloatText) : ∃ (base : Nat) (s1 : Store Unit) (out1 : String) (l1 : Lib), callF exNum (machineOf (exLogHost F base) exNanned.module.functions) 10 52 0
      [.i32 8, .num (.f32 0x7fc00001)] (exMemStore.extend [exNanTable] [] ((), "", exLib.store)) =
    .ok [.i32 0x7fc00001] (Store.extend s1 [exNanTable] [] ((), out1, Lib.store l1)) ∧ l1.free = 0 := by
  obtain ⟨base, _, h⟩ := C93_logging_transparent exNan_small denanIface_documented denanIface_standard exNanned_instruments rfl exNan_valid exNan_annotated exNan_reserved exNan_offsets
  have h := h _ _ _ _ _ _ _ _ _ (exLogHost_deployed F base) 0 _ [.i32 8, .num (.f32 0x7fc00001)] exMemStore "" exLib rfl
    (ValsOK.nil.cons rfl (by simp [RVal.OK]) |>.cons rfl (by simp [RVal.OK])) exNanStore_ok exLib_ok (by decide)
    (fun el hel tbl hm k f hk => exNanned_intact ((), (), exLib.store) el hel tbl hm k f hk) 10 10 (by decide) (by decide)
  have hr := exNan_runs
  split at hr
  · rename_i vs s1 he
    cases hr
    obtain ⟨out1, l1, e, _, e1, _⟩ := h.1 _ _ he
    exact ⟨base, s1, out1, l1, e, e1⟩
  · cases hr

end Wastrum
