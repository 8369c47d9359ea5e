import Verif.Weave
import Verif.AsThms
/-!
# Analyses that answer otherwise change the program, exactly where they have hooks (C81)

Spec: `Module.patched` is the program with instructions inserted; `Computes` says what straight-line code makes of operands.
-/

set_option linter.unusedSimpArgs false
set_option linter.unusedVariables false

namespace Wastrum

variable {W A : Type}

/-! ## The general theorem -/

/-- The rewritten and the instrumented program stay in step. -/
theorem rewriting_agrees {C iface ts m r} (hs : SmallModule m) (hst : iface.Standard) (hg : iface.generic = none)
    (h : Instruments C iface ts m r) (hv : ValidModule m)
    (hB : ∀ i ∈ bodyTargets m ts, ∀ f, m.functions[i]? = some f → WellAnnotated m f (bodyOf C m i))
    {B : Basic → Prop} (hO : ∀ i ∈ bodyTargets m ts, ∀ f c, m.functions[i]? = some f → f.code = .present c → OnlyCode B c.body)
    {N : Num} {code : Patch} {ρ : Swap} {P : Trap → List RVal → A → A → Prop} {H : Imports W} {H' : Imports (W × A)}
    {callOK : Bool → (Nat → List RVal → Store (W × A) → Res (W × A)) → Prop} {tl : Bool} (hF : ∀ mo, RewritesFor N iface code ρ P (callOK mo) (fun b => B b ∧ m.ctx.HasMem b) tl mo H')
    {k : Nat} (hk : 1 ≤ k) (hcalls : ∀ mo L d, mo = true ∨ k ≤ d + 1 → callOK mo (callF N (machineOf H' r.module.functions) L d)) (hI : ImportsAgree m (fun w (p : W × A) => w = p.1) H H')
    {L d : Nat} {fl fr : Bool} {k' : Nat} (h1 : fl = true ∨ k' = 0) (h2 : fr = true ∨ k ≤ k') :
    CallsAgree (agreeing m.ctx (fun w (p : W × A) => w = p.1) fl fr tl) m.ctx (callF N (machineOf H (m.rewritten C (bodyTargets m ts) code ρ).functions) L d)
      (callF N (machineOf H' r.module.functions) L (d + k')) := by
  refine rewritten_agrees hs hst hg h hv hB hO (R := agreeing m.ctx (fun w (p : W × A) => w = p.1) fl fr tl) (Q := fun w (p : W × A) => w = p.1) rfl
    (k := k') h1 (N := N) (L := L) (H := H) (H' := H') (hF fr).fits (hF fr).swaps (fun f hf ns name hc => hI f hf ns name hc fl fr tl)
    (fun d E hE => rewriting_hooks hs h (hF fr) id (h2.imp id (Nat.le_trans hk)) hE fun d' hd' => ?_) d
  have e : callF N (underAnalysis C m (bodyTargets m ts) H' (hookSel iface m.functions.length) (r.module.functions.drop m.functions.length)) L d' =
      callF N (machineOf H' r.module.functions) L d' := by
    funext f args s; exact (C09_instrumented_is_interposed hs hst hg h N H' L d' f args s).symm
  rw [e]
  exact hcalls fr L d' (h2.imp id (by omega))

/-- The rewritten and the instrumented program, with bounds, for analyses that may call functions of the instrumented program. -/
theorem rewriting_bounds {C iface ts m r} (hs : SmallModule m) (hst : iface.Standard) (hg : iface.generic = none)
    (h : Instruments C iface ts m r) (hv : ValidModule m)
    (hB : ∀ i ∈ bodyTargets m ts, ∀ f, m.functions[i]? = some f → WellAnnotated m f (bodyOf C m i))
    {B : Basic → Prop} (hO : ∀ i ∈ bodyTargets m ts, ∀ f c, m.functions[i]? = some f → f.code = .present c → OnlyCode B c.body)
    {N : Num} {code : Patch} {ρ : Swap} {P : Trap → List RVal → A → A → Prop} {H : Imports W} {H' : Imports (W × A)}
    {callOK : Bool → (Nat → List RVal → Store (W × A) → Res (W × A)) → Prop} (hF : ∀ mo, RewritesFor N iface code ρ P (callOK mo) (fun b => B b ∧ m.ctx.HasMem b) false mo H')
    {k : Nat} (hk : 1 ≤ k) (hcalls : ∀ mo L d, mo = true ∨ k ≤ d + 1 → callOK mo (callF N (machineOf H' r.module.functions) L d)) (hI : ImportsAgree m (fun w (p : W × A) => w = p.1) H H')
    {f : Nat} {ty : FuncType} {args : List RVal} {s : Store W} (hf : m.ctx.ftype f = some ty) (hargs : ValsOK m.ctx args ty.inputs)
    (hok : StoreOK m.ctx s) (a : A) (L d : Nat) :
    let rewritten := machineOf H (m.rewritten C (bodyTargets m ts) code ρ).functions
    let instrumented := machineOf H' r.module.functions
    (∀ vs s1, callF N rewritten L d f args s = .ok vs s1 → ∃ a1, callF N instrumented L (d + k) f args (s.withAnalysis a) = .ok vs (s1.withAnalysis a1)) ∧
    (∀ s1, callF N rewritten L d f args s = .trap s1 → ∃ a1, callF N instrumented L (d + k) f args (s.withAnalysis a) = .trap (s1.withAnalysis a1)) ∧
    (∀ vs s1', callF N instrumented L d f args (s.withAnalysis a) = .ok vs s1' → ∃ s1 a1, callF N rewritten L d f args s = .ok vs s1 ∧ s1' = s1.withAnalysis a1) ∧
    (∀ s1', callF N instrumented L d f args (s.withAnalysis a) = .trap s1' → ∃ s1 a1, callF N rewritten L d f args s = .trap s1 ∧ s1' = s1.withAnalysis a1) ∧
    callF N rewritten L d f args s ≠ .stuck ∧ callF N instrumented L d f args (s.withAnalysis a) ≠ .stuck := by
  have key : ∀ (fl fr : Bool) (k' : Nat), fl = true ∨ k' = 0 → fr = true ∨ k ≤ k' → _ :=
    fun fl fr k' h1 h2 => rewriting_agrees hs hst hg h hv hB hO hF hk hcalls hI (L := L) (d := d) h1 h2
  have hS : SameState m.ctx [] [] (fun w (p : W × A) => w = p.1) s (s.withAnalysis a) := SameState.iff.2 ⟨hok, rfl, rfl, rfl, rfl, rfl, rfl⟩
  have k1 := (key true false k (.inl rfl) (.inr (Nat.le_refl _))).ok hf hargs hS rfl (fun _ _ h => h) (fun _ h => h)
  have k2 := (key false true 0 (.inr rfl) (.inl rfl)).ok hf hargs hS rfl (fun _ _ h => h) (fun _ h => h)
  simp only [agreeing, Bool.false_eq_true, and_false, false_or, Nat.add_zero, and_true] at k1 k2
  dsimp only
  generalize callF N (machineOf H (m.rewritten C (bodyTargets m ts) code ρ).functions) L d f args s = o at k1 k2 ⊢
  generalize callF N (machineOf H' r.module.functions) L (d + k) f args (s.withAnalysis a) = o1 at k1 ⊢
  generalize callF N (machineOf H' r.module.functions) L d f args (s.withAnalysis a) = o0 at k2 ⊢
  refine ⟨?_, ?_, ?_, ?_, ?_, ?_⟩
  · rintro vs s1 rfl
    rcases k1 with ⟨h, _⟩ | ⟨_, _, _, h, rfl, hs⟩ | ⟨_, _, h, _⟩ <;> cases h
    exact ⟨_, by rw [← hs.program fun _ _ h => h]⟩
  · rintro s1 rfl
    rcases k1 with ⟨h, _⟩ | ⟨_, _, _, h, _⟩ | ⟨_, _, h, rfl, hs⟩ <;> cases h
    exact ⟨_, by rw [← hs.program fun _ _ h => h]⟩
  · rintro vs s1' rfl
    rcases k2 with ⟨_, h⟩ | h | ⟨_, _, _, rfl, h, hs⟩ | ⟨_, _, _, h, _⟩ <;> cases h
    exact ⟨_, _, rfl, hs.program fun _ _ h => h⟩
  · rintro s1' rfl
    rcases k2 with ⟨_, h⟩ | h | ⟨_, _, _, _, h, _⟩ | ⟨_, _, rfl, h, hs⟩ <;> cases h
    exact ⟨_, _, rfl, hs.program fun _ _ h => h⟩
  · rintro rfl
    rcases k1 with ⟨h, _⟩ | ⟨_, _, _, h, _⟩ | ⟨_, _, h, _⟩ <;> cases h
  · rintro rfl
    rcases k2 with ⟨_, h⟩ | h | ⟨_, _, _, _, h, _⟩ | ⟨_, _, _, h, _⟩ <;> cases h

/-- The same for analyses of which nothing is known where the operation to perform traps. -/
theorem rewriting_results {C iface ts m r} (hs : SmallModule m) (hst : iface.Standard) (hg : iface.generic = none)
    (h : Instruments C iface ts m r) (hv : ValidModule m)
    (hB : ∀ i ∈ bodyTargets m ts, ∀ f, m.functions[i]? = some f → WellAnnotated m f (bodyOf C m i))
    {B : Basic → Prop} (hO : ∀ i ∈ bodyTargets m ts, ∀ f c, m.functions[i]? = some f → f.code = .present c → OnlyCode B c.body)
    {N : Num} {code : Patch} {ρ : Swap} {P : Trap → List RVal → A → A → Prop} {H : Imports W} {H' : Imports (W × A)}
    {callOK : Bool → (Nat → List RVal → Store (W × A) → Res (W × A)) → Prop} (hF : ∀ mo, RewritesFor N iface code ρ P (callOK mo) (fun b => B b ∧ m.ctx.HasMem b) true mo H')
    {k : Nat} (hk : 1 ≤ k) (hcalls : ∀ mo L d, mo = true ∨ k ≤ d + 1 → callOK mo (callF N (machineOf H' r.module.functions) L d)) (hI : ImportsAgree m (fun w (p : W × A) => w = p.1) H H')
    {f : Nat} {ty : FuncType} {args : List RVal} {s : Store W} (hf : m.ctx.ftype f = some ty) (hargs : ValsOK m.ctx args ty.inputs)
    (hok : StoreOK m.ctx s) (a : A) (L d : Nat) :
    let rewritten := machineOf H (m.rewritten C (bodyTargets m ts) code ρ).functions
    let instrumented := machineOf H' r.module.functions
    (∀ vs s1, callF N rewritten L d f args s = .ok vs s1 → ∃ a1, callF N instrumented L (d + k) f args (s.withAnalysis a) = .ok vs (s1.withAnalysis a1)) ∧
    (∀ vs s1', callF N instrumented L d f args (s.withAnalysis a) = .ok vs s1' →
      (∃ s1 a1, callF N rewritten L d f args s = .ok vs s1 ∧ s1' = s1.withAnalysis a1) ∨ ∃ s1, callF N rewritten L d f args s = .trap s1) := by
  have hS : SameState m.ctx [] [] (fun w (p : W × A) => w = p.1) s (s.withAnalysis a) := SameState.iff.2 ⟨hok, rfl, rfl, rfl, rfl, rfl, rfl⟩
  have k1 := (rewriting_agrees hs hst hg h hv hB hO hF hk hcalls hI (L := L) (d := d) (fl := true) (fr := false) (.inl rfl) (.inr (Nat.le_refl _))) f ty args s _ hf hargs hS
  have k2 := (rewriting_agrees hs hst hg h hv hB hO hF hk hcalls hI (L := L) (d := d) (fl := false) (fr := true) (.inr rfl) (.inl rfl)) f ty args s _ hf hargs hS
  dsimp only
  simp only [Nat.add_zero] at k2
  generalize callF N (machineOf H (m.rewritten C (bodyTargets m ts) code ρ).functions) L d f args s = o at k1 k2 ⊢
  generalize callF N (machineOf H' r.module.functions) L (d + k) f args (s.withAnalysis a) = o1 at k1 ⊢
  generalize callF N (machineOf H' r.module.functions) L d f args (s.withAnalysis a) = o0 at k2 ⊢
  refine ⟨?_, ?_⟩
  · rintro vs s1 rfl
    cases k1 with
    | ok hv hs => exact ⟨_, by rw [← SameState.program (show SameState m.ctx [] [] (fun w (p : W × A) => w = p.1) _ _ from hs) fun _ _ h => h]⟩
    | fuelR h => cases h
    | trapR h => cases h
  · rintro vs s1' rfl
    cases k2 with
    | ok hv hs => exact .inl ⟨_, _, rfl, SameState.program (show SameState m.ctx [] [] (fun w (p : W × A) => w = p.1) _ _ from hs) fun _ _ h => h⟩
    | fuelL h => cases h
    | trapL h => exact .inr ⟨_, rfl⟩

/-- C89, with the bounds on loop iterations `L` and call depth `d` in view. -/
theorem C89_rewriting_bounds {C iface ts m r} (hs : SmallModule m) (hst : iface.Standard) (hg : iface.generic = none)
    (h : Instruments C iface ts m r) (hv : ValidModule m)
    (hB : ∀ i ∈ bodyTargets m ts, ∀ f, m.functions[i]? = some f → WellAnnotated m f (bodyOf C m i))
    {N : Num} {code : Patch} {ρ : Swap} {P : Trap → List RVal → A → A → Prop} {H : Imports W} {H' : Imports (W × A)}
    (hF : RewritesBy N iface code ρ P H') (hI : ImportsAgree m (fun w (p : W × A) => w = p.1) H H')
    {f : Nat} {ty : FuncType} {args : List RVal} {s : Store W} (hf : m.ctx.ftype f = some ty) (hargs : ValsOK m.ctx args ty.inputs)
    (hok : StoreOK m.ctx s) (a : A) (L d : Nat) :
    let rewritten := machineOf H (m.rewritten C (bodyTargets m ts) code ρ).functions
    let instrumented := machineOf H' r.module.functions
    (∀ vs s1, callF N rewritten L d f args s = .ok vs s1 → ∃ a1, callF N instrumented L (d + 1) f args (s.withAnalysis a) = .ok vs (s1.withAnalysis a1)) ∧
    (∀ s1, callF N rewritten L d f args s = .trap s1 → ∃ a1, callF N instrumented L (d + 1) f args (s.withAnalysis a) = .trap (s1.withAnalysis a1)) ∧
    (∀ vs s1', callF N instrumented L d f args (s.withAnalysis a) = .ok vs s1' → ∃ s1 a1, callF N rewritten L d f args s = .ok vs s1 ∧ s1' = s1.withAnalysis a1) ∧
    (∀ s1', callF N instrumented L d f args (s.withAnalysis a) = .trap s1' → ∃ s1 a1, callF N rewritten L d f args s = .trap s1 ∧ s1' = s1.withAnalysis a1) ∧
    callF N rewritten L d f args s ≠ .stuck ∧ callF N instrumented L d f args (s.withAnalysis a) ≠ .stuck :=
  rewriting_bounds hs hst hg h hv hB (B := fun _ => True) (fun _ _ _ _ _ _ _ _ => trivial) (callOK := fun _ _ => True) (fun mo => hF.toFor _ _ mo) (k := 1) (Nat.le_refl _) (fun _ _ _ _ => trivial) hI hf hargs hok a L d

/-- From outcomes with bounds to outcomes. -/
theorem outcomes_of_bounds {k : Nat} {original : Nat → Nat → Res W} {instrumented : Nat → Nat → Res (W × A)}
    (key : ∀ L d, (∀ vs s1, original L d = .ok vs s1 → ∃ a1, instrumented L (d + k) = .ok vs (s1.withAnalysis a1)) ∧
      (∀ s1, original L d = .trap s1 → ∃ a1, instrumented L (d + k) = .trap (s1.withAnalysis a1)) ∧
      (∀ vs s1', instrumented L d = .ok vs s1' → ∃ s1 a1, original L d = .ok vs s1 ∧ s1' = s1.withAnalysis a1) ∧
      (∀ s1', instrumented L d = .trap s1' → ∃ s1 a1, original L d = .trap s1 ∧ s1' = s1.withAnalysis a1) ∧
      original L d ≠ .stuck ∧ instrumented L d ≠ .stuck) :
    (∀ vs s1, (∃ L d, original L d = .ok vs s1) ↔ ∃ L d a1, instrumented L d = .ok vs (s1.withAnalysis a1)) ∧
    (∀ s1, (∃ L d, original L d = .trap s1) ↔ ∃ L d a1, instrumented L d = .trap (s1.withAnalysis a1)) ∧
    ((∀ L d, original L d = .fuel) ↔ ∀ L d, instrumented L d = .fuel) := by
  have inj : ∀ {s1 s2 : Store W} {a1 a2 : A}, s1.withAnalysis a1 = s2.withAnalysis a2 → s1 = s2 := by
    intro s1 s2 a1 a2 e
    simp only [Store.withAnalysis, Store.mk.injEq, Prod.mk.injEq] at e
    obtain ⟨h1, h2, h3, h4, h5, h6, _⟩ := e
    cases s1; cases s2; simp_all
  refine ⟨?_, ?_, ?_⟩
  · intro vs s1
    constructor
    · rintro ⟨L, d, e⟩
      obtain ⟨a1, e'⟩ := (key L d).1 vs s1 e
      exact ⟨L, d + k, a1, e'⟩
    · rintro ⟨L, d, a1, e⟩
      obtain ⟨s2, a2, e1, e2⟩ := (key L d).2.2.1 _ _ e
      exact ⟨L, d, by rw [e1, inj e2]⟩
  · intro s1
    constructor
    · rintro ⟨L, d, e⟩
      obtain ⟨a1, e'⟩ := (key L d).2.1 s1 e
      exact ⟨L, d + k, a1, e'⟩
    · rintro ⟨L, d, a1, e⟩
      obtain ⟨s2, a2, e1, e2⟩ := (key L d).2.2.2.1 _ e
      exact ⟨L, d, by rw [e1, inj e2]⟩
  · constructor
    · intro e L d
      cases ho : instrumented L d with
      | fuel => rfl
      | stuck => exact absurd ho (key L d).2.2.2.2.2
      | ok vs s1 => obtain ⟨s2, a2, e1, _⟩ := (key L d).2.2.1 _ _ ho; rw [e] at e1; cases e1
      | trap s1 => obtain ⟨s2, a2, e1, _⟩ := (key L d).2.2.2.1 _ ho; rw [e] at e1; cases e1
    · intro e L d
      cases ho : original L d with
      | fuel => rfl
      | stuck => exact absurd ho (key L d).2.2.2.2.1
      | ok vs s1 => obtain ⟨a2, e1⟩ := (key L d).1 _ _ ho; rw [e] at e1; cases e1
      | trap s1 => obtain ⟨a2, e1⟩ := (key L d).2.1 _ ho; rw [e] at e1; cases e1

/-- **C89.** Let a valid program be instrumented for an analysis whose hooks, handed an operation, perform another one with the same operand and
result types (possibly depending on the location; the operation itself is allowed too), and, shown operands, answer what some inserted instructions would
compute from them. The instrumented program behaves exactly like the program in which, in the targets and where there are hooks, those operations have been
replaced and those instructions inserted: same results, same traps, same program states, and it runs forever in one iff in the other. -/
theorem C89_performing_others_rewrites_the_program {C iface ts m r} (hs : SmallModule m) (hst : iface.Standard) (hg : iface.generic = none)
    (h : Instruments C iface ts m r) (hv : ValidModule m)
    (hB : ∀ i ∈ bodyTargets m ts, ∀ f, m.functions[i]? = some f → WellAnnotated m f (bodyOf C m i))
    {N : Num} {code : Patch} {ρ : Swap} {P : Trap → List RVal → A → A → Prop} {H : Imports W} {H' : Imports (W × A)}
    (hF : RewritesBy N iface code ρ P H') (hI : ImportsAgree m (fun w (p : W × A) => w = p.1) H H')
    {f : Nat} {ty : FuncType} {args : List RVal} {s : Store W} (hf : m.ctx.ftype f = some ty) (hargs : ValsOK m.ctx args ty.inputs)
    (hok : StoreOK m.ctx s) (a : A) :
    let rewritten := machineOf H (m.rewritten C (bodyTargets m ts) code ρ).functions
    let instrumented := machineOf H' r.module.functions
    (∀ vs s1, (∃ L d, callF N rewritten L d f args s = .ok vs s1) ↔ ∃ L d a1, callF N instrumented L d f args (s.withAnalysis a) = .ok vs (s1.withAnalysis a1)) ∧
    (∀ s1, (∃ L d, callF N rewritten L d f args s = .trap s1) ↔ ∃ L d a1, callF N instrumented L d f args (s.withAnalysis a) = .trap (s1.withAnalysis a1)) ∧
    ((∀ L d, callF N rewritten L d f args s = .fuel) ↔ ∀ L d, callF N instrumented L d f args (s.withAnalysis a) = .fuel) :=
  outcomes_of_bounds fun L d => C89_rewriting_bounds hs hst hg h hv hB hF hI hf hargs hok a L d

/-- C81, with the bounds on loop iterations `L` and call depth `d` in view. -/
theorem C81_answers_patch_bounds {C iface ts m r} (hs : SmallModule m) (hst : iface.Standard) (hg : iface.generic = none)
    (h : Instruments C iface ts m r) (hv : ValidModule m)
    (hB : ∀ i ∈ bodyTargets m ts, ∀ f, m.functions[i]? = some f → WellAnnotated m f (bodyOf C m i))
    {N : Num} {code : Patch} {P : Trap → List RVal → A → A → Prop} {H : Imports W} {H' : Imports (W × A)}
    (hF : AnswersBy N iface code P H') (hI : ImportsAgree m (fun w (p : W × A) => w = p.1) H H')
    {f : Nat} {ty : FuncType} {args : List RVal} {s : Store W} (hf : m.ctx.ftype f = some ty) (hargs : ValsOK m.ctx args ty.inputs)
    (hok : StoreOK m.ctx s) (a : A) (L d : Nat) :
    let patched := machineOf H (m.patched C (bodyTargets m ts) code).functions
    let instrumented := machineOf H' r.module.functions
    (∀ vs s1, callF N patched L d f args s = .ok vs s1 → ∃ a1, callF N instrumented L (d + 1) f args (s.withAnalysis a) = .ok vs (s1.withAnalysis a1)) ∧
    (∀ s1, callF N patched L d f args s = .trap s1 → ∃ a1, callF N instrumented L (d + 1) f args (s.withAnalysis a) = .trap (s1.withAnalysis a1)) ∧
    (∀ vs s1', callF N instrumented L d f args (s.withAnalysis a) = .ok vs s1' → ∃ s1 a1, callF N patched L d f args s = .ok vs s1 ∧ s1' = s1.withAnalysis a1) ∧
    (∀ s1', callF N instrumented L d f args (s.withAnalysis a) = .trap s1' → ∃ s1 a1, callF N patched L d f args s = .trap s1 ∧ s1' = s1.withAnalysis a1) ∧
    callF N patched L d f args s ≠ .stuck ∧ callF N instrumented L d f args (s.withAnalysis a) ≠ .stuck :=
  C89_rewriting_bounds hs hst hg h hv hB hF hI hf hargs hok a L d

/-- **C81 (in general).** Let a valid program be instrumented for an analysis whose hooks answer what some inserted instructions would compute from the
operands shown (possibly depending on the location), and perform the operations they are handed. The instrumented program behaves exactly like the
program in which those instructions have been inserted at the hooked places of the targets, and nowhere else: same results, same traps, same program
states, and it runs forever in one iff in the other. -/
theorem C81_answers_patch_the_program {C iface ts m r} (hs : SmallModule m) (hst : iface.Standard) (hg : iface.generic = none)
    (h : Instruments C iface ts m r) (hv : ValidModule m)
    (hB : ∀ i ∈ bodyTargets m ts, ∀ f, m.functions[i]? = some f → WellAnnotated m f (bodyOf C m i))
    {N : Num} {code : Patch} {P : Trap → List RVal → A → A → Prop} {H : Imports W} {H' : Imports (W × A)}
    (hF : AnswersBy N iface code P H') (hI : ImportsAgree m (fun w (p : W × A) => w = p.1) H H')
    {f : Nat} {ty : FuncType} {args : List RVal} {s : Store W} (hf : m.ctx.ftype f = some ty) (hargs : ValsOK m.ctx args ty.inputs)
    (hok : StoreOK m.ctx s) (a : A) :
    let patched := machineOf H (m.patched C (bodyTargets m ts) code).functions
    let instrumented := machineOf H' r.module.functions
    (∀ vs s1, (∃ L d, callF N patched L d f args s = .ok vs s1) ↔ ∃ L d a1, callF N instrumented L d f args (s.withAnalysis a) = .ok vs (s1.withAnalysis a1)) ∧
    (∀ s1, (∃ L d, callF N patched L d f args s = .trap s1) ↔ ∃ L d a1, callF N instrumented L d f args (s.withAnalysis a) = .trap (s1.withAnalysis a1)) ∧
    ((∀ L d, callF N patched L d f args s = .fuel) ↔ ∀ L d, callF N instrumented L d f args (s.withAnalysis a) = .fuel) :=
  C89_performing_others_rewrites_the_program hs hst hg h hv hB hF hI hf hargs hok a

/-! ## The analyses of the test suite -/

/-- The advice of `if-then-alter.wasp` 2-10, `if-then-else-alter.wasp` 2-10, `branch-if-alter.wasp` 2-11, `select-alter.wasp` 2-10 and
`br-table-alter.wasp` 2-5 (all in `/repo/wastrumentation-instr-lib/tests/analyses/wasp-as`) side by side; each of these analyses has one of them. -/
def alterWasp : WaspCode W :=
  { WaspCode.idle with
    ifThen := otherWay
    ifThenElse := otherWay
    brIf := fun c _ => otherWay c
    brTable := fun target _ => pure (some (target + 1))
    select := otherWay }

/-- **Specification.** The instructions that the advice stand for: `i32.eqz` before a conditional, `i32.const 1, i32.add` before a table of branches. -/
def altered : Trap → List Basic
  | .ifThenTrap | .ifThenElseTrap | .brIfTrap | .select => [.unary .i32Eqz]
  | .brTableTrap => [.const (.i32 1), .binary .i32Add]
  | _ => []

/-- **Specification.** They are inserted where there is advice. -/
def alterPatch (iface : Interface) : Patch := fun t _ _ => if (iface.trap t).isSome then altered t else []

theorem step_eqz (E : Env W) (x : BitVec 32) (st lo : List RVal) (s : Store W) :
    step E (.unary .i32Eqz) ⟨.num (.i32 x) :: st, lo, s⟩ = .norm ⟨.num (.i32 (if x = 0 then 1 else 0)) :: st, lo, s⟩ := by
  simp only [step]
  rw [if_pos (show (Val.i32 x).type = UnaryOp.i32Eqz.sig.1 from rfl), E.num.i32Eqz]

theorem step_add (E : Env W) (x y : BitVec 32) (st lo : List RVal) (s : Store W) :
    step E (.binary .i32Add) ⟨.num (.i32 y) :: .num (.i32 x) :: st, lo, s⟩ = .norm ⟨.num (.i32 (x + y)) :: st, lo, s⟩ := by
  simp only [step]
  rw [if_pos (show (Val.i32 x).type = BinaryOp.i32Add.sig.1 ∧ (Val.i32 y).type = BinaryOp.i32Add.sig.1 from ⟨rfl, rfl⟩), E.num.i32Add]

theorem computes_nil (N : Num) (vs : List RVal) : Computes W N [] vs vs := by
  intro E c rest _ h
  rw [runs_nil, ← h]

theorem computes_eqz (N : Num) (x : BitVec 32) : Computes W N [.unary .i32Eqz] [.num (.i32 x)] [.num (.i32 (if x = 0 then 1 else 0))] := by
  rintro E ⟨st, lo, s⟩ rest rfl h
  dsimp only at h
  subst h
  simp only [runs_cons, List.reverse_cons, List.reverse_nil, List.nil_append, List.cons_append, step_eqz]
  rfl

theorem computes_inc (N : Num) (x : BitVec 32) : Computes W N [.const (.i32 1), .binary .i32Add] [.num (.i32 x)] [.num (.i32 (x + 1))] := by
  rintro E ⟨st, lo, s⟩ rest rfl h
  dsimp only at h
  subst h
  rw [runs_const]
  simp only [runs_cons, List.reverse_cons, List.reverse_nil, List.nil_append, List.cons_append, step_add]
  rfl

theorem alterPatch_fits (iface : Interface) (N : Num) : (alterPatch iface).Fits N := by
  refine ⟨?_, ?_⟩
  · intro t f i ht
    unfold alterPatch
    split
    · cases t <;> first | rfl | cases ht
    · rfl
  · intro f i
    unfold alterPatch
    split
    · refine .inr ?_
      rintro W E ⟨st, lo, s⟩ hE h
      dsimp only at h
      show (step E (.binary .i32Add) ⟨.num (.i32 1) :: st, lo, s⟩).bind _ = _
      rcases st with _ | ⟨v, st⟩
      · rfl
      · cases v with
        | ref r a => rfl
        | num v =>
          cases v with
          | i32 x => exact absurd rfl (h x st)
          | _ => rfl
    · exact .inl rfl

theorem otherWay_eq (x : BitVec 32) (s : Store W) : asReturn x (otherWay (.new x)) s = .ok [.i32 (if x = 0 then 1 else 0)] s := by
  by_cases h : x = 0
  · subst h; rfl
  · simp only [asReturn, otherWay, AsCondition.new, h, if_false, if_true]
    rfl

open Wasp in
/-- Two arguments at the front. -/
theorem alter_shown {x : Wasp.Advice} {t : Trap} (hx : Advises x t) {iface : Interface} (ht : (iface.trap t).isSome = true) (N : Num) (call) {operands info : List RVal} {f i : Nat} (s : Store W) (a : A)
    (ho : operands.map RVal.type = t.results) (hty : (operands ++ info ++ [nI64 f, nI64 i]).map RVal.type = t.args) :
    ∃ answers, Computes W N (alterPatch iface t f i) operands answers ∧ answers.map RVal.type = t.results ∧
      (alterWasp (W := W × A)).host t call (operands ++ info ++ [nI64 f, nI64 i]) (s.withAnalysis a) = .ok answers (s.withAnalysis a) := by
  have one : ∀ {o : List RVal}, o.map RVal.type = [.i32] → ∃ x, o = [.num (.i32 x)] := by
    intro o h
    rcases o with _ | ⟨v, _ | ⟨w, o⟩⟩ <;> simp only [List.map_cons, List.map_nil, List.cons.injEq, reduceCtorEq, and_false, and_true] at h
    obtain ⟨x, rfl⟩ := RVal.of_i32 h
    exact ⟨x, rfl⟩
  have none : ∀ {o : List RVal}, o.map RVal.type = [] → o = [] := fun h => List.map_eq_nil_iff.1 h
  cases hx
  case ifThen =>
    obtain ⟨x, rfl⟩ := one ho
    obtain ⟨y, _, _, _, _, e⟩ := args5 hty
    rw [e]
    cases (List.cons.inj e).1
    exact ⟨_, by rw [alterPatch, if_pos ht]; exact computes_eqz N x, rfl, otherWay_eq x _⟩
  case ifThenElse =>
    obtain ⟨x, rfl⟩ := one ho
    obtain ⟨y, _, _, _, _, e⟩ := args5 hty
    rw [e]
    cases (List.cons.inj e).1
    exact ⟨_, by rw [alterPatch, if_pos ht]; exact computes_eqz N x, rfl, otherWay_eq x _⟩
  case brIf =>
    obtain ⟨x, rfl⟩ := one ho
    obtain ⟨y, _, _, _, e⟩ := args4 hty
    rw [e]
    cases (List.cons.inj e).1
    exact ⟨_, by rw [alterPatch, if_pos ht]; exact computes_eqz N x, rfl, otherWay_eq x _⟩
  case brTable =>
    obtain ⟨x, rfl⟩ := one ho
    obtain ⟨y, _, _, _, _, e⟩ := args5 hty
    rw [e]
    cases (List.cons.inj e).1
    exact ⟨_, by rw [alterPatch, if_pos ht]; exact computes_inc N x, rfl, rfl⟩
  case select =>
    obtain ⟨x, rfl⟩ := one ho
    obtain ⟨y, _, _, e⟩ := args3 hty
    rw [e]
    cases (List.cons.inj e).1
    exact ⟨_, by rw [alterPatch, if_pos ht]; exact computes_eqz N x, rfl, otherWay_eq x _⟩
  case callIndirectPre =>
    obtain ⟨x, rfl⟩ := one ho
    obtain ⟨y, _, _, _, e⟩ := args4 hty
    rw [e]
    cases (List.cons.inj e).1
    exact ⟨_, by rw [alterPatch, if_pos ht]; exact computes_nil N _, rfl, rfl⟩
  case callPre =>
    cases none ho
    obtain ⟨y, _, _, e⟩ := args3 hty
    rw [e]
    exact ⟨_, by rw [alterPatch, if_pos ht]; exact computes_nil N _, rfl, rfl⟩
  case callPost =>
    cases none ho
    obtain ⟨y, _, _, e⟩ := args3 hty
    rw [e]
    exact ⟨_, by rw [alterPatch, if_pos ht]; exact computes_nil N _, rfl, rfl⟩
  case callIndirectPost =>
    cases none ho
    obtain ⟨y, _, _, e⟩ := args3 hty
    rw [e]
    exact ⟨_, by rw [alterPatch, if_pos ht]; exact computes_nil N _, rfl, rfl⟩
  case blockPre =>
    cases none ho
    obtain ⟨y, _, _, _, e⟩ := args4 hty
    rw [e]
    exact ⟨_, by rw [alterPatch, if_pos ht]; exact computes_nil N _, rfl, rfl⟩
  case loopPre =>
    cases none ho
    obtain ⟨y, _, _, _, e⟩ := args4 hty
    rw [e]
    exact ⟨_, by rw [alterPatch, if_pos ht]; exact computes_nil N _, rfl, rfl⟩
  case blockPost =>
    cases none ho
    obtain ⟨_, _, e⟩ := args2 hty
    rw [e]
    exact ⟨_, by rw [alterPatch, if_pos ht]; exact computes_nil N _, rfl, rfl⟩
  case loopPost =>
    cases none ho
    obtain ⟨_, _, e⟩ := args2 hty
    rw [e]
    exact ⟨_, by rw [alterPatch, if_pos ht]; exact computes_nil N _, rfl, rfl⟩

open Wasp in
/-- The hooks of the altering analyses do what the inserted instructions do. -/
theorem C81_alter_answers {prog : List Wasp.Advice} {iface : Interface} (hi : Wasp.interface prog = some iface) {H : Imports (W × A)} (N : Num)
    (hH : ∀ t, (∃ x ∈ prog, Advises x t) → H analysisModule t.exportName = alterWasp.host t) : AnswersBy N iface (alterPatch iface) (fun _ _ a a' => a' = a) H := by
  have hex := (C35_interface_exact_partial prog iface hi).1
  refine ⟨alterPatch_fits iface N, ?_, fun _ _ b => .same b, fun _ _ _ _ => rfl, ?_, ?_⟩
  · intro t f i h
    rw [alterPatch, h]
    rfl
  · intro t e he _ call operands info f i s a ho hty
    obtain ⟨rfl, x, hx, hxt⟩ := (hex t e).1 he
    rw [show H "WASTRUMENTATION_ANALYSIS" t.export.name = alterWasp.host t from hH t ⟨x, hx, hxt⟩]
    obtain ⟨answers, h1, h2, h3⟩ := alter_shown hxt (iface := iface) (by rw [he]; rfl) N call s a ho hty
    exact ⟨answers, a, h1, h2, rfl, h3⟩
  · intro t e he b k info hd
    obtain ⟨rfl, x, hx, hxt⟩ := (hex t e).1 he
    exact absurd hd (hxt.observes b k info)

open Wasp in
/-- **C81 (the analyses of the test suite).** A valid program instrumented for one or more of the altering analyses behaves exactly like the program in
which every conditional there is advice for is preceded by `i32.eqz`, and every table of branches, if there is advice for it, by `i32.const 1, i32.add`. -/
theorem C81_alter_patches_the_program {C iface ts m r} {prog : List Wasp.Advice} (hi : Wasp.interface prog = some iface) (hg : ¬ ∃ x ∈ prog, IsGeneric x) (hs : SmallModule m)
    (h : Instruments C iface ts m r) (hv : ValidModule m)
    (hB : ∀ i ∈ bodyTargets m ts, ∀ f, m.functions[i]? = some f → WellAnnotated m f (bodyOf C m i))
    {N : Num} {H : Imports W} {H' : Imports (W × A)} (hH : ∀ t, (∃ x ∈ prog, Advises x t) → H' analysisModule t.exportName = alterWasp.host t)
    (hI : ImportsAgree m (fun w (p : W × A) => w = p.1) H H')
    {f : Nat} {ty : FuncType} {args : List RVal} {s : Store W} (hf : m.ctx.ftype f = some ty) (hargs : ValsOK m.ctx args ty.inputs)
    (hok : StoreOK m.ctx s) (a : A) :
    let patched := machineOf H (m.patched C (bodyTargets m ts) (alterPatch iface)).functions
    let instrumented := machineOf H' r.module.functions
    (∀ vs s1, (∃ L d, callF N patched L d f args s = .ok vs s1) ↔ ∃ L d a1, callF N instrumented L d f args (s.withAnalysis a) = .ok vs (s1.withAnalysis a1)) ∧
    (∀ s1, (∃ L d, callF N patched L d f args s = .trap s1) ↔ ∃ L d a1, callF N instrumented L d f args (s.withAnalysis a) = .trap (s1.withAnalysis a1)) ∧
    ((∀ L d, callF N patched L d f args s = .fuel) ↔ ∀ L d, callF N instrumented L d f args (s.withAnalysis a) = .fuel) := by
  have hgen : iface.generic = none := by
    cases e : iface.generic with
    | none => rfl
    | some g => exact absurd (((C35_interface_exact_partial prog iface hi).2 g).1 e).2 hg
  exact C81_answers_patch_the_program hs (wasp_standard hi).1 hgen h hv hB (C81_alter_answers hi N hH) hI hf hargs hok a

/-! ## What the inserted instructions amount to -/

/-- **C81 (conditions).** `i32.eqz` before a conditional exchanges its branches: `if … else …` runs the other branch, `if` without `else` runs its body exactly if
the condition is zero, `select` selects the other operand, `br_if` branches exactly if the condition is zero. -/
theorem C81_inverted_conditions (E : Env W) (t : FuncType) (a b : List HI) (l : Nat) (x : BitVec 32) (c : Cfg W) (rest : List RVal) (hc : c.stack = .num (.i32 x) :: rest) :
    denL E [.basic (.unary .i32Eqz), .ifElse t a b] c = denL E [.ifElse t b a] c ∧
    denL E [.basic (.unary .i32Eqz), .ifThen t a] c = denL E [.ifElse t [] a] c ∧
    (denL E [.basic (.unary .i32Eqz), .basic (.brIf l)] c = if x = 0 then .br l { c with stack := rest } else .norm { c with stack := rest }) ∧
    (∀ v w rest', rest = w :: v :: rest' → denL E [.basic (.unary .i32Eqz), .basic .select] c = denL E [.basic .select] { c with stack := .num (.i32 x) :: v :: w :: rest' }) := by
  obtain ⟨st, lo, s⟩ := c
  dsimp only at hc
  subst hc
  have e : ∀ i, denL E [.basic (.unary .i32Eqz), i] ⟨.num (.i32 x) :: rest, lo, s⟩ = denI E i ⟨.num (.i32 (if x = 0 then 1 else 0)) :: rest, lo, s⟩ := by
    intro i
    simp only [denL, denI, step_eqz]
    exact Out.bind_norm_right _
  have one : ∀ (i : HI) (c : Cfg W), denL E [i] c = denI E i c := by
    intro i c
    simp only [denL]
    exact Out.bind_norm_right _
  refine ⟨?_, ?_, ?_, ?_⟩
  · rw [e, one]
    by_cases hx : x = 0 <;> simp [denI, branchOn, hx]
  · rw [e, one]
    by_cases hx : x = 0
    · simp [denI, branchOn, hx]
    · simp [denI, branchOn, hx]
      rfl
  · rw [e]
    by_cases hx : x = 0 <;> simp [denI, step, hx]
  · rintro v w rest' rfl
    rw [e, one]
    by_cases hx : x = 0 <;> simp [denI, step, hx]

/-- **C81 (tables of branches).** Index `x` of the table is taken for `x + 1`: the first label is skipped, and beyond the last one the default is taken. At the
largest index the addition wraps around, and the first label is taken (the default, if there is none), where the original takes the default. -/
theorem C81_shifted_table (E : Env W) (l : Nat) (ls : List Nat) (d : Nat) (x : BitVec 32) (c : Cfg W) (rest : List RVal) (hc : c.stack = .num (.i32 x) :: rest) :
    denL E [.basic (.const (.i32 1)), .basic (.binary .i32Add), .basic (.brTable (l :: ls) d)] c =
      if x = BitVec.allOnes 32 then .br l { c with stack := rest } else denL E [.basic (.brTable ls d)] c := by
  obtain ⟨st, lo, s⟩ := c
  dsimp only at hc
  subst hc
  have e : denL E [.basic (.const (.i32 1)), .basic (.binary .i32Add), .basic (.brTable (l :: ls) d)] ⟨.num (.i32 x) :: rest, lo, s⟩ =
      .br (tableLabel (l :: ls) d (x + 1)) ⟨rest, lo, s⟩ := by
    have h1 : step E (.const (.i32 1)) ⟨.num (.i32 x) :: rest, lo, s⟩ = .norm ⟨.num (.i32 1) :: .num (.i32 x) :: rest, lo, s⟩ := rfl
    simp only [denL, denI, h1, Out.bind, step_add]
    rfl
  rw [e]
  by_cases hx : x = BitVec.allOnes 32
  · subst hx
    rw [if_pos rfl]
    rfl
  · rw [if_neg hx]
    have : (x + 1).toNat = x.toNat + 1 := by
      rw [BitVec.toNat_add]
      have h1 := x.isLt
      have h2 : x.toNat ≠ 2 ^ 32 - 1 := fun h => hx (BitVec.eq_of_toNat_eq (by rw [h]; rfl))
      exact Nat.mod_eq_of_lt (by simp; omega)
    have e2 : tableLabel (l :: ls) d (x + 1) = tableLabel ls d x := by
      unfold tableLabel
      rw [this]
      rfl
    rw [e2]
    rfl

/-! ## Examples -/

/-- `if-then-else-alter.wasp`. -/
def exAlterProg : List Wasp.Advice := [.plain (.ifThenElse "condition") ".."]

/-- Its interface. -/
def exAlterIface : Interface := (Wasp.interface exAlterProg).getD ⟨none, fun _ => none⟩

/-- The example program instrumented for it. -/
def exAltered : Instrumented := ((instrument exTypedChecker id id exAlterIface none exModule).toOption).getD ⟨exModule, none⟩

/-- The embedder. -/
def exAlterHost : Imports (List RVal × Unit) := fun ns name =>
  if ns = analysisModule then (if name = Trap.ifThenElseTrap.exportName then alterWasp.host .ifThenElseTrap else fun _ _ _ => .stuck) else exImports.beside Unit ns name

-- The patched program: `main` has an `i32.eqz` before its `if`, and nothing else has changed.
example : (exModule.patched exTypedChecker (bodyTargets exModule none) (alterPatch exAlterIface)).functions.map (fun f => match f.code with | .present c => c.body | _ => []) =
    [[], [.loc .get 0, .unary .i32Eqz, .ite ⟨[], [.i32]⟩, .loc .get 1, .els, .const (.i32 7), .call 2, .fin, .fin],
      [.loc .get 0, .call 0, .loc .get 0, .loc .get 0, .binary .i32Mul, .fin], [.fin]] := by decide +kernel

-- C81: all hypotheses hold of the example. The original `main(0, 5)` prints 7 and returns 49; under the analysis it returns 5 and prints nothing.
example : ∃ L d, callF exNum (machineOf exAlterHost exAltered.module.functions) L d 1 [.i32 0, .i32 5] (exStore.withAnalysis ()) =
    .ok [.i32 5] (exStore.withAnalysis ()) := by
  have h : Instruments exTypedChecker exAlterIface none exModule exAltered := by
    have h : (match instrument exTypedChecker id id exAlterIface none exModule with | .ok _ => true | .error _ => false) = true := by decide +kernel
    refine ⟨id, id, fun _ => .rfl, fun _ => .rfl, ?_⟩
    unfold exAltered
    split at h
    · rename_i r hr; rw [hr]; rfl
    · simp at h
  have hng : ¬ ∃ x ∈ exAlterProg, Wasp.IsGeneric x := by
    rintro ⟨x, hx, _, _, _, _, _, rfl⟩
    simp [exAlterProg] at hx
  have key := (C81_alter_patches_the_program (prog := exAlterProg) (iface := exAlterIface) rfl hng exModule_small h exModule_valid exModule_annotated (N := exNum)
    (H := exImports) (H' := exAlterHost) ?_ ?_ (f := 1) (ty := ⟨[.i32, .i32], [.i32]⟩) (args := [.i32 0, .i32 5]) (s := exStore) rfl
    (ValsOK.nil.cons rfl (by simp [RVal.OK]) |>.cons rfl (by simp [RVal.OK])) exStore_ok ()).1
  · obtain ⟨L, d, a1, e⟩ := (key [.i32 5] exStore).1 ⟨10, 10, rfl⟩
    exact ⟨L, d, e⟩
  · rintro t ⟨x, hx, ha⟩
    simp only [exAlterProg, List.mem_cons, List.not_mem_nil, or_false] at hx
    subst hx
    cases ha
    simp only [exAlterHost, if_true]
  · refine .plain fun f hf ns name hc => ?_
    simp only [exModule, List.mem_cons, List.not_mem_nil, or_false] at hf
    rcases hf with rfl | rfl | rfl | rfl <;> cases hc
    exact ⟨⟨fun _ _ => rfl, fun call args s ha hs => .inl ⟨_, _, rfl, .nil, hs.world rfl rfl rfl rfl rfl⟩⟩, rfl⟩

-- A table of two labels and a default 7: index 0 goes to the second label, index 1 to the default, and the largest index to the first label.
example (E : Env Unit) (s : Store Unit) (x : BitVec 32) (hx : x = 0 ∨ x = 1 ∨ x = 0xffffffff) :
    denL E [.basic (.const (.i32 1)), .basic (.binary .i32Add), .basic (.brTable [3, 4] 7)] ⟨[.num (.i32 x)], [], s⟩ =
      .br (if x = 0 then 4 else if x = 1 then 7 else 3) ⟨[], [], s⟩ := by
  rw [C81_shifted_table E 3 [4] 7 x _ [] rfl]
  rcases hx with rfl | rfl | rfl <;> rfl

end Wastrum
