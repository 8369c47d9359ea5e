import Verif.TransparencyThms
import Verif.ApplyRun
/-!
# Analyses that answer otherwise, as changes of the program (supporting definitions and lemmas for C81 and C89)

A hook that is shown a value (a condition, a table index, a constant, the value of a variable) may return another one. If what it returns can be
computed by instructions, the instrumented program can be compared with the program in which those instructions have been inserted at that place. A hook
that is handed an operation may perform another one; the instrumented program can be compared with the program that has that other instruction.
-/

set_option linter.unusedSimpArgs false
set_option linter.unusedVariables false

namespace Wastrum

variable {W W' A : Type} {Γ : Ctx}

/-! ## Vocabulary -/

/-- The instructions to insert for a hook, at a location (function and instruction). -/
abbrev Patch := Trap → Nat → Nat → List Basic

/-- What stands in place of an instruction, at a location (function and instruction). -/
abbrev Swap := Nat → Nat → Basic → Basic

/-- Nothing else does. -/
def Swap.keep : Swap := fun _ _ b => b

/-- Instructions that can stand for each other: operations with the same operand and result types; any other instruction only for itself. -/
inductive Swappable : Basic → Basic → Prop
  | same (b) : Swappable b b
  | unary {op op'} : op.sig = op'.sig → Swappable (.unary op) (.unary op')
  | binary {op op'} : op.sig = op'.sig → Swappable (.binary op) (.binary op')
  | load {op op'} (ma ma') : op.ty = op'.ty → Swappable (.load op ma) (.load op' ma')
  | store {op op'} (ma ma') : op.ty = op'.ty → Swappable (.store op ma) (.store op' ma')

/-- The hook that is shown the topmost operand of an instruction before it executes. -/
def operandHook (m : Meta) : Basic → Option Trap
  | .brIf _ => some .brIfTrap
  | .brTable _ _ => some .brTableTrap
  | .select | .typedSelect _ => some .select
  | .callIndirect _ _ => some .preTrapCallIndirect
  | .loc .set _ => m.ty.writes.bind (localTrap .set)
  | .loc .tee _ => m.ty.tees.bind (localTrap .tee)
  | .glob .set _ => m.ty.writes.bind (globalTrap .set)
  | _ => none

/-- The hook that is shown the result of an instruction. -/
def resultHook (m : Meta) : Basic → Option Trap
  | .const v => constTrap v.type
  | .memorySize _ => some .memorySize
  | .loc .get _ => m.ty.reads.bind (localTrap .get)
  | .glob .get _ => m.ty.reads.bind (globalTrap .get)
  | _ => none

/-- The instructions to insert for a hook, if there is one. -/
def Patch.at (code : Patch) (m : Meta) : Option Trap → List HI
  | none => []
  | some t => (code t m.fidx m.iidx).map .basic

mutual
/-- An instruction replaced, and with the instructions of a patch around it: before the instructions whose topmost operand a hook is shown, after those
whose result a hook is shown. -/
def weaveI (code : Patch) (ρ : Swap) : TI → List HI
  | .basic m b => code.at m (operandHook m b) ++ [.basic (ρ m.fidx m.iidx b)] ++ code.at m (resultHook m b)
  | .block _ t body => [.block t (weaveL code ρ body)]
  | .loop _ t body => [.loop t (weaveL code ρ body)]
  | .ifThen m t thn => code.at m (some .ifThenTrap) ++ [.ifThen t (weaveL code ρ thn)]
  | .ifElse m t thn els => code.at m (some .ifThenElseTrap) ++ [.ifElse t (weaveL code ρ thn) (weaveL code ρ els)]
/-- A body with instructions replaced, and the instructions of a patch inserted. -/
def weaveL (code : Patch) (ρ : Swap) : List TI → List HI
  | [] => []
  | i :: l => weaveI code ρ i ++ weaveL code ρ l
end

/-- A program with instructions replaced and the instructions of a patch inserted, in some of its functions. -/
def Module.rewritten (C : Checker) (m : Module) (targets : List Nat) (code : Patch) (ρ : Swap) : Module :=
  { m with functions := m.functions.mapIdx fun i f => match f.code with
    | .present c => if i ∈ targets then { f with code := .present ⟨c.locals, lower (weaveL code ρ (bodyOf C m i))⟩ } else f
    | .imported _ _ => f }

/-- A program with the instructions of a patch inserted in some of its functions. -/
abbrev Module.patched (C : Checker) (m : Module) (targets : List Nat) (code : Patch) : Module := m.rewritten C targets code .keep

/-- Straight-line code that turns the topmost values `vs` into `ws` (deepest first) and does nothing else. -/
def Computes (W : Type) (N : Num) (code : List Basic) (vs ws : List RVal) : Prop :=
  ∀ (E : Env W) (c : Cfg W) (rest : List RVal), E.num = N → c.stack = vs.reverse ++ rest → runs E code c = .norm { c with stack := ws.reverse ++ rest }

/-! ## Executions -/

/-- Execution in which questions are answered by running the instructions of a patch, and instructions are replaced. -/
def weaving (E : Env W) (code : Patch) (ρ : Swap) : Asker W :=
  ⟨fun m t _ _ c => runs E (code t m.fidx m.iidx) c, fun m b => step E (ρ m.fidx m.iidx b)⟩

/-- What is assumed of a patch to speak of its insertion. -/
structure Patch.Fits (code : Patch) (N : Num) : Prop where
  /-- hooks that are shown no operand have no instructions -/
  silent : ∀ t f i, t.results = [] → code t f i = []
  /-- instructions for a table index expect one -/
  index : ∀ f i, code .brTableTrap f i = [] ∨ ∀ (W : Type) (E : Env W) (c : Cfg W), E.num = N → (∀ x rest, c.stack ≠ .num (.i32 x) :: rest) → runs E (code .brTableTrap f i) c = .stuck

theorem Patch.at_none (code : Patch) (E : Env W) (m : Meta) (c : Cfg W) : denL E (code.at m none) c = .norm c := rfl
theorem Patch.at_some (code : Patch) (E : Env W) (m : Meta) (t : Trap) (c : Cfg W) : denL E (code.at m (some t)) c = runs E (code t m.fidx m.iidx) c := rfl

theorem weaving_ask_silent {code : Patch} {ρ : Swap} {N : Num} (hc : code.Fits N) (E : Env W) {m : Meta} {t : Trap} (ht : t.results = []) (k : Nat) (info : List RVal) :
    (weaving E code ρ).ask m t k info = .norm := by
  funext c
  simp only [weaving, hc.silent t _ _ ht, runs_nil]

theorem weaving_after {code : Patch} {ρ : Swap} {N : Num} (hc : code.Fits N) (E : Env W) (m : Meta) (b : Basic) :
    (weaving E code ρ).after m b = denL E (code.at m (resultHook m b)) := by
  funext c
  cases b
  case call f => simp only [Asker.after, weaving_ask_silent hc E (show Trap.results .postTrapCall = [] from rfl)]; rfl
  case callIndirect t f => simp only [Asker.after, weaving_ask_silent hc E (show Trap.results .postTrapCallIndirect = [] from rfl)]; rfl
  case const v => simp only [Asker.after, resultHook]; cases constTrap v.type <;> rfl
  case memorySize i => rfl
  case loc op i =>
    cases op
    case get => simp only [Asker.after, resultHook]; cases m.ty.reads.bind (localTrap .get) <;> rfl
    all_goals rfl
  case glob op i =>
    cases op
    case get => simp only [Asker.after, resultHook]; cases m.ty.reads.bind (globalTrap .get) <;> rfl
    all_goals rfl
  all_goals rfl

theorem weaving_before {code : Patch} {ρ : Swap} {N : Num} (hc : code.Fits N) (E : Env W) (hE : E.num = N) (m : Meta) (b b' : Basic) (hb : Swappable b b') (c : Cfg W) :
    ((weaving E code ρ).before m b c).bind (step E b') = (denL E (code.at m (operandHook m b)) c).bind (step E b') := by
  have silent : ∀ t : Trap, t.results = [] → ∀ k info, (weaving E code ρ).ask m t k info = .norm := fun t ht k info => weaving_ask_silent hc E ht k info
  cases b
  case br l => simp only [Asker.before, silent .brTrap rfl]; rfl
  case brIf l => rfl
  case brTable ls d =>
    cases hb
    by_cases h : ∃ x rest, c.stack = .num (.i32 x) :: rest
    · obtain ⟨x, rest, h⟩ := h
      simp only [Asker.before, h]
      rfl
    · have h' : ∀ x rest, c.stack ≠ .num (.i32 x) :: rest := fun x rest e => h ⟨x, rest, e⟩
      have e : (weaving E code ρ).before m (.brTable ls d) c = .stuck := by
        simp only [Asker.before]
      rw [e]
      simp only [operandHook, Patch.at_some, Out.bind]
      rcases hc.index m.fidx m.iidx with h0 | h0
      · rw [h0]
        simp only [runs_nil, Out.bind, step]
      · rw [h0 W E c hE h']
  case call f => simp only [Asker.before, silent .preTrapCall rfl]; rfl
  case callIndirect t i => rfl
  case ret => simp only [Asker.before, silent .returnTrap rfl]; rfl
  case drop => simp only [Asker.before, silent .dropTrap rfl]; rfl
  case select => rfl
  case typedSelect t => rfl
  case loc op i =>
    cases op
    case get => rfl
    case set => simp only [Asker.before, operandHook]; cases m.ty.writes.bind (localTrap .set) <;> rfl
    case tee => simp only [Asker.before, operandHook]; cases m.ty.tees.bind (localTrap .tee) <;> rfl
  case glob op i =>
    cases op
    case get => rfl
    case set => simp only [Asker.before, operandHook]; cases m.ty.writes.bind (globalTrap .set) <;> rfl
  all_goals rfl

theorem Out.bind_assoc' {f g : Cfg W → Out W} (o : Out W) : (o.bind f).bind g = o.bind fun c => (f c).bind g := by cases o <;> rfl

/-- Answering questions by a patch is running the patched code. -/
theorem gden_weaving {code : Patch} {ρ : Swap} {N : Num} (hc : code.Fits N) (hρ : ∀ f i b, Swappable b (ρ f i b)) (E : Env W) (hE : E.num = N) :
    (∀ i c, gdenI (weaving E code ρ) E.loopFuel i c = denL E (weaveI code ρ i) c) ∧ ∀ l c, gdenL (weaving E code ρ) E.loopFuel l c = denL E (weaveL code ρ l) c := by
  have silent : ∀ t : Trap, t.results = [] → ∀ m k info, (weaving E code ρ).ask m t k info = .norm := fun t ht m k info => weaving_ask_silent hc E ht k info
  have one : ∀ (i : HI) (c : Cfg W), denL E [i] c = denI E i c := by
    intro i c
    simp only [denL]
    exact Out.bind_norm_right _
  apply TI.induct
  · intro m b c
    simp only [gdenI, weaveI, Asker.basic, denL_append, weaving_after hc E m b]
    have e := weaving_before (ρ := ρ) hc E hE m b _ (hρ m.fidx m.iidx b) c
    rw [← Out.bind_assoc', show (weaving E code ρ).perf m b = step E (ρ m.fidx m.iidx b) from rfl, e]
    congr 2
    funext c
    rw [one, denI]
  · intro m t body ih c
    simp only [gdenI, weaveI, one, denI, silent .preBlock rfl, silent .postBlock rfl, Out.bind, Out.bind_norm_right]
    congr 1
    funext c
    rw [← ih c]
    exact Out.bind_norm_right _
  · intro m t body ih c
    simp only [gdenI, weaveI, one, denI, silent .preLoop rfl, silent .postLoop rfl, Out.bind, Out.bind_norm_right]
    congr 1
    funext c
    rw [← ih c]
    exact Out.bind_norm_right _
  · intro m t thn ih c
    simp only [gdenI, weaveI, denL_append, silent .ifThenPostTrap rfl, Out.bind_norm_right]
    congr 1
    funext c
    rw [one, denI]
    congr 2
    funext c
    exact ih c
  · intro m t a b iha ihb c
    simp only [gdenI, weaveI, denL_append, silent .ifThenElsePostTrap rfl, Out.bind_norm_right]
    congr 1
    funext c
    rw [one, denI]
    congr 2
    · funext c; exact iha c
    · funext c; exact ihb c
  · intro c; rfl
  · intro i l ihi ihl c
    simp only [gdenL, weaveL, denL_append, ihi]
    congr 1
    funext c
    exact ihl c

/-- The analysis' hooks do what the patch and the replaced instructions do. -/
structure Rel.Patches (R : Rel W W') (Γ : Ctx) (B : Basic → Prop) (σ : Sel) (code : Patch) (ρ : Swap) (E : Env W) (E' : Env W') : Prop where
  unselected : ∀ t f i, σ t = none → code t f i = []
  kept : ∀ f i b, (∀ t k info, delegation b = some (t, k, info) → σ t = none) → ρ f i b = b
  observing : ∀ t h ins info, σ t = some h → Question t ins info → ∀ vs f i s s', vs.map RVal.type = ins → R.S s s' →
    ∃ ws, Computes W E.num (code t f i) vs ws ∧ R.Ress Γ ins (.ok ws s) (E'.callF h (vs ++ info ++ [nI64 f, nI64 i]) s')
  delegated : ∀ b t k info h, delegation b = some (t, k, info) → σ t = some h → B b → Γ.HasMem b → ∀ ops f i s s', ops.length = k →
    (ops ++ info ++ [nI64 f, nI64 i]).map RVal.type = t.args → R.S s s' →
    R.Ress Γ t.results (execInstr E (ρ f i b) ops s) (E'.callF h (ops ++ info ++ [nI64 f, nI64 i]) s')

theorem Rel.Patches.congr {R : Rel W W'} {Γ Γ' : Ctx} (h : Γ.SameModule Γ') {B σ code ρ} {E : Env W} {E' : Env W'} (hE : R.Patches Γ B σ code ρ E E') : R.Patches Γ' B σ code ρ E E' :=
  ⟨hE.unselected, hE.kept, fun t k ins info hk hq vs f i s s' ha hs => (hE.observing t k ins info hk hq vs f i s s' ha hs).imp fun _ hvs => ⟨hvs.1, hvs.2.congr h⟩,
   fun b t k info h' hd hσ hB hm ops f i s s' h1 h3 h4 => (hE.delegated b t k info h' hd hσ hB (Ctx.HasMem.congr h.mems hm) ops f i s s' h1 h3 h4).congr h⟩

/-- Questions keep the executions in step. -/
theorem patch_ask_sim {R : Rel W W'} {B} {σ : Sel} {code ρ} {E : Env W} {E' : Env W'} (hH : R.Patches Γ B σ code ρ E E') {m t ins info a c c'}
    (hq : Question t ins info) (hc : R.Cfgs Γ (ins.reverse ++ a) c c') :
    R.Outs Γ (ins.reverse ++ a) ((weaving E code ρ).ask m t ins.length info c) (ask E' σ m t ins.length info c') := by
  simp only [weaving]
  unfold ask
  cases hσ : σ t with
  | none =>
    rw [hH.unselected t _ _ hσ, runs_nil]
    exact .norm hc
  | some h =>
    dsimp only
    have hsp := hc.stackOK.split
    simp only [List.length_reverse] at hsp
    have hsh : (c'.stack.take ins.length).reverse ++ info ++ [nI64 m.fidx, nI64 m.iidx] = shown m ins.length info c := by
      rw [hc.stack]; rfl
    rw [hsh]
    have hv : (c.stack.take ins.length).reverse.map RVal.type = ins := by
      have := hsp.1.reverse.1
      rwa [List.reverse_reverse] at this
    have hty : (shown m ins.length info c).map RVal.type = t.args := by
      rw [hq.args]
      simp only [shown, List.map_append, hv]
      rfl
    rw [if_pos hty]
    obtain ⟨ws, hcomp, this⟩ := hH.observing t h ins info hσ hq _ m.fidx m.iidx _ _ hv hc.store
    rw [hcomp E c (c.stack.drop ins.length) rfl (by rw [List.reverse_reverse, List.take_append_drop])]
    change R.Ress Γ _ _ (E'.callF h (shown m ins.length info c) c'.store) at this
    generalize E'.callF h _ _ = o at this ⊢
    cases this with
    | @ok vs s s' hv hs =>
      dsimp only
      rw [hq.results, if_pos hv.1]
      exact .norm ⟨by rw [hc.stack], hc.locals, hs, hv.reverse.append hsp.2, hc.localsOK⟩
    | fuelR h => exact .fuelR h
    | trapR h => exact .trapR h

theorem Swappable.typed {b b' : Basic} (h : Swappable b b') {a e} (ht : BTyped Γ b a e) : BTyped Γ b' a e := by
  cases h with
  | same => exact ht
  | unary h => simp only [BTyped] at ht ⊢; rw [← h]; exact ht
  | binary h => simp only [BTyped] at ht ⊢; rw [← h]; exact ht
  | load _ _ h => simp only [BTyped] at ht ⊢; rw [← h]; exact ht
  | store _ _ h => simp only [BTyped] at ht ⊢; rw [← h]; exact ht

theorem Swappable.hasMem {b b' : Basic} (h : Swappable b b') (hm : Γ.HasMem b) : Γ.HasMem b' := by
  cases h <;> exact hm

theorem Swappable.delegation {b b' : Basic} (h : Swappable b b') {t k info} (hd : delegation b = some (t, k, info)) :
    ∃ info', delegation b' = some (t, k, info') ∧ info'.map RVal.type = info.map RVal.type := by
  cases h with
  | same => exact ⟨info, hd, rfl⟩
  | unary h =>
    simp only [Wastrum.delegation, Option.map_eq_some_iff, Prod.mk.injEq] at hd ⊢
    obtain ⟨t', ht, rfl, rfl, rfl⟩ := hd
    exact ⟨_, ⟨_, by rw [← h]; exact ht, rfl, rfl, rfl⟩, rfl⟩
  | binary h =>
    simp only [Wastrum.delegation, Option.map_eq_some_iff, Prod.mk.injEq] at hd ⊢
    obtain ⟨t', ht, rfl, rfl, rfl⟩ := hd
    exact ⟨_, ⟨_, by rw [← h]; exact ht, rfl, rfl, rfl⟩, rfl⟩
  | load _ _ h =>
    simp only [Wastrum.delegation, Option.map_eq_some_iff, Prod.mk.injEq] at hd ⊢
    obtain ⟨t', ht, rfl, rfl, rfl⟩ := hd
    exact ⟨_, ⟨_, by rw [← h]; exact ht, rfl, rfl, rfl⟩, rfl⟩
  | store _ _ h =>
    simp only [Wastrum.delegation, Option.map_eq_some_iff, Prod.mk.injEq] at hd ⊢
    obtain ⟨t', ht, rfl, rfl, rfl⟩ := hd
    exact ⟨_, ⟨_, by rw [← h]; exact ht, rfl, rfl, rfl⟩, rfl⟩

/-- Operations performed by the analysis keep the executions in step. -/
theorem patch_perform_sim {R : Rel W W'} {T X} {Q : W → W' → Prop} (hS : R.S = SameState Γ T X Q) {B} {σ : Sel} {code ρ} {E : Env W} {E' : Env W'}
    (hρ : ∀ f i b, Swappable b (ρ f i b))
    (hE : R.Envs Γ E E') (hH : R.Patches Γ B σ code ρ E E') {m b a e c c'} (hB : B b) (ht : BTyped Γ b a e) (hc : R.Cfgs Γ a c c') :
    R.Outs Γ e (step E (ρ m.fidx m.iidx b) c) (perform E' σ m b c') := by
  rw [perform_eq]
  cases hd : delegation b with
  | none =>
    rw [hH.kept m.fidx m.iidx b fun t k info h => by rw [hd] at h; cases h]
    exact step_sim hS hE ht hc
  | some p =>
    obtain ⟨t, k, info⟩ := p
    dsimp only
    cases hσ : σ t with
    | none =>
      simp only [Option.isSome_none, Bool.false_eq_true, if_false]
      rw [hH.kept m.fidx m.iidx b fun t' k' info' h => by rw [hd] at h; cases h; exact hσ]
      exact step_sim hS hE ht hc
    | some h =>
      simp only [Option.isSome_some, if_true]
      have hsw := hρ m.fidx m.iidx b
      obtain ⟨info', hd', hinfo⟩ := hsw.delegation hd
      obtain ⟨ins, r, rfl, rfl, rfl, hargs, hstep⟩ := step_frame E (c := c) hd' (hsw.typed ht) hc.stackOK
      rw [hstep]
      have hsp := hc.stackOK.split
      simp only [List.length_reverse] at hsp
      unfold ask
      rw [hσ]
      dsimp only
      rw [hc.stack]
      change R.Outs Γ _ _ (if (shown m ins.length info c).map RVal.type = t.args then _ else _)
      have hty : (shown m ins.length info c).map RVal.type = t.args := by
        rw [hargs, hinfo]
        have := hsp.1.reverse.1
        rw [List.reverse_reverse] at this
        simp only [shown, List.map_append, this]
        rfl
      rw [if_pos hty]
      have := hH.delegated b t _ info h hd hσ hB (.of_typed ht) (c.stack.take ins.length).reverse m.fidx m.iidx c.store c'.store
        (by simpa using hsp.1.reverse.length) hty hc.store
      change R.Ress Γ _ _ (E'.callF h (shown m ins.length info c) c'.store) at this
      change R.Outs Γ _ _ (match E'.callF h (shown m ins.length info c) c'.store with
        | .ok vs s => if vs.map RVal.type = t.results then Out.norm { c' with stack := vs.reverse ++ c.stack.drop ins.length, store := s } else .stuck
        | .trap s => .trap s
        | .stuck => .stuck
        | .fuel => .fuel)
      generalize execInstr E _ _ _ = o at this ⊢
      generalize E'.callF h _ _ = o' at this ⊢
      cases this with
      | @ok vs s s' hv hs =>
        dsimp only
        rw [if_pos hv.1]
        exact .norm ⟨rfl, hc.locals, hs, hv.reverse.append hsp.2, hc.localsOK⟩
      | trap hs => exact .trap hs
      | fuel => exact .fuel
      | fuelL h => exact .fuelL h
      | fuelR h => exact .fuelR h
      | trapL h => exact .trapL h
      | trapT h => exact .trapT h
      | trapR h => exact .trapR h

/-- Patched code on one side, with the analysis interposed on the other. -/
theorem patched_body_agrees {R : Rel W W'} {T X} {Q : W → W' → Prop} (hS : R.S = SameState Γ T X Q) {B σ code ρ} {N : Num} {E : Env W} {E' : Env W'}
    (hE : R.Envs Γ E E') (hN : E.num = N) (hc : code.Fits N) (hρ : ∀ f i b, Swappable b (ρ f i b)) (hH : R.Patches Γ B σ code ρ E E') {b : List TI} (hB : OnlyCode B (TI.lowerL b)) {ty : FuncType} {locals : List ValType}
    (ht : TTyL (Γ.body ty locals) b [] ty.results.reverse) {c c'} (hcc : R.Cfgs (Γ.body ty locals) [] c c') :
    R.Outs (Γ.body ty locals) ty.results.reverse (denL E (weaveL code ρ b) c) (hdenL E' σ b c') := by
  rw [← (gden_weaving hc hρ E hN).2, ← (gden_hooking E' σ).2, hE.loopFuel]
  refine (sim (Γ₀ := Γ.body ty locals) (B := B) ?_ ?_).2 _ hB _ ⟨_, rfl⟩ _ _ ht c c' hcc
  · intro Γ' hΓ m b a e c c' hB hb hc
    have hm := (Ctx.SameModule.body Γ ty locals).sameBut hΓ
    exact patch_perform_sim (hS.trans (SameState.congr hm)) hρ (hE.congr hm) (hH.congr hm) hB hb hc
  · intro Γ' hΓ m t ins info a c c' hq hc
    have hm := (Ctx.SameModule.body Γ ty locals).sameBut hΓ
    exact patch_ask_sim (hH.congr hm) hq hc

theorem Module.rewritten_function {C : Checker} {m : Module} {targets : List Nat} {code : Patch} {ρ : Swap} {i : Nat} {f : Func} (hf : m.functions[i]? = some f) :
    (m.rewritten C targets code ρ).functions[i]? = some (match f.code with
      | .present c => if i ∈ targets then { f with code := .present ⟨c.locals, lower (weaveL code ρ (bodyOf C m i))⟩ } else f
      | .imported _ _ => f) := by
  simp only [Module.rewritten, List.getElem?_mapIdx, hf, Option.map_some]

/-- The rewritten program and the instrumented program agree. -/
theorem rewritten_agrees {C iface ts m r} (hs : SmallModule m) (hst : iface.Standard) (hg : iface.generic = none)
    (h : Instruments C iface ts m r) (hv : ValidModule m)
    (hB : ∀ i ∈ bodyTargets m ts, ∀ f, m.functions[i]? = some f → WellAnnotated m f (bodyOf C m i))
    {B : Basic → Prop} (hO : ∀ i ∈ bodyTargets m ts, ∀ f c, m.functions[i]? = some f → f.code = .present c → OnlyCode B c.body)
    {R : Rel W W'} {Q : W → W' → Prop} (hS : R.S = SameState m.ctx [] [] Q) {k : Nat} (hk : R.fl = true ∨ k = 0) {N : Num} {L : Nat}
    {H : Imports W} {H' : Imports W'} {code : Patch} {ρ : Swap} (hc : code.Fits N) (hρ : ∀ f i b, Swappable b (ρ f i b))
    (hhost : ∀ f ∈ m.functions, ∀ ns name, f.code = .imported ns name → HostsAgree R m.ctx f.type (H ns name) (H' ns name))
    (hhook : ∀ d (E : Env W), E.num = N → R.Patches m.ctx B (hookSel iface m.functions.length) code ρ E
      (envAt N (underAnalysis C m (bodyTargets m ts) H' (hookSel iface m.functions.length) (r.module.functions.drop m.functions.length)) L (d + k)))
    (d : Nat) : CallsAgree R m.ctx (callF N (machineOf H (m.rewritten C (bodyTargets m ts) code ρ).functions) L d) (callF N (machineOf H' r.module.functions) L (d + k)) := by
  have e : callF N (machineOf H' r.module.functions) L (d + k) = callF N (underAnalysis C m (bodyTargets m ts) H'
      (hookSel iface m.functions.length) (r.module.functions.drop m.functions.length)) L (d + k) := by
    funext f args s; exact C09_instrumented_is_interposed hs hst hg h N H' L (d + k) f args s
  rw [e]
  refine calls_agree (P := fun E E' => E.num = N ∧ R.Patches m.ctx B (hookSel iface m.functions.length) code ρ E E') hk (fun d => ⟨rfl, hhook d _ rfl⟩) ?_ d
  intro f ty hf
  simp only [Module.ctx, Option.map_eq_some_iff] at hf
  obtain ⟨g, hg, rfl⟩ := hf
  have hm := List.mem_of_getElem? hg
  have hp := Module.rewritten_function (C := C) (targets := bodyTargets m ts) (code := code) (ρ := ρ) hg
  cases hc' : g.code with
  | imported ns name =>
    rw [hc'] at hp
    dsimp only at hp
    exact ⟨.host (H ns name), .host (H' ns name), by simp only [machineOf, hp, Option.map_some, implOf, hc'], by simp only [underAnalysis, hg, hc'],
      .host (hhost g hm ns name hc')⟩
  | present c =>
    rw [hc'] at hp
    dsimp only at hp
    by_cases hi : f ∈ bodyTargets m ts
    · rw [if_pos hi] at hp
      refine ⟨.code c.locals fun E => denFlat E (lower (weaveL code ρ (bodyOf C m f))),
        .code c.locals fun E => if f ∈ bodyTargets m ts then hdenL E (hookSel iface m.functions.length) (bodyOf C m f) else denFlat E c.body,
        by simp only [machineOf, hp, Option.map_some, implOf], by simp only [underAnalysis, hg, hc'], .code ?_⟩
      intro E E' hE hH cfg cfg' hcc
      rw [if_pos hi, denFlat_lower]
      refine patched_body_agrees hS hE hH.1 hc hρ hH.2 ((hO f hi g c hg hc').mono ?_) (hB f hi g hg c hc') hcc
      intro i hm
      obtain ⟨b, hb⟩ := instruments_raises hs h f hi
      have e : bodyOf C m f = b := by simp [bodyOf, hb]
      obtain ⟨f', c', hf', hc'', hr⟩ := raiseTarget_present hb
      rw [hg] at hf'; cases hf'
      rw [hc'] at hc''; cases hc''
      rw [e] at hm
      have := C02_lowerTyped_raiseFunction _ _ _ _ _ hr
      rw [← this]
      exact List.mem_append_left _ hm
    · rw [if_neg hi] at hp
      refine ⟨.code c.locals fun E => denFlat E c.body,
        .code c.locals fun E => if f ∈ bodyTargets m ts then hdenL E (hookSel iface m.functions.length) (bodyOf C m f) else denFlat E c.body,
        by simp only [machineOf, hp, Option.map_some, implOf, hc'], by simp only [underAnalysis, hg, hc'], .code ?_⟩
      intro E E' hE hH cfg cfg' hcc
      rw [if_neg hi]
      exact plain_body_agrees hS hE (hv.functions g hm c hc') hcc

/-! ## Analyses -/

/-- An analysis that does what a rewritten program does: a hook that is shown operands returns what the instructions of the patch make of them; a hook that
is handed an operation (among those in `B`) performs the one that stands for it. It may call the functions of the instrumented program (`callOK` says what these do; with `mo`, the bound
on the call depth may be reached; with `tl`, nothing is said where that operation traps). Each call changes the analysis' own state as allowed by `P`, and nothing else. -/
structure RewritesFor (N : Num) (iface : Interface) (code : Patch) (ρ : Swap) (P : Trap → List RVal → A → A → Prop)
    (callOK : (Nat → List RVal → Store (W × A) → Res (W × A)) → Prop) (B : Basic → Prop) (tl mo : Bool) (H : Imports (W × A)) : Prop where
  fits : code.Fits N
  /-- where the analysis has no hook nothing is inserted -/
  unhooked : ∀ t f i, iface.trap t = none → code t f i = []
  swaps : ∀ f i b, Swappable b (ρ f i b)
  /-- where the analysis has no hook nothing is replaced -/
  kept : ∀ f i b, (∀ t k info, delegation b = some (t, k, info) → iface.trap t = none) → ρ f i b = b
  shown : ∀ t e, iface.trap t = some e → t.Observes → ∀ call, ∀ operands info f i (s : Store W) a, operands.map RVal.type = t.results →
    (operands ++ info ++ [nI64 f, nI64 i]).map RVal.type = t.args →
    ∃ answers a', Computes W N (code t f i) operands answers ∧ answers.map RVal.type = t.results ∧ P t (operands ++ info ++ [nI64 f, nI64 i]) a a' ∧
      H "WASTRUMENTATION_ANALYSIS" e.name call (operands ++ info ++ [nI64 f, nI64 i]) (s.withAnalysis a) = .ok answers (s.withAnalysis a')
  performed : ∀ t e, iface.trap t = some e → ∀ b k info, delegation b = some (t, k, info) → B b →
    ∀ call, callOK call → ∀ operands f i (s : Store W) a, operands.length = k → (operands ++ info ++ [nI64 f, nI64 i]).map RVal.type = t.args → (∀ x ∈ s.mems, x.Bounded) →
      (tl = true ∧ ∃ s1, execute N (ρ f i b) operands s = .trap s1) ∨
      (mo = true ∧ H "WASTRUMENTATION_ANALYSIS" e.name call (operands ++ info ++ [nI64 f, nI64 i]) (s.withAnalysis a) = .fuel) ∨
      ∃ a', P t (operands ++ info ++ [nI64 f, nI64 i]) a a' ∧
        H "WASTRUMENTATION_ANALYSIS" e.name call (operands ++ info ++ [nI64 f, nI64 i]) (s.withAnalysis a) =
          (execute N (ρ f i b) operands s).withAnalysis a'

/-- An analysis that does what a rewritten program does: a hook that is shown operands returns what the instructions of the patch make of them; a hook that
is handed an operation performs the one that stands for it. Each call changes the analysis' own state as allowed by `P`, and nothing else. -/
structure RewritesBy (N : Num) (iface : Interface) (code : Patch) (ρ : Swap) (P : Trap → List RVal → A → A → Prop) (H : Imports (W × A)) : Prop where
  fits : code.Fits N
  /-- where the analysis has no hook nothing is inserted -/
  unhooked : ∀ t f i, iface.trap t = none → code t f i = []
  swaps : ∀ f i b, Swappable b (ρ f i b)
  /-- where the analysis has no hook nothing is replaced -/
  kept : ∀ f i b, (∀ t k info, delegation b = some (t, k, info) → iface.trap t = none) → ρ f i b = b
  shown : ∀ t e, iface.trap t = some e → t.Observes → ∀ call operands info f i (s : Store W) a, operands.map RVal.type = t.results →
    (operands ++ info ++ [nI64 f, nI64 i]).map RVal.type = t.args →
    ∃ answers a', Computes W N (code t f i) operands answers ∧ answers.map RVal.type = t.results ∧ P t (operands ++ info ++ [nI64 f, nI64 i]) a a' ∧
      H "WASTRUMENTATION_ANALYSIS" e.name call (operands ++ info ++ [nI64 f, nI64 i]) (s.withAnalysis a) = .ok answers (s.withAnalysis a')
  performed : ∀ t e, iface.trap t = some e → ∀ b k info, delegation b = some (t, k, info) →
    ∀ call operands f i (s : Store W) a, operands.length = k → (operands ++ info ++ [nI64 f, nI64 i]).map RVal.type = t.args →
      ∃ a', P t (operands ++ info ++ [nI64 f, nI64 i]) a a' ∧
        H "WASTRUMENTATION_ANALYSIS" e.name call (operands ++ info ++ [nI64 f, nI64 i]) (s.withAnalysis a) =
          (execute N (ρ f i b) operands s).withAnalysis a'

/-- An analysis that does what a patch does: a hook that is shown operands returns what the instructions of the patch make of them; a hook that
is handed an operation performs it. -/
abbrev AnswersBy (N : Num) (iface : Interface) (code : Patch) (P : Trap → List RVal → A → A → Prop) (H : Imports (W × A)) : Prop :=
  RewritesBy N iface code .keep P H

/-- Such an analysis need not call functions of the program. -/
theorem RewritesBy.toFor {N : Num} {iface : Interface} {code : Patch} {ρ : Swap} {P : Trap → List RVal → A → A → Prop} {H : Imports (W × A)} (h : RewritesBy N iface code ρ P H)
    (B : Basic → Prop) (tl mo : Bool) : RewritesFor N iface code ρ P (fun _ => True) B tl mo H :=
  ⟨h.fits, h.unhooked, h.swaps, h.kept, h.shown, fun t e he b k info hd _ call _ ops f i s a hk hty _ => .inr (.inr (h.performed t e he b k info hd call ops f i s a hk hty))⟩

/-- The hooks of an analysis that does what a patch does keep the executions in step. -/
theorem rewriting_hooks {C iface ts m r} (hs : SmallModule m) (h : Instruments C iface ts m r) {N : Num} {code : Patch} {ρ : Swap} {P : Trap → List RVal → A → A → Prop}
    {callOK : (Nat → List RVal → Store (W × A) → Res (W × A)) → Prop} {B : Basic → Prop} {tl mo : Bool}
    {H : Imports (W × A)} (hF : RewritesFor N iface code ρ P callOK (fun b => B b ∧ m.ctx.HasMem b) tl mo H) {fl fr : Bool} (hmo : mo = true → fr = true) {k : Nat} (hk : fr = true ∨ 1 ≤ k) {L d : Nat} {targets : List Nat} {σ' : Sel}
    {E : Env W} (hE : E.num = N)
    (hcalls : ∀ d', d + k = d' + 1 → callOK (callF N (underAnalysis C m targets H σ' (r.module.functions.drop m.functions.length)) L d')) :
    (agreeing m.ctx (fun w (p : W × A) => w = p.1) fl fr tl).Patches m.ctx B (hookSel iface m.functions.length) code ρ E
      (envAt N (underAnalysis C m targets H σ' (r.module.functions.drop m.functions.length)) L (d + k)) := by
  refine ⟨fun t f i hσ => hF.unhooked t f i (hookSel_none_iff.1 hσ), fun f i b h => hF.kept f i b fun t k info hd => hookSel_none_iff.1 (h t k info hd), ?_, ?_⟩
  · intro t j ins info hσ hq vs f i s s' hty hS
    obtain ⟨e, he, hcall⟩ := hook_call (W' := W × A) hs h hσ
    simp only [agreeing, SameState.iff] at hS
    obtain ⟨h1, h2, h4, h5, h6, h7, h8⟩ := hS
    have hr := hq.results
    have hargs : (vs ++ info ++ [nI64 f, nI64 i]).map RVal.type = t.args := by
      rw [hq.args]; simp only [List.map_append, hty]; rfl
    obtain ⟨ws, a', hcomp, hwt, _, hh⟩ := hF.shown t e he hq.observes (callF N (underAnalysis C m targets H σ' (r.module.functions.drop m.functions.length)) L (d + k - 1)) vs info f i
      ⟨s'.globals, s'.mems, s'.tables, s'.datas, s'.elems, s'.world.1⟩ s'.world.2 (by rw [hr]; exact hty) hargs
    have e1 : Store.withAnalysis ⟨s'.globals, s'.mems, s'.tables, s'.datas, s'.elems, s'.world.1⟩ s'.world.2 = s' := rfl
    rw [e1] at hh
    refine ⟨ws, by rw [hE]; exact hcomp, ?_⟩
    simp only [envAt]
    cases hdk : d + k with
    | zero => rcases hk with hk | hk
              · exact .fuelR hk
              · omega
    | succ d' =>
      have : d + k - 1 = d' := by omega
      rw [this] at hh
      rw [hcall, hh]
      refine .ok ⟨by rw [← hr]; exact hwt, ?_⟩ ?_
      · intro v hv f hf
        have : v.type ∈ t.results := by rw [← hwt]; exact List.mem_map_of_mem hv
        rw [hf, hr] at this
        exact absurd (show ValType.ref _ ∈ t.args by rw [hq.args, List.append_assoc]; exact List.mem_append_left _ this) (t.args_num _)
      · simp only [agreeing, SameState.iff]
        exact ⟨h1, h2, h4, h5, h6, h7, h8⟩
  · intro b t j info h' hd hσ hB hm ops f i s s' hops hty hS
    obtain ⟨e, he, hcall⟩ := hook_call (W' := W × A) hs h hσ
    simp only [envAt]
    cases hdk : d + k with
    | zero => rcases hk with hk | hk
              · exact .fuelR hk
              · omega
    | succ d' =>
      rw [hcall]
      simp only [agreeing, SameState.iff] at hS
      obtain ⟨h1, h2, h4, h5, h6, h7, h8⟩ := hS
      have hp := hF.performed t e he b j info hd ⟨hB, hm⟩ (callF N (underAnalysis C m targets H σ' (r.module.functions.drop m.functions.length)) L d') (hcalls d' hdk) ops f i
        ⟨s'.globals, s'.mems, s'.tables, s'.datas, s'.elems, s'.world.1⟩ s'.world.2 hops hty (by rw [h5]; exact h1.pages)
      have e1 : Store.withAnalysis ⟨s'.globals, s'.mems, s'.tables, s'.datas, s'.elems, s'.world.1⟩ s'.world.2 = s' := rfl
      rw [e1] at hp
      have hsw := hF.swaps f i b
      obtain ⟨info', hd', hinfo⟩ := hsw.delegation hd
      have hty' : (ops ++ info' ++ [nI64 f, nI64 i]).map RVal.type = t.args := by
        rw [← hty]; simp only [List.map_append, hinfo]
      have := execute_sim (Γ := m.ctx) (N := N) (s := s)
        (s' := ⟨s'.globals, s'.mems, s'.tables, s'.datas, s'.elems, s'.world.1⟩) hd' rfl (hsw.hasMem hm) hops rfl hty'
        (SameState.iff.2 ⟨h1, ⟨rfl, rfl⟩, h4, h5, h6, h7, h8⟩)
      rcases hp with ⟨htl, s2, hx⟩ | ⟨hmo', hx⟩ | ⟨a', _, hh⟩
      · rw [execInstr_execute E hd', hE]
        rw [hx] at this
        generalize execute N (ρ f i b) ops s = o at this ⊢
        cases this with
        | trap hS => exact .trapL htl
        | fuelL h => cases h
        | trapL h => cases h
        | trapR h => cases h
        | trapT h => cases h
      · rw [hx]; exact .fuelR (hmo hmo')
      rw [execInstr_execute E hd', hE, hh]
      generalize execute N (ρ f i b) ops s = o at this ⊢
      generalize execute N (ρ f i b) ops _ = o' at this ⊢
      have lift : ∀ {s1 : Store W} {s1' : Store W}, SameState m.ctx [] [] (fun w w' => w = s.world ∧ w' = s'.world.1) s1 s1' →
          SameState m.ctx [] [] (fun w (p : W × A) => w = p.1) s1 (s1'.withAnalysis a') := by
        intro s1 s1' hS
        rw [SameState.iff] at hS ⊢
        obtain ⟨g1, ⟨g2, g3⟩, g4⟩ := hS
        refine ⟨g1, ?_, g4⟩
        rw [g2]
        show _ = s1'.world
        rw [g3]
        exact h2
      cases this with
      | ok hv hS => exact .ok hv (lift hS)
      | trap hS => exact .trap (lift hS)
      | fuel => exact .fuel
      | fuelL h => cases h
      | fuelR h => cases h
      | trapL h => cases h
      | trapT h => cases h
      | trapR h => cases h

end Wastrum
