import Verif.ShippedForward
/-!
# Analyses of the Rust library that watch the program (framework)

Most analyses that ship with the tool (`benchmarking-node/input-analyses/rust/*`) have the same shape: every hook does what
the forwarding analysis does, and updates a private state before or after doing so. This file models that shape.
-/

set_option linter.unusedSimpArgs false
set_option linter.unusedVariables false

namespace Wastrum

variable {W A : Type}

/-- What a watching analysis adds to forwarding: how its state changes before and after the program's instruction is
performed; `none` is a panic. (For example `memory-tracing/src/lib.rs` 77-107 performs and then records; all others below
record and then perform.) -/
structure Watcher (A : Type) where
  before : Advice → A → Option A
  after : Advice → A → Option A

/-- The advice of a watching analysis. A panic stops the program. -/
def Watcher.body (w : Watcher A) (N : Num) (base : String → Option Nat) (a : Advice)
    (call : Nat → List RVal → Store (W × A) → Res (W × A)) (s : Store (W × A)) : Res (W × A) :=
  match w.before a s.world.2 with
  | none => .trap s
  | some x => match forwardBody N base a call { s with world := (s.world.1, x) } with
    | .ok vs s1 => match w.after a s1.world.2 with
      | none => .trap s1
      | some y => .ok vs { s1 with world := (s1.world.1, y) }
    | o => o

/-- What one event does to the state of the analysis, all told. -/
def Watcher.step (w : Watcher A) (a : Advice) (x : A) : Option A := (w.before a x).bind (w.after a)

/-- What a sequence of events does to the state of the analysis. -/
def Watcher.run (w : Watcher A) : List Advice → A → Option A
  | [], x => some x
  | a :: as, x => (w.step a x).bind (w.run as)

/-- A watcher that never panics and is done before the instruction is performed. -/
def Watcher.ahead (upd : Advice → A → A) : Watcher A := ⟨fun a x => some (upd a x), fun _ x => some x⟩

theorem Watcher.run_append (w : Watcher A) (as bs : List Advice) (x : A) : w.run (as ++ bs) x = (w.run as x).bind (w.run bs) := by
  induction as generalizing x with
  | nil => rfl
  | cons a as ih =>
    simp only [List.cons_append, Watcher.run]
    cases w.step a x with
    | none => rfl
    | some y => exact ih y

theorem Watcher.run_ahead (upd : Advice → A → A) (as : List Advice) (x : A) :
    (Watcher.ahead upd).run as x = some (as.foldl (fun x a => upd a x) x) := by
  induction as generalizing x with
  | nil => rfl
  | cons a as ih => exact ih _

/-- The events of `log` that the analysis has hooks for are, in order, what the library hands its advice as `advs`. -/
def Interface.Hears (iface : Interface) (log : Log) (advs : List Advice) : Prop :=
  (iface.observed log).map (fun e => stdEntry e.1 e.2) = advs.map some

/-- The functions the embedder provides do the same beside a log and beside an analysis (provided the functions of the
program that they call back do), and touch neither. -/
def ImportsBeside (m : Module) (T : Imports (W × Log)) (H : Imports (W × A)) : Prop :=
  ∀ f ∈ m.functions, ∀ ns name, f.code = .imported ns name → ∀ (Z : Log → A → Prop) fl fr tl (pn : Prop),
    HostsAgree ⟨SameState m.ctx [] [] (fun (p : W × Log) (q : W × A) => p.1 = q.1 ∧ Z p.2 q.2), fl, fr, tl, fun _ _ => False, fun _ => pn⟩
      m.ctx f.type (T ns name) (H ns name)

/-- Imports that do not call back do the same beside a log and beside an analysis. -/
theorem ImportsBeside.plain {m : Module} {H : Imports W} {H' : Imports (W × A)}
    (hp : ∀ f ∈ m.functions, ∀ ns name, f.code = .imported ns name → PlainImport m.ctx f.type (H ns name) ∧ H' ns name = H.beside A ns name) :
    ImportsBeside m (H.beside Log) H' := by
  intro f hf ns name hc Z fl fr tl pn call call' _ args s s' ha hS
  obtain ⟨⟨h1, h2⟩, h3⟩ := hp f hf ns name hc
  rw [h3]
  simp only [Imports.beside]
  dsimp only at hS
  obtain ⟨g1, ⟨g2, g3⟩, g4, g5, g6, g7, g8⟩ := SameState.iff.1 hS
  rw [g4, g5, g6, g7, g8, ← g2]
  have hok : StoreOK m.ctx (⟨s.globals, s.mems, s.tables, s.datas, s.elems, s.world.1⟩ : Store W) := g1.world rfl rfl rfl rfl rfl
  rcases h2 (fun _ _ _ => .stuck) args _ ha hok with ⟨vs, s1, e1, hv, hs1⟩ | ⟨s1, e1, hs1⟩
  · rw [e1]
    refine .ok hv ?_
    simp only [SameState.iff]
    exact ⟨hs1.world rfl rfl rfl rfl rfl, ⟨rfl, g3⟩, rfl, rfl, rfl, rfl, rfl⟩
  · rw [e1]
    refine .trap ?_
    simp only [SameState.iff]
    exact ⟨hs1.world rfl rfl rfl rfl rfl, ⟨rfl, g3⟩, rfl, rfl, rfl, rfl, rfl⟩

/-! ## Watching analyses keep the program in step -/

/-- Executions whose program states agree and whose log and analysis state are related by `Z`; with `pn` the second may
trap on its own. -/
def watchingRel (Γ : Ctx) (Z : Log → A → Prop) (fl fr tl : Bool) (pn : Prop) : Rel (W × Log) (W × A) :=
  ⟨SameState Γ [] [] (fun (p : W × Log) (q : W × A) => p.1 = q.1 ∧ Z p.2 q.2), fl, fr, tl, fun _ _ => False, fun _ => pn⟩

/-- Forwarding with effects `P` on the analysis' state, where the analysis may also panic (as `pn` says). -/
structure WatchesFor (N : Num) (iface : Interface) (P : Trap → List RVal → A → A → Prop)
    (callOK : (Nat → List RVal → Store (W × A) → Res (W × A)) → Prop) (B : Basic → Prop) (tl mo : Bool) (pn : Trap → List RVal → A → Prop) (H : Imports (W × A)) : Prop where
  shown : ∀ t e, iface.trap t = some e → t.Observes → ∀ call, callOK call → ∀ args (s : Store W) a, args.map RVal.type = t.args →
    (pn t args a ∧ ∃ s', H "WASTRUMENTATION_ANALYSIS" e.name call args (s.withAnalysis a) = .trap s') ∨
    ∃ a', P t args a a' ∧
      H "WASTRUMENTATION_ANALYSIS" e.name call args (s.withAnalysis a) = .ok (args.take t.results.length) (s.withAnalysis a')
  performed : ∀ t e, iface.trap t = some e → ∀ b k info, delegation b = some (t, k, info) → B b →
    ∀ call, callOK call → ∀ operands location (s : Store W) a, operands.length = k → location.length = 2 →
      (operands ++ info ++ location).map RVal.type = t.args → (∀ x ∈ s.mems, x.Bounded) →
      (tl = true ∧ ∃ s1, execute N b operands s = .trap s1) ∨
      (mo = true ∧ H "WASTRUMENTATION_ANALYSIS" e.name call (operands ++ info ++ location) (s.withAnalysis a) = .fuel) ∨
      (pn t (operands ++ info ++ location) a ∧ ∃ s', H "WASTRUMENTATION_ANALYSIS" e.name call (operands ++ info ++ location) (s.withAnalysis a) = .trap s') ∨
      ∃ a', (execute N b operands s ≠ .stuck → execute N b operands s ≠ .fuel → P t (operands ++ info ++ location) a a') ∧
        H "WASTRUMENTATION_ANALYSIS" e.name call (operands ++ info ++ location) (s.withAnalysis a) =
          (execute N b operands s).withAnalysis a'

theorem watching_hooks {C iface ts m r} (hs : SmallModule m) (h : Instruments C iface ts m r) {N : Num} {P : Trap → List RVal → A → A → Prop}
    {callOK : (Nat → List RVal → Store (W × A) → Res (W × A)) → Prop} {B : Basic → Prop} {tl mo : Bool} {pn : Trap → List RVal → A → Prop} {pn' : Prop} {H : Imports (W × A)}
    (hF : WatchesFor N iface P callOK (fun b => B b ∧ m.ctx.HasMem b) tl mo pn H) (hpn' : ∀ t args a, pn t args a → pn') {Z : Log → A → Prop}
    (hP : ∀ t args l a a', (iface.trap t).isSome → P t args a a' → Z l a → Z (l ++ [(t, args)]) a')
    (hn : ∀ t args l a, iface.trap t = none → Z l a → Z (l ++ [(t, args)]) a) {fl fr : Bool} (hmo : mo = true → fr = true) {k : Nat} (hk : fr = true ∨ 1 ≤ k) {L d : Nat}
    {targets : List Nat} {σ' : Sel} {E : Env (W × Log)} (hE : E.num = N)
    (hcalls : ∀ d', d + k = d' + 1 → callOK (callF N (underAnalysis C m targets H σ' (r.module.functions.drop m.functions.length)) L d')) :
    (watchingRel m.ctx Z fl fr tl pn').Hooks m.ctx B (hookSel iface m.functions.length) logEvent E
      (envAt N (underAnalysis C m targets H σ' (r.module.functions.drop m.functions.length)) L (d + k)) := by
  refine ⟨?_, ?_, ?_⟩
  · intro t hσ args s s' hS
    have ht := hookSel_none_iff.1 hσ
    simp only [watchingRel, SameState.iff] at hS ⊢
    obtain ⟨h1, ⟨h2, h3⟩, h4⟩ := hS
    exact ⟨h1.world rfl rfl rfl rfl rfl, ⟨h2, hn t args _ _ ht h3⟩, h4⟩
  · intro t i hσ ho hpre args s s' hty hS
    obtain ⟨e, he, hcall⟩ := hook_call (W' := W × A) hs h hσ
    refine ⟨_, .refl _ _, ?_⟩
    simp only [envAt]
    cases hdk : d + k with
    | zero => rcases hk with hk | hk
              · exact .fuelR hk
              · omega
    | succ d' =>
      rw [hcall]
      simp only [watchingRel, SameState.iff] at hS
      obtain ⟨h1, ⟨h2, h3⟩, h4, h5, h6, h7, h8⟩ := hS
      have hsh := hF.shown t e he ho (callF N (underAnalysis C m targets H σ' (r.module.functions.drop m.functions.length)) L d') (hcalls d' hdk) args
        ⟨s'.globals, s'.mems, s'.tables, s'.datas, s'.elems, s'.world.1⟩ s'.world.2 hty
      have e1 : Store.withAnalysis ⟨s'.globals, s'.mems, s'.tables, s'.datas, s'.elems, s'.world.1⟩ s'.world.2 = s' := rfl
      rw [e1] at hsh
      rcases hsh with ⟨hpn, s2, hh⟩ | ⟨a', hp, hh⟩
      · rw [hh]; exact .trapR (hpn' _ _ _ hpn)
      rw [hh]
      refine .ok ⟨?_, ?_⟩ ?_
      · rw [List.map_take, hty, hpre]
      · intro v hv f hf
        have : v.type ∈ t.args := by rw [← hty]; exact List.mem_map_of_mem (List.mem_of_mem_take hv)
        rw [hf] at this
        exact absurd this (t.args_num _)
      · simp only [watchingRel, SameState.iff]
        exact ⟨h1.world rfl rfl rfl rfl rfl, ⟨h2, hP _ _ _ _ _ (by rw [he]; rfl) hp h3⟩, h4, h5, h6, h7, h8⟩
  · intro b t j info i hd hσ hB hm ops loc s s' hops hloc hty hS
    obtain ⟨e, he, hcall⟩ := hook_call (W' := W × A) hs h hσ
    simp only [envAt]
    cases hdk : d + k with
    | zero => rcases hk with hk | hk
              · exact .fuelR hk
              · omega
    | succ d' =>
      rw [hcall]
      simp only [watchingRel, SameState.iff] at hS
      obtain ⟨h1, ⟨h2, h3⟩, h4, h5, h6, h7, h8⟩ := hS
      have hperf := hF.performed t e he b j info hd ⟨hB, hm⟩ (callF N (underAnalysis C m targets H σ' (r.module.functions.drop m.functions.length)) L d')
        (hcalls d' hdk) ops loc ⟨s'.globals, s'.mems, s'.tables, s'.datas, s'.elems, s'.world.1⟩ s'.world.2 hops hloc hty (by rw [h5]; exact h1.pages)
      have e1 : Store.withAnalysis ⟨s'.globals, s'.mems, s'.tables, s'.datas, s'.elems, s'.world.1⟩ s'.world.2 = s' := rfl
      rw [e1] at hperf
      rw [execInstr_execute E hd, hE]
      have := execute_sim (Γ := m.ctx) (N := N) (s := note logEvent t (ops ++ info ++ loc) s)
        (s' := ⟨s'.globals, s'.mems, s'.tables, s'.datas, s'.elems, s'.world.1⟩) hd rfl hm hops hloc hty
        (SameState.iff.2 ⟨h1.world rfl rfl rfl rfl rfl, ⟨rfl, rfl⟩, h4, h5, h6, h7, h8⟩)
      rcases hperf with ⟨htl, s1, hx⟩ | ⟨hmo', hx⟩ | ⟨hpn, s2, hx⟩ | ⟨a', hp, hh⟩
      · rw [hx] at this
        generalize execute N b ops (note logEvent t (ops ++ info ++ loc) s) = o at this ⊢
        cases this with
        | trap hS => exact .trapL htl
        | fuelL h => cases h
        | trapL h => cases h
        | trapT h => cases h
        | trapR h => cases h
      · rw [hx]; exact .fuelR (hmo hmo')
      · rw [hx]; exact .trapR (hpn' _ _ _ hpn)
      rw [hh]
      generalize execute N b ops (note logEvent t (ops ++ info ++ loc) s) = o at this ⊢
      generalize execute N b ops _ = o' at this hp ⊢
      have lift : ∀ {s1 : Store (W × Log)} {s1' : Store W}, o' ≠ .stuck → o' ≠ .fuel → SameState m.ctx [] [] (fun w w' => w = (note logEvent t (ops ++ info ++ loc) s).world ∧ w' = s'.world.1) s1 s1' →
          SameState m.ctx [] [] (fun (p : W × Log) (q : W × A) => p.1 = q.1 ∧ Z p.2 q.2) s1 (s1'.withAnalysis a') := by
        intro s1 s1' n1 n2 hS
        rw [SameState.iff] at hS ⊢
        obtain ⟨g1, ⟨g2, g3⟩, g4⟩ := hS
        refine ⟨g1, ⟨?_, ?_⟩, g4⟩
        · rw [g2]
          show _ = s1'.world
          rw [g3]
          exact h2
        · rw [g2]
          exact hP _ _ _ _ _ (by rw [he]; rfl) (hp n1 n2) h3
      cases this with
      | ok hv hS => exact .ok hv (lift (by simp) (by simp) hS)
      | trap hS => exact .trap (lift (by simp) (by simp) hS)
      | fuel => exact .fuel
      | fuelL h => cases h
      | fuelR h => cases h
      | trapL h => cases h
      | trapT h => cases h
      | trapR h => cases h

/-- What the instrumentation hands a hook that performs an operation can be decoded by the library. -/
theorem stdEntry_delegation {b t k info} (hd : delegation b = some (t, k, info)) {ops loc : List RVal} (hk : ops.length = k) (hl : loc.length = 2)
    (hty : (ops ++ info ++ loc).map RVal.type = t.args) : ∃ a, stdEntry t (ops ++ info ++ loc) = some a := by
  obtain ⟨f, i, rfl⟩ : ∃ f i, loc = [f, i] := by
    match loc, hl with
    | [f, i], _ => exact ⟨f, i, rfl⟩
  cases b <;> try (simp [delegation] at hd; done)
  case unary op =>
    simp only [delegation, Option.map_eq_some_iff, Prod.mk.injEq] at hd
    obtain ⟨t, hd, rfl, rfl, rfl⟩ := hd
    obtain ⟨v, rfl⟩ : ∃ v, ops = [v] := by match ops, hk with | [v], _ => exact ⟨v, rfl⟩
    rw [(unaryTrap_args hd).1] at hty
    simp only [List.cons_append, List.nil_append, List.map_cons, List.map_nil, List.cons.injEq, and_true] at hty
    obtain ⟨hv, _, hf, hi⟩ := hty
    obtain ⟨f, rfl⟩ := RVal.of_i64 hf
    obtain ⟨i, rfl⟩ := RVal.of_i64 hi
    obtain ⟨v, rfl, hvn⟩ := RVal.type_num hv op.sig_num
    exact ⟨_, by simp only [List.cons_append, List.nil_append]; rw [stdEntry_unary hd hvn, (C17_unary_codes _ op).2 rfl]; rfl⟩
  case binary op =>
    simp only [delegation, Option.map_eq_some_iff, Prod.mk.injEq] at hd
    obtain ⟨t, hd, rfl, rfl, rfl⟩ := hd
    obtain ⟨v, w, rfl⟩ : ∃ v w, ops = [v, w] := by match ops, hk with | [v, w], _ => exact ⟨v, w, rfl⟩
    rw [(binaryTrap_args hd).1] at hty
    simp only [List.cons_append, List.nil_append, List.map_cons, List.map_nil, List.cons.injEq, and_true] at hty
    obtain ⟨hv, hw, _, hf, hi⟩ := hty
    obtain ⟨f, rfl⟩ := RVal.of_i64 hf
    obtain ⟨i, rfl⟩ := RVal.of_i64 hi
    obtain ⟨v, rfl, hvn⟩ := RVal.type_num hv op.sig_num
    obtain ⟨w, rfl, hwn⟩ := RVal.type_num hw op.sig_num
    exact ⟨_, by simp only [List.cons_append, List.nil_append]; rw [stdEntry_binary hd hvn hwn, (C17_binary_codes _ op).2 rfl]; rfl⟩
  case load op ma =>
    simp only [delegation, Option.map_eq_some_iff, Prod.mk.injEq] at hd
    obtain ⟨t, hd, rfl, rfl, rfl⟩ := hd
    obtain ⟨v, rfl⟩ : ∃ v, ops = [v] := by match ops, hk with | [v], _ => exact ⟨v, rfl⟩
    rw [(loadTrap_args hd).1] at hty
    simp only [List.cons_append, List.nil_append, List.map_cons, List.map_nil, List.cons.injEq, and_true] at hty
    obtain ⟨hv, _, _, hf, hi⟩ := hty
    obtain ⟨f, rfl⟩ := RVal.of_i64 hf
    obtain ⟨i, rfl⟩ := RVal.of_i64 hi
    obtain ⟨x, rfl⟩ := RVal.of_i32 hv
    exact ⟨_, by simp only [List.cons_append, List.nil_append]; rw [stdEntry_load hd, (C17_load_codes _ op).2 rfl]; rfl⟩
  case store op ma =>
    simp only [delegation, Option.map_eq_some_iff, Prod.mk.injEq] at hd
    obtain ⟨t, hd, rfl, rfl, rfl⟩ := hd
    obtain ⟨a, v, rfl⟩ : ∃ v w, ops = [v, w] := by match ops, hk with | [v, w], _ => exact ⟨v, w, rfl⟩
    rw [(storeTrap_args hd).1] at hty
    simp only [List.cons_append, List.nil_append, List.map_cons, List.map_nil, List.cons.injEq, and_true] at hty
    obtain ⟨ha, hv, _, _, hf, hi⟩ := hty
    obtain ⟨f, rfl⟩ := RVal.of_i64 hf
    obtain ⟨i, rfl⟩ := RVal.of_i64 hi
    obtain ⟨x, rfl⟩ := RVal.of_i32 ha
    obtain ⟨v, rfl, hvn⟩ := RVal.type_num hv op.ty_num
    exact ⟨_, by simp only [List.cons_append, List.nil_append]; rw [stdEntry_store hd hvn, (C17_store_codes _ op).2 rfl]; rfl⟩
  case memoryGrow j =>
    simp only [delegation, Option.some.injEq, Prod.mk.injEq] at hd
    obtain ⟨rfl, rfl, rfl⟩ := hd
    obtain ⟨v, rfl⟩ : ∃ v, ops = [v] := by match ops, hk with | [v], _ => exact ⟨v, rfl⟩
    simp only [Trap.args, List.cons_append, List.nil_append, List.map_cons, List.map_nil, List.cons.injEq, and_true] at hty
    obtain ⟨hv, _, hf, hi⟩ := hty
    obtain ⟨f, rfl⟩ := RVal.of_i64 hf
    obtain ⟨i, rfl⟩ := RVal.of_i64 hi
    obtain ⟨x, rfl⟩ := RVal.of_i32 hv
    exact ⟨_, rfl⟩

theorem store_withAnalysis_set (s : Store (W × A)) (x : A) : ({ s with world := (s.world.1, x) } : Store (W × A)) =
    (⟨s.globals, s.mems, s.tables, s.datas, s.elems, s.world.1⟩ : Store W).withAnalysis x := rfl

section
variable {w : Watcher A} {N : Num} {base : String → Option Nat} {t : Trap} {args : List RVal} {adv : Advice}
  {call : Nat → List RVal → Store (W × A) → Res (W × A)} {s : Store W} {a x : A}

/-- A hook of a watching analysis does what the forwarding one does, and updates the analysis' state. -/
theorem Watcher.hook_ok (he : stdEntry t args = some adv) (hb : w.before adv a = some x) {vs s1}
    (hf : stdHook (forwardBody N base) t call args (s.withAnalysis x) = .ok vs s1) :
    stdHook (w.body N base) t call args (s.withAnalysis a) = match w.after adv s1.world.2 with
      | none => .trap s1
      | some y => .ok vs { s1 with world := (s1.world.1, y) } := by
  unfold stdHook at hf ⊢
  rw [he] at hf ⊢
  dsimp only at hf ⊢
  have e : (s.withAnalysis a).world.2 = a := rfl
  unfold Watcher.body
  rw [e, hb]
  dsimp only
  have e' : ({ (s.withAnalysis a) with world := ((s.withAnalysis a).world.1, x) } : Store (W × A)) = s.withAnalysis x := rfl
  rw [e']
  cases hr : forwardBody N base adv call (s.withAnalysis x) with
  | ok ws s2 =>
    rw [hr] at hf
    dsimp only at hf ⊢
    split at hf
    · rename_i hty
      cases hf
      cases w.after adv s1.world.2 with
      | none => rfl
      | some y => dsimp only; rw [if_pos hty]
    · cases hf
  | trap s2 => rw [hr] at hf; cases hf
  | stuck => rw [hr] at hf; cases hf
  | fuel => rw [hr] at hf; cases hf

theorem Watcher.hook_panic (he : stdEntry t args = some adv) (hb : w.before adv a = none) :
    stdHook (w.body N base) t call args (s.withAnalysis a) = .trap (s.withAnalysis a) := by
  unfold stdHook Watcher.body
  rw [he]
  have e : (s.withAnalysis a).world.2 = a := rfl
  simp only [e, hb]

theorem Watcher.hook_fuel (he : stdEntry t args = some adv) (hb : w.before adv a = some x)
    (hf : stdHook (forwardBody N base) t call args (s.withAnalysis x) = .fuel) :
    stdHook (w.body N base) t call args (s.withAnalysis a) = .fuel := by
  unfold stdHook at hf ⊢
  rw [he] at hf ⊢
  dsimp only at hf ⊢
  have e : (s.withAnalysis a).world.2 = a := rfl
  unfold Watcher.body
  rw [e, hb]
  dsimp only
  have e' : ({ (s.withAnalysis a) with world := ((s.withAnalysis a).world.1, x) } : Store (W × A)) = s.withAnalysis x := rfl
  rw [e']
  cases hr : forwardBody N base adv call (s.withAnalysis x) with
  | ok ws s2 => rw [hr] at hf; dsimp only at hf; split at hf <;> cases hf
  | trap s2 => rw [hr] at hf; cases hf
  | stuck => rw [hr] at hf; cases hf
  | fuel => rfl

theorem Watcher.hook_stuck (he : stdEntry t args = some adv) (hb : w.before adv a = some x)
    (hf : stdHook (forwardBody N base) t call args (s.withAnalysis x) = .stuck) :
    stdHook (w.body N base) t call args (s.withAnalysis a) = .stuck := by
  unfold stdHook at hf ⊢
  rw [he] at hf ⊢
  dsimp only at hf ⊢
  have e : (s.withAnalysis a).world.2 = a := rfl
  unfold Watcher.body
  rw [e, hb]
  dsimp only
  have e' : ({ (s.withAnalysis a) with world := ((s.withAnalysis a).world.1, x) } : Store (W × A)) = s.withAnalysis x := rfl
  rw [e']
  cases hr : forwardBody N base adv call (s.withAnalysis x) with
  | ok ws s2 => rw [hr] at hf; dsimp only at hf; split at hf <;> cases hf
  | trap s2 => rw [hr] at hf; cases hf
  | stuck => rfl
  | fuel => rw [hr] at hf; cases hf

/-- A watcher that is done before the instruction is performed leaves everything else to the forwarding analysis. -/
theorem Watcher.hook_quiet (hq : ∀ a x, w.after a x = some x) (he : stdEntry t args = some adv) (hb : w.before adv a = some x) :
    stdHook (w.body N base) t call args (s.withAnalysis a) = stdHook (forwardBody N base) t call args (s.withAnalysis x) := by
  unfold stdHook
  rw [he]
  dsimp only
  have e : (s.withAnalysis a).world.2 = a := rfl
  unfold Watcher.body
  rw [e, hb]
  dsimp only
  have e' : ({ (s.withAnalysis a) with world := ((s.withAnalysis a).world.1, x) } : Store (W × A)) = s.withAnalysis x := rfl
  rw [e']
  cases forwardBody N base adv call (s.withAnalysis x) with
  | ok ws s2 => simp only [hq]
  | _ => rfl
end

/-- A watching analysis watches. With `exact`, it is done before an instruction is performed. -/
theorem watcher_watches {m : Module} (hm1 : m.memories.length ≤ 1) {N : Num} {base : String → Option Nat} {iface : Interface} (hst : iface.Documented)
    {w : Watcher A} {exact mo : Bool} (hq : exact = true → ∀ a x, w.after a x = some x) {H : Imports (W × A)} (hL : LinkedTo iface (w.body N base) H) :
    WatchesFor N iface (fun t args a a' => ∃ adv, stdEntry t args = some adv ∧ w.step adv a = some a') (BaseCalls N base (!m.memories.isEmpty) mo)
      (fun b => OffsetsAre iface (fun o => o.toNat < 2 ^ 31 ∧ (exact = true → o = 0)) b ∧ m.ctx.HasMem b) (!exact) mo (fun t args a => ∃ adv, stdEntry t args = some adv ∧ w.step adv a = none) H := by
  have hH : ∀ t e, iface.trap t = some e → H "WASTRUMENTATION_ANALYSIS" e.name = stdHook (w.body N base) t := by
    intro t e he
    have hnm := hL t (by rw [he]; rfl)
    rw [C49_library_exports_what_is_imported] at hnm
    rw [hst t e he]
    exact hnm
  refine ⟨?_, ?_⟩
  · intro t e he ho call _ args s a hty
    rw [hH t e he]
    have hf : ∀ x, stdHook (forwardBody N base) t call args (s.withAnalysis x) = .ok (args.take t.results.length) (s.withAnalysis x) :=
      fun x => forward_shown (Trap.not_performs ho) call args _ hty
    cases hadv : stdEntry t args with
    | none => have := hf a; unfold stdHook at this; rw [hadv] at this; cases this
    | some adv =>
      cases hb : w.before adv a with
      | none => exact .inl ⟨⟨adv, rfl, by simp only [Watcher.step, hb]; rfl⟩, _, Watcher.hook_panic hadv hb⟩
      | some x =>
        have := Watcher.hook_ok hadv hb (hf x)
        have e2 : (s.withAnalysis x).world.2 = x := rfl
        rw [e2] at this
        cases ha : w.after adv x with
        | none => rw [ha] at this; exact .inl ⟨⟨adv, rfl, by simp only [Watcher.step, hb]; exact ha⟩, _, this⟩
        | some y => rw [ha] at this; exact .inr ⟨y, ⟨adv, rfl, by simp only [Watcher.step, hb]; exact ha⟩, this⟩
  · intro t e he b k info hd hB call hcall ops loc s a hk hl hty hbd
    rw [hH t e he]
    obtain ⟨adv, hadv⟩ := stdEntry_delegation hd hk hl hty
    cases hb : w.before adv a with
    | none => exact .inr (.inr (.inl ⟨⟨adv, hadv, by simp only [Watcher.step, hb]; rfl⟩, _, Watcher.hook_panic hadv hb⟩))
    | some x =>
      have hex := execute_withAnalysis (N := N) hd ops s x
      rcases forward_performed hm1 (by rw [he]; rfl) hd hB hcall hk hl hty (s := s.withAnalysis x) hbd with ⟨h1, s1, h2⟩ | ⟨h1, h2⟩ | h1
      · refine .inl ⟨by simp [h1], ?_⟩
        rw [hex] at h2
        cases hx : execute N b ops s with
        | trap s2 => exact ⟨s2, rfl⟩
        | _ => rw [hx] at h2; cases h2
      · exact .inr (.inl ⟨h1, Watcher.hook_fuel hadv hb h2⟩)
      · cases exact with
        | true =>
          refine .inr (.inr (.inr ⟨x, fun _ _ => ⟨adv, hadv, by simp only [Watcher.step, hb]; exact hq rfl adv x⟩, ?_⟩))
          rw [Watcher.hook_quiet (hq rfl) hadv hb, h1, hex]
        | false =>
          rw [hex] at h1
          cases hx : execute N b ops s with
          | trap s2 => exact .inl ⟨rfl, s2, rfl⟩
          | ok vs s2 =>
            rw [hx] at h1
            have := Watcher.hook_ok hadv hb h1
            have e2 : (s2.withAnalysis x).world.2 = x := rfl
            rw [e2] at this
            cases ha : w.after adv x with
            | none => rw [ha] at this; exact .inr (.inr (.inl ⟨⟨adv, hadv, by simp only [Watcher.step, hb]; exact ha⟩, _, this⟩))
            | some y => rw [ha] at this; exact .inr (.inr (.inr ⟨y, fun _ _ => ⟨adv, hadv, by simp only [Watcher.step, hb]; exact ha⟩, this⟩))
          | stuck =>
            rw [hx] at h1
            exact .inr (.inr (.inr ⟨x, fun h => absurd rfl h, Watcher.hook_stuck hadv hb h1⟩))
          | fuel =>
            rw [hx] at h1
            exact .inr (.inr (.inr ⟨x, fun _ h => absurd rfl h, Watcher.hook_fuel hadv hb h1⟩))

/-- A program instrumented for a watching analysis on the Rust library, linked with it: the hypotheses of the theorems. -/
structure Watching (C : Checker) (iface : Interface) (ts : Option (List Nat)) (m : Module) (r : Instrumented) (N : Num) (w : Watcher A)
    (T : Imports (W × Log)) (H : Imports (W × A)) : Prop where
  small : SmallModule m
  documented : iface.Documented
  noApply : iface.generic = none
  instruments : Instruments C iface ts m r
  valid : ValidModule m
  annotated : ∀ i ∈ bodyTargets m ts, ∀ f, m.functions[i]? = some f → WellAnnotated m f (bodyOf C m i)
  reserved : ∀ name ∈ iface.toolExports, name ∉ m.exportNames
  linked : LinkedTo iface (w.body N r.module.exported) H
  imports : ImportsBeside m T H

/-- A program instrumented for an analysis without `apply` advice whose hooks show it the instructions, and which watches them as `w` says; linked with it. -/
structure Hearing (C : Checker) (iface : Interface) (ts : Option (List Nat)) (m : Module) (r : Instrumented) (N : Num) (w : Watcher A)
    (T : Imports (W × Log)) (H : Imports (W × A)) : Prop where
  small : SmallModule m
  documented : iface.Documented
  noApply : iface.generic = none
  instruments : Instruments C iface ts m r
  valid : ValidModule m
  annotated : ∀ i ∈ bodyTargets m ts, ∀ f, m.functions[i]? = some f → WellAnnotated m f (bodyOf C m i)
  reserved : ∀ name ∈ iface.toolExports, name ∉ m.exportNames
  hooks : ∀ exact mo : Bool, (exact = true → ∀ a x, w.after a x = some x) →
    WatchesFor (W := W) N iface (fun t args a a' => ∃ adv, stdEntry t args = some adv ∧ w.step adv a = some a') (BaseCalls N r.module.exported (!m.memories.isEmpty) mo)
      (fun b => OffsetsAre iface (fun o => o.toNat < 2 ^ 31 ∧ (exact = true → o = 0)) b ∧ m.ctx.HasMem b) (!exact) mo (fun t args a => ∃ adv, stdEntry t args = some adv ∧ w.step adv a = none) H
  imports : ImportsBeside m T H

end Wastrum
