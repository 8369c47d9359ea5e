import Verif.Revise
import Verif.Denan
/-!
# Analyses on the Rust library that revise values (supporting lemmas for C71 and C72)
-/

set_option linter.unusedSimpArgs false
set_option linter.unusedVariables false

namespace Wastrum

variable {W A : Type}

/-! ## Advice -/

/-- A replacement of numbers that concerns floating-point numbers only, respects types, and leaves its own results alone. -/
structure FloatsOnly (φ : Val → Val) : Prop where
  type : ∀ v, (φ v).type = v.type
  i32 : ∀ x, φ (.i32 x) = .i32 x
  i64 : ∀ x, φ (.i64 x) = .i64 x
  idem : ∀ v, φ (φ v) = φ v

/-- The values handed to advice, replaced. -/
def Advice.mapNum (φ : Val → Val) : Advice → Advice
  | .const v l => .const (φ v) l
  | .unary op v l => .unary op (φ v) l
  | .binary op v w l => .binary op (φ v) (φ w) l
  | .memorySize v i l => .memorySize (φ v) i l
  | .memoryGrow v i l => .memoryGrow (φ v) i l
  | .loc v i op l => .loc (φ v) i op l
  | .glob v i op l => .glob (φ v) i op l
  | .store i v o op l => .store i (φ v) o op l
  | a => a

theorem FloatsOnly.f32 {φ : Val → Val} (h : FloatsOnly φ) : ∃ g : BitVec 32 → BitVec 32, ∀ b, φ (.f32 b) = .f32 (g b) := by
  refine ⟨fun b => match φ (.f32 b) with | .f32 b' => b' | _ => b, fun b => ?_⟩
  have := h.type (.f32 b)
  cases e : φ (.f32 b) <;> rw [e] at this <;> cases this
  simp only [e]

theorem FloatsOnly.f64 {φ : Val → Val} (h : FloatsOnly φ) : ∃ g : BitVec 64 → BitVec 64, ∀ b, φ (.f64 b) = .f64 (g b) := by
  refine ⟨fun b => match φ (.f64 b) with | .f64 b' => b' | _ => b, fun b => ?_⟩
  have := h.type (.f64 b)
  cases e : φ (.f64 b) <;> rw [e] at this <;> cases this
  simp only [e]

theorem RVal.mapNum_type {φ : Val → Val} (h : FloatsOnly φ) (v : RVal) : (v.mapNum φ).type = v.type := by
  cases v with
  | num v => exact h.type v
  | ref r a => rfl

theorem mapNum_types {φ : Val → Val} (h : FloatsOnly φ) (vs : List RVal) : (vs.map (RVal.mapNum φ)).map RVal.type = vs.map RVal.type := by
  simp [RVal.mapNum_type h, Function.comp_def]

theorem RVal.mapNum_mapNum {φ : Val → Val} (h : FloatsOnly φ) (v : RVal) : (v.mapNum φ).mapNum φ = v.mapNum φ := by
  cases v with
  | num v => simp only [RVal.mapNum, h.idem]
  | ref r a => rfl

/-- The library hands the replaced values to the advice if the hook is called with them. -/
theorem stdEntry_mapNum {φ : Val → Val} (h : FloatsOnly φ) (t : Trap) {args : List RVal} (ha : args.map RVal.type = t.args) :
    stdEntry t (args.map (RVal.mapNum φ)) = (stdEntry t args).map (Advice.mapNum φ) := by
  have vals : ∀ v : RVal, (∀ r, v.type ≠ .ref r) → ∃ x, v = .num x := by
    intro v hv
    cases v with
    | num x => exact ⟨x, rfl⟩
    | ref r a => exact absurd rfl (hv r)
  obtain ⟨g32, h32⟩ := h.f32
  obtain ⟨g64, h64⟩ := h.f64
  cases t
  all_goals
    simp only [Trap.args] at ha
    repeat
      replace ha := map_type_cons ha
      obtain ⟨v, _, rfl, hv, ha⟩ := ha
      obtain ⟨v, rfl⟩ := vals v (by rw [hv]; intro r; simp)
      cases v <;> first | (cases hv; done) | skip
    cases map_type_nil ha
    simp only [List.map_cons, List.map_nil, RVal.mapNum, h.i32, h.i64, h32, h64, stdEntry, Option.map_some, Option.map_map, Function.comp_def, Advice.mapNum]

/-- The hook of an analysis that revises the values the forwarding analysis works with. -/
theorem stdHook_revised {φ : Val → Val} (h : FloatsOnly φ) {N : Num} {base : String → Option Nat} {body : Advice → (Nat → List RVal → Store W → Res W) → Store W → Res W} {t : Trap}
    (hbody : ∀ args a, stdEntry t args = some a → ∀ call s, body a call s = (forwardBody N base (a.mapNum φ) call s).revised (replacing φ))
    {args : List RVal} (ha : args.map RVal.type = t.args) (call) (s : Store W) :
    stdHook body t call args s = (stdHook (forwardBody N base) t call (args.map (RVal.mapNum φ)) s).revised (replacing φ) := by
  unfold stdHook
  rw [stdEntry_mapNum h t ha]
  cases he : stdEntry t args with
  | none => rfl
  | some a =>
    simp only [Option.map_some, hbody args a he]
    cases forwardBody N base (a.mapNum φ) call s with
    | ok vs s1 =>
      simp only [Res.revised, replacing, mapNum_types h]
      split <;> rfl
    | _ => rfl

theorem Res.revised_ress {Γ : Ctx} {W' : Type} {R : Rel W W'} {φ : Val → Val} (h : FloatsOnly φ) {ts : List ValType} {o : Res W} {o' : Res W'} (ho : R.Ress Γ ts o o') :
    R.Ress Γ ts (o.revised (replacing φ)) (o'.revised (replacing φ)) := by
  cases ho with
  | @ok vs s s' hv hs =>
    refine .ok ⟨by rw [mapNum_types h, hv.1], ?_⟩ hs
    intro v hm
    obtain ⟨u, hu, rfl⟩ := List.mem_map.1 hm
    have := hv.2 u hu
    cases u with
    | num x => intro f hf; cases hf
    | ref r a => exact this
  | trap h => exact .trap h
  | fuel => exact .fuel
  | fuelL h => exact .fuelL h
  | fuelR h => exact .fuelR h
  | trapL h => exact .trapL h
  | trapT h => exact .trapT h
  | trapR h => exact .trapR h

theorem delegation_mapNum {φ : Val → Val} (h : FloatsOnly φ) {b t k info} (hd : delegation b = some (t, k, info)) {ops loc : List RVal} (hk : ops.length = k) (hl : loc.length = 2)
    (hty : (ops ++ info ++ loc).map RVal.type = t.args) : (ops ++ info ++ loc).map (RVal.mapNum φ) = ops.map (RVal.mapNum φ) ++ info ++ loc := by
  have ints : ∀ {l : List RVal}, (∀ v ∈ l, v.type = .i32 ∨ v.type = .i64) → l.map (RVal.mapNum φ) = l := by
    intro l hl
    conv => rhs; rw [← List.map_id l]
    apply List.map_congr_left
    intro v hv
    rcases hl v hv with e | e
    · obtain ⟨x, rfl⟩ := RVal.of_i32 e; simp [RVal.mapNum, h.i32]
    · obtain ⟨x, rfl⟩ := RVal.of_i64 e; simp [RVal.mapNum, h.i64]
  obtain ⟨f, i, rfl⟩ : ∃ f i, loc = [f, i] := by
    match loc, hl with
    | [f, i], _ => exact ⟨f, i, rfl⟩
  have key : (∀ v ∈ info, v.type = .i32 ∨ v.type = .i64) ∧ f.type = .i64 ∧ i.type = .i64 := by
    cases b <;> try (simp [delegation] at hd; done)
    case unary op =>
      simp only [delegation, Option.map_eq_some_iff, Prod.mk.injEq] at hd
      obtain ⟨t, hd, rfl, rfl, rfl⟩ := hd
      obtain ⟨v, rfl⟩ : ∃ v, ops = [v] := by match ops, hk with | [v], _ => exact ⟨v, rfl⟩
      rw [(unaryTrap_args hd).1] at hty
      simp only [List.cons_append, List.nil_append, List.map_cons, List.map_nil, List.cons.injEq, and_true] at hty
      exact ⟨by simp [RVal.type, RVal.i32, Val.type], hty.2.2⟩
    case binary op =>
      simp only [delegation, Option.map_eq_some_iff, Prod.mk.injEq] at hd
      obtain ⟨t, hd, rfl, rfl, rfl⟩ := hd
      obtain ⟨v, w, rfl⟩ : ∃ v w, ops = [v, w] := by match ops, hk with | [v, w], _ => exact ⟨v, w, rfl⟩
      rw [(binaryTrap_args hd).1] at hty
      simp only [List.cons_append, List.nil_append, List.map_cons, List.map_nil, List.cons.injEq, and_true] at hty
      exact ⟨by simp [RVal.type, RVal.i32, Val.type], hty.2.2.2⟩
    case load op ma =>
      simp only [delegation, Option.map_eq_some_iff, Prod.mk.injEq] at hd
      obtain ⟨t, hd, rfl, rfl, rfl⟩ := hd
      obtain ⟨v, rfl⟩ : ∃ v, ops = [v] := by match ops, hk with | [v], _ => exact ⟨v, rfl⟩
      rw [(loadTrap_args hd).1] at hty
      simp only [List.cons_append, List.nil_append, List.map_cons, List.map_nil, List.cons.injEq, and_true] at hty
      exact ⟨by simp [RVal.type, RVal.i32, RVal.i64, Val.type], hty.2.2.2⟩
    case store op ma =>
      simp only [delegation, Option.map_eq_some_iff, Prod.mk.injEq] at hd
      obtain ⟨t, hd, rfl, rfl, rfl⟩ := hd
      obtain ⟨v, w, rfl⟩ : ∃ v w, ops = [v, w] := by match ops, hk with | [v, w], _ => exact ⟨v, w, rfl⟩
      rw [(storeTrap_args hd).1] at hty
      simp only [List.cons_append, List.nil_append, List.map_cons, List.map_nil, List.cons.injEq, and_true] at hty
      exact ⟨by simp [RVal.type, RVal.i32, RVal.i64, Val.type], hty.2.2.2.2⟩
    case memoryGrow j =>
      simp only [delegation, Option.some.injEq, Prod.mk.injEq] at hd
      obtain ⟨rfl, rfl, rfl⟩ := hd
      obtain ⟨v, rfl⟩ : ∃ v, ops = [v] := by match ops, hk with | [v], _ => exact ⟨v, rfl⟩
      simp only [Trap.args, List.cons_append, List.nil_append, List.map_cons, List.map_nil, List.cons.injEq, and_true] at hty
      exact ⟨by simp [RVal.type, nI64, Val.type], hty.2.2⟩
  rw [List.map_append, List.map_append, ints key.1, ints (l := [f, i])]
  intro v hv
  simp only [List.mem_cons, List.not_mem_nil, or_false] at hv
  rcases hv with rfl | rfl
  · exact .inr key.2.1
  · exact .inr key.2.2

section
variable {C : Checker} {iface : Interface} {ts : Option (List Nat)} {m : Module} {r : Instrumented} {ge : WasmExport} {cb : WasmImport}
  {order : List Nat} {fs : List Func} {hooks : FuncType → StackHooks} {copy : Nat} {K : LibLink} {H : Imports (World W A)} {N : Num} {L : Nat}

/-- The hooks of an analysis that revises keep the executions in step. -/
theorem revising_hooks (hs : SmallModule m) (hst : iface.Documented) (h : Instruments C iface ts m r) (hn : r.module.exportNames.Nodup) {φ : Val → Val} (hφ : FloatsOnly φ)
    {body : Advice → (Nat → List RVal → Store (World W A) → Res (World W A)) → Store (World W A) → Res (World W A)} (hL : LinkedTo iface body H)
    (hbody : ∀ t, (iface.trap t).isSome → ∀ args, args.map RVal.type = t.args → ∀ call s,
      stdHook body t call args s = (stdHook (forwardBody N r.module.exported) t call (args.map (RVal.mapNum φ)) s).revised (replacing φ))
    {I : A → Store Unit → Prop} {TR : A → Prop} {T X} {exact fl fr : Bool} {D : Nat} (hk : fr = true ∨ 2 ≤ D) {E : Env W} (hE : E.num = N) :
    (besideLib m.ctx T X I TR fl fr (!exact)).Revises m.ctx (OffsetsAre iface (fun o => o.toNat < 2 ^ 31 ∧ (exact = true → o = 0))) (hookSel iface m.functions.length)
      (fun t => (iface.trap t).isSome) (replacing φ) E (envAt N (machineOf H r.module.functions) L D) := by
  have hm1 : m.memories.length ≤ 1 := by
    obtain ⟨ord, ord', ho, ho', h⟩ := h
    exact ((instrument_ok_iff ho ho' hs).1 ⟨r, h⟩).1
  have hook : ∀ {t : Trap} {k : Nat}, hookSel iface m.functions.length t = some k → (iface.trap t).isSome ∧
      ∀ d args s, callF N (machineOf H r.module.functions) L (d + 1) k args s = stdHook body t (callF N (machineOf H r.module.functions) L d) args s := by
    intro t k hk
    cases he : iface.trap t with
    | none => rw [hookSel_none_iff.2 he] at hk; cases hk
    | some e =>
      obtain ⟨k', h1, h2, h3⟩ := hook_installed hs h he
      rw [hk] at h1; cases h1
      have hnm := hL t (by rw [he]; rfl)
      rw [C49_library_exports_what_is_imported] at hnm
      refine ⟨rfl, fun d args s => ?_⟩
      rw [← hnm, callF_import h3 rfl d args s H, hst t e he]
      rfl
  refine ⟨?_, ?_, ?_⟩
  · intro t
    cases hσ : hookSel iface m.functions.length t with
    | none => rw [hookSel_none_iff.1 hσ]; rfl
    | some k => rw [(hook hσ).1]; rfl
  · intro t i hσ ho hpre args s s' hty hS
    obtain ⟨he, hcall⟩ := hook hσ
    simp only [envAt]
    cases D with
    | zero => exact .fuelR (by rcases hk with hk | hk; exact hk; omega)
    | succ d' =>
      rw [hcall, hbody t he _ hty, forward_shown (Trap.not_performs ho) _ _ _ (by rw [mapNum_types hφ, hty])]
      have e : (Res.ok ((args.map (RVal.mapNum φ)).take t.results.length) s').revised (replacing φ) = (Res.ok (args.take t.results.length) s').revised (replacing φ) := by
        simp only [Res.revised, replacing, ← List.map_take, List.map_map]
        congr 1
        apply List.map_congr_left
        intro v _
        exact RVal.mapNum_mapNum hφ v
      rw [e]
      refine Res.revised_ress hφ (.ok ⟨by rw [List.map_take, hty, hpre], ?_⟩ hS)
      intro v hv f hf
      have : v.type ∈ t.args := by rw [← hty]; exact List.mem_map_of_mem (List.mem_of_mem_take hv)
      rw [hf] at this
      exact absurd this (t.args_num _)
  · intro b t j info i hd hσ hB hm ops loc s s' hops hloc hty hS
    obtain ⟨he, hcall⟩ := hook hσ
    simp only [envAt]
    cases D with
    | zero => exact .fuelR (by rcases hk with hk | hk; exact hk; omega)
    | succ d' =>
      rw [hcall, hbody t he _ hty, delegation_mapNum hφ hd hops hloc hty]
      obtain ⟨h1, ⟨w, a, st⟩, ⟨h2, h3⟩, rfl⟩ := hS
      dsimp only at h2
      subst h2
      have hops' : (ops.map (RVal.mapNum φ)).length = j := by rw [List.length_map, hops]
      have hty' : (ops.map (RVal.mapNum φ) ++ info ++ loc).map RVal.type = t.args := by
        rw [← delegation_mapNum hφ hd hops hloc hty, mapNum_types hφ, hty]
      have hbc := base_calls (W := World W A) hs h hn N H L d' fr (hk.imp id (by omega))
      have hp := forward_performed hm1 he hd ⟨hB, hm⟩ hbc hops' hloc hty' (s := s.extend T X (s.world, a, st)) h1.pages
      have hx := execute_sim (Γ := m.ctx) (N := N) (T := T) (X := X) (s := s) (s' := s.extend T X (s.world, a, st)) hd rfl hm hops' hloc hty'
        ⟨h1, (s.world, a, st), ⟨rfl, rfl⟩, rfl⟩
      show Rel.Ress _ _ _ ((execInstr E b (ops.map (RVal.mapNum φ)) s).revised (replacing φ)) _
      rw [execInstr_execute E hd, hE]
      have lift : ∀ {s1 : Store W} {s1' : Store (World W A)}, SameState m.ctx T X (fun v v' => v = s.world ∧ v' = (s.extend T X (s.world, a, st)).world) s1 s1' →
          SameState m.ctx T X (fun v (v' : World W A) => v = v'.1 ∧ I v'.2.1 v'.2.2) s1 s1' := by
        rintro s1 s1' ⟨g1, w1, ⟨g2, rfl⟩, rfl⟩
        exact ⟨g1, _, ⟨g2, h3⟩, rfl⟩
      refine Res.revised_ress hφ ?_
      generalize execute N b (ops.map (RVal.mapNum φ)) s = o at hx ⊢
      rcases hp with ⟨g1, s1, g2⟩ | ⟨g1, g2⟩ | g1
      · rw [g2] at hx
        cases hx with
        | trap _ => exact .trapL (by rw [g1]; rfl)
        | fuelL h => cases h
        | trapT h => cases h
        | trapR h => cases h
        | trapL h => cases h
      · rw [g2]; exact .fuelR g1
      · rw [g1]
        generalize execute N b _ _ = o' at hx ⊢
        cases hx with
        | ok hv hS => exact .ok hv (lift hS)
        | trap hS => exact .trap (lift hS)
        | fuel => exact .fuel
        | fuelL h => cases h
        | fuelR h => cases h
        | trapL h => cases h
        | trapT h => cases h
        | trapR h => cases h

/-- If nothing is changed, the hooks forward. -/
theorem Rel.Revises.toHooks {W W' : Type} {R : Rel W W'} {Γ : Ctx} {B : Basic → Prop} {σ : Sel} {hooked : Trap → Bool} {g : Revision} (hg : ∀ vs, g vs = some vs) {E : Env W} {E' : Env W'}
    (h : R.Revises Γ B σ hooked g E E') : R.Hooks Γ B σ (fun _ _ w => w) E E' := by
  refine ⟨fun _ _ _ _ _ hS => hS, ?_, ?_⟩
  · intro t k hσ ho hp args s s' ha hS
    have := h.observing t k hσ ho hp args s s' ha hS
    simp only [Res.revised, hg] at this
    exact ⟨_, .refl _ _, this⟩
  · intro b t k info i hd hσ hB hm ops loc s s' h1 h2 h3 h4
    have := h.delegated b t k info i hd hσ hB hm ops loc s s' h1 h2 h3 h4
    have e : ∀ o : Res W, o.revised g = o := by intro o; cases o <;> simp only [Res.revised, hg]
    simp only [revisedRun, hg, e] at this
    exact this

theorem replacing_id (vs : List RVal) : replacing id vs = some vs := by
  have : RVal.mapNum id = id := by funext v; cases v <;> rfl
  simp [replacing, this]

theorem tidy_id : FloatsOnly id := ⟨fun _ => rfl, fun _ => rfl, fun _ => rfl, fun _ => rfl⟩

/-- The hooks of the shipped forwarding analysis keep the executions in step, beside the stack library. -/
theorem shipped_hooks (hs : SmallModule m) (hst : iface.Documented) (h : Instruments C iface ts m r) (hn : r.module.exportNames.Nodup)
    (hL : LinkedTo iface (forwardBody N r.module.exported) H) {I : A → Store Unit → Prop} {TR : A → Prop} {T X} {exact fl fr : Bool} {D : Nat} (hk : fr = true ∨ 2 ≤ D) {E : Env W} (hE : E.num = N) :
    (besideLib m.ctx T X I TR fl fr (!exact)).Hooks m.ctx (OffsetsAre iface (fun o => o.toNat < 2 ^ 31 ∧ (exact = true → o = 0))) (hookSel iface m.functions.length)
      (fun _ _ w => w) E (envAt N (machineOf H r.module.functions) L D) := by
  refine (revising_hooks hs hst h hn tidy_id hL ?_ hk hE).toHooks replacing_id
  intro t ht args ha call s
  refine stdHook_revised tidy_id (fun args a ha call s => ?_) ha call s
  have e1 : a.mapNum id = a := by cases a <;> rfl
  have e2 : ∀ o : Res (World W A), o.revised (replacing id) = o := by intro o; cases o <;> simp only [Res.revised, replacing_id]
  rw [e1, e2]

/-! ## The two directions -/

/-- A program instrumented by an analysis written with the Rust library, linked with the stack library generated for it: `body` are the bodies of
the instruction-level advice, `pre` and `post` what the `apply` advice does before and after it resumes the call. `T` and `X` are the tables and
element segments the tool has added; no frame of an intercepted call takes more than `B` bytes. -/
structure Deployed (iface : Interface) (m : Module) (r : Instrumented) (ge : WasmExport) (K : LibLink) (base : Nat) (T : List Table) (X : List (RefType × List (Option Nat))) (B : Nat)
    (body : Advice → (Nat → List RVal → Store (World W A) → Res (World W A)) → Store (World W A) → Res (World W A)) (pre post : RuntimeValues → RuntimeValues → Act (World W A) Unit)
    (H : Imports W) (H' : Imports (World W A)) : Prop where
  sigs : r.librarySignatures = some K.sigs
  small : SmallSigs K.sigs
  good : K.Good
  lib : HasLib K H'
  linked : LinkedTo iface body H'
  advice : H' analysisModule ge.name = around K base pre post
  imports : ImportsAgreeBeside m T X H H'
  frame : ∀ t ∈ K.sigs, 12 * t.slots ≤ B

/-- The advice revises by `φ`. -/
structure RevisesBy (iface : Interface) (ts : Option (List Nat)) (m : Module) (r : Instrumented) (N : Num) (φ : Val → Val)
    (body : Advice → (Nat → List RVal → Store (World W A) → Res (World W A)) → Store (World W A) → Res (World W A))
    (pre post : RuntimeValues → RuntimeValues → Act (World W A) Unit) : Prop where
  tidy : FloatsOnly φ
  hooks : ∀ t, (iface.trap t).isSome → ∀ args, args.map RVal.type = t.args → ∀ call s,
    stdHook body t call args s = (stdHook (forwardBody N r.module.exported) t call (args.map (RVal.mapNum φ)) s).revised (replacing φ)
  calls : ∀ i ∈ applyTargets m ts, ∀ f, m.functions[i]? = some f → f.type.RefFree → f.type.slots < 8192 → ∀ p, (∃ χ, Edits f.type p (pre (handle f.type p) (handle f.type p)) (·.map φ) χ) ∧
    ∃ χ, Edits f.type p (post (handle f.type p) (handle f.type p)) χ (·.map φ)

section
variable {G : Imports W} {T : List Table} {X : List (RefType × List (Option Nat))} {B : Nat} {φ : Val → Val}
  {body : Advice → (Nat → List RVal → Store (World W A) → Res (World W A)) → Store (World W A) → Res (World W A)}
  {pre post : RuntimeValues → RuntimeValues → Act (World W A) Unit}

theorem RevisesBy.edits (hA : Applied C iface ts m r ge cb order fs K.sigs hooks copy) (hsm : SmallSigs K.sigs) (hφ : RevisesBy iface ts m r N φ body pre post)
    {j i : Nat} {f : Func} (hj : order[j]? = some i) (hf : m.functions[i]? = some f) :
    ∃ χ χ' : Nat → List Val → List Val, (∀ p, Edits f.type p (pre (handle f.type p) (handle f.type p)) (·.map φ) (χ p)) ∧
      ∀ p, Edits f.type p (post (handle f.type p) (handle f.type p)) (χ' p) (·.map φ) := by
  have ho : i ∈ order := List.mem_of_getElem? hj
  obtain ⟨g, hg, hgt, _⟩ := hA.own hf
  have hn : f.type.slots < 8192 := by rw [← hgt]; exact hsm _ (hA.at.target j i g hj hg).1
  have h := hφ.calls i ((hA.mem i).1 ho) f hf (applyTarget_refFree hA hj hf) hn
  exact ⟨fun p => (h p).1.choose, fun p => (h p).2.choose, fun p => (h p).1.choose_spec, fun p => (h p).2.choose_spec⟩

/-- The instrumented program keeps up with the program in which values are revised. -/
theorem revised_forward (hs : SmallModule m) (hst : iface.Documented) (h : Instruments C iface ts m r) (hn : r.module.exportNames.Nodup)
    (hA : Applied C iface ts m r ge cb order fs K.sigs hooks copy) (hge : ge.args = [.i32, .i32, .i32, .i32, .i32, .i32, .i32] ∧ ge.results = [])
    (hcb : cb.args = [.i32, .i32] ∧ cb.results = []) (hsz : order.length < 2 ^ 32) (hv : ValidModule m)
    (hB : ∀ i ∈ bodyTargets m ts, ∀ f, m.functions[i]? = some f → WellAnnotated m f (bodyOf C m i)) {exact : Bool}
    (hoff : ∀ i ∈ bodyTargets m ts, ∀ f c, m.functions[i]? = some f → f.code = .present c → OnlyCode (OffsetsAre iface (fun o => o.toNat < 2 ^ 31 ∧ (exact = true → o = 0))) c.body)
    (hR : Deployed iface m r ge K (copy + 2 * order.length) T X B body pre post G H) (hφ : RevisesBy iface ts m r N φ body pre post)
    (hseg : ∀ s : Store (World W A), s.tables[m.tables.length]? = T[0]? → SegmentsIntact m r s) {M : Nat} :
    ∀ d D F, 5 * d + 2 ≤ D → F + d * B ≤ M * 65536 → F + d * B ≤ 65535 * 65536 →
      CallsAgree (besideLib m.ctx T X (fun _ => LibAt F M) never true false (!exact)) m.ctx
        (revisedCall C m (bodyTargets m ts) (applyTargets m ts) (fun t => (iface.trap t).isSome) (replacing φ) G N L d) (callF N (machineOf H r.module.functions) L D) := by
  intro d
  induction d with
  | zero => intro D F _ _ _ f ty args s s' _ _ _; exact .fuelL rfl
  | succ d ih =>
    intro D F hD hc1 hc2 i ty args s s' hf ha hS
    have hseg' : SegmentsIntact m r s' := by
      obtain ⟨h1, w, _, rfl⟩ := hS
      apply hseg
      have hl : s.tables.length = m.tables.length := tables_length h1
      simp only [Store.extend]
      rw [List.getElem?_append_right (by omega)]
      simp [hl]
    simp only [Module.ctx, Option.map_eq_some_iff] at hf
    obtain ⟨f, hf, rfl⟩ := hf
    obtain ⟨g, hg, hgt, _⟩ := hA.own hf
    rw [Nat.add_mul, Nat.one_mul] at hc1 hc2
    simp only [revisedCall, hf]
    by_cases ho : i ∈ order
    · rw [if_pos ((hA.mem i).1 ho)]
      obtain ⟨j, hj⟩ := List.getElem?_of_mem ho
      obtain ⟨hmem, _, _, hcp, _⟩ := hA.at.target j i g hj hg
      have hb : 12 * f.type.slots ≤ B := by rw [← hgt]; exact hR.frame _ hmem
      obtain ⟨D', rfl⟩ : ∃ D', D = D' + 5 := ⟨D - 5, by omega⟩
      obtain ⟨χ, χ', hpre, hpost⟩ := hφ.edits hA hR.small hj hf
      refine edited_agrees hA hge hcb hsz hR.good hR.small hR.lib hR.advice hj hf hφ.tidy.type hpre hpost (applyTarget_refFree hA hj hf) ha
        ⟨by omega, by omega⟩ hseg' hS fun args' ha' s'' hS'' => ?_
      exact revised_body_runs hs hst.standard hA hv hB (besideLib_S _ _ _ _ _ _ _ _) (fun f hf ns name hc => hR.imports f hf ns name hc _ _ _ _ _) hf hg hcp rfl rfl rfl
        (ih D' _ (by omega) (by omega) (by omega)) hoff (revising_hooks hs hst h hn hφ.tidy hR.linked hφ.hooks (.inr (by omega)) rfl) ha' hS''
    · rw [if_neg (fun hh => ho ((hA.mem i).2 hh))]
      obtain ⟨D', rfl⟩ : ∃ D', D = D' + 1 := ⟨D - 1, by omega⟩
      exact revised_body_runs hs hst.standard hA hv hB (besideLib_S _ _ _ _ _ _ _ _) (fun f hf ns name hc => hR.imports f hf ns name hc _ _ _ _ _) hf hg (es := g.exports) (hA.at.untouched i g ho hg)
        rfl rfl rfl (ih D' F (by omega) (by omega) (by omega)) hoff (revising_hooks hs hst h hn hφ.tidy hR.linked hφ.hooks (.inr (by omega)) rfl) ha hS

/-- The program in which values are revised keeps up with the instrumented program. -/
theorem revised_backward (hs : SmallModule m) (hst : iface.Documented) (h : Instruments C iface ts m r) (hn : r.module.exportNames.Nodup)
    (hA : Applied C iface ts m r ge cb order fs K.sigs hooks copy) (hge : ge.args = [.i32, .i32, .i32, .i32, .i32, .i32, .i32] ∧ ge.results = [])
    (hcb : cb.args = [.i32, .i32] ∧ cb.results = []) (hsz : order.length < 2 ^ 32) (hv : ValidModule m)
    (hB : ∀ i ∈ bodyTargets m ts, ∀ f, m.functions[i]? = some f → WellAnnotated m f (bodyOf C m i)) {exact : Bool}
    (hoff : ∀ i ∈ bodyTargets m ts, ∀ f c, m.functions[i]? = some f → f.code = .present c → OnlyCode (OffsetsAre iface (fun o => o.toNat < 2 ^ 31 ∧ (exact = true → o = 0))) c.body)
    (hR : Deployed iface m r ge K (copy + 2 * order.length) T X B body pre post G H) (hφ : RevisesBy iface ts m r N φ body pre post)
    (hseg : ∀ s : Store (World W A), s.tables[m.tables.length]? = T[0]? → SegmentsIntact m r s) {M : Nat} :
    ∀ D d F, D ≤ d → F + D * B ≤ M * 65536 → F + D * B ≤ 65535 * 65536 →
      CallsAgree (besideLib m.ctx T X (fun _ => LibAt F M) never false true (!exact)) m.ctx
        (revisedCall C m (bodyTargets m ts) (applyTargets m ts) (fun t => (iface.trap t).isSome) (replacing φ) G N L d) (callF N (machineOf H r.module.functions) L D) := by
  intro D
  induction D using Nat.strongRecOn with
  | ind D ih =>
    intro d F hD hc1 hc2 i ty args s s' hf ha hS
    match D, ih with
    | 0, _ => exact .fuelR rfl
    | D + 1, ih =>
    obtain ⟨d, rfl⟩ : ∃ d', d = d' + 1 := ⟨d - 1, by omega⟩
    have hseg' : SegmentsIntact m r s' := by
      obtain ⟨h1, w, _, rfl⟩ := hS
      apply hseg
      have hl : s.tables.length = m.tables.length := tables_length h1
      simp only [Store.extend]
      rw [List.getElem?_append_right (by omega)]
      simp [hl]
    simp only [Module.ctx, Option.map_eq_some_iff] at hf
    obtain ⟨f, hf, rfl⟩ := hf
    obtain ⟨g, hg, hgt, _⟩ := hA.own hf
    simp only [revisedCall, hf]
    by_cases ho : i ∈ order
    · rw [if_pos ((hA.mem i).1 ho)]
      obtain ⟨j, hj⟩ := List.getElem?_of_mem ho
      obtain ⟨hmem, _, _, hcp, _⟩ := hA.at.target j i g hj hg
      have hb : 12 * f.type.slots ≤ B := by rw [← hgt]; exact hR.frame _ hmem
      obtain ⟨χ, χ', hpre, hpost⟩ := hφ.edits hA hR.small hj hf
      have hr := applyTarget_refFree hA hj hf
      rw [Nat.add_mul, Nat.one_mul] at hc1 hc2
      by_cases hlt : D + 1 < 5
      · obtain ⟨xs, rfl, hx⟩ := args_nums ha.1 hr.inputs
        obtain ⟨h1, ⟨w, a, st⟩, ⟨h2, l, rfl, ok, rfl, rfl, hpg⟩, rfl⟩ := hS
        rw [call_edited_shallow (N := N) (L := L) hA hge hcb hsz hR.good hR.small hR.lib hR.advice hj hf hpre ok (s := s.extend T X (w, a, l.store)) rfl hseg' hx
          (by rintro (h | h | h) <;> omega) hlt]
        exact .fuelR rfl
      · obtain ⟨D', rfl⟩ : ∃ D', D = D' + 4 := ⟨D - 4, by omega⟩
        rw [Nat.add_mul] at hc1 hc2
        refine edited_agrees hA hge hcb hsz hR.good hR.small hR.lib hR.advice hj hf hφ.tidy.type hpre hpost hr ha
          ⟨by omega, by omega⟩ hseg' hS fun args' ha' s'' hS'' => ?_
        exact revised_body_runs hs hst.standard hA hv hB (besideLib_S _ _ _ _ _ _ _ _) (fun f hf ns name hc => hR.imports f hf ns name hc _ _ _ _ _) hf hg hcp rfl rfl rfl
          (ih D' (by omega) d _ (by omega) (by omega) (by omega)) hoff (revising_hooks hs hst h hn hφ.tidy hR.linked hφ.hooks (.inl rfl) rfl) ha' hS''
    · rw [if_neg (fun hh => ho ((hA.mem i).2 hh))]
      rw [Nat.add_mul, Nat.one_mul] at hc1 hc2
      exact revised_body_runs hs hst.standard hA hv hB (besideLib_S _ _ _ _ _ _ _ _) (fun f hf ns name hc => hR.imports f hf ns name hc _ _ _ _ _) hf hg (es := g.exports) (hA.at.untouched i g ho hg)
        rfl rfl rfl (ih D (by omega) d F (by omega) (by omega) (by omega)) hoff (revising_hooks hs hst h hn hφ.tidy hR.linked hφ.hooks (.inl rfl) rfl) ha hS

end
end

end Wastrum
