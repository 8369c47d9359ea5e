import Verif.ReviseHooks
import Verif.WatchThms
import Verif.Judge
/-!
# Analyses that also watch calls (framework for C76)

The analyses of `Watch.lean` watch instructions. Here the analysis also has an `apply` advice, which records something, resumes the call with
`func.apply()`, and records something. What such an analysis is told is a story: instructions, calls entered (with their arguments) and calls
left (with their arguments and results).
-/

set_option linter.unusedSimpArgs false
set_option linter.unusedVariables false

namespace Wastrum

variable {W A : Type}

/-! ## Vocabulary -/

/-- Something that happens in a run: an instruction is reached (as in a `Log`), or an intercepted function is entered or left. -/
inductive Note where
  | instr (t : Trap) (args : List RVal)
  | enter (i : Nat) (args : List RVal)
  | leave (i : Nat) (args results : List RVal)

/-- What has happened so far. -/
abbrev Story := List Note

/-- Note an instruction. -/
def tellInstr (t : Trap) (args : List RVal) (p : W × Story) : W × Story := (p.1, p.2 ++ [.instr t args])

/-- Note something. -/
def Store.tell (s : Store (W × Story)) (n : Note) : Store (W × Story) := { s with world := (s.world.1, s.world.2 ++ [n]) }

/-- A function of the original program; if it is among `targets`, its instructions are noted (as in `traced`, C11). -/
def toldImpl (C : Checker) (m : Module) (targets : List Nat) (H : Imports (W × Story)) (i : Nat) (f : Func) : Impl (W × Story) :=
  match f.code with
  | .imported ns name => .host (H ns name)
  | .present c => .code c.locals fun E => if i ∈ targets then gdenL (noting E tellInstr) E.loopFuel (bodyOf C m i) else denFlat E c.body

/-- Run a call and note that it is entered and left. -/
def toldRun (i : Nat) (run : List RVal → Store (W × Story) → Res (W × Story)) (args : List RVal) (s : Store (W × Story)) : Res (W × Story) :=
  match run args (s.tell (.enter i args)) with
  | .ok vs s1 => .ok vs (s1.tell (.leave i args vs))
  | o => o

/-- Calls of the original program, running with a story that notes the instructions of the functions in `targets` and the calls of the functions
in `intercepted`; `L` bounds loop iterations, the next argument the depth of calls. -/
def toldCall (C : Checker) (m : Module) (targets intercepted : List Nat) (H : Imports (W × Story)) (N : Num) (L : Nat) :
    Nat → Nat → List RVal → Store (W × Story) → Res (W × Story)
  | 0, _, _, _ => .fuel
  | d + 1, i, args, s => match m.functions[i]? with
    | none => .stuck
    | some f =>
      let run := runImpl ⟨N, fun k => m.functions[k]?.map (·.type), toldCall C m targets intercepted H N L d, L⟩ f.type (toldImpl C m targets H i f)
      if i ∈ intercepted then toldRun i run args s else run args s

open Classical in
/-- The rule that notes every instruction, and stops the run when the story is no longer as `ρ` says. (Used in proofs only.) -/
noncomputable def holding (ρ : Story → Prop) : Rule (W × Story) := fun t args s =>
  if ρ (s.world.2 ++ [.instr t args]) then some (tellInstr t args s.world) else none

/-- `toldImpl` under such a rule. -/
noncomputable def heldImpl (ρ : Story → Prop) (C : Checker) (m : Module) (targets : List Nat) (H : Imports (W × Story)) (i : Nat) (f : Func) : Impl (W × Story) :=
  match f.code with
  | .imported ns name => .host (H ns name)
  | .present c => .code c.locals fun E => if i ∈ targets then gdenL (judging true E (holding ρ)) E.loopFuel (bodyOf C m i) else denFlat E c.body

open Classical in
/-- `toldRun` under such a rule. -/
noncomputable def heldRun (ρ : Story → Prop) (i : Nat) (run : List RVal → Store (W × Story) → Res (W × Story)) (args : List RVal) (s : Store (W × Story)) : Res (W × Story) :=
  if ρ (s.world.2 ++ [.enter i args]) then
    match run args (s.tell (.enter i args)) with
    | .ok vs s1 => if ρ (s1.world.2 ++ [.leave i args vs]) then .ok vs (s1.tell (.leave i args vs)) else .fuel
    | o => o
  else .fuel

/-- `toldCall` under such a rule. -/
noncomputable def heldCall (ρ : Story → Prop) (C : Checker) (m : Module) (targets intercepted : List Nat) (H : Imports (W × Story)) (N : Num) (L : Nat) :
    Nat → Nat → List RVal → Store (W × Story) → Res (W × Story)
  | 0, _, _, _ => .fuel
  | d + 1, i, args, s => match m.functions[i]? with
    | none => .stuck
    | some f =>
      let run := runImpl ⟨N, fun k => m.functions[k]?.map (·.type), heldCall ρ C m targets intercepted H N L d, L⟩ f.type (heldImpl ρ C m targets H i f)
      if i ∈ intercepted then heldRun ρ i run args s else run args s

/-- The rule that never stops the run. -/
theorem heldCall_free (C : Checker) (m : Module) (targets intercepted : List Nat) (H : Imports (W × Story)) (N : Num) (L d : Nat) :
    heldCall (fun _ => True) C m targets intercepted H N L d = toldCall C m targets intercepted H N L d := by
  have hj : ∀ E : Env (W × Story), judging true E (holding fun _ => True) = noting E tellInstr := by
    intro E
    unfold judging noting holding note
    simp only [if_true]
    rfl
  induction d with
  | zero => funext i args s; rfl
  | succ d ih =>
    funext i args s
    simp only [heldCall, toldCall, ih]
    cases m.functions[i]? with
    | none => rfl
    | some f =>
      have hi : heldImpl (fun _ => True) C m targets H i f = toldImpl C m targets H i f := by
        unfold heldImpl toldImpl
        simp only [hj]
      have hr : ∀ run args (s : Store (W × Story)), heldRun (fun _ => True) i run args s = toldRun i run args s := by
        intro run args s
        unfold heldRun toldRun
        simp only [if_true]
      simp only [hi, hr]

/-- The analysis' `apply` advice that runs `pre`, resumes the call and runs `post`; both may look at the function, the arguments and the results. -/
def telling (K : LibLink) (base : Nat) (pre post : WasmFunction → RuntimeValues → RuntimeValues → Act (World W A) Unit) : Host (World W A) :=
  applyAdvice K base fun func call args ress => do
    pre func args ress
    call
    post func args ress

/-- An `apply` advice that, handed the buffers of a call (the values at `p`, followed by the types), runs `pre`, resumes the call and runs `post`; both may
look at the function and the buffers. -/
def SurroundsCalls (base : Nat) (pre post : WasmFunction → FuncType → Nat → Act (World W A) Unit) (advice : Host (World W A)) : Prop :=
  ∀ (call : Nat → List RVal → Store (World W A) → Res (World W A)) (t : FuncType) (j i p : Nat) (present : BitVec 32) (l l1 : Lib) (xs : List Val) (s : Store (World W A)),
    t.RefFree → t.slots < 8192 → Prepared l t xs p (p + 8 * t.slots) l1 → s.getLib = l1.store →
    advice call (applyQuestion j i t p (p + 8 * t.slots) present) s =
      ((do pre ⟨BitVec.ofNat 32 j, BitVec.ofNat 32 i, BitVec.ofNat 32 p, present⟩ t p
           WasmFunction.apply ⟨BitVec.ofNat 32 j, BitVec.ofNat 32 i, BitVec.ofNat 32 p, present⟩ base call
           post ⟨BitVec.ofNat 32 j, BitVec.ofNat 32 i, BitVec.ofNat 32 p, present⟩ t p : Act (World W A) Unit) s).done

/-- `telling` does. -/
theorem telling_surrounds {K : LibLink} (hK : K.Good) (base : Nat) (pre post : WasmFunction → RuntimeValues → RuntimeValues → Act (World W A) Unit) :
    SurroundsCalls base (fun f t p => pre f (handle t p) (handle t p)) (fun f t p => post f (handle t p) (handle t p)) (telling K base pre post) := by
  intro call t j i p present l l1 xs s hr hn hP hs
  have hrv := LibLink.runtimeValues_ok (W := W) (A := A) (s := s) (p := p) hK hP.alloc.ok hs hr.both hn hP.types hP.types_in
  have e : ∀ body : RuntimeValues → RuntimeValues → Act (World W A) Unit,
      (do let args ← K.runtimeValues (BitVec.ofNat 32 t.inputs.length) (BitVec.ofNat 32 t.results.length) (BitVec.ofNat 32 p) (BitVec.ofNat 32 (p + 8 * t.slots))
          let ress ← K.runtimeValues (BitVec.ofNat 32 t.inputs.length) (BitVec.ofNat 32 t.results.length) (BitVec.ofNat 32 p) (BitVec.ofNat 32 (p + 8 * t.slots))
          body args ress : Act (World W A) Unit) s = body (handle t p) (handle t p) s := by
    intro body
    simp only [bind, Act.bind, hrv]
  simp only [telling, applyAdvice, applyQuestion, RVal.i32]
  rw [e]
  generalize (do pre _ (handle t p) (handle t p); _ : Act (World W A) Unit) s = x
  cases x <;> rfl

/-- A piece of the analysis' code, run on the buffers of a call of a function of type `t` (the values at `p`, followed by the types), that changes nothing
but the analysis' own state, as `upd` says on the basis of the values `vals` in the buffer, or panics if `upd` says so. -/
def Records {V : Type} (t : FuncType) (p : Nat) (vals : Mem → V) (act : Act (World W A) Unit) (upd : V → A → Option A) : Prop :=
  ∀ (l : Lib) (s : Store (World W A)), l.Ok → s.getLib = l.store → p + 12 * t.slots ≤ l.mem.size → l.mem.Types (p + 8 * t.slots) (t.results ++ t.inputs) →
    match upd (vals l.mem) s.world.2.1 with
    | some a => act s = .ok () (s.setAnalysis a)
    | none => ∃ s', act s = .trap s'

/-- Executions whose program states agree, with `I` between the story, the analysis' state and the library's state; after a trap, `J` between story
and analysis' state. With `pn`, the instrumented program may trap on its own. -/
def toldRel (Γ : Ctx) (T : List Table) (X : List (RefType × List (Option Nat))) (I : Story → A → Store Unit → Prop) (J : Story → A → Prop) (pn : Prop) (fl fr tl : Bool) :
    Rel (W × Story) (World W A) :=
  ⟨SameState Γ T X (fun p q => p.1 = q.1 ∧ I p.2 q.2.1 q.2.2), fl, fr, tl, SameState Γ T X (fun p q => p.1 = q.1 ∧ J p.2 q.2.1), fun _ => pn⟩

theorem toldRel_S (Γ : Ctx) (T : List Table) (X : List (RefType × List (Option Nat))) (I : Story → A → Store Unit → Prop) (J : Story → A → Prop) (pn : Prop) (fl fr tl : Bool) :
    (toldRel (W := W) Γ T X I J pn fl fr tl).S = SameState Γ T X (fun p q => p.1 = q.1 ∧ I p.2 q.2.1 q.2.2) := rfl

/-- The stack allocator is at `F`, and what lies below is as in `μ`. -/
def LibFrom (F M : Nat) (μ : Nat → BitVec 8) (st : Store Unit) : Prop :=
  ∃ l : Lib, st = l.store ∧ l.Ok ∧ l.free = F ∧ l.mem.limit = M ∧ l.mem.pages < 65536 ∧ ∀ x < F, l.mem.bytes x = μ x

/-- With the stack allocator at `F`, and with `μ` below. -/
abbrev toldAt (Γ : Ctx) (T : List Table) (X : List (RefType × List (Option Nat))) (Z : Story → A → Prop) (F M : Nat) (μ : Nat → BitVec 8) (pn : Prop) (fl fr tl : Bool) :
    Rel (W × Story) (World W A) :=
  toldRel Γ T X (fun st a l => Z st a ∧ LibFrom F M μ l) Z pn fl fr tl

/-- The arguments and the results in the buffer at `p` of a call of a function of type `t`. -/
def Mem.both (m : Mem) (t : FuncType) (p : Nat) : List Val × List Val := (m.args t p, m.ress t p)

/-- The program's imports do the same beside a story and beside the analysis and the stack library, and leave all of them alone (provided the
functions of the program that they call back do). -/
def ImportsTold (m : Module) (T : List Table) (X : List (RefType × List (Option Nat))) (G : Imports (W × Story)) (H : Imports (World W A)) : Prop :=
  ∀ f ∈ m.functions, ∀ ns name, f.code = .imported ns name → ∀ I J pn fl fr tl, HostsAgree (toldRel m.ctx T X I J pn fl fr tl) m.ctx f.type (G ns name) (H ns name)

section
variable {C : Checker} {iface : Interface} {ts : Option (List Nat)} {m : Module} {r : Instrumented} {ge : WasmExport} {cb : WasmImport}
  {order : List Nat} {fs : List Func} {hooks : FuncType → StackHooks} {copy : Nat} {K : LibLink} {H : Imports (World W A)} {N : Num} {L : Nat}

/-! ## Bodies -/

/-- The instrumented code of a function keeps the executions in step. (Like `body_runs`.) -/
theorem held_body_runs {ρ : Story → Prop} (hs : SmallModule m) (hst : iface.Standard) (hA : Applied C iface ts m r ge cb order fs K.sigs hooks copy) (hv : ValidModule m)
    (hB : ∀ i ∈ bodyTargets m ts, ∀ f, m.functions[i]? = some f → WellAnnotated m f (bodyOf C m i)) {V' : Type} {R : Rel (W × Story) V'} {T X} {Q : W × Story → V' → Prop}
    (hS : R.S = SameState m.ctx T X Q) {G : Imports (W × Story)} {G' : Imports V'}
    (hhost : ∀ f ∈ m.functions, ∀ ns name, f.code = .imported ns name → HostsAgree R m.ctx f.type (G ns name) (G' ns name))
    {i k : Nat} {f g : Func} {es : List String} (hf : m.functions[i]? = some f) (hg : fs[i]? = some g) (hk : r.module.functions[k]? = some { g with exports := es })
    {E : Env (W × Story)} (hEn : E.num = N) (hEL : E.loopFuel = L) (hEt : E.ftype = fun k => m.functions[k]?.map (·.type)) {D : Nat} (hc : CallsAgree R m.ctx E.callF (callF N (machineOf G' r.module.functions) L D))
    {B : Basic → Prop} (hO : ∀ i ∈ bodyTargets m ts, ∀ f c, m.functions[i]? = some f → f.code = .present c → OnlyCode B c.body)
    (hH : R.Judges true m.ctx B (hookSel iface m.functions.length) (holding ρ) E (envAt N (machineOf G' r.module.functions) L D))
    {args : List RVal} {s s'} (ha : ValsOK m.ctx args f.type.inputs) (hss : R.S s s') :
    R.Ress m.ctx f.type.results (runImpl E f.type (heldImpl ρ C m (bodyTargets m ts) G i f) args s) (callF N (machineOf G' r.module.functions) L (D + 1) k args s') := by
  obtain ⟨targets, bs, ht, hd⟩ := hA.bodies
  have hm := List.mem_of_getElem? hf
  have hE : R.Envs m.ctx E (envAt N (machineOf G' r.module.functions) L D) := by
    refine ⟨hEn.symm, hEL.symm, ?_, hc⟩
    intro f' ty hty
    rw [envAt_types, hEt]
    refine ⟨hty, ?_⟩
    simp only [Module.ctx, Option.map_eq_some_iff] at hty
    obtain ⟨f0, hf0, rfl⟩ := hty
    obtain ⟨g0, hg0, ht0, _⟩ := hA.own hf0
    dsimp only
    by_cases ho : f' ∈ order
    · obtain ⟨j, hj⟩ := List.getElem?_of_mem ho
      rw [(hA.at.target j f' g0 hj hg0).2.2.1, ← ht0]
      rfl
    · rw [hA.at.untouched f' g0 ho hg0, ← ht0]
      rfl
  have hown := hd.own i (List.getElem?_eq_some_iff.1 hf).1
  rw [hg, hf, Option.map_some, Option.some.injEq] at hown
  cases hcode : f.code with
  | imported ns name =>
    have hgc : g.code = .imported ns name ∧ g.type = f.type := by
      rw [hown]; split
      · simp [Func.withBody, hcode]
      · exact ⟨hcode, rfl⟩
    rw [callF_import hk hgc.1]
    simp only [runImpl, heldImpl, hcode]
    exact hhost f hm ns name hcode _ _ hc _ _ _ ha hss
  | present c =>
    simp only [runImpl, heldImpl, hcode]
    by_cases hi : i ∈ bodyTargets m ts
    · have hit := (ht i).2 hi
      rw [if_pos hit] at hown
      obtain ⟨b, hb⟩ : ∃ b, raiseTarget C m i = .ok b := ⟨_, hA.raised i hi⟩
      have eb : bodyOf C m i = b := by simp [bodyOf, hb]
      have hI : Interposes r.module.functions (hookSel iface m.functions.length) (fun k' => if k' = k then some (bodyOf C m i) else none) := by
        refine hd.interposes hst (fun i hi => hA.raised i ((ht i).1 hi)) ?_ ?_
        · intro k' f' hk' hf'
          refine hA.at.untouched k' f' ?_ hf'
          intro ho
          obtain ⟨g0, hg0, _⟩ := mem_applyTargets.1 ((hA.mem k').1 ho)
          have := (List.getElem?_eq_some_iff.1 hg0).1
          omega
        · intro k' b' hb'
          split at hb'
          · rename_i hkk
            subst hkk
            cases hb'
            exact ⟨i, _, hit, rfl, hk, g, hg, rfl⟩
          · cases hb'
      have hgc : g.code = .present ⟨c.locals, lowerTyped (expandL (hookSel iface m.functions.length) (bs i) (bodyOf C m i))⟩ ∧ g.type = f.type := by
        rw [hown]; simp [Func.withBody, hcode]
      have e1 : ∀ D, callF N (machineOf G' r.module.functions) L D = _ := fun D => callF_interposed hI N G' L D
      have henv : envAt N (interposed (hookSel iface m.functions.length) (fun k' => if k' = k then some (bodyOf C m i) else none) (machineOf G' r.module.functions)) L D =
          envAt N (machineOf G' r.module.functions) L D := by
        simp only [envAt, interposed_type, ← e1]
      rw [e1]
      have e2 : interposed (hookSel iface m.functions.length) (fun k' => if k' = k then some (bodyOf C m i) else none) (machineOf G' r.module.functions) k =
          some (f.type, .code c.locals fun E => hdenL E (hookSel iface m.functions.length) (bodyOf C m i)) := by
        have : machineOf G' r.module.functions k = some (f.type, .code c.locals fun E => denFlat E (lowerTyped (expandL (hookSel iface m.functions.length) (bs i) (bodyOf C m i)))) := by
          simp only [machineOf, hk, Option.map_some, hgc.2, implOf, hgc.1]
        simp only [interposed, if_true, this]
      have e3 : callF N (interposed (hookSel iface m.functions.length) (fun k' => if k' = k then some (bodyOf C m i) else none) (machineOf G' r.module.functions)) L (D + 1) k args s' =
          runBody f.type c.locals (hdenL (envAt N (machineOf G' r.module.functions) L D) (hookSel iface m.functions.length) (bodyOf C m i)) args s' := by
        rw [← henv]
        simp only [callF, e2]
        rfl
      rw [e3]
      refine runBody_sim (fun cfg cfg' hcc => ?_) ha hss
      rw [if_pos hi]
      refine judged_body_agrees hS hE hH ((hO i hi f c hf hcode).mono ?_) (hB i hi f hf c hcode) hcc
      intro x hm
      obtain ⟨f', c', hf', hc', hr⟩ := raiseTarget_present hb
      rw [hf] at hf'; cases hf'
      rw [hcode] at hc'; cases hc'
      rw [eb] at hm
      have := C02_lowerTyped_raiseFunction _ _ _ _ _ hr
      rw [← this]
      exact List.mem_append_left _ hm
    · have hit : i ∉ targets := fun hh => hi ((ht i).1 hh)
      rw [if_neg hit] at hown
      subst hown
      rw [callF_code hk hcode]
      refine runBody_sim (fun cfg cfg' hcc => ?_) ha hss
      rw [if_neg hi]
      exact plain_body_agrees hS hE (hv.functions _ hm c hcode) hcc

/-! ## Intercepted calls -/

/-- What the interception of a call amounts to when the analysis records, resumes and records. -/
theorem call_told (hA : Applied C iface ts m r ge cb order fs K.sigs hooks copy) (hge : ge.args = [.i32, .i32, .i32, .i32, .i32, .i32, .i32] ∧ ge.results = [])
    (hcb : cb.args = [.i32, .i32] ∧ cb.results = []) (hsz : order.length < 2 ^ 32)
    (hK : K.Good) (hsm : SmallSigs K.sigs) (hlib : HasLib K H) {pre post : WasmFunction → FuncType → Nat → Act (World W A) Unit}
    (hH : SurroundsCalls (copy + 2 * order.length) pre post (H analysisModule ge.name))
    {j i : Nat} {f : Func} (hj : order[j]? = some i) (hf : m.functions[i]? = some f) {enter : List Val → A → Option A} {leave : List Val → List Val → A → Option A}
    (hpre : ∀ p, Records f.type p (·.args f.type p) (pre ⟨BitVec.ofNat 32 j, BitVec.ofNat 32 i, BitVec.ofNat 32 p, codePresent f⟩ f.type p) enter)
    (hpost : ∀ p, Records f.type p (·.both f.type p) (post ⟨BitVec.ofNat 32 j, BitVec.ofNat 32 i, BitVec.ofNat 32 p, codePresent f⟩ f.type p) fun v => leave v.1 v.2)
    {l : Lib} (ok : l.Ok) {s : Store (World W A)} (hs : s.getLib = l.store) (hseg : SegmentsIntact m r s) {xs : List Val} (hx : xs.map Val.type = f.type.inputs)
    (hfull : ¬ Full l (12 * f.type.slots)) (hpg : l.mem.pages < 65536) (d : Nat) :
    match enter xs s.world.2.1 with
    | none => ∃ s', callF N (machineOf H r.module.functions) L (d + 2) i (xs.map .num) s = .trap s'
    | some a =>
      (d < 3 → callF N (machineOf H r.module.functions) L (d + 2) i (xs.map .num) s = .fuel) ∧ ∀ e, d = e + 3 →
      ∃ (lc : Lib), lc.Ok ∧ lc.free = l.free + 12 * f.type.slots ∧ lc.mem.limit = l.mem.limit ∧ lc.mem.pages < 65536 ∧ (∀ x < l.free, lc.mem.bytes x = l.mem.bytes x) ∧
      match callF N (machineOf H r.module.functions) L (e + 1) (copy + 2 * j) (xs.map .num) ((s.setAnalysis a).setLib lc.store) with
      | .ok vs s2 => ∀ (ys : List Val) (l2 : Lib), vs = ys.map .num → ys.map Val.type = f.type.results → s2.getLib = l2.store → l2.Ok → l2.free = lc.free → (∀ x < lc.free, l2.mem.bytes x = lc.mem.bytes x) →
          match leave xs ys s2.world.2.1 with
          | none => ∃ s', callF N (machineOf H r.module.functions) L (d + 2) i (xs.map .num) s = .trap s'
          | some a' => ∃ (l3 : Lib), callF N (machineOf H r.module.functions) L (d + 2) i (xs.map .num) s = .ok vs ((s2.setAnalysis a').setLib l3.store) ∧ l3.Ok ∧ l3.free = l.free ∧
            l3.mem.limit = l2.mem.limit ∧ l3.mem.pages = l2.mem.pages ∧ ∀ x < l.free, l3.mem.bytes x = l2.mem.bytes x
      | .trap s2 => callF N (machineOf H r.module.functions) L (d + 2) i (xs.map .num) s = .trap s2
      | .fuel => callF N (machineOf H r.module.functions) L (d + 2) i (xs.map .num) s = .fuel
      | .stuck => callF N (machineOf H r.module.functions) L (d + 2) i (xs.map .num) s = .stuck := by
  obtain ⟨g, hg, hgt, hgp⟩ := hA.own hf
  have hr := applyTarget_refFree hA hj hf
  have hn : f.type.slots < 8192 := by rw [← hgt]; exact hsm _ (hA.at.target j i g hj hg).1
  rcases call_intercepted (N := N) (L := L) hA hge hK hsm hlib hj hf ok hs hx d with ⟨hfl, _⟩ | ⟨p, q, l1, hP, hans⟩
  · exact absurd hfl hfull
  obtain rfl : q = p + 8 * f.type.slots := by
    have h1 := hP.p_eq
    have h2 := hP.q_eq
    split at h1 <;> simp_all
  have hin12 : p + 12 * f.type.slots ≤ l1.mem.size := by have := hP.types_in; omega
  have e1 := hpre p l1 (s.setLib l1.store) hP.alloc.ok (Store.getLib_setLib _ _) hin12 hP.types
  dsimp only at e1
  rw [show (l1.mem.args f.type p) = xs from hP.args, show (s.setLib l1.store).world.2.1 = s.world.2.1 from rfl] at e1
  have hask := hH (callF N (machineOf H r.module.functions) L d) f.type j i p (codePresent f) l l1 xs (s.setLib l1.store) hr hn hP (Store.getLib_setLib _ _)
  cases hen : enter xs s.world.2.1 with
  | none =>
    rw [hen] at e1
    obtain ⟨s', e1⟩ := e1
    dsimp only
    refine ⟨s', ?_⟩
    simp only [bind, Act.bind, e1, Eff.done] at hask
    rw [hask] at hans
    exact hans
  | some a =>
    rw [hen] at e1
    dsimp only at e1 ⊢
    rw [show (s.setLib l1.store).setAnalysis a = (s.setAnalysis a).setLib l1.store from rfl] at e1
    simp only [bind, Act.bind, e1, Eff.done] at hask
    rw [hask] at hans
    clear hask
    simp only [WasmFunction.apply, bind, Act.bind] at hans
    refine ⟨fun hd => ?_, ?_⟩
    · have hbase := base_shallow (N := N) (L := L) (H := H) hA hcb hsz hj hf (s := (s.setAnalysis a).setLib l1.store) hseg (p := p) (d := d) hd
      rw [hbase] at hans
      simp only [Res.toEff] at hans
      exact hans
    rintro d rfl
    refine ⟨l1, hP.alloc.ok, hP.alloc.free, hP.alloc.limit, hP.alloc.room hpg, hP.alloc.below, ?_⟩
    have hres := call_resumed (N := N) (L := L) hA hcb hsz hK hlib hj hf hP.alloc.ok (s := (s.setAnalysis a).setLib l1.store) (Store.getLib_setLib _ _) hseg hP.values_in d
    rw [hP.args] at hres
    show match callF N (machineOf H r.module.functions) L (d + 1) (copy + 2 * j) (xs.map .num) ((s.setAnalysis a).setLib l1.store) with
      | .ok vs s2 => _
      | .trap s2 => _
      | .fuel => _
      | .stuck => _
    cases hc : callF N (machineOf H r.module.functions) L (d + 1) (copy + 2 * j) (xs.map .num) ((s.setAnalysis a).setLib l1.store) with
    | ok vs s2 =>
      rw [hc] at hres
      dsimp only
      intro ys l2 hvs hty hs2 ok2 hf2 hb2
      have hin2 : p + 8 * f.type.slots ≤ l2.mem.size := by
        have h1 := hP.alloc.free
        have h2 := ok2.free
        have h3 := hP.p_eq
        split at h3 <;> omega
      obtain ⟨m2, e2, rs2, o2⟩ := hres.2 ys l2 hvs hty hs2 ok2 hin2
      have ok3 : (⟨l2.free, m2⟩ : Lib).Ok := o2.ok ok2
      have hty3 : m2.Types (p + 8 * f.type.slots) (f.type.results ++ f.type.inputs) := by
        intro k v hv
        have hk := (List.getElem?_eq_some_iff.1 hv).1
        have h1 := hP.alloc.free
        have h3 := hP.p_eq
        have h4 : f.type.slots = f.type.results.length + f.type.inputs.length := rfl
        rw [List.length_append] at hk
        rw [← hP.types k v hv]
        refine Mem.word_congr fun i hi1 hi2 => ?_
        rw [o2.bytes i (by omega)]
        refine hb2 i ?_
        split at h3 <;> omega
      have e3 := hpost p ⟨l2.free, m2⟩ (s2.setLib (⟨l2.free, m2⟩ : Lib).store) ok3 rfl (by
        dsimp only
        rw [o2.size]
        have h1 := hP.alloc.free
        have h2 := ok2.free
        have h3 := hP.p_eq
        split at h3 <;> omega) hty3
      dsimp only at e3
      have as2 : m2.args f.type p = xs := by
        rw [← hP.args]
        have h1 := hP.alloc.free
        have h3 := hP.p_eq
        have h4 : f.type.slots = f.type.results.length + f.type.inputs.length := rfl
        refine (o2.vals (.inr (Nat.le_refl _))).trans (Mem.vals_congr fun x hx1 hx2 => hb2 x ?_)
        split at h3 <;> omega
      rw [show m2.both f.type p = (xs, ys) from by rw [Mem.both, as2, rs2], show (s2.setLib (⟨l2.free, m2⟩ : Lib).store).world.2.1 = s2.world.2.1 from rfl] at e3
      rw [e2] at hans
      cases hle : leave xs ys s2.world.2.1 with
      | none =>
        rw [hle] at e3
        obtain ⟨s', e3⟩ := e3
        simp only [Res.toEff, pure, e3, Store.setLib_setLib] at hans
        exact ⟨s', hans⟩
      | some a' =>
        rw [hle] at e3
        dsimp only at e3 ⊢
        simp only [Res.toEff, pure, e3, Store.setLib_setLib] at hans
        have hfin := hans ⟨l2.free, m2⟩ rfl ok3 hf2
        dsimp only at hfin
        rw [rs2, ← hvs] at hfin
        refine ⟨⟨l.free, m2⟩, hfin, ⟨?_, ok.free', ok3.pages, ok3.limit⟩, rfl, o2.limit, o2.pages, fun x hx => o2.bytes x ?_⟩
        have := ok3.free
        have := hP.alloc.free
        dsimp only at *
        omega
        have h3 := hP.p_eq
        have h4 : f.type.slots = f.type.results.length + f.type.inputs.length := rfl
        split at h3 <;> omega
    | trap s2 =>
      rw [hc] at hres
      dsimp only [Resumed] at hres
      rw [hres] at hans
      exact hans
    | fuel =>
      rw [hc] at hres
      dsimp only [Resumed] at hres
      rw [hres] at hans
      exact hans
    | stuck =>
      rw [hc] at hres
      dsimp only [Resumed] at hres
      rw [hres] at hans
      exact hans

/-- An intercepted call keeps the executions in step if the call of the copy does. -/
theorem held_agrees (hA : Applied C iface ts m r ge cb order fs K.sigs hooks copy) (hge : ge.args = [.i32, .i32, .i32, .i32, .i32, .i32, .i32] ∧ ge.results = [])
    (hcb : cb.args = [.i32, .i32] ∧ cb.results = []) (hsz : order.length < 2 ^ 32)
    (hK : K.Good) (hsm : SmallSigs K.sigs) (hlib : HasLib K H) {pre post : WasmFunction → FuncType → Nat → Act (World W A) Unit}
    (hH : SurroundsCalls (copy + 2 * order.length) pre post (H analysisModule ge.name))
    {j i : Nat} {f : Func} (hj : order[j]? = some i) (hf : m.functions[i]? = some f) {enter : List Val → A → Option A} {leave : List Val → List Val → A → Option A}
    (hpre : ∀ p, Records f.type p (·.args f.type p) (pre ⟨BitVec.ofNat 32 j, BitVec.ofNat 32 i, BitVec.ofNat 32 p, codePresent f⟩ f.type p) enter)
    (hpost : ∀ p, Records f.type p (·.both f.type p) (post ⟨BitVec.ofNat 32 j, BitVec.ofNat 32 i, BitVec.ofNat 32 p, codePresent f⟩ f.type p) fun v => leave v.1 v.2)
    {Z : Story → A → Prop} {pn : Prop} {ρ : Story → Prop}
    (hZe : ∀ st a xs a', enter xs a = some a' → Z st a → Z (st ++ [.enter i (xs.map .num)]) a') (hZl : ∀ st a xs ys a', leave xs ys a = some a' → Z st a → Z (st ++ [.leave i (xs.map .num) (ys.map .num)]) a')
    (hpe : ∀ st xs a, Z st a → ρ (st ++ [.enter i (xs.map .num)]) → enter xs a = none → pn) (hpl : ∀ st xs ys a, Z st a → ρ (st ++ [.leave i (xs.map .num) (ys.map .num)]) → leave xs ys a = none → pn)
    {T X} {F M : Nat} {μ : Nat → BitVec 8} {fl fr tl : Bool} (hfl : fl = true ∨ ∀ st, ρ st) {d : Nat} {run : List RVal → Store (W × Story) → Res (W × Story)} {args : List RVal} (hr : f.type.RefFree) (ha : ValsOK m.ctx args f.type.inputs)
    (hcap : F + 12 * f.type.slots ≤ M * 65536 ∧ F + 12 * f.type.slots ≤ 65535 * 65536) {s : Store (W × Story)} {s' : Store (World W A)} (hseg : SegmentsIntact m r s')
    (hS : (toldAt m.ctx T X Z F M μ pn fl fr tl).S s s')
    (hcopy : ∀ μ s s', (toldAt m.ctx T X Z (F + 12 * f.type.slots) M μ pn fl fr tl).S s s' →
      (toldAt m.ctx T X Z (F + 12 * f.type.slots) M μ pn fl fr tl).Ress m.ctx f.type.results (run args s) (callF N (machineOf H r.module.functions) L (d + 1) (copy + 2 * j) args s')) :
    (toldAt m.ctx T X Z F M μ pn fl fr tl).Ress m.ctx f.type.results (heldRun ρ i run args s) (callF N (machineOf H r.module.functions) L (d + 5) i args s') := by
  obtain ⟨xs, rfl, hx⟩ := args_nums ha.1 hr.inputs
  obtain ⟨h1, ⟨w, a, st⟩, ⟨h2, hz, l, rfl, ok, rfl, rfl, hpg, hμ⟩, rfl⟩ := hS
  dsimp only at h2 hz
  have hfull : ¬ Full l (12 * f.type.slots) := by
    rintro (h | h | h)
    · omega
    · omega
    · omega
  unfold heldRun
  by_cases hρ : ρ (s.world.2 ++ [.enter i (xs.map .num)])
  case neg =>
    rw [if_neg hρ]
    exact .fuelL (hfl.resolve_right fun h => hρ (h _))
  rw [if_pos hρ]
  have hct := call_told (N := N) (L := L) hA hge hcb hsz hK hsm hlib hH hj hf hpre hpost ok (s := s.extend T X (w, a, l.store)) rfl hseg hx hfull hpg (d + 3)
  rw [show (s.extend T X (w, a, l.store)).world.2.1 = a from rfl] at hct
  cases hen : enter xs a with
  | none =>
    rw [hen] at hct
    obtain ⟨s', e⟩ := hct
    rw [e]
    exact .trapR (hpe _ _ _ hz hρ hen)
  | some a' =>
    rw [hen] at hct
    obtain ⟨lc, okc, hfc, hlc, hpc, hbc, hres⟩ := hct.2 d rfl
    have hst : ((s.extend T X (w, a, l.store)).setAnalysis a').setLib lc.store = (s.tell (.enter i (xs.map .num))).extend T X (w, a', lc.store) := rfl
    rw [hst] at hres
    have := hcopy lc.mem.bytes (s.tell (.enter i (xs.map .num))) ((s.tell (.enter i (xs.map .num))).extend T X (w, a', lc.store))
      ⟨h1.world rfl rfl rfl rfl rfl, (w, a', lc.store), ⟨h2, hZe _ _ _ _ hen hz, lc, rfl, okc, hfc, hlc, hpc, fun _ _ => rfl⟩, rfl⟩
    generalize run (xs.map .num) (s.tell (.enter i (xs.map .num))) = o at this ⊢
    generalize callF N (machineOf H r.module.functions) L (d + 1) (copy + 2 * j) (xs.map .num) ((s.tell (.enter i (xs.map .num))).extend T X (w, a', lc.store)) = o' at this hres
    cases this with
    | @ok vs s1 s1' hv hs1 =>
      obtain ⟨g1, ⟨w1, a1, st1⟩, ⟨g2, gz, l2, rfl, ok2, hf2, hl2, hp2, hb2⟩, rfl⟩ := hs1
      obtain ⟨ys, rfl, hy⟩ := args_nums hv.1 hr.results
      dsimp only
      by_cases hρ' : ρ (s1.world.2 ++ [.leave i (xs.map .num) (ys.map .num)])
      case neg =>
        rw [if_neg hρ']
        exact .fuelL (hfl.resolve_right fun h => hρ' (h _))
      rw [if_pos hρ']
      have hres' := hres ys l2 rfl hy rfl ok2 (by rw [hf2, hfc]) (fun x hx => hb2 x (by omega))
      rw [show (s1.extend T X (w1, a1, l2.store)).world.2.1 = a1 from rfl] at hres'
      cases hle : leave xs ys a1 with
      | none =>
        rw [hle] at hres'
        obtain ⟨s', e⟩ := hres'
        rw [e]
        exact .trapR (hpl _ _ _ _ gz hρ' hle)
      | some a2 =>
        rw [hle] at hres'
        obtain ⟨l3, e, ok3, hf3, hl3, hp3, hb3⟩ := hres'
        rw [e]
        refine .ok hv ?_
        exact ⟨g1.world rfl rfl rfl rfl rfl, (w1, a2, l3.store), ⟨g2, hZl _ _ _ _ _ hle gz, l3, rfl, ok3, hf3, by rw [hl3, hl2], by rw [hp3]; exact hp2,
          fun x hx => by rw [hb3 x hx, hb2 x (by omega), hbc x hx, hμ x hx]⟩, rfl⟩
    | trap hs1 =>
      rw [hres]
      obtain ⟨g1, w1, ⟨g2, g3, _⟩, rfl⟩ := hs1
      refine .trapT ?_
      exact ⟨g1, w1, ⟨g2, g3⟩, rfl⟩
    | fuel => rw [hres]; exact .fuel
    | fuelL h => exact .fuelL h
    | fuelR h => rw [hres]; exact .fuelR h
    | trapL h => exact .trapL h
    | trapT h => rw [hres]; exact .trapT h
    | trapR h => rw [hres]; exact .trapR h

/-- With hardly any call depth left, an intercepted call runs out of it, or the analysis panics. -/
theorem held_shallow (hA : Applied C iface ts m r ge cb order fs K.sigs hooks copy) (hge : ge.args = [.i32, .i32, .i32, .i32, .i32, .i32, .i32] ∧ ge.results = [])
    (hcb : cb.args = [.i32, .i32] ∧ cb.results = []) (hsz : order.length < 2 ^ 32)
    (hK : K.Good) (hsm : SmallSigs K.sigs) (hlib : HasLib K H) {pre post : WasmFunction → FuncType → Nat → Act (World W A) Unit}
    (hH : SurroundsCalls (copy + 2 * order.length) pre post (H analysisModule ge.name))
    {j i : Nat} {f : Func} (hj : order[j]? = some i) (hf : m.functions[i]? = some f) {enter : List Val → A → Option A} {leave : List Val → List Val → A → Option A}
    (hpre : ∀ p, Records f.type p (·.args f.type p) (pre ⟨BitVec.ofNat 32 j, BitVec.ofNat 32 i, BitVec.ofNat 32 p, codePresent f⟩ f.type p) enter)
    (hpost : ∀ p, Records f.type p (·.both f.type p) (post ⟨BitVec.ofNat 32 j, BitVec.ofNat 32 i, BitVec.ofNat 32 p, codePresent f⟩ f.type p) fun v => leave v.1 v.2)
    {Z : Story → A → Prop} {pn : Prop} {ρ : Story → Prop} (hpe : ∀ st xs a, Z st a → ρ (st ++ [.enter i (xs.map .num)]) → enter xs a = none → pn)
    {T X} {F M : Nat} {μ : Nat → BitVec 8} {fl tl : Bool} (hfl : fl = true ∨ ∀ st, ρ st) {d : Nat} {run : List RVal → Store (W × Story) → Res (W × Story)} {args : List RVal} (hr : f.type.RefFree) (ha : ValsOK m.ctx args f.type.inputs)
    (hcap : F + 12 * f.type.slots ≤ M * 65536 ∧ F + 12 * f.type.slots ≤ 65535 * 65536) {s : Store (W × Story)} {s' : Store (World W A)} (hseg : SegmentsIntact m r s')
    (hS : (toldAt m.ctx T X Z F M μ pn fl true tl).S s s') (hd : d < 5) :
    (toldAt m.ctx T X Z F M μ pn fl true tl).Ress m.ctx f.type.results (heldRun ρ i run args s) (callF N (machineOf H r.module.functions) L d i args s') := by
  obtain ⟨xs, rfl, hx⟩ := args_nums ha.1 hr.inputs
  obtain ⟨h1, ⟨w, a, st⟩, ⟨h2, hz, l, rfl, ok, rfl, rfl, hpg, hμ⟩, rfl⟩ := hS
  have hfull : ¬ Full l (12 * f.type.slots) := by
    rintro (h | h | h)
    · omega
    · omega
    · omega
  unfold heldRun
  by_cases hρ : ρ (s.world.2 ++ [.enter i (xs.map .num)])
  case neg =>
    rw [if_neg hρ]
    exact .fuelL (hfl.resolve_right fun h => hρ (h _))
  rw [if_pos hρ]
  match d, hd with
  | 0, _ => exact .fuelR rfl
  | 1, _ => rw [call_shallow_one hA hj hf hx]; exact .fuelR rfl
  | d + 2, hd =>
    have hct := call_told (N := N) (L := L) hA hge hcb hsz hK hsm hlib hH hj hf hpre hpost ok (s := s.extend T X (w, a, l.store)) rfl hseg hx hfull hpg d
    cases hen : enter xs (s.extend T X (w, a, l.store)).world.2.1 with
    | none =>
      rw [hen] at hct
      obtain ⟨s', e⟩ := hct
      rw [e]
      exact .trapR (hpe _ _ _ hz hρ hen)
    | some a' =>
      rw [hen] at hct
      rw [hct.1 (by omega)]
      exact .fuelR rfl

/-! ## Hooks -/

/-- A watching analysis beside the stack library. -/
def Watcher.beside (w : Watcher A) : Watcher (A × Store Unit) :=
  ⟨fun e x => (w.before e x.1).map fun a => (a, x.2), fun e x => (w.after e x.1).map fun a => (a, x.2)⟩

theorem Watcher.beside_step (w : Watcher A) (e : Advice) (x : A × Store Unit) : w.beside.step e x = (w.step e x.1).map fun a => (a, x.2) := by
  simp only [Watcher.step, Watcher.beside]
  cases w.before e x.1 <;> rfl

/-- The hooks of the analysis show it the instructions, and it watches them as `w` says, beside the stack library. With `exact`, it is done before an
instruction is performed. -/
abbrev Watcher.TellsHooks (w : Watcher A) (N : Num) (iface : Interface) (m : Module) (r : Instrumented) (exact fr : Bool) (H : Imports (World W A)) : Prop :=
  WatchesFor (W := W) N iface (fun t args a a' => ∃ adv, stdEntry t args = some adv ∧ w.beside.step adv a = some a') (BaseCalls N r.module.exported (!m.memories.isEmpty) fr)
    (fun b => OffsetsAre iface (fun o => o.toNat < 2 ^ 31 ∧ (exact = true → o = 0)) b ∧ m.ctx.HasMem b) (!exact) fr (fun t args a => ∃ adv, stdEntry t args = some adv ∧ w.beside.step adv a = none) H

/-- An analysis written with the Rust library. -/
theorem Watcher.tellsHooks (hs : SmallModule m) (hst : iface.Documented) (h : Instruments C iface ts m r) {w : Watcher A} {exact : Bool} (hq : exact = true → ∀ a x, w.after a x = some x)
    (hL : LinkedTo iface (w.beside.body N r.module.exported) H) (fr : Bool) : w.TellsHooks N iface m r exact fr H := by
  have hm1 : m.memories.length ≤ 1 := by
    obtain ⟨ord, ord', ho, ho', h⟩ := h
    exact ((instrument_ok_iff ho ho' hs).1 ⟨r, h⟩).1
  exact watcher_watches hm1 hst (exact := exact) (mo := fr) (w := w.beside) (by rintro he a ⟨x, l⟩; simp only [Watcher.beside, hq he a x]; rfl) hL

/-- The hooks of a watching analysis keep the executions in step, beside the stack library. -/
theorem held_hooks (hs : SmallModule m) (h : Instruments C iface ts m r) (hn : r.module.exportNames.Nodup)
    {w : Watcher A} {exact : Bool} {fr : Bool} (hF : w.TellsHooks N iface m r exact fr H)
    {I : Story → A → Store Unit → Prop} {J : Story → A → Prop} {pn : Prop} {ρ : Story → Prop}
    (hP : ∀ t args adv st a a' l, (iface.trap t).isSome → stdEntry t args = some adv → w.step adv a = some a' → I st a l → I (st ++ [.instr t args]) a' l)
    (hN : ∀ t args st a l, iface.trap t = none → I st a l → I (st ++ [.instr t args]) a l)
    (hpn : ∀ t args adv st a l, (iface.trap t).isSome → stdEntry t args = some adv → I st a l → ρ (st ++ [.instr t args]) → w.step adv a = none → pn)
    {T X} {fl : Bool} (hfl : fl = true ∨ ∀ st, ρ st) {D : Nat} (hk : fr = true ∨ 2 ≤ D) {E : Env (W × Story)} (hE : E.num = N) :
    (toldRel m.ctx T X I J pn fl fr (!exact)).Judges true m.ctx (OffsetsAre iface (fun o => o.toNat < 2 ^ 31 ∧ (exact = true → o = 0))) (hookSel iface m.functions.length)
      (holding ρ) E (envAt N (machineOf H r.module.functions) L D) := by
  have hook : ∀ {t : Trap} {k : Nat}, hookSel iface m.functions.length t = some k → ∃ e, iface.trap t = some e ∧
      ∀ d args s, callF N (machineOf H r.module.functions) L (d + 1) k args s = H "WASTRUMENTATION_ANALYSIS" e.name (callF N (machineOf H r.module.functions) L d) args s := by
    intro t k hk
    cases he : iface.trap t with
    | none => rw [hookSel_none_iff.2 he] at hk; cases hk
    | some e =>
      obtain ⟨k', h1, h2, h3⟩ := hook_installed hs h he
      rw [hk] at h1; cases h1
      exact ⟨e, rfl, fun d args s => callF_import h3 rfl d args s H⟩
  have hP' : ∀ {t args st} {x x' : A × Store Unit}, (iface.trap t).isSome → (∃ adv, stdEntry t args = some adv ∧ w.beside.step adv x = some x') → I st x.1 x.2 →
      I (st ++ [.instr t args]) x'.1 x'.2 := by
    rintro t args st ⟨a, l⟩ x' ht ⟨adv, h1, h2⟩ hi
    rw [Watcher.beside_step, Option.map_eq_some_iff] at h2
    obtain ⟨a', h2, rfl⟩ := h2
    exact hP t args adv st a a' l ht h1 h2 hi
  have hpn' : ∀ {t args st} {x : A × Store Unit}, (iface.trap t).isSome → (∃ adv, stdEntry t args = some adv ∧ w.beside.step adv x = none) → I st x.1 x.2 →
      ρ (st ++ [.instr t args]) → pn := by
    rintro t args st ⟨a, l⟩ ht ⟨adv, h1, h2⟩ hi hρ
    rw [Watcher.beside_step, Option.map_eq_none_iff] at h2
    exact hpn t args adv st a l ht h1 hi hρ h2
  refine ⟨?_, ?_, ?_⟩
  · intro t hσ args s s' hS
    have ht := hookSel_none_iff.1 hσ
    obtain ⟨h1, v, ⟨h2, h3⟩, rfl⟩ := hS
    unfold holding
    by_cases hρ : ρ (s.world.2 ++ [.instr t args])
    case neg =>
      rw [if_neg hρ]
      exact .inl ⟨rfl, hfl.resolve_right fun h => hρ (h _), rfl⟩
    rw [if_pos hρ]
    refine .inr ⟨_, rfl, ?_⟩
    exact ⟨h1.world rfl rfl rfl rfl rfl, v, ⟨h2, hN t args _ _ _ ht h3⟩, rfl⟩
  · intro t i hσ ho hpre args s s' hty hS
    obtain ⟨e, he, hcall⟩ := hook hσ
    simp only [envAt]
    cases D with
    | zero => exact .fuelR (by rcases hk with hk | hk; exact hk; omega)
    | succ d' =>
      rw [hcall]
      obtain ⟨h1, ⟨v, x⟩, ⟨h2, h3⟩, rfl⟩ := hS
      unfold holding
      by_cases hρ : ρ (s.world.2 ++ [.instr t args])
      case neg =>
        rw [if_neg hρ]
        exact .fuelL (hfl.resolve_right fun h => hρ (h _))
      rw [if_pos hρ]
      have hbc := base_calls (W := World W A) hs h hn N H L d' fr (hk.imp id (by omega))
      have hsh := hF.shown t e he ho (callF N (machineOf H r.module.functions) L d') hbc args (s.extend T X v) x hty
      have e1 : (s.extend T X v).withAnalysis x = s.extend T X (v, x) := rfl
      rw [e1] at hsh
      rcases hsh with ⟨hp, s2, hh⟩ | ⟨x', hp, hh⟩
      · rw [hh]; exact .trapR (hpn' (by rw [he]; rfl) hp h3 hρ)
      rw [hh]
      refine .ok ⟨?_, ?_⟩ ?_
      · rw [List.map_take, hty, hpre]
      · intro v hv f hf
        have : v.type ∈ t.args := by rw [← hty]; exact List.mem_map_of_mem (List.mem_of_mem_take hv)
        rw [hf] at this
        exact absurd this (t.args_num _)
      · exact ⟨h1.world rfl rfl rfl rfl rfl, (v, x'), ⟨h2, hP' (by rw [he]; rfl) hp h3⟩, rfl⟩
  · intro b t j info i hd hσ hB hm ops loc s s' hops hloc hty hS
    obtain ⟨e, he, hcall⟩ := hook hσ
    simp only [envAt]
    cases D with
    | zero => exact .fuelR (by rcases hk with hk | hk; exact hk; omega)
    | succ d' =>
      rw [hcall]
      obtain ⟨h1, ⟨v, x⟩, ⟨h2, h3⟩, rfl⟩ := hS
      dsimp only at h2 h3
      unfold holding
      by_cases hρ : ρ (s.world.2 ++ [.instr t (ops ++ info ++ loc)])
      case neg =>
        rw [if_neg hρ]
        exact .fuelL (hfl.resolve_right fun h => hρ (h _))
      rw [if_pos hρ]
      change Rel.Ress _ _ _ (execInstr E b ops (note tellInstr t (ops ++ info ++ loc) s)) _
      have hbc := base_calls (W := World W A) hs h hn N H L d' fr (hk.imp id (by omega))
      have hperf := hF.performed t e he b j info hd ⟨hB, hm⟩ (callF N (machineOf H r.module.functions) L d') hbc ops loc (s.extend T X v) x hops hloc hty h1.pages
      have e1 : (s.extend T X v).withAnalysis x = s.extend T X (v, x) := rfl
      rw [e1] at hperf
      rw [execInstr_execute E hd, hE]
      have := execute_sim (Γ := m.ctx) (N := N) (T := T) (X := X) (s := note tellInstr t (ops ++ info ++ loc) s) (s' := s.extend T X v) hd rfl hm hops hloc hty
        ⟨h1.world rfl rfl rfl rfl rfl, v, ⟨rfl, rfl⟩, rfl⟩
      rcases hperf with ⟨htl, s1, hx⟩ | ⟨hmo', hx⟩ | ⟨hp, s2, hx⟩ | ⟨x', hp, hh⟩
      · rw [hx] at this
        generalize execute N b ops (note tellInstr t (ops ++ info ++ loc) s) = o at this ⊢
        cases this with
        | trap hS => exact .trapL htl
        | fuelL h => cases h
        | trapL h => cases h
        | trapT h => cases h
        | trapR h => cases h
      · rw [hx]; exact .fuelR hmo'
      · rw [hx]; exact .trapR (hpn' (by rw [he]; rfl) hp h3 hρ)
      rw [hh]
      generalize execute N b ops (note tellInstr t (ops ++ info ++ loc) s) = o at this ⊢
      generalize execute N b ops _ = o' at this hp ⊢
      have lift : ∀ {s1 : Store (W × Story)} {s1' : Store W}, o' ≠ .stuck → o' ≠ .fuel →
          SameState m.ctx T X (fun u u' => u = (note tellInstr t (ops ++ info ++ loc) s).world ∧ u' = (s.extend T X v).world) s1 s1' →
          SameState m.ctx T X (fun (p : W × Story) (q : World W A) => p.1 = q.1 ∧ I p.2 q.2.1 q.2.2) s1 (s1'.withAnalysis x') := by
        rintro s1 s1' n1 n2 ⟨g1, w1, ⟨g2, g3⟩, rfl⟩
        refine ⟨g1, (w1, x'), ⟨?_, ?_⟩, rfl⟩
        · rw [g2, g3]; exact h2
        · rw [g2]
          exact hP' (by rw [he]; rfl) (hp n1 n2) h3
      cases this with
      | ok hv hS => exact .ok hv (lift (by simp) (by simp) hS)
      | trap hS => exact .trap (lift (by simp) (by simp) hS)
      | fuel => exact .fuel
      | fuelL h => cases h
      | fuelR h => cases h
      | trapL h => cases h
      | trapT h => cases h
      | trapR h => cases h

end

end Wastrum
