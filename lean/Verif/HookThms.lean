import Verif.InterposeLemmas
import Verif.PassThms
import Verif.Stdlib
/-!
# When hooks fire, and how their answers steer control (C13, C14, C45, C47)

The theorems speak about the output of the tool's passes (`runPasses (toolPasses σ)`), run by the execution semantics in
any environment in which the hooks are functions of their declared types. The analysis is arbitrary: a hook is a
function that may do anything to the store, answer anything, trap or exhaust the bounds.
-/

set_option linter.unusedSimpArgs false
set_option linter.unusedVariables false

namespace Wastrum

variable {W : Type}

/-! ## Vocabulary -/

/-- `run` is what the instrumented form of `body` does: the passes turn `body` into some code, and `run` is the meaning of
that code. (`HooksInstalled`, `HelpersInstalled`: the imported hooks have their declared types and the generated
branch-table functions are in place, which is so in every instrumented module, see C09, C12 and C33.) -/
def Runs (E : Env W) (σ : Sel) (body : List TI) (run : Cfg W → Out W) : Prop :=
  Pristine body ∧ TI.FitsL body ∧ HooksInstalled E σ ∧
  ∃ fs code fs', runPasses (toolPasses σ) body fs = .ok (code, fs') ∧
    (σ .brTableTrap ≠ none → HelpersInstalled E fs.length (TI.tablesL body)) ∧ run = denL E (TI.eraseL code)

/-- Call a hook that returns nothing, if it is selected. -/
def notify (E : Env W) (hook : Option Nat) (args : List RVal) (c : Cfg W) : Out W :=
  match hook with
  | none => .norm c
  | some h => match E.callF h args c.store with
    | .ok [] s => .norm { c with store := s }
    | .ok _ _ => .stuck
    | .trap s => .trap s
    | .stuck => .stuck
    | .fuel => .fuel

/-- Hand the `i32` on top of the stack to a hook, if it is selected; the answer takes its place. -/
def query (E : Env W) (hook : Option Nat) (info : List RVal) (c : Cfg W) : Out W :=
  match hook with
  | none => .norm c
  | some h => match c.stack with
    | .num (.i32 x) :: st => match E.callF h (.i32 x :: info) c.store with
      | .ok [.num (.i32 y)] s => .norm { c with stack := .i32 y :: st, store := s }
      | .ok _ _ => .stuck
      | .trap s => .trap s
      | .stuck => .stuck
      | .fuel => .fuel
    | _ => .stuck

/-- How a location is told to a hook: function index and instruction index, as `i64`. -/
def Meta.told (m : Meta) : List RVal := [nI64 m.fidx, nI64 m.iidx]

/-- What the body of a block of type `t` sees of a configuration: the parameters only. -/
def inside (t : FuncType) (c : Cfg W) : Cfg W := { c with stack := c.stack.take t.inputs.length }

/-- Leave a block of type `t`, entered in `c`, whose body ended with `o`. -/
def leave (t : FuncType) (c : Cfg W) (o : Out W) : Out W := inBlock t (fun _ => o) c

/-- The outcome is the normal completion. -/
def Out.IsNorm : Out W → Prop
  | .norm _ => True
  | _ => False

/-- Successive turns of a loop with `k` parameters: `heads` are the configurations in which its head is reached, the last
turn ends with `o`. -/
inductive Turns (turn : Cfg W → Out W) (k : Nat) : List (Cfg W) → Cfg W → Out W → Prop
  | last {c o} : turn c = o → (∀ c', o ≠ .br 0 c') → Turns turn k [c] c o
  | again {c c' heads o} : turn c = .br 0 c' → k ≤ c'.stack.length →
      Turns turn k heads { c' with stack := c'.stack.take k } o → Turns turn k (c :: heads) c o

/-! ## Lemmas -/

theorem ask_notify (E : Env W) (σ : Sel) (m : Meta) (t : Trap) (info : List RVal) (ht : (info ++ m.told).map RVal.type = t.args) (hr : t.results = []) :
    ask E σ m t 0 info = notify E (σ t) (info ++ m.told) := by
  funext c
  simp only [ask, notify]
  cases σ t with
  | none => rfl
  | some h =>
    simp only [List.take_zero, List.reverse_nil, List.nil_append, List.drop_zero, Meta.told] at ht ⊢
    rw [if_pos ht]
    cases E.callF h (info ++ [nI64 m.fidx, nI64 m.iidx]) c.store with
    | ok vs s => cases vs <;> simp [hr]
    | _ => rfl

theorem type_i32 {v : RVal} (h : v.type = .i32) : ∃ x, v = .num (.i32 x) := by
  cases v with
  | num v => cases v <;> simp [RVal.type, Val.type] at h; exact ⟨_, rfl⟩
  | ref r a => simp [RVal.type] at h

theorem ask_query (E : Env W) (σ : Sel) (m : Meta) (t : Trap) (info : List RVal) (ht : .i32 :: (info ++ m.told).map RVal.type = t.args)
    (hr : t.results = [.i32]) : ask E σ m t 1 info = query E (σ t) (info ++ m.told) := by
  funext c
  simp only [ask, query]
  cases σ t with
  | none => rfl
  | some h =>
    dsimp only
    have hlen := congrArg List.length ht
    cases hst : c.stack with
    | nil =>
      simp only [List.take_nil, List.reverse_nil, List.nil_append]
      rw [if_neg]
      intro e
      have := congrArg List.length e
      simp [Meta.told] at hlen this
      omega
    | cons v st =>
      simp only [List.take_succ_cons, List.take_zero, List.reverse_cons, List.reverse_nil, List.nil_append, List.cons_append, List.drop_succ_cons,
        List.drop_zero]
      by_cases hv : v.type = .i32
      · obtain ⟨x, rfl⟩ := type_i32 hv
        rw [if_pos (by simp only [List.map_cons]; rw [← ht]; rfl)]
        dsimp only [Meta.told]
        cases E.callF h (.num (.i32 x) :: (info ++ [nI64 m.fidx, nI64 m.iidx])) c.store with
        | ok vs s =>
          dsimp only
          rw [hr]
          match vs with
          | [] => simp
          | [v] =>
            by_cases hv : v.type = .i32
            · obtain ⟨y, rfl⟩ := type_i32 hv
              simp [RVal.type, Val.type]
            · rw [if_neg (by simpa using hv)]
              split <;> simp_all [RVal.type, Val.type]
          | _ :: _ :: _ => simp
        | _ => rfl
      · rw [if_neg]
        · split
          · rename_i x _ e; simp only [List.cons.injEq] at e; rw [e.1] at hv; simp [RVal.type, Val.type] at hv
          · rfl
        · intro e
          rw [← ht] at e
          simp only [List.map_cons, List.cons.injEq] at e
          exact hv e.1

theorem Runs.eq {E : Env W} {σ : Sel} {body run} (h : Runs E σ body run) : run = hdenL E σ body := by
  obtain ⟨hp, hf, hi, fs, code, fs', hr, hh, rfl⟩ := h
  rw [C16_passes_eq_rewrite σ body fs hf] at hr
  cases hr
  funext c
  exact (expand_runs E σ hi).2 body hp fs.length hh c

theorem Runs.of {E : Env W} {σ : Sel} {body} (hp : Pristine body) (hf : TI.FitsL body) (hi : HooksInstalled E σ) {n : Nat}
    (hh : σ .brTableTrap ≠ none → HelpersInstalled E n (TI.tablesL body)) : Runs E σ body (hdenL E σ body) := by
  refine ⟨hp, hf, hi, List.replicate n ⟨⟨[], []⟩, .imported "" "", []⟩, _, _, C16_passes_eq_rewrite σ body _ hf, by simpa using hh, ?_⟩
  funext c
  exact ((expand_runs E σ hi).2 body hp _ (by simpa using hh) c).symm

theorem hdenL_single (E : Env W) (σ : Sel) (i : TI) : hdenL E σ [i] = hdenI E σ i := by
  funext c
  simp only [hdenL]
  exact Out.bind_norm_right _

theorem Runs.block {E : Env W} {σ : Sel} {m t body run} (h : Runs E σ [.block m t body] run) : Runs E σ body (hdenL E σ body) := by
  obtain ⟨hp, hf, hi, fs, _, _, _, hh, _⟩ := h
  refine .of (n := fs.length) (fun x hx => hp x ?_) ?_ hi (fun hb => ?_)
  · simp [TI.locsL, TI.locs, hx]
  · simp only [TI.FitsL, TI.Fits] at hf; exact hf.1.2
  · have := hh hb; simpa [TI.tablesL, TI.tables] using this

theorem Runs.loop {E : Env W} {σ : Sel} {m t body run} (h : Runs E σ [.loop m t body] run) : Runs E σ body (hdenL E σ body) := by
  obtain ⟨hp, hf, hi, fs, _, _, _, hh, _⟩ := h
  refine .of (n := fs.length) (fun x hx => hp x ?_) ?_ hi (fun hb => ?_)
  · simp [TI.locsL, TI.locs, hx]
  · simp only [TI.FitsL, TI.Fits] at hf; exact hf.1.2
  · have := hh hb; simpa [TI.tablesL, TI.tables] using this

theorem Runs.ifThen {E : Env W} {σ : Sel} {m t body run} (h : Runs E σ [.ifThen m t body] run) : Runs E σ body (hdenL E σ body) := by
  obtain ⟨hp, hf, hi, fs, _, _, _, hh, _⟩ := h
  refine .of (n := fs.length) (fun x hx => hp x ?_) ?_ hi (fun hb => ?_)
  · simp [TI.locsL, TI.locs, hx]
  · simp only [TI.FitsL, TI.Fits] at hf; exact hf.1.2
  · have := hh hb; simpa [TI.tablesL, TI.tables] using this

theorem Runs.ifElse {E : Env W} {σ : Sel} {m t thn els run} (h : Runs E σ [.ifElse m t thn els] run) :
    Runs E σ thn (hdenL E σ thn) ∧ Runs E σ els (hdenL E σ els) := by
  obtain ⟨hp, hf, hi, fs, _, _, _, hh, _⟩ := h
  constructor
  · refine .of (n := fs.length) (fun x hx => hp x ?_) ?_ hi (fun hb => ?_)
    · simp [TI.locsL, TI.locs, hx]
    · simp only [TI.FitsL, TI.Fits] at hf; exact hf.1.2.1
    · have := hh hb; simp only [TI.tablesL, TI.tables, List.append_nil] at this; exact this.left
  · refine .of (n := fs.length + (TI.tablesL thn).length) (fun x hx => hp x ?_) ?_ hi (fun hb => ?_)
    · simp [TI.locsL, TI.locs, hx]
    · simp only [TI.FitsL, TI.Fits] at hf; exact hf.1.2.2
    · have := hh hb; simp only [TI.tablesL, TI.tables, List.append_nil] at this; exact this.right

theorem bind_cases (o : Out W) (k : Cfg W → Out W) : (∀ c, o = .norm c → o.bind k = k c) ∧ (¬ o.IsNorm → o.bind k = o) := by
  refine ⟨fun c h => by rw [h]; rfl, fun h => ?_⟩
  cases o <;> first | rfl | exact absurd trivial h

theorem iterate_turns (t : FuncType) (turn : Cfg W → Out W) : ∀ (fuel : Nat) (c : Cfg W),
    (∀ heads o, Turns turn t.inputs.length heads c o → heads.length ≤ fuel →
      iterate t turn fuel c = match o with | .br (l + 1) c' => .br l c' | o => o) ∧
    (iterate t turn fuel c ≠ .fuel → iterate t turn fuel c ≠ .stuck → ∃ heads o, Turns turn t.inputs.length heads c o ∧ heads.length ≤ fuel ∧
      iterate t turn fuel c = match o with | .br (l + 1) c' => .br l c' | o => o)
  | 0, c => by
    constructor
    · intro heads o h hl
      cases h <;> simp at hl
    · intro h; exact absurd rfl h
  | fuel + 1, c => by
    constructor
    · intro heads o h hl
      cases h with
      | last h1 h2 =>
        simp only [iterate, h1]
        cases o with
        | br l c' =>
          cases l with
          | zero => exact absurd rfl (h2 c')
          | succ l => rfl
        | _ => rfl
      | again h1 h2 h3 =>
        simp only [iterate, h1, if_pos h2]
        exact (iterate_turns t turn fuel _).1 _ _ h3 (by simp at hl; omega)
    · intro h1 h2
      cases ho : turn c with
      | br l c' =>
        cases l with
        | zero =>
          simp only [iterate, ho] at h1 h2 ⊢
          by_cases hk : t.inputs.length ≤ c'.stack.length
          · rw [if_pos hk] at h1 h2 ⊢
            obtain ⟨heads, o, a, b, e⟩ := (iterate_turns t turn fuel _).2 h1 h2
            exact ⟨_, o, .again ho hk a, by simp; omega, e⟩
          · rw [if_neg hk] at h2; exact absurd rfl h2
        | succ l => exact ⟨_, _, .last ho (by simp), by simp, by simp [iterate, ho]⟩
      | _ => exact ⟨_, _, .last ho (by simp), by simp, by simp [iterate, ho]⟩

theorem inLoop_turns (t : FuncType) (turn : Cfg W → Out W) (fuel : Nat) (c : Cfg W) (hc : t.inputs.length ≤ c.stack.length) :
    (∀ heads o, Turns turn t.inputs.length heads (inside t c) o → heads.length ≤ fuel → inLoop t turn fuel c = leave t c o) ∧
    (inLoop t turn fuel c ≠ .fuel → inLoop t turn fuel c ≠ .stuck → ∃ heads o, Turns turn t.inputs.length heads (inside t c) o ∧ heads.length ≤ fuel ∧
      inLoop t turn fuel c = leave t c o) := by
  have hne : ∀ {heads c o}, Turns turn t.inputs.length heads c o → ∀ c', o ≠ .br 0 c' := by
    intro heads c o h
    induction h with
    | last _ h => exact h
    | again _ _ _ ih => exact ih
  have key : ∀ heads o, Turns turn t.inputs.length heads (inside t c) o →
      iterate t turn fuel (inside t c) = (match o with | .br (l + 1) c' => .br l c' | o => o) → inLoop t turn fuel c = leave t c o := by
    intro heads o ht he
    simp only [inside] at he
    simp only [inLoop, leave, inBlock, if_pos hc, he]
    cases o with
    | br l c' =>
      cases l with
      | zero => exact absurd rfl (hne ht c')
      | succ l => rfl
    | _ => rfl
  obtain ⟨h1, h2⟩ := iterate_turns t turn fuel (inside t c)
  constructor
  · intro heads o ht hl
    exact key heads o ht (h1 heads o ht hl)
  · intro hf hs
    have e1 : iterate t turn fuel (inside t c) ≠ .fuel := by
      intro e; apply hf; simp only [inLoop, if_pos hc]; simp only [inside] at e; rw [e]
    have e2 : iterate t turn fuel (inside t c) ≠ .stuck := by
      intro e; apply hs; simp only [inLoop, if_pos hc]; simp only [inside] at e; rw [e]
    obtain ⟨heads, o, a, b, e⟩ := h2 e1 e2
    exact ⟨heads, o, a, b, key heads o a e⟩

/-! ## C47: hooks on the same instruction -/

/-- **C47 (block).** On entry the pre hook is called, then the body runs, then the post hook is called: each sees what the
previous ones did. Any of the two may be unselected (`notify` with `none` does nothing). -/
theorem C47_block {E : Env W} {σ : Sel} {m t body run} (h : Runs E σ [.block m t body] run) :
    ∃ inner, Runs E σ body inner ∧ run = inBlock t fun c =>
      (notify E (σ .preBlock) (arityInfo t ++ m.told) c).bind fun c => (inner c).bind (notify E (σ .postBlock) m.told) := by
  refine ⟨_, h.block, ?_⟩
  rw [h.eq, hdenL_single]
  funext c
  simp only [hdenI, ask_notify E σ m .preBlock (arityInfo t) rfl rfl, ask_notify E σ m .postBlock [] rfl rfl, List.nil_append]

/-- **C47 (loop).** Each turn calls the pre hook, runs the body, calls the post hook. -/
theorem C47_loop {E : Env W} {σ : Sel} {m t body run} (h : Runs E σ [.loop m t body] run) :
    ∃ inner, Runs E σ body inner ∧ run = inLoop t (fun c =>
      (notify E (σ .preLoop) (arityInfo t ++ m.told) c).bind fun c => (inner c).bind (notify E (σ .postLoop) m.told)) E.loopFuel := by
  refine ⟨_, h.loop, ?_⟩
  rw [h.eq, hdenL_single]
  funext c
  simp only [hdenI, ask_notify E σ m .preLoop (arityInfo t) rfl rfl, ask_notify E σ m .postLoop [] rfl rfl, List.nil_append]

/-- **C47 (if).** The condition hook is asked first, its answer chooses the arm, and the post hook is called at the end of
the arm; without an `else`, also when the arm is skipped. -/
theorem C47_if_then {E : Env W} {σ : Sel} {m t thn run} (h : Runs E σ [.ifThen m t thn] run) :
    ∃ inner, Runs E σ thn inner ∧ run = fun c =>
      (query E (σ .ifThenTrap) (arityInfo t ++ m.told) c).bind
        (branchOn (inBlock t fun c => (inner c).bind (notify E (σ .ifThenPostTrap) m.told)) (inBlock t (notify E (σ .ifThenPostTrap) m.told))) := by
  refine ⟨_, h.ifThen, ?_⟩
  rw [h.eq, hdenL_single]
  funext c
  simp only [hdenI, ask_query E σ m .ifThenTrap (arityInfo t) rfl rfl, ask_notify E σ m .ifThenPostTrap [] rfl rfl, List.nil_append]

/-- **C47 (if-else).** -/
theorem C47_if_then_else {E : Env W} {σ : Sel} {m t thn els run} (h : Runs E σ [.ifElse m t thn els] run) :
    ∃ innerT innerE, Runs E σ thn innerT ∧ Runs E σ els innerE ∧ run = fun c =>
      (query E (σ .ifThenElseTrap) (arityInfo t ++ m.told) c).bind
        (branchOn (inBlock t fun c => (innerT c).bind (notify E (σ .ifThenElsePostTrap) m.told))
          (inBlock t fun c => (innerE c).bind (notify E (σ .ifThenElsePostTrap) m.told))) := by
  refine ⟨_, _, h.ifElse.1, h.ifElse.2, ?_⟩
  rw [h.eq, hdenL_single]
  funext c
  simp only [hdenI, ask_query E σ m .ifThenElseTrap (arityInfo t) rfl rfl, ask_notify E σ m .ifThenElsePostTrap [] rfl rfl, List.nil_append]

/-- **C47 (call).** The pre hook is told the callee, the call happens, the post hook is told the callee. -/
theorem C47_call {E : Env W} {σ : Sel} {m f run} (h : Runs E σ [.basic m (.call f)] run) :
    run = fun c => (notify E (σ .preTrapCall) (nI32 f :: m.told) c).bind fun c =>
      (step E (.call f) c).bind (notify E (σ .postTrapCall) (nI32 f :: m.told)) := by
  rw [h.eq, hdenL_single]
  funext c
  have ha : askAfter E σ m (.call f) = ask E σ m .postTrapCall 0 [nI32 f] := rfl
  simp only [hdenI, askBefore, ha, perform, ask_notify E σ m .preTrapCall [nI32 f] rfl rfl, ask_notify E σ m .postTrapCall [nI32 f] rfl rfl,
    List.cons_append, List.nil_append]

/-- **C47 (call_indirect).** The pre hook is asked for the table index, the call with the answered index happens, the post
hook is told. -/
theorem C47_call_indirect {E : Env W} {σ : Sel} {m ty tbl run} (h : Runs E σ [.basic m (.callIndirect ty tbl)] run) :
    run = fun c => (query E (σ .preTrapCallIndirect) (nI32 tbl :: m.told) c).bind fun c =>
      (step E (.callIndirect ty tbl) c).bind (notify E (σ .postTrapCallIndirect) (nI32 tbl :: m.told)) := by
  rw [h.eq, hdenL_single]
  funext c
  have ha : askAfter E σ m (.callIndirect ty tbl) = ask E σ m .postTrapCallIndirect 0 [nI32 tbl] := rfl
  simp only [hdenI, askBefore, ha, perform, ask_query E σ m .preTrapCallIndirect [nI32 tbl] rfl rfl,
    ask_notify E σ m .postTrapCallIndirect [nI32 tbl] rfl rfl, List.cons_append, List.nil_append]

/-! ## C13: post hooks fire exactly on normal completion -/

/-- **C13 (block).** Let `o` be the outcome of the body (entered after the pre hook). If it is the normal completion, the
post hook is called, once, in the state reached, and the block is left; if control leaves otherwise (branch to this or
an outer label, return, trap) the block is left at once with that outcome, no hook being called. -/
theorem C13_block_post {E : Env W} {σ : Sel} {m t body run} (h : Runs E σ [.block m t body] run) :
    ∃ inner, Runs E σ body inner ∧ ∀ c, t.inputs.length ≤ c.stack.length →
      let o := (notify E (σ .preBlock) (arityInfo t ++ m.told) (inside t c)).bind inner
      (∀ c1, o = .norm c1 → run c = leave t c (notify E (σ .postBlock) m.told c1)) ∧
      (¬ o.IsNorm → run c = leave t c o) := by
  obtain ⟨inner, hr, e⟩ := C47_block h
  refine ⟨inner, hr, fun c hc => ?_⟩
  have e' : run c = leave t c (((notify E (σ .preBlock) (arityInfo t ++ m.told) (inside t c)).bind inner).bind (notify E (σ .postBlock) m.told)) := by
    rw [e, Out.bind_assoc]; simp only [leave, inBlock, if_pos hc, inside]
  obtain ⟨k1, k2⟩ := bind_cases ((notify E (σ .preBlock) (arityInfo t ++ m.told) (inside t c)).bind inner) (notify E (σ .postBlock) m.told)
  exact ⟨fun c1 h1 => by rw [e', k1 c1 h1], fun h1 => by rw [e', k2 h1]⟩

/-- **C13 (loop).** The same of every turn of a loop; in particular a turn that branches back to the head does not call the
post hook, so it is called at most once however often the loop turns. -/
theorem C13_loop_post {E : Env W} {σ : Sel} {m t body run} (h : Runs E σ [.loop m t body] run) :
    ∃ inner turn, Runs E σ body inner ∧ run = inLoop t turn E.loopFuel ∧ ∀ c,
      let o := (notify E (σ .preLoop) (arityInfo t ++ m.told) c).bind inner
      (∀ c1, o = .norm c1 → turn c = notify E (σ .postLoop) m.told c1) ∧
      (¬ o.IsNorm → turn c = o) := by
  obtain ⟨inner, hr, e⟩ := C47_loop h
  refine ⟨inner, _, hr, e, fun c => ?_⟩
  dsimp only
  rw [← Out.bind_assoc]
  exact bind_cases _ _

/-- **C13 (if).** In each of the two cases. -/
theorem C13_if_then_post {E : Env W} {σ : Sel} {m t thn run} (h : Runs E σ [.ifThen m t thn] run) :
    ∃ inner thenArm elseArm, Runs E σ thn inner ∧
      (run = fun c => (query E (σ .ifThenTrap) (arityInfo t ++ m.told) c).bind (branchOn thenArm elseArm)) ∧
      ∀ c, t.inputs.length ≤ c.stack.length →
        (∀ c1, inner (inside t c) = .norm c1 → thenArm c = leave t c (notify E (σ .ifThenPostTrap) m.told c1)) ∧
        (¬ (inner (inside t c)).IsNorm → thenArm c = leave t c (inner (inside t c))) ∧
        elseArm c = leave t c (notify E (σ .ifThenPostTrap) m.told (inside t c)) := by
  obtain ⟨inner, hr, e⟩ := C47_if_then h
  refine ⟨inner, _, _, hr, e, fun c hc => ?_⟩
  simp only [leave, inBlock, if_pos hc]
  obtain ⟨k1, k2⟩ := bind_cases (inner (inside t c)) (notify E (σ .ifThenPostTrap) m.told)
  simp only [inside] at *
  exact ⟨fun c1 h1 => by rw [k1 c1 h1], fun h1 => by rw [k2 h1], trivial⟩

/-- **C13 (if-else).** In both arms. -/
theorem C13_if_then_else_post {E : Env W} {σ : Sel} {m t thn els run} (h : Runs E σ [.ifElse m t thn els] run) :
    ∃ innerT innerE thenArm elseArm, Runs E σ thn innerT ∧ Runs E σ els innerE ∧
      (run = fun c => (query E (σ .ifThenElseTrap) (arityInfo t ++ m.told) c).bind (branchOn thenArm elseArm)) ∧
      ∀ c, t.inputs.length ≤ c.stack.length →
        (∀ c1, innerT (inside t c) = .norm c1 → thenArm c = leave t c (notify E (σ .ifThenElsePostTrap) m.told c1)) ∧
        (¬ (innerT (inside t c)).IsNorm → thenArm c = leave t c (innerT (inside t c))) ∧
        (∀ c1, innerE (inside t c) = .norm c1 → elseArm c = leave t c (notify E (σ .ifThenElsePostTrap) m.told c1)) ∧
        (¬ (innerE (inside t c)).IsNorm → elseArm c = leave t c (innerE (inside t c))) := by
  obtain ⟨innerT, innerE, hr, hr', e⟩ := C47_if_then_else h
  refine ⟨innerT, innerE, _, _, hr, hr', e, fun c hc => ?_⟩
  simp only [leave, inBlock, if_pos hc]
  obtain ⟨k1, k2⟩ := bind_cases (innerT (inside t c)) (notify E (σ .ifThenElsePostTrap) m.told)
  obtain ⟨k3, k4⟩ := bind_cases (innerE (inside t c)) (notify E (σ .ifThenElsePostTrap) m.told)
  simp only [inside] at *
  exact ⟨fun c1 h1 => by rw [k1 c1 h1], fun h1 => by rw [k2 h1], fun c1 h1 => by rw [k3 c1 h1], fun h1 => by rw [k4 h1]⟩

/-! ## C14: pre hooks of loops and blocks -/

/-- **C14 (loop).** An execution of the loop is a sequence of turns, the heads being reached in the configurations `heads`;
each turn begins with one call of the pre hook, told the number of parameters and results and the location, in the very
state in which the head is reached. (Both directions: such a sequence determines the run, and every run that stays
within the bound of iterations is such a sequence.) -/
theorem C14_loop_pre {E : Env W} {σ : Sel} {m t body run hook} (h : Runs E σ [.loop m t body] run) (hp : σ .preLoop = some hook) :
    ∃ rest : Cfg W → Out W, (∃ inner, Runs E σ body inner ∧ rest = fun c => (inner c).bind (notify E (σ .postLoop) m.told)) ∧
      let turn := fun c => (notify E (some hook) (nI32 t.inputs.length :: nI32 t.results.length :: m.told) c).bind rest
      ∀ c, t.inputs.length ≤ c.stack.length →
        (∀ heads o, Turns turn t.inputs.length heads (inside t c) o → heads.length ≤ E.loopFuel → run c = leave t c o) ∧
        (run c ≠ .fuel → run c ≠ .stuck →
          ∃ heads o, Turns turn t.inputs.length heads (inside t c) o ∧ heads.length ≤ E.loopFuel ∧ run c = leave t c o) := by
  obtain ⟨inner, hr, e⟩ := C47_loop h
  rw [hp] at e
  refine ⟨_, ⟨inner, hr, rfl⟩, ?_⟩
  intro turn c hc
  rw [e]
  exact inLoop_turns t _ E.loopFuel c hc

/-- **C14 (block).** The pre hook is called once, on entry, told the number of parameters and results and the location. -/
theorem C14_block_pre {E : Env W} {σ : Sel} {m t body run hook} (h : Runs E σ [.block m t body] run) (hp : σ .preBlock = some hook) :
    ∃ rest : Cfg W → Out W, (∃ inner, Runs E σ body inner ∧ rest = fun c => (inner c).bind (notify E (σ .postBlock) m.told)) ∧
      ∀ c, t.inputs.length ≤ c.stack.length →
        run c = leave t c ((notify E (some hook) (nI32 t.inputs.length :: nI32 t.results.length :: m.told) (inside t c)).bind rest) := by
  obtain ⟨inner, hr, e⟩ := C47_block h
  rw [hp] at e
  refine ⟨_, ⟨inner, hr, rfl⟩, fun c hc => ?_⟩
  rw [e]
  simp only [leave, inBlock, if_pos hc, inside, arityInfo, List.cons_append, List.nil_append]

/-! ## C45: continuation values -/

/-- **C45 (the values).** What `continue_then`, `continue_else` and `continue_skip` put is seen as such; every value is either
"then" or "else". -/
theorem C45_values : isThen continueThen = true ∧ isElse continueElse = true ∧ isElse continueSkip = true ∧
    (∀ k, isElse k = !isThen k) ∧ ∀ k, isThen k = true ↔ k ≠ 0 := by
  refine ⟨rfl, rfl, rfl, fun k => ?_, fun k => ?_⟩
  · simp only [isElse, isThen, BRANCH_FAIL, bne, Bool.not_not]
  · simp [isThen, BRANCH_FAIL]

/-- **C45 (the program's own choice).** `is_then` says which way the program is about to go. -/
theorem C45_own_choice (E : Env W) (x : BitVec 32) (st : List RVal) (c : Cfg W) (hc : c.stack = .i32 x :: st) :
    (∀ t thn els, denI E (.ifElse t thn els) c = inBlock t (denL E (if isThen x then thn else els)) { c with stack := st }) ∧
    (∀ t thn, denI E (.ifThen t thn) c = inBlock t (denL E (if isThen x then thn else [])) { c with stack := st }) ∧
    (∀ l, step E (.brIf l) c = if isThen x then .br l { c with stack := st } else .norm { c with stack := st }) ∧
    (∀ v2 v1 st', st = v2 :: v1 :: st' → step E .select c = .norm { c with stack := (if isThen x then v1 else v2) :: st' }) := by
  have hx : isThen x = !decide (x = 0) := by
    rw [Bool.eq_iff_iff, C45_values.2.2.2.2]; simp
  refine ⟨fun t thn els => ?_, fun t thn => ?_, fun l => ?_, fun v2 v1 st' hst => ?_⟩
  · by_cases h : x = 0
    · subst h; simp only [denI, branchOn, hc, if_true]; rfl
    · simp only [denI, branchOn, hc, hx, decide_eq_false h, if_neg h]; rfl
  · simp only [denI, branchOn, hc, hx]
    have : denL E [] = Out.norm := by funext c; simp [denL]
    by_cases h : x = 0
    · subst h; simp [this]
    · simp only [decide_eq_false h, if_neg h]; rfl
  · simp only [step, hc, hx]; by_cases h : x = 0 <;> simp [h]
  · subst hst; simp only [step, hc, hx]; by_cases h : x = 0 <;> simp [h]

theorem query_answer {E : Env W} {h : Nat} {info : List RVal} {c : Cfg W} {x k : BitVec 32} {st s} (hc : c.stack = .i32 x :: st)
    (ha : E.callF h (.i32 x :: info) c.store = .ok [.i32 k] s) : query E (some h) info c = .norm { c with stack := .i32 k :: st, store := s } := by
  simp only [query, hc, ha]

/-- **C45 (if-else).** Whatever the condition `x`: if the hook answers `k`, the then arm runs if `k` is a "then" and the else
arm if it is an "else", in the state the hook left. -/
theorem C45_if_then_else {E : Env W} {σ : Sel} {m t thn els run hook} (h : Runs E σ [.ifElse m t thn els] run) (hh : σ .ifThenElseTrap = some hook) :
    ∃ innerT innerE, Runs E σ thn innerT ∧ Runs E σ els innerE ∧ ∀ c x st k s, c.stack = .i32 x :: st →
      E.callF hook (.i32 x :: nI32 t.inputs.length :: nI32 t.results.length :: m.told) c.store = .ok [.i32 k] s →
      run c = inBlock t (fun c => ((if isThen k then innerT else innerE) c).bind (notify E (σ .ifThenElsePostTrap) m.told)) { c with stack := st, store := s } := by
  obtain ⟨innerT, innerE, hr, hr', e⟩ := C47_if_then_else h
  refine ⟨innerT, innerE, hr, hr', fun c x st k s hc ha => ?_⟩
  rw [e]; dsimp only
  rw [hh, arityInfo, List.cons_append, List.cons_append, List.nil_append, query_answer hc ha]
  simp only [Out.bind_norm, branchOn]
  by_cases hk : k = 0
  · subst hk; rfl
  · rw [if_neg hk, (C45_values.2.2.2.2 k).2 hk]; rfl

/-- **C45 (if without else).** -/
theorem C45_if_then {E : Env W} {σ : Sel} {m t thn run hook} (h : Runs E σ [.ifThen m t thn] run) (hh : σ .ifThenTrap = some hook) :
    ∃ inner, Runs E σ thn inner ∧ ∀ c x st k s, c.stack = .i32 x :: st →
      E.callF hook (.i32 x :: nI32 t.inputs.length :: nI32 t.results.length :: m.told) c.store = .ok [.i32 k] s →
      run c = inBlock t (fun c => ((if isThen k then inner else Out.norm) c).bind (notify E (σ .ifThenPostTrap) m.told)) { c with stack := st, store := s } := by
  obtain ⟨inner, hr, e⟩ := C47_if_then h
  refine ⟨inner, hr, fun c x st k s hc ha => ?_⟩
  rw [e]; dsimp only
  rw [hh, arityInfo, List.cons_append, List.cons_append, List.nil_append, query_answer hc ha]
  simp only [Out.bind_norm, branchOn]
  by_cases hk : k = 0
  · subst hk; rfl
  · rw [if_neg hk, (C45_values.2.2.2.2 k).2 hk]; rfl

/-- **C45 (br_if).** The branch is taken exactly if the answer is a "then". -/
theorem C45_br_if {E : Env W} {σ : Sel} {m l run hook} (h : Runs E σ [.basic m (.brIf l)] run) (hh : σ .brIfTrap = some hook)
    {c : Cfg W} {x st k s} (hc : c.stack = .i32 x :: st) (ha : E.callF hook (.i32 x :: nI32 l :: m.told) c.store = .ok [.i32 k] s) :
    run c = if isThen k then .br l { c with stack := st, store := s } else .norm { c with stack := st, store := s } := by
  rw [h.eq, hdenL_single]
  simp only [hdenI, askBefore, perform, ask_query E σ m .brIfTrap [nI32 l] rfl rfl, hh, List.cons_append, List.nil_append, query_answer hc ha,
    Out.bind_norm, step]
  have : askAfter E σ m (.brIf l) = Out.norm := by funext c; rfl
  rw [this, Out.bind_norm_right]
  by_cases hk : k = 0
  · subst hk; rfl
  · rw [if_neg hk, (C45_values.2.2.2.2 k).2 hk]; rfl

/-- **C45 (select).** The first operand is selected if the answer is a "then", the second otherwise. -/
theorem C45_select {E : Env W} {σ : Sel} {m run hook} {b : Basic} (hb : b = .select ∨ ∃ ty, b = .typedSelect ty)
    (h : Runs E σ [.basic m b] run) (hh : σ .select = some hook)
    {c : Cfg W} {x v2 v1 st k s} (hc : c.stack = .i32 x :: v2 :: v1 :: st) (ha : E.callF hook (.i32 x :: m.told) c.store = .ok [.i32 k] s) :
    run c = .norm { c with stack := (if isThen k then v1 else v2) :: st, store := s } := by
  have hk : (if k = 0 then v2 else v1) = if isThen k then v1 else v2 := by
    by_cases hk : k = 0
    · subst hk; rfl
    · rw [if_neg hk, (C45_values.2.2.2.2 k).2 hk]; rfl
  rw [h.eq, hdenL_single]
  rcases hb with rfl | ⟨ty, rfl⟩ <;>
  simp only [hdenI, askBefore, askAfter, perform, ask_query E σ m .select [] rfl rfl, hh, List.nil_append, query_answer hc ha, Out.bind_norm, step, hk]

/-! ## A case -/

/-- Addition on `i32`; other operators trap. -/
def hookNum : Num where
  unary op v := match op, v with
    | .i32Eqz, .i32 x => some (.i32 (if x = 0 then 1 else 0))
    | _, _ => none
  binary op v w := match op, v, w with
    | .i32Add, .i32 x, .i32 y => some (.i32 (x + y))
    | _, _, _ => none
  unary_type := by intro op v w h; split at h <;> cases h; rfl
  binary_type := by intro op v v' w h; split at h <;> cases h; rfl
  i32Eqz _ := rfl
  i32Add _ _ := rfl

/-- Two hooks, functions 9 (before each turn of a loop) and 8 (after the last), and hook 7 for `br_if`. -/
def hookSelEx : Sel
  | .preLoop => some 9
  | .postLoop => some 8
  | .brIfTrap => some 7
  | _ => none

/-- An environment whose hooks note the calls they get; hook 7 answers its condition. -/
def hookEnv : Env (List (Nat × List RVal)) where
  num := hookNum
  ftype k := if k = 9 then some ⟨[.i32, .i32, .i64, .i64], []⟩ else if k = 8 then some ⟨[.i64, .i64], []⟩
    else if k = 7 then some ⟨[.i32, .i32, .i64, .i64], [.i32]⟩ else none
  callF k args s := .ok (if k = 7 then args.take 1 else []) { s with world := s.world ++ [(k, args)] }
  loopFuel := 10

/-- `loop: x := x - 1; br_if loop` -/
def hookBody : List TI :=
  [.loop ⟨3, 0, .unreachable, false⟩ ⟨[], []⟩
    [.basic ⟨3, 1, .unreachable, false⟩ (.loc .get 0), .basic ⟨3, 2, .unreachable, false⟩ (.const (.i32 (-1))),
     .basic ⟨3, 3, .unreachable, false⟩ (.binary .i32Add), .basic ⟨3, 4, .unreachable, false⟩ (.loc .tee 0),
     .basic ⟨3, 5, .unreachable, false⟩ (.brIf 0)]]

-- The hypotheses of the theorems hold of it, and with `x = 2` the pre hook is called twice, the post hook once.
example : Runs hookEnv hookSelEx hookBody (hdenL hookEnv hookSelEx hookBody) := by
  refine .of (n := 0) ?_ ?_ ?_ (fun h => absurd rfl h)
  · simp [Pristine, hookBody, TI.locsL, TI.locs]
  · simp [hookBody, TI.FitsL, TI.Fits]
  · intro t k h; unfold hookSelEx at h; split at h <;> cases h <;> rfl

example : (match hdenL hookEnv hookSelEx hookBody ⟨[], [.i32 2], ⟨[], [], [], [], [], []⟩⟩ with | .norm c => c.store.world | _ => []) = [
      (9, [.i32 0, .i32 0, .i64 3, .i64 0]), (7, [.i32 1, .i32 0, .i64 3, .i64 5]),
      (9, [.i32 0, .i32 0, .i64 3, .i64 0]), (7, [.i32 0, .i32 0, .i64 3, .i64 5]),
      (8, [.i64 3, .i64 0])] := by decide +kernel

end Wastrum
