import Verif.Typing
import Verif.TypingLemmas
import Verif.Interpose
import Verif.InterposeLemmas
/-!
# Two executions in lock step (supporting definitions and lemmas)

A program is run twice, in different surroundings, on states that are related. `Rel.Outs` says that the two runs stay in
step: same operands, same locals, related stores, same control. The main lemma `sim` shows by induction on the program
that it is enough to check single instructions and the questions asked at block boundaries.

The induction follows the typing rules, so it shows in passing that well-typed code never gets stuck.
-/

set_option linter.unusedSimpArgs false
set_option linter.unusedVariables false

namespace Wastrum

variable {W W' : Type}

/-- How questions to the analysis are answered, and how operations it may perform are performed. -/
structure Asker (W : Type) where
  ask : Meta → Trap → Nat → List RVal → Cfg W → Out W
  perf : Meta → Basic → Cfg W → Out W

/-- The question asked before an instruction. -/
def Asker.before (A : Asker W) (m : Meta) (b : Basic) (c : Cfg W) : Out W :=
  let askO (t : Option Trap) (k : Nat) (info : List RVal) : Out W := match t with
    | none => .norm c
    | some t => A.ask m t k info c
  match b with
  | .br l => A.ask m .brTrap 0 [nI64 l] c
  | .brIf l => A.ask m .brIfTrap 1 [nI32 l] c
  | .brTable ls d => match c.stack with
    | .num (.i32 x) :: _ => A.ask m .brTableTrap 1 [nI32 (tableLabel ls d x), nI32 d] c
    | _ => .stuck
  | .call f => A.ask m .preTrapCall 0 [nI32 f] c
  | .callIndirect _ tbl => A.ask m .preTrapCallIndirect 1 [nI32 tbl] c
  | .ret => A.ask m .returnTrap 0 [] c
  | .drop => A.ask m .dropTrap 0 [] c
  | .select => A.ask m .select 1 [] c
  | .typedSelect _ => A.ask m .select 1 [] c
  | .loc .set i => askO (m.ty.writes.bind (localTrap .set)) 1 [nI64 i]
  | .loc .tee i => askO (m.ty.tees.bind (localTrap .tee)) 1 [nI64 i]
  | .glob .set i => askO (m.ty.writes.bind (globalTrap .set)) 1 [nI64 i]
  | _ => .norm c

/-- The question asked after an instruction. -/
def Asker.after (A : Asker W) (m : Meta) (b : Basic) (c : Cfg W) : Out W :=
  let askO (t : Option Trap) (k : Nat) (info : List RVal) : Out W := match t with
    | none => .norm c
    | some t => A.ask m t k info c
  match b with
  | .call f => A.ask m .postTrapCall 0 [nI32 f] c
  | .callIndirect _ tbl => A.ask m .postTrapCallIndirect 0 [nI32 tbl] c
  | .const v => askO (constTrap v.type) 1 []
  | .memorySize i => A.ask m .memorySize 1 [nI64 i] c
  | .loc .get i => askO (m.ty.reads.bind (localTrap .get)) 1 [nI64 i]
  | .glob .get i => askO (m.ty.reads.bind (globalTrap .get)) 1 [nI64 i]
  | _ => .norm c

/-- Execution of a single instruction. -/
def Asker.basic (A : Asker W) (m : Meta) (b : Basic) (c : Cfg W) : Out W :=
  (A.before m b c).bind fun c => (A.perf m b c).bind (A.after m b)

mutual
/-- Execution of an instruction, given how to treat single instructions and block boundaries. -/
def gdenI (A : Asker W) (L : Nat) : TI → Cfg W → Out W
  | .basic m b, c => A.basic m b c
  | .block m t body, c =>
    inBlock t (fun c => (A.ask m .preBlock 0 (arityInfo t) c).bind fun c =>
      (gdenL A L body c).bind (A.ask m .postBlock 0 [])) c
  | .loop m t body, c =>
    inLoop t (fun c => (A.ask m .preLoop 0 (arityInfo t) c).bind fun c =>
      (gdenL A L body c).bind (A.ask m .postLoop 0 [])) L c
  | .ifThen m t thn, c =>
    (A.ask m .ifThenTrap 1 (arityInfo t) c).bind
      (branchOn (inBlock t fun c => (gdenL A L thn c).bind (A.ask m .ifThenPostTrap 0 []))
        (inBlock t (A.ask m .ifThenPostTrap 0 [])))
  | .ifElse m t thn els, c =>
    (A.ask m .ifThenElseTrap 1 (arityInfo t) c).bind
      (branchOn (inBlock t fun c => (gdenL A L thn c).bind (A.ask m .ifThenElsePostTrap 0 []))
        (inBlock t fun c => (gdenL A L els c).bind (A.ask m .ifThenElsePostTrap 0 [])))
/-- Execution of a body, given how to treat single instructions and block boundaries. -/
def gdenL (A : Asker W) (L : Nat) : List TI → Cfg W → Out W
  | [], c => .norm c
  | i :: l, c => (gdenI A L i c).bind (gdenL A L l)
end

/-- Plain execution. -/
def plain (E : Env W) : Asker W := ⟨fun _ _ _ _ => .norm, fun _ => step E⟩

/-- Execution with the analysis interposed. -/
def hooking (E : Env W) (σ : Sel) : Asker W := ⟨ask E σ, perform E σ⟩

theorem hooking_basic (E : Env W) (σ : Sel) (m : Meta) (b : Basic) (c : Cfg W) :
    (hooking E σ).basic m b c = (askBefore E σ m b c).bind fun c => (perform E σ m b c).bind (askAfter E σ m b) := by
  have h2 : (hooking E σ).after m b = askAfter E σ m b := by
    funext c
    cases b <;> try rfl
    all_goals rename_i op i; cases op <;> rfl
  have h1 : (hooking E σ).before m b c = askBefore E σ m b c := by
    cases b <;> try rfl
    all_goals rename_i op i; cases op <;> rfl
  simp only [Asker.basic, h1, h2]
  rfl

theorem plain_basic (E : Env W) (m : Meta) (b : Basic) (c : Cfg W) : (plain E).basic m b c = step E b c := by
  have h2 : (plain E).after m b = .norm := by
    funext c
    unfold Asker.after
    split <;> try rfl
    all_goals dsimp only; split <;> rfl
  have h1 : ((plain E).before m b c).bind (step E b) = step E b c := by
    unfold Asker.before
    dsimp only
    split <;> try rfl
    all_goals split <;> try rfl
    rename_i h
    simp only [step]
    rfl
  simp only [Asker.basic, h2, Out.bind_norm_right]
  exact h1

theorem gden_hooking (E : Env W) (σ : Sel) : (∀ i c, gdenI (hooking E σ) E.loopFuel i c = hdenI E σ i c) ∧
    ∀ l c, gdenL (hooking E σ) E.loopFuel l c = hdenL E σ l c := by
  apply TI.induct
  · intro m b c; exact hooking_basic E σ m b c
  · intro m t body ih c; simp only [gdenI, hdenI, ih]; rfl
  · intro m t body ih c; simp only [gdenI, hdenI, ih]; rfl
  · intro m t body ih c; simp only [gdenI, hdenI, ih]; rfl
  · intro m t a b iha ihb c; simp only [gdenI, hdenI, iha, ihb]; rfl
  · intro c; rfl
  · intro i l ihi ihl c; simp only [gdenL, hdenL, ihi]; congr 1; funext c; exact ihl c

theorem gden_plain (E : Env W) : (∀ i c, gdenI (plain E) E.loopFuel i c = denI E i.erase c) ∧
    ∀ l c, gdenL (plain E) E.loopFuel l c = denL E (TI.eraseL l) c := by
  apply TI.induct
  · intro m b c; simp only [gdenI, plain_basic, TI.erase, denI]
  · intro m t body ih c; simp [gdenI, plain, TI.erase, denI] at ih ⊢; simp [ih]
  · intro m t body ih c; simp [gdenI, plain, TI.erase, denI] at ih ⊢; simp [ih]
  · intro m t body ih c; simp [gdenI, plain, TI.erase, denI] at ih ⊢; simp [ih]
  · intro m t a b iha ihb c; simp [gdenI, plain, TI.erase, denI] at iha ihb ⊢; simp [iha, ihb]
  · intro c; simp [gdenL, TI.eraseL, denL]
  · intro i l ihi ihl c; simp only [gdenL, TI.eraseL, denL, ihi]; congr 1; funext c; exact ihl c

mutual
/-- Plain code as annotated code without information. -/
def HI.tag : HI → TI
  | .basic b => .basic ⟨0, 0, .unreachable, false⟩ b
  | .block t body => .block ⟨0, 0, .unreachable, false⟩ t (HI.tagL body)
  | .loop t body => .loop ⟨0, 0, .unreachable, false⟩ t (HI.tagL body)
  | .ifThen t thn => .ifThen ⟨0, 0, .unreachable, false⟩ t (HI.tagL thn)
  | .ifElse t thn els => .ifElse ⟨0, 0, .unreachable, false⟩ t (HI.tagL thn) (HI.tagL els)
/-- Plain code as annotated code without information. -/
def HI.tagL : List HI → List TI
  | [] => []
  | i :: l => i.tag :: HI.tagL l
end

theorem tag_erase : (∀ i : HI, i.tag.erase = i) ∧ ∀ l, TI.eraseL (HI.tagL l) = l := by
  apply HI.induct
  · intro b; simp [HI.tag, TI.erase]
  · intro t body ih; simp [HI.tag, TI.erase, ih]
  · intro t body ih; simp [HI.tag, TI.erase, ih]
  · intro t body ih; simp [HI.tag, TI.erase, ih]
  · intro t a b iha ihb; simp [HI.tag, TI.erase, iha, ihb]
  · simp [HI.tagL, TI.eraseL]
  · intro i l ihi ihl; simp [HI.tagL, TI.eraseL, ihi, ihl]

theorem AnnotOK.unreachable (Γ : Ctx) (b : Basic) : AnnotOK Γ ⟨0, 0, .unreachable, false⟩ b := by
  unfold AnnotOK
  split <;> simp [InferredTy.reads, InferredTy.writes, InferredTy.tees]

theorem tag_typed : (∀ i : HI, ∀ Γ a c, HTyI Γ i a c → TTyI Γ i.tag a c) ∧ ∀ l, ∀ Γ a c, HTyL Γ l a c → TTyL Γ (HI.tagL l) a c := by
  apply HI.induct
  · intro b Γ a c h; cases h with | basic h => exact .basic h (AnnotOK.unreachable Γ b)
  · intro t body ih Γ a c h; cases h with | block h => exact .block (ih _ _ _ h)
  · intro t body ih Γ a c h; cases h with | loop h => exact .loop (ih _ _ _ h)
  · intro t body ih Γ a c h; cases h with | ifThen he h => exact .ifThen he (ih _ _ _ h)
  · intro t a b iha ihb Γ x y h; cases h with | ifElse h1 h2 => exact .ifElse (iha _ _ _ h1) (ihb _ _ _ h2)
  · intro Γ a c h; cases h; exact .nil
  · intro i l ihi ihl Γ a c h; cases h with | cons h1 h2 => exact .cons (ihi _ _ _ h1) (ihl _ _ _ h2)

/-! ## Related states and outcomes -/

/-- A reference to a function refers to a function of the program. -/
def RVal.OK (Γ : Ctx) (v : RVal) : Prop := ∀ f, v = .ref .funcRef (some f) → ∃ ty, Γ.ftype f = some ty

/-- Values of the given types. -/
def ValsOK (Γ : Ctx) (vs : List RVal) (ts : List ValType) : Prop := vs.map RVal.type = ts ∧ ∀ v ∈ vs, v.OK Γ

/-- How two runs are related: the relation between stores, and what may differ: the first run may run out of bounds
(`fl`), the second may (`fr`), and after a trap of the first nothing is claimed about the second (`tl`). Runs that both
trap may also leave stores related by `T` only. The second run may trap on its own in a store that satisfies `TR`. -/
structure Rel (W W' : Type) where
  S : Store W → Store W' → Prop
  fl : Bool
  fr : Bool
  tl : Bool
  T : Store W → Store W' → Prop
  TR : Store W' → Prop

/-- Related states of running code. -/
structure Rel.Cfgs (R : Rel W W') (Γ : Ctx) (ts : List ValType) (c : Cfg W) (c' : Cfg W') : Prop where
  stack : c'.stack = c.stack
  locals : c'.locals = c.locals
  store : R.S c.store c'.store
  stackOK : ValsOK Γ c.stack ts
  localsOK : ValsOK Γ c.locals Γ.locals

/-- Related outcomes of running code that ends with operands of types `ts`. -/
inductive Rel.Outs (R : Rel W W') (Γ : Ctx) (ts : List ValType) : Out W → Out W' → Prop where
  | norm {c c'} : R.Cfgs Γ ts c c' → Rel.Outs R Γ ts (.norm c) (.norm c')
  | br {l lt r c c'} : Γ.labels[l]? = some lt → R.Cfgs Γ (lt ++ r) c c' → Rel.Outs R Γ ts (.br l c) (.br l c')
  | ret {r c c'} : R.Cfgs Γ (Γ.ret ++ r) c c' → Rel.Outs R Γ ts (.ret c) (.ret c')
  | trap {s s'} : R.S s s' → Rel.Outs R Γ ts (.trap s) (.trap s')
  | fuel : Rel.Outs R Γ ts .fuel .fuel
  | fuelL {o} : R.fl = true → Rel.Outs R Γ ts .fuel o
  | fuelR {o} : R.fr = true → Rel.Outs R Γ ts o .fuel
  | trapL {s o} : R.tl = true → Rel.Outs R Γ ts (.trap s) o
  | trapT {s s'} : R.T s s' → Rel.Outs R Γ ts (.trap s) (.trap s')
  | trapR {o s'} : R.TR s' → Rel.Outs R Γ ts o (.trap s')

/-- Related outcomes of calls that return values of types `ts`. -/
inductive Rel.Ress (R : Rel W W') (Γ : Ctx) (ts : List ValType) : Res W → Res W' → Prop where
  | ok {vs s s'} : ValsOK Γ vs ts → R.S s s' → Rel.Ress R Γ ts (.ok vs s) (.ok vs s')
  | trap {s s'} : R.S s s' → Rel.Ress R Γ ts (.trap s) (.trap s')
  | fuel : Rel.Ress R Γ ts .fuel .fuel
  | fuelL {o} : R.fl = true → Rel.Ress R Γ ts .fuel o
  | fuelR {o} : R.fr = true → Rel.Ress R Γ ts o .fuel
  | trapL {s o} : R.tl = true → Rel.Ress R Γ ts (.trap s) o
  | trapT {s s'} : R.T s s' → Rel.Ress R Γ ts (.trap s) (.trap s')
  | trapR {o s'} : R.TR s' → Rel.Ress R Γ ts o (.trap s')

variable {R : Rel W W'} {Γ : Ctx}

theorem ValsOK.nil : ValsOK Γ [] [] := ⟨rfl, by simp⟩

theorem ValsOK.append {a b : List RVal} {ta tb} (ha : ValsOK Γ a ta) (hb : ValsOK Γ b tb) : ValsOK Γ (a ++ b) (ta ++ tb) := by
  refine ⟨by simp [ha.1, hb.1], ?_⟩
  intro v hv
  rcases List.mem_append.1 hv with h | h
  · exact ha.2 v h
  · exact hb.2 v h

theorem ValsOK.reverse {a : List RVal} {ta} (ha : ValsOK Γ a ta) : ValsOK Γ a.reverse ta.reverse :=
  ⟨by simp [ha.1, List.map_reverse], by simpa using ha.2⟩

theorem ValsOK.split {vs : List RVal} {ta tb} (h : ValsOK Γ vs (ta ++ tb)) :
    ValsOK Γ (vs.take ta.length) ta ∧ ValsOK Γ (vs.drop ta.length) tb := by
  refine ⟨⟨?_, fun v hv => h.2 v (List.mem_of_mem_take hv)⟩, ⟨?_, fun v hv => h.2 v (List.mem_of_mem_drop hv)⟩⟩
  · rw [List.map_take, h.1]; simp
  · rw [List.map_drop, h.1]; simp

theorem ValsOK.length {vs : List RVal} {ts} (h : ValsOK Γ vs ts) : vs.length = ts.length := by rw [← h.1]; simp

theorem ValsOK.cons_inv {vs : List RVal} {t ts} (h : ValsOK Γ vs (t :: ts)) :
    ∃ v st, vs = v :: st ∧ v.type = t ∧ v.OK Γ ∧ ValsOK Γ st ts := by
  cases vs with
  | nil => simp [ValsOK] at h
  | cons v st =>
    obtain ⟨h1, h2⟩ := h
    simp only [List.map_cons, List.cons.injEq] at h1
    exact ⟨v, st, rfl, h1.1, h2 v (List.mem_cons_self ..), h1.2, fun w hw => h2 w (List.mem_cons_of_mem _ hw)⟩

theorem ValsOK.cons {v : RVal} {st t ts} (ht : v.type = t) (hv : v.OK Γ) (h : ValsOK Γ st ts) : ValsOK Γ (v :: st) (t :: ts) := by
  refine ⟨by simp [ht, h.1], ?_⟩
  intro w hw
  rcases List.mem_cons.1 hw with rfl | hw
  · exact hv
  · exact h.2 w hw

theorem RVal.OK.num (v : Val) : (RVal.num v).OK Γ := by intro f h; cases h

theorem RVal.type_i32 {v : RVal} (h : v.type = .i32) : ∃ x, v = .num (.i32 x) := by
  cases v with
  | num v => cases v <;> simp [RVal.type, Val.type] at h ⊢
  | ref r a => simp [RVal.type] at h

theorem Rel.Cfgs.label {ts c c' l} (h : R.Cfgs Γ ts c c') : R.Cfgs (Γ.label l) ts c c' := ⟨h.1, h.2, h.3, h.4, h.5⟩
theorem Rel.Cfgs.unlabel {ts c c' l} (h : R.Cfgs (Γ.label l) ts c c') : R.Cfgs Γ ts c c' := ⟨h.1, h.2, h.3, h.4, h.5⟩

theorem Rel.Outs.bind {ts ts' o o' k k'} (h : R.Outs Γ ts o o') (hk : ∀ c c', R.Cfgs Γ ts c c' → R.Outs Γ ts' (k c) (k' c')) :
    R.Outs Γ ts' (o.bind k) (o'.bind k') := by
  cases h with
  | norm h => exact hk _ _ h
  | br h1 h2 => exact .br h1 h2
  | ret h => exact .ret h
  | trap h => exact .trap h
  | fuel => exact .fuel
  | fuelL h => exact .fuelL h
  | fuelR h => exact .fuelR h
  | trapL h => exact .trapL h
  | trapT h => exact .trapT h
  | trapR h => exact .trapR h

/-- Replacing the stack. -/
theorem Rel.Cfgs.withStack {ts c c' ts' st} (h : R.Cfgs Γ ts c c') (hs : ValsOK Γ st ts') :
    R.Cfgs Γ ts' { c with stack := st } { c' with stack := st } := ⟨rfl, h.locals, h.store, hs, h.localsOK⟩

theorem Rel.inBlock {t : FuncType} {f f'} {r c c'} (h : R.Cfgs Γ (t.inputs.reverse ++ r) c c')
    (hf : ∀ c c', R.Cfgs Γ t.inputs.reverse c c' → R.Outs (Γ.label t.results.reverse) t.results.reverse (f c) (f' c')) :
    R.Outs Γ (t.results.reverse ++ r) (inBlock t f c) (inBlock t f' c') := by
  have hl := h.stackOK.length
  have hsp := h.stackOK.split
  simp only [List.length_reverse] at hsp
  unfold Wastrum.inBlock
  rw [h.stack]
  have hle : t.inputs.length ≤ c.stack.length := by rw [hl]; simp
  rw [if_pos hle, if_pos hle]
  have := hf _ _ (h.withStack hsp.1)
  dsimp only at this ⊢
  generalize f _ = o at this ⊢
  generalize f' _ = o' at this ⊢
  cases this with
  | norm h1 =>
    refine .norm ⟨?_, h1.locals, h1.store, h1.stackOK.append hsp.2, h1.localsOK⟩
    dsimp only; rw [h1.stack]
  | @br l lt r1 c1 c1' hl h1 =>
    cases l with
    | zero =>
      cases hl
      have hl1 := h1.stackOK.length
      have hsp1 := h1.stackOK.split
      simp only [List.length_reverse] at hsp1
      dsimp only
      rw [h1.stack]
      have hle1 : t.results.length ≤ c1.stack.length := by rw [hl1]; simp
      rw [if_pos hle1, if_pos hle1]
      exact .norm ⟨rfl, h1.locals, h1.store, hsp1.1.append hsp.2, h1.localsOK⟩
    | succ l => exact .br hl h1.unlabel
  | ret h1 => exact .ret h1.unlabel
  | trap h1 => exact .trap h1
  | fuel => exact .fuel
  | fuelL h => exact .fuelL h
  | fuelR h => exact .fuelR h
  | trapL h => exact .trapL h
  | trapT h => exact .trapT h
  | trapR h => exact .trapR h

theorem Rel.iterate {t : FuncType} {f f'} (hf : ∀ c c', R.Cfgs Γ t.inputs.reverse c c' → R.Outs (Γ.label t.inputs.reverse) t.results.reverse (f c) (f' c'))
    (L : Nat) : ∀ {c c'}, R.Cfgs Γ t.inputs.reverse c c' → R.Outs Γ t.results.reverse (Wastrum.iterate t f L c) (Wastrum.iterate t f' L c') := by
  induction L with
  | zero => intro c c' h; exact .fuel
  | succ L ih =>
    intro c c' h
    simp only [Wastrum.iterate]
    have := hf _ _ h
    generalize f _ = o at this ⊢
    generalize f' _ = o' at this ⊢
    cases this with
    | norm h1 => exact .norm h1.unlabel
    | @br l lt r1 c1 c1' hl h1 =>
      cases l with
      | zero =>
        cases hl
        have hl1 := h1.stackOK.length
        have hsp1 := h1.stackOK.split
        simp only [List.length_reverse] at hsp1
        dsimp only
        rw [h1.stack]
        have hle1 : t.inputs.length ≤ c1.stack.length := by rw [hl1]; simp
        rw [if_pos hle1, if_pos hle1]
        exact ih ⟨rfl, h1.locals, h1.store, hsp1.1, h1.localsOK⟩
      | succ l => exact .br hl h1.unlabel
    | ret h1 => exact .ret h1.unlabel
    | trap h1 => exact .trap h1
    | fuel => exact .fuel
    | fuelL h => exact .fuelL h
    | fuelR h => exact .fuelR h
    | trapL h => exact .trapL h
    | trapT h => exact .trapT h
    | trapR h => exact .trapR h

theorem Rel.inLoop {t : FuncType} {f f'} {r c c' L} (h : R.Cfgs Γ (t.inputs.reverse ++ r) c c')
    (hf : ∀ c c', R.Cfgs Γ t.inputs.reverse c c' → R.Outs (Γ.label t.inputs.reverse) t.results.reverse (f c) (f' c')) :
    R.Outs Γ (t.results.reverse ++ r) (inLoop t f L c) (inLoop t f' L c') := by
  have hl := h.stackOK.length
  have hsp := h.stackOK.split
  simp only [List.length_reverse] at hsp
  unfold Wastrum.inLoop
  rw [h.stack]
  have hle : t.inputs.length ≤ c.stack.length := by rw [hl]; simp
  rw [if_pos hle, if_pos hle]
  have := Rel.iterate hf L (h.withStack hsp.1)
  dsimp only at this ⊢
  generalize Wastrum.iterate t f L _ = o at this ⊢
  generalize Wastrum.iterate t f' L _ = o' at this ⊢
  cases this with
  | norm h1 =>
    refine .norm ⟨?_, h1.locals, h1.store, h1.stackOK.append hsp.2, h1.localsOK⟩
    dsimp only; rw [h1.stack]
  | br hl h1 => exact .br hl h1
  | ret h1 => exact .ret h1
  | trap h1 => exact .trap h1
  | fuel => exact .fuel
  | fuelL h => exact .fuelL h
  | fuelR h => exact .fuelR h
  | trapL h => exact .trapL h
  | trapT h => exact .trapT h
  | trapR h => exact .trapR h

theorem Rel.branchOn {ts ts' f f' g g' c c'} (h : R.Cfgs Γ (.i32 :: ts) c c')
    (hf : ∀ c c', R.Cfgs Γ ts c c' → R.Outs Γ ts' (f c) (f' c')) (hg : ∀ c c', R.Cfgs Γ ts c c' → R.Outs Γ ts' (g c) (g' c')) :
    R.Outs Γ ts' (branchOn f g c) (branchOn f' g' c') := by
  obtain ⟨v, st, hs, hv, _, hst⟩ := h.stackOK.cons_inv
  obtain ⟨x, rfl⟩ := RVal.type_i32 hv
  unfold Wastrum.branchOn
  rw [h.stack, hs]
  dsimp only
  split
  · exact hg _ _ (h.withStack hst)
  · exact hf _ _ (h.withStack hst)

/-- The operations the analysis performs itself when the hook is selected: the hook, how many operands it takes over, and
the further information it gets. -/
def delegation : Basic → Option (Trap × Nat × List RVal)
  | .unary op => (unaryTrap op.sig).map (·, 1, [.i32 op.serialize])
  | .binary op => (binaryTrap op.sig).map (·, 2, [.i32 op.serialize])
  | .load op ma => (loadTrap op.ty).map (·, 1, [.i64 (ma.offset.setWidth 64), .i32 op.serialize])
  | .store op ma => (storeTrap op.ty).map (·, 2, [.i64 (ma.offset.setWidth 64), .i32 op.serialize])
  | .memoryGrow i => some (.memoryGrow, 1, [nI64 i])
  | _ => none

/-- Hooks that are merely shown operands, which they may replace. -/
def Trap.Observes (t : Trap) : Prop := ∀ b k info, delegation b ≠ some (t, k, info)

/-- Hook `t` is asked about operands of types `ins` (deepest first), with further information `info`. -/
structure Question (t : Trap) (ins : List ValType) (info : List RVal) : Prop where
  observes : t.Observes
  args : t.args = ins ++ info.map RVal.type ++ [.i64, .i64]
  results : t.results = ins
  small : ins.length ≤ 1

/-- Contexts of code in the same function. -/
def Ctx.SameBut (Γ Γ₀ : Ctx) : Prop := ∃ l, Γ = { Γ₀ with labels := l }

theorem Ctx.SameBut.label {Γ Γ₀ : Ctx} (h : Γ.SameBut Γ₀) (l) : (Γ.label l).SameBut Γ₀ := by
  obtain ⟨l', rfl⟩ := h; exact ⟨_, rfl⟩

theorem observes_of {t : Trap} (h1 : ∀ p, unaryTrap p ≠ some t) (h2 : ∀ p, binaryTrap p ≠ some t) (h3 : ∀ p, loadTrap p ≠ some t)
    (h4 : ∀ p, storeTrap p ≠ some t) (h5 : t ≠ .memoryGrow) : t.Observes := by
  intro b k info h
  unfold delegation at h
  split at h
  · simp only [Option.map_eq_some_iff, Prod.mk.injEq] at h; obtain ⟨_, h, rfl, _⟩ := h; exact h1 _ h
  · simp only [Option.map_eq_some_iff, Prod.mk.injEq] at h; obtain ⟨_, h, rfl, _⟩ := h; exact h2 _ h
  · simp only [Option.map_eq_some_iff, Prod.mk.injEq] at h; obtain ⟨_, h, rfl, _⟩ := h; exact h3 _ h
  · simp only [Option.map_eq_some_iff, Prod.mk.injEq] at h; obtain ⟨_, h, rfl, _⟩ := h; exact h4 _ h
  · simp only [Option.some.injEq, Prod.mk.injEq] at h; exact h5 h.1.symm
  · cases h

/-- The hooks that perform operations, as a list. -/
def Trap.performs : Trap → Bool
  | .unaryI32ToI32 | .unaryI64ToI32 | .unaryI64ToI64 | .unaryF32ToF32 | .unaryF64ToF64 | .unaryF32ToI32 | .unaryF64ToI32 | .unaryI32ToI64
  | .unaryF32ToI64 | .unaryF64ToI64 | .unaryI32ToF32 | .unaryI64ToF32 | .unaryF64ToF32 | .unaryI32ToF64 | .unaryI64ToF64 | .unaryF32ToF64
  | .binaryI32I32ToI32 | .binaryI64I64ToI32 | .binaryF32F32ToI32 | .binaryF64F64ToI32 | .binaryI64I64ToI64 | .binaryF32F32ToF32
  | .binaryF64F64ToF64 | .memoryGrow | .f32Store | .f64Store | .i32Store | .i64Store | .f32Load | .f64Load | .i32Load | .i64Load => true
  | _ => false

theorem Trap.observes_of_not_performs {t : Trap} (h : t.performs = false) : t.Observes := by
  apply observes_of
  · rintro ⟨a, b⟩ hp; unfold unaryTrap at hp; split at hp <;> cases hp <;> cases h
  · rintro ⟨a, b⟩ hp; unfold binaryTrap at hp; split at hp <;> cases hp <;> cases h
  · intro p hp; unfold loadTrap at hp; split at hp <;> cases hp <;> cases h
  · intro p hp; unfold storeTrap at hp; split at hp <;> cases hp <;> cases h
  · rintro rfl; cases h

theorem localTrap_question {op v t} (h : localTrap op v = some t) (i : Nat) : Question t [v] [nI64 i] := by
  have ha := localTrap_args h
  refine ⟨Trap.observes_of_not_performs ?_, by rw [ha.1]; rfl, ha.2, by simp⟩
  unfold localTrap at h; split at h <;> cases h <;> rfl

theorem globalTrap_question {op v t} (h : globalTrap op v = some t) (i : Nat) : Question t [v] [nI64 i] := by
  have ha := globalTrap_args h
  refine ⟨Trap.observes_of_not_performs ?_, by rw [ha.1]; rfl, ha.2, by simp⟩
  unfold globalTrap at h; split at h <;> cases h <;> rfl

theorem constTrap_question {v t} (h : constTrap v = some t) : Question t [v] [] := by
  have ha := constTrap_args h
  refine ⟨Trap.observes_of_not_performs ?_, by rw [ha.1]; rfl, ha.2, by simp⟩
  unfold constTrap at h; split at h <;> cases h <;> rfl

theorem Question.mk' {t : Trap} {ins info} (h : t.performs = false) (h1 : t.args = ins ++ info.map RVal.type ++ [.i64, .i64]) (h2 : t.results = ins)
    (h3 : ins.length ≤ 1) : Question t ins info := ⟨Trap.observes_of_not_performs h, h1, h2, h3⟩

/-- If questions keep two executions in step, the question before an instruction does. -/
theorem before_sim {A : Asker W} {A' : Asker W'}
    (ha : ∀ m t ins info a c c', Question t ins info → R.Cfgs Γ (ins.reverse ++ a) c c' →
      R.Outs Γ (ins.reverse ++ a) (A.ask m t ins.length info c) (A'.ask m t ins.length info c'))
    {m b a e c c'} (ht : BTyped Γ b a e) (hn : AnnotOK Γ m b) (hc : R.Cfgs Γ a c c') :
    R.Outs Γ a (A.before m b c) (A'.before m b c') := by
  have a0 : ∀ t info, t.performs = false → t.args = info.map RVal.type ++ [.i64, .i64] → t.results = [] →
      R.Outs Γ a (A.ask m t 0 info c) (A'.ask m t 0 info c') :=
    fun t info h1 h2 h3 => ha m t [] info a c c' (.mk' h1 (by rw [h2]; rfl) h3 (by simp)) hc
  have a1 : ∀ t info v r, a = v :: r → t.performs = false → t.args = [v] ++ info.map RVal.type ++ [.i64, .i64] → t.results = [v] →
      R.Outs Γ a (A.ask m t 1 info c) (A'.ask m t 1 info c') := by
    rintro t info v r rfl h1 h2 h3; exact ha m t [v] info r c c' (.mk' h1 h2 h3 (by simp)) hc
  have aq : ∀ t info v r, a = v :: r → Question t [v] info → R.Outs Γ a (A.ask m t 1 info c) (A'.ask m t 1 info c') := by
    rintro t info v r rfl hq; exact ha m t [v] info r c c' hq hc
  cases b
  case br l => exact a0 _ _ rfl rfl rfl
  case brIf l => obtain ⟨lt, hl, r, rfl, rfl⟩ := ht; exact a1 _ _ .i32 _ rfl rfl rfl rfl
  case brTable ls d =>
    obtain ⟨lt, hl, r, rfl⟩ := ht d (List.mem_cons_self ..)
    obtain ⟨v, st, hs, hv, _, hst⟩ := hc.stackOK.cons_inv
    obtain ⟨x, rfl⟩ := RVal.type_i32 hv
    unfold Asker.before
    simp only [hc.stack, hs]
    exact a1 _ _ .i32 _ rfl rfl rfl rfl
  case call f => exact a0 _ _ rfl rfl rfl
  case callIndirect ty tbl => obtain ⟨htb, r, rfl, rfl⟩ := ht; exact a1 _ _ .i32 _ rfl rfl rfl rfl
  case ret => exact a0 _ _ rfl rfl rfl
  case drop => exact a0 _ _ rfl rfl rfl
  case select => obtain ⟨t, _, r, rfl, rfl⟩ := ht; exact a1 _ _ .i32 _ rfl rfl rfl rfl
  case typedSelect t => obtain ⟨r, rfl, rfl⟩ := ht; exact a1 _ _ .i32 _ rfl rfl rfl rfl
  case loc op i =>
    cases op
    case get => exact .norm hc
    case set =>
      obtain ⟨t, hl, r, rfl, rfl⟩ := ht
      simp only [Asker.before]
      cases hw : m.ty.writes with
      | none => exact .norm hc
      | some t' =>
        have := hn t' hw
        rw [hl] at this; cases this
        simp only [Option.bind_some]
        cases hlt : localTrap .set t with
        | none => exact .norm hc
        | some q => exact aq _ _ _ _ rfl (localTrap_question hlt i)
    case tee =>
      obtain ⟨t, hl, r, rfl, rfl⟩ := ht
      simp only [Asker.before]
      cases hw : m.ty.tees with
      | none => exact .norm hc
      | some t' =>
        have := hn t' hw
        rw [hl] at this; cases this
        simp only [Option.bind_some]
        cases hlt : localTrap .tee t with
        | none => exact .norm hc
        | some q => exact aq _ _ _ _ rfl (localTrap_question hlt i)
  case glob op i =>
    cases op
    case get => exact .norm hc
    case set =>
      obtain ⟨t, hl, r, rfl, rfl⟩ := ht
      simp only [Asker.before]
      cases hw : m.ty.writes with
      | none => exact .norm hc
      | some t' =>
        have := hn t' hw
        rw [hl] at this; cases this
        simp only [Option.bind_some]
        cases hlt : globalTrap .set t with
        | none => exact .norm hc
        | some q => exact aq _ _ _ _ rfl (globalTrap_question hlt i)
  all_goals exact .norm hc

/-- If questions keep two executions in step, the question after an instruction does. -/
theorem after_sim {A : Asker W} {A' : Asker W'}
    (ha : ∀ m t ins info a c c', Question t ins info → R.Cfgs Γ (ins.reverse ++ a) c c' →
      R.Outs Γ (ins.reverse ++ a) (A.ask m t ins.length info c) (A'.ask m t ins.length info c'))
    {m b a e c c'} (ht : BTyped Γ b a e) (hn : AnnotOK Γ m b) (hc : R.Cfgs Γ e c c') :
    R.Outs Γ e (A.after m b c) (A'.after m b c') := by
  have a0 : ∀ t info, t.performs = false → t.args = info.map RVal.type ++ [.i64, .i64] → t.results = [] →
      R.Outs Γ e (A.ask m t 0 info c) (A'.ask m t 0 info c') :=
    fun t info h1 h2 h3 => ha m t [] info e c c' (.mk' h1 (by rw [h2]; rfl) h3 (by simp)) hc
  have a1 : ∀ t info v r, e = v :: r → t.performs = false → t.args = [v] ++ info.map RVal.type ++ [.i64, .i64] → t.results = [v] →
      R.Outs Γ e (A.ask m t 1 info c) (A'.ask m t 1 info c') := by
    rintro t info v r rfl h1 h2 h3; exact ha m t [v] info r c c' (.mk' h1 h2 h3 (by simp)) hc
  have aq : ∀ t info v r, e = v :: r → Question t [v] info → R.Outs Γ e (A.ask m t 1 info c) (A'.ask m t 1 info c') := by
    rintro t info v r rfl hq; exact ha m t [v] info r c c' hq hc
  cases b
  case call f => exact a0 _ _ rfl rfl rfl
  case callIndirect ty tbl => exact a0 _ _ rfl rfl rfl
  case memorySize i => obtain ⟨_, r, rfl, rfl⟩ := ht; exact a1 _ _ .i32 _ rfl rfl rfl rfl
  case const v =>
    obtain ⟨r, rfl, rfl⟩ := ht
    simp only [Asker.after]
    cases hlt : constTrap v.type with
    | none => exact .norm hc
    | some q => exact aq _ _ _ _ rfl (constTrap_question hlt)
  case loc op i =>
    cases op
    case get =>
      obtain ⟨t, hl, r, rfl, rfl⟩ := ht
      simp only [Asker.after]
      cases hw : m.ty.reads with
      | none => exact .norm hc
      | some t' =>
        have := hn t' hw
        rw [hl] at this; cases this
        simp only [Option.bind_some]
        cases hlt : localTrap .get t with
        | none => exact .norm hc
        | some q => exact aq _ _ _ _ rfl (localTrap_question hlt i)
    all_goals exact .norm hc
  case glob op i =>
    cases op
    case get =>
      obtain ⟨t, mu, hl, r, rfl, rfl⟩ := ht
      simp only [Asker.after]
      cases hw : m.ty.reads with
      | none => exact .norm hc
      | some t' =>
        have := hn t' hw
        rw [hl] at this; cases this
        simp only [Option.bind_some]
        cases hlt : globalTrap .get t with
        | none => exact .norm hc
        | some q => exact aq _ _ _ _ rfl (globalTrap_question hlt i)
    all_goals exact .norm hc
  all_goals exact .norm hc

/-- All simple instructions of a piece of code satisfy `B`. -/
def OnlyCode (B : Basic → Prop) (l : List LInstr) : Prop := ∀ b : Basic, b.toL ∈ l → B b

theorem OnlyCode.mono {B : Basic → Prop} {l l' : List LInstr} (h : OnlyCode B l) (hs : ∀ i ∈ l', i ∈ l) : OnlyCode B l' := fun b hb => h b (hs _ hb)

/-- If single instructions and questions keep two executions in step, whole bodies do. -/
theorem sim {A : Asker W} {A' : Asker W'} {L : Nat} {Γ₀ : Ctx} {B : Basic → Prop}
    (hp : ∀ Γ, Γ.SameBut Γ₀ → ∀ m b a e c c', B b → BTyped Γ b a e → R.Cfgs Γ a c c' → R.Outs Γ e (A.perf m b c) (A'.perf m b c'))
    (ha : ∀ Γ, Γ.SameBut Γ₀ → ∀ m t ins info a c c', Question t ins info → R.Cfgs Γ (ins.reverse ++ a) c c' →
      R.Outs Γ (ins.reverse ++ a) (A.ask m t ins.length info c) (A'.ask m t ins.length info c')) :
    (∀ i, OnlyCode B i.lower → ∀ Γ, Γ.SameBut Γ₀ → ∀ a e, TTyI Γ i a e → ∀ c c', R.Cfgs Γ a c c' → R.Outs Γ e (gdenI A L i c) (gdenI A' L i c')) ∧
    (∀ l, OnlyCode B (TI.lowerL l) → ∀ Γ, Γ.SameBut Γ₀ → ∀ a e, TTyL Γ l a e → ∀ c c', R.Cfgs Γ a c c' → R.Outs Γ e (gdenL A L l c) (gdenL A' L l c')) := by
  have ask0 : ∀ Γ, Γ.SameBut Γ₀ → ∀ m t info a c c', t.performs = false → t.args = info.map RVal.type ++ [.i64, .i64] → t.results = [] →
      R.Cfgs Γ a c c' → R.Outs Γ a (A.ask m t 0 info c) (A'.ask m t 0 info c') :=
    fun Γ hΓ m t info a c c' h1 h2 h3 h => ha Γ hΓ m t [] info a c c' (.mk' h1 (by rw [h2]; rfl) h3 (by simp)) h
  have ask1 : ∀ Γ, Γ.SameBut Γ₀ → ∀ m t info a c c', t.performs = false → t.args = [.i32] ++ info.map RVal.type ++ [.i64, .i64] → t.results = [.i32] →
      R.Cfgs Γ (.i32 :: a) c c' → R.Outs Γ (.i32 :: a) (A.ask m t 1 info c) (A'.ask m t 1 info c') :=
    fun Γ hΓ m t info a c c' h1 h2 h3 h => ha Γ hΓ m t [.i32] info a c c' (.mk' h1 h2 h3 (by simp)) h
  apply TI.induct
  · intro m b hB Γ hΓ a e h c c' hc
    cases h with
    | basic h1 h2 =>
      exact (before_sim (ha Γ hΓ) h1 h2 hc).bind fun c c' hc => (hp Γ hΓ m b _ _ c c' (hB b (by simp [TI.lower])) h1 hc).bind fun c c' hc => after_sim (ha Γ hΓ) h1 h2 hc
  · intro m t body ih hB Γ hΓ a e h c c' hc
    cases h with
    | block h =>
      simp only [gdenI]
      refine Rel.inBlock hc fun c c' hc => ?_
      refine (ask0 _ (hΓ.label _) m _ _ _ c c' rfl rfl rfl hc.label).bind fun c c' hc => ?_
      refine (ih (hB.mono fun i hi => by simp [TI.lower, hi]) _ (hΓ.label _) _ _ h c c' hc).bind fun c c' hc => ?_
      exact ask0 _ (hΓ.label _) m _ _ _ c c' rfl rfl rfl hc
  · intro m t body ih hB Γ hΓ a e h c c' hc
    cases h with
    | loop h =>
      simp only [gdenI]
      refine Rel.inLoop hc fun c c' hc => ?_
      refine (ask0 _ (hΓ.label _) m _ _ _ c c' rfl rfl rfl hc.label).bind fun c c' hc => ?_
      refine (ih (hB.mono fun i hi => by simp [TI.lower, hi]) _ (hΓ.label _) _ _ h c c' hc).bind fun c c' hc => ?_
      exact ask0 _ (hΓ.label _) m _ _ _ c c' rfl rfl rfl hc
  · intro m t thn ih hB Γ hΓ a e h c c' hc
    cases h with
    | ifThen he h =>
      simp only [gdenI]
      refine (ask1 Γ hΓ m _ _ _ c c' rfl rfl rfl hc).bind fun c c' hc => ?_
      refine Rel.branchOn hc (fun c c' hc => Rel.inBlock hc fun c c' hc => ?_) (fun c c' hc => Rel.inBlock hc fun c c' hc => ?_)
      · refine (ih (hB.mono fun i hi => by simp [TI.lower, hi]) _ (hΓ.label _) _ _ h c c' hc.label).bind fun c c' hc => ?_
        exact ask0 _ (hΓ.label _) m _ _ _ c c' rfl rfl rfl hc
      · rw [he] at hc
        exact ask0 _ (hΓ.label _) m _ _ _ c c' rfl rfl rfl hc.label
  · intro m t thn els iha ihb hB Γ hΓ a e h c c' hc
    cases h with
    | ifElse h1 h2 =>
      simp only [gdenI]
      refine (ask1 Γ hΓ m _ _ _ c c' rfl rfl rfl hc).bind fun c c' hc => ?_
      refine Rel.branchOn hc (fun c c' hc => Rel.inBlock hc fun c c' hc => ?_) (fun c c' hc => Rel.inBlock hc fun c c' hc => ?_)
      · refine (iha (hB.mono fun i hi => by simp [TI.lower, hi]) _ (hΓ.label _) _ _ h1 c c' hc.label).bind fun c c' hc => ?_
        exact ask0 _ (hΓ.label _) m _ _ _ c c' rfl rfl rfl hc
      · refine (ihb (hB.mono fun i hi => by simp [TI.lower, hi]) _ (hΓ.label _) _ _ h2 c c' hc.label).bind fun c c' hc => ?_
        exact ask0 _ (hΓ.label _) m _ _ _ c c' rfl rfl rfl hc
  · intro hB Γ hΓ a e h c c' hc
    cases h; exact .norm hc
  · intro i l ihi ihl hB Γ hΓ a e h c c' hc
    cases h with
    | cons h1 h2 =>
      simp only [gdenL]
      exact (ihi (hB.mono fun i hi => by simp [TI.lowerL, hi]) Γ hΓ _ _ h1 c c' hc).bind fun c c' hc => ihl (hB.mono fun i hi => by simp [TI.lowerL, hi]) Γ hΓ _ _ h2 c c' hc

end Wastrum
