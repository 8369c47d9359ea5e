import Verif.TransparencyThms
import Verif.NestingThms
/-!
# How an execution changes the world (supporting definitions and lemmas for C64 and C65)

The world is changed by calls of imported functions and, in a traced run, by noting events. `Evolution` is a pair of relations between
worlds, one for executions that complete and one for those cut short by a trap; `Evolves` says that code respects it.
-/

set_option linter.unusedSimpArgs false
set_option linter.unusedVariables false

namespace Wastrum

variable {W : Type}

/-- How the world may change: by an execution that completes, and by one that traps. -/
structure Evolution (W : Type) where
  done : W → W → Prop
  cut : W → W → Prop
  refl : ∀ w, done w w
  trans : ∀ {a b c}, done a b → done b c → done a c
  cut_trans : ∀ {a b c}, done a b → cut b c → cut a c
  cut_of : ∀ {a b}, done a b → cut a b

/-- The outcome is reached by an admissible change. -/
def Evolution.Out (V : Evolution W) (w : W) : Wastrum.Out W → Prop
  | .norm c | .br _ c | .ret c => V.done w c.store.world
  | .trap s => V.cut w s.world
  | .stuck | .fuel => True

/-- Code that respects the evolution. -/
def Evolves (V : Evolution W) (f : Cfg W → Wastrum.Out W) : Prop := ∀ c, V.Out c.store.world (f c)

/-- Outcomes of calls. -/
def Evolution.Res (V : Evolution W) (w : W) : Wastrum.Res W → Prop
  | .ok _ s => V.done w s.world
  | .trap s => V.cut w s.world
  | .stuck | .fuel => True

/-- Calls that respect the evolution. -/
def CallEvolves (V : Evolution W) (call : Nat → List RVal → Store W → Wastrum.Res W) : Prop := ∀ f args s, V.Res s.world (call f args s)

/-- Imported functions that respect the evolution if what they call does. -/
def HostEvolves (V : Evolution W) (h : Host W) : Prop := ∀ call, CallEvolves V call → ∀ args s, V.Res s.world (h call args s)

variable {V : Evolution W}

theorem Evolution.Out.after {w w' : W} (h : V.done w w') {o} (ho : V.Out w' o) : V.Out w o := by
  cases o <;> first | exact V.trans h ho | exact V.cut_trans h ho | trivial

theorem Evolves.norm : Evolves V Wastrum.Out.norm := fun _ => V.refl _

theorem Evolution.Out.bind {w : W} {o : Wastrum.Out W} {k : Cfg W → Wastrum.Out W} (h : V.Out w o) (hk : Evolves V k) : V.Out w (o.bind k) := by
  cases o with
  | norm c => exact (hk c).after h
  | _ => exact h

theorem Evolves.bind {f k : Cfg W → Wastrum.Out W} (hf : Evolves V f) (hk : Evolves V k) : Evolves V fun c => (f c).bind k := fun c => (hf c).bind hk

theorem Evolves.inBlock {f : Cfg W → Wastrum.Out W} (hf : Evolves V f) (t : FuncType) : Evolves V (Wastrum.inBlock t f) := by
  intro c
  unfold Wastrum.inBlock
  split
  · have := hf { c with stack := c.stack.take t.inputs.length }
    generalize f { c with stack := c.stack.take t.inputs.length } = o at this ⊢
    dsimp only at this ⊢
    cases o with
    | br l c' =>
      cases l with
      | zero => dsimp only; split <;> first | exact this | trivial
      | succ l => exact this
    | _ => exact this
  · trivial

theorem Evolves.iterate {f : Cfg W → Wastrum.Out W} (hf : Evolves V f) (t : FuncType) (n : Nat) : Evolves V (Wastrum.iterate t f n) := by
  induction n with
  | zero => intro c; trivial
  | succ n ih =>
    intro c
    have := hf c
    unfold Wastrum.iterate
    generalize f c = o at this ⊢
    cases o with
    | br l c' =>
      cases l with
      | zero =>
        dsimp only
        split
        · exact (ih { c' with stack := c'.stack.take t.inputs.length }).after this
        · trivial
      | succ l => exact this
    | _ => exact this

theorem Evolves.inLoop {f : Cfg W → Wastrum.Out W} (hf : Evolves V f) (t : FuncType) (L : Nat) : Evolves V (Wastrum.inLoop t f L) := by
  intro c
  unfold Wastrum.inLoop
  split
  · have := hf.iterate t L { c with stack := c.stack.take t.inputs.length }
    generalize Wastrum.iterate t f L { c with stack := c.stack.take t.inputs.length } = o at this ⊢
    dsimp only at this ⊢
    cases o <;> exact this
  · trivial

theorem Evolves.branchOn {f g : Cfg W → Wastrum.Out W} (hf : Evolves V f) (hg : Evolves V g) : Evolves V (Wastrum.branchOn f g) := by
  intro c
  unfold Wastrum.branchOn
  split
  · split
    · exact hg { c with stack := _ }
    · exact hf { c with stack := _ }
  · trivial

theorem doCall_evolves {E : Env W} (hE : CallEvolves V E.callF) (f : Nat) (ty : FuncType) : Evolves V (doCall E f ty) := by
  intro c
  unfold doCall
  split
  · have := hE f (c.stack.take ty.inputs.length).reverse c.store
    generalize E.callF f (c.stack.take ty.inputs.length).reverse c.store = r at this ⊢
    cases r with
    | ok vs s => dsimp only; split <;> first | exact this | trivial
    | _ => exact this
  · trivial

theorem step_evolves {E : Env W} (hE : CallEvolves V E.callF) (b : Basic) : Evolves V (step E b) := by
  have r : ∀ w, V.done w w := V.refl
  have q : ∀ w, V.cut w w := fun w => V.cut_of (V.refl w)
  intro c
  cases b
  case call f =>
    simp only [step]
    split
    · exact doCall_evolves hE _ _ c
    · trivial
  case callIndirect ty tbl =>
    simp only [step]
    split
    · split
      · split
        · split
          · exact doCall_evolves hE _ _ { c with stack := _ }
          · exact q _
        · exact q _
      · trivial
    · trivial
  case loc op i => cases op <;> simp only [step] <;> (repeat' split) <;> first | trivial | exact r _ | exact q _
  case glob op i => cases op <;> simp only [step] <;> (repeat' split) <;> first | trivial | exact r _ | exact q _
  all_goals simp only [step] <;> (repeat' split) <;> first | trivial | exact r _ | exact q _

theorem den_evolves {E : Env W} (hE : CallEvolves V E.callF) : (∀ i : HI, Evolves V (denI E i)) ∧ ∀ l : List HI, Evolves V (denL E l) := by
  apply HI.induct
  · intro b c; simpa only [denI] using step_evolves hE b c
  · intro t body ih c; simpa only [denI] using ih.inBlock t c
  · intro t body ih c; simpa only [denI] using ih.inLoop t _ c
  · intro t thn ih c; simpa only [denI] using (ih.inBlock t).branchOn (Evolves.norm.inBlock t) c
  · intro t thn els ih1 ih2 c; simpa only [denI] using (ih1.inBlock t).branchOn (ih2.inBlock t) c
  · intro c; simpa only [denL] using Evolves.norm c
  · intro i l h1 h2 c; simpa only [denL] using (h1 c).bind h2

theorem denFlat_evolves {E : Env W} (hE : CallEvolves V E.callF) (l : List LInstr) : Evolves V (denFlat E l) := by
  intro c
  unfold denFlat
  split
  · exact (den_evolves hE).2 _ c
  · trivial

theorem runBody_evolves {f : Cfg W → Wastrum.Out W} (hf : Evolves V f) (ty : FuncType) (locals : List ValType) (args : List RVal) (s : Store W) :
    V.Res s.world (runBody ty locals f args s) := by
  unfold runBody
  have := hf ⟨[], args ++ locals.map ValType.zero, s⟩
  generalize f ⟨[], args ++ locals.map ValType.zero, s⟩ = o at this ⊢
  cases o with
  | br l c' =>
    cases l with
    | zero => dsimp only; split <;> first | exact this | trivial
    | succ l => trivial
  | norm c' => dsimp only; split <;> first | exact this | trivial
  | ret c' => dsimp only; split <;> first | exact this | trivial
  | _ => exact this

/-! ## Annotated code -/

mutual
/-- `p` holds of the instruction and all instructions therein. -/
def TI.All (p : TI → Prop) : TI → Prop
  | .basic m b => p (.basic m b)
  | .block m t body => p (.block m t body) ∧ TI.AllL p body
  | .loop m t body => p (.loop m t body) ∧ TI.AllL p body
  | .ifThen m t thn => p (.ifThen m t thn) ∧ TI.AllL p thn
  | .ifElse m t thn els => p (.ifElse m t thn els) ∧ TI.AllL p thn ∧ TI.AllL p els
/-- `p` holds of all instructions of a body. -/
def TI.AllL (p : TI → Prop) : List TI → Prop
  | [] => True
  | i :: l => i.All p ∧ TI.AllL p l
end

/-- The questions asked at an instruction respect the evolution. -/
def NodeEvolves (V : Evolution W) (A : Asker W) : TI → Prop
  | .basic m b => Evolves V (A.basic m b)
  | .block m t _ => Evolves V (A.ask m .preBlock 0 (arityInfo t)) ∧ Evolves V (A.ask m .postBlock 0 [])
  | .loop m t _ => Evolves V (A.ask m .preLoop 0 (arityInfo t)) ∧ Evolves V (A.ask m .postLoop 0 [])
  | .ifThen m t _ => Evolves V (A.ask m .ifThenTrap 1 (arityInfo t)) ∧ Evolves V (A.ask m .ifThenPostTrap 0 [])
  | .ifElse m t _ _ => Evolves V (A.ask m .ifThenElseTrap 1 (arityInfo t)) ∧ Evolves V (A.ask m .ifThenElsePostTrap 0 [])

theorem gden_evolves {A : Asker W} {L : Nat} : (∀ i : TI, i.All (NodeEvolves V A) → Evolves V (gdenI A L i)) ∧
    ∀ l : List TI, TI.AllL (NodeEvolves V A) l → Evolves V (gdenL A L l) := by
  apply TI.induct
  · intro m b h c; simpa only [gdenI] using h c
  · intro m t body ih h c
    obtain ⟨⟨h1, h2⟩, h3⟩ := h
    simpa only [gdenI] using (h1.bind ((ih h3).bind h2)).inBlock t c
  · intro m t body ih h c
    obtain ⟨⟨h1, h2⟩, h3⟩ := h
    simpa only [gdenI] using (h1.bind ((ih h3).bind h2)).inLoop t L c
  · intro m t thn ih h c
    obtain ⟨⟨h1, h2⟩, h3⟩ := h
    simpa only [gdenI] using (h1 c).bind ((((ih h3).bind h2).inBlock t).branchOn (h2.inBlock t))
  · intro m t thn els ih1 ih2 h c
    obtain ⟨⟨h1, h2⟩, h3, h4⟩ := h
    simpa only [gdenI] using (h1 c).bind ((((ih1 h3).bind h2).inBlock t).branchOn (((ih2 h4).bind h2).inBlock t))
  · intro _ c; simpa only [gdenL] using Evolves.norm c
  · intro i l h1 h2 h c
    simpa only [gdenL] using (h1 h.1 c).bind (h2 h.2)

/-- A traced run respects the evolution if imported functions do and the events noted in targets do. -/
theorem traced_evolves {C : Checker} {m : Module} {targets : List Nat} {H : Imports W} {u : Trap → List RVal → W → W}
    (hH : ∀ f ∈ m.functions, ∀ ns name, f.code = .imported ns name → HostEvolves V (H ns name))
    (hn : ∀ E : Env W, CallEvolves V E.callF → ∀ i ∈ targets, TI.AllL (NodeEvolves V (noting E u)) (bodyOf C m i)) (N : Num) (L d : Nat) :
    CallEvolves V (callF N (traced C m targets H u) L d) := by
  induction d with
  | zero => intro f args s; trivial
  | succ d ih =>
    intro f args s
    unfold callF traced
    cases hf : m.functions[f]? with
    | none => trivial
    | some fn =>
      simp only [Option.map_some]
      cases hc : fn.code with
      | imported ns name => exact hH fn (List.mem_of_getElem? hf) ns name hc _ ih args s
      | present c =>
        refine runBody_evolves ?_ _ _ args s
        split
        · rename_i ht
          exact (gden_evolves.2 _ (hn _ ih f ht))
        · exact denFlat_evolves ih _

/-- What an instruction carries, as listed by C04. -/
def TI.headLoc : TI → Nat × Nat × Bool × LInstr
  | .basic m b => (m.fidx, m.iidx, m.flag, b.toL)
  | .block m t _ => (m.fidx, m.iidx, m.flag, .block t)
  | .loop m t _ => (m.fidx, m.iidx, m.flag, .loop t)
  | .ifThen m t _ => (m.fidx, m.iidx, m.flag, .ite t)
  | .ifElse m t _ _ => (m.fidx, m.iidx, m.flag, .ite t)

theorem all_of_locs {S : Nat × Nat × Bool × LInstr → Prop} : (∀ i : TI, (∀ e ∈ i.locs, S e) → i.All fun n => S n.headLoc) ∧
    ∀ l : List TI, (∀ e ∈ TI.locsL l, S e) → TI.AllL (fun n => S n.headLoc) l := by
  apply TI.induct
  · intro m b h; exact h _ (by simp [TI.locs, TI.headLoc])
  · intro m t body ih h
    exact ⟨h _ (by simp [TI.locs, TI.headLoc]), ih fun e he => h e (by simp only [TI.locs]; exact List.mem_cons_of_mem _ he)⟩
  · intro m t body ih h
    exact ⟨h _ (by simp [TI.locs, TI.headLoc]), ih fun e he => h e (by simp only [TI.locs]; exact List.mem_cons_of_mem _ he)⟩
  · intro m t body ih h
    exact ⟨h _ (by simp [TI.locs, TI.headLoc]), ih fun e he => h e (by simp only [TI.locs]; exact List.mem_cons_of_mem _ he)⟩
  · intro m t thn els ih1 ih2 h
    exact ⟨h _ (by simp [TI.locs, TI.headLoc]), ih1 fun e he => h e (by simp only [TI.locs]; exact List.mem_cons_of_mem _ (List.mem_append_left _ he)),
      ih2 fun e he => h e (by simp only [TI.locs]; exact List.mem_cons_of_mem _ (List.mem_append_right _ he))⟩
  · intro _; trivial
  · intro i l h1 h2 h
    exact ⟨h1 fun e he => h e (by simp only [TI.locsL]; exact List.mem_append_left _ he), h2 fun e he => h e (by simp only [TI.locsL]; exact List.mem_append_right _ he)⟩

theorem TI.All.imp {p q : TI → Prop} (h : ∀ n, p n → q n) : (∀ i : TI, i.All p → i.All q) ∧ ∀ l : List TI, TI.AllL p l → TI.AllL q l := by
  apply TI.induct
  · intro m b h1; exact h _ h1
  · intro m t body ih h1; exact ⟨h _ h1.1, ih h1.2⟩
  · intro m t body ih h1; exact ⟨h _ h1.1, ih h1.2⟩
  · intro m t body ih h1; exact ⟨h _ h1.1, ih h1.2⟩
  · intro m t thn els ih1 ih2 h1; exact ⟨h _ h1.1, ih1 h1.2.1, ih2 h1.2.2⟩
  · intro _; trivial
  · intro i l ih1 ih2 h1; exact ⟨ih1 h1.1, ih2 h1.2⟩

end Wastrum
