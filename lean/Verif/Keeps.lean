import Verif.Semantics
import Verif.NestingThms
/-!
# What code can reach

A program that only names certain functions, tables and element segments, and that only holds references to those functions, leaves
alone whatever else there is: other tables, and every aspect of the world that the functions it can call leave alone.
-/

set_option linter.unusedSimpArgs false
set_option linter.unusedVariables false

namespace Wastrum

variable {W : Type}

/-- What code may use: functions (with their types), tables and element segments; and what it must leave alone: the tables
it may not use, and some property of the world. -/
structure Realm (W : Type) where
  fn : Nat → Prop
  ft : Nat → Option FuncType
  tab : Nat → Prop
  el : Nat → Prop
  frozen : Nat → Option Table
  good : W → Prop

/-- References lead to functions of the realm only. -/
def RVal.In (ρ : Realm W) : RVal → Prop
  | .ref _ (some a) => ρ.fn a
  | _ => True

structure Store.In (ρ : Realm W) (s : Store W) : Prop where
  globals : ∀ v ∈ s.globals, v.In ρ
  tables : ∀ (i : Nat) T, ρ.tab i → s.tables[i]? = some T → ∀ a, some a ∈ T.elems → ρ.fn a
  elems : ∀ (e : Nat) u, ρ.el e → s.elems[e]? = some u → ∀ a, some a ∈ u.2 → ρ.fn a
  frozen : ∀ i : Nat, ¬ ρ.tab i → s.tables[i]? = ρ.frozen i
  good : ρ.good s.world

structure Cfg.In (ρ : Realm W) (c : Cfg W) : Prop where
  stack : ∀ v ∈ c.stack, v.In ρ
  locals : ∀ v ∈ c.locals, v.In ρ
  store : c.store.In ρ

def Out.Keeps (ρ : Realm W) (S : W → W → Prop) (s : Store W) : Out W → Prop
  | .norm c | .br _ c | .ret c => c.In ρ ∧ S s.world c.store.world
  | _ => True

def Res.Keeps (ρ : Realm W) (S : W → W → Prop) (s : Store W) : Res W → Prop
  | .ok vs s' => (∀ v ∈ vs, v.In ρ) ∧ s'.In ρ ∧ S s.world s'.world
  | _ => True

/-- Calls of the functions in `D` keep what must not change. -/
def CallsKeep (ρ : Realm W) (D : Nat → Prop) (S : W → W → Prop) (call : Nat → List RVal → Store W → Res W) : Prop :=
  ∀ k, D k → ∀ args s, (∀ ty, ρ.ft k = some ty → args.map RVal.type = ty.inputs) → (∀ v ∈ args, v.In ρ) → s.In ρ → (call k args s).Keeps ρ S s

/-- Instructions that name things of the realm only; direct calls may go to the functions in `D`. -/
def Basic.In (ρ : Realm W) (D : Nat → Prop) : Basic → Prop
  | .call f => D f
  | .refFunc f => ρ.fn f
  | .callIndirect _ t | .tableGet t | .tableSet t | .tableGrow t | .tableFill t => ρ.tab t
  | .tableCopy i j => ρ.tab i ∧ ρ.tab j
  | .tableInit i e => ρ.tab i ∧ ρ.el e
  | _ => True

mutual
def HI.In (ρ : Realm W) (D : Nat → Prop) : HI → Prop
  | .basic b => b.In ρ D
  | .block _ body | .loop _ body | .ifThen _ body => HI.InL ρ D body
  | .ifElse _ thn els => HI.InL ρ D thn ∧ HI.InL ρ D els
def HI.InL (ρ : Realm W) (D : Nat → Prop) : List HI → Prop
  | [] => True
  | i :: l => i.In ρ D ∧ HI.InL ρ D l
end

/-- Flat code that names things of the realm only. -/
def CodeIn (ρ : Realm W) (D : Nat → Prop) (code : List LInstr) : Prop := ∀ b : Basic, b.toL ∈ code → b.In ρ D

section
variable {ρ : Realm W} {D : Nat → Prop} {S : W → W → Prop}

theorem Out.Keeps.trans (ht : ∀ a b c, S a b → S b c → S a c) {s s' : Store W} (h : S s.world s'.world) {o : Out W} (ho : o.Keeps ρ S s') : o.Keeps ρ S s := by
  cases o with
  | norm c => exact ⟨ho.1, ht _ _ _ h ho.2⟩
  | br l c => exact ⟨ho.1, ht _ _ _ h ho.2⟩
  | ret c => exact ⟨ho.1, ht _ _ _ h ho.2⟩
  | _ => trivial

theorem in_lowerL : (∀ i : HI, (∀ b : Basic, b.toL ∈ i.lower → b.In ρ D) → i.In ρ D) ∧ (∀ l : List HI, (∀ b : Basic, b.toL ∈ HI.lowerL l → b.In ρ D) → HI.InL ρ D l) := by
  apply HI.lower.mutual_induct
  all_goals simp only [HI.lower, HI.lowerL, HI.In, HI.InL]
  · intro b h; exact h b (by simp)
  · intro t body ih h; exact ih fun b hb => h b (by simp [hb])
  · intro t body ih h; exact ih fun b hb => h b (by simp [hb])
  · intro t body ih h; exact ih fun b hb => h b (by simp [hb])
  · intro t a b ih1 ih2 h; exact ⟨ih1 fun b hb => h b (by simp [hb]), ih2 fun b hb => h b (by simp [hb])⟩
  · intro _; trivial
  · intro i l ih1 ih2 h; exact ⟨ih1 fun b hb => h b (by simp [hb]), ih2 fun b hb => h b (by simp [hb])⟩

variable (hr : ∀ w, S w w) (ht : ∀ a b c, S a b → S b c → S a c)
include hr

theorem keeps_norm {c : Cfg W} {st lo : List RVal} (hs : ∀ v ∈ st, v.In ρ) (hl : ∀ v ∈ lo, v.In ρ) (h : c.store.In ρ) :
    (Out.norm ⟨st, lo, c.store⟩ : Out W).Keeps ρ S c.store := ⟨⟨hs, hl, h⟩, hr _⟩

theorem keeps_mem {c : Cfg W} {st lo : List RVal} (hs : ∀ v ∈ st, v.In ρ) (hl : ∀ v ∈ lo, v.In ρ) (h : c.store.In ρ) (i : Nat) (m : Mem) :
    (Out.norm ⟨st, lo, c.store.setMem i m⟩ : Out W).Keeps ρ S c.store := ⟨⟨hs, hl, ⟨h.globals, h.tables, h.elems, h.frozen, h.good⟩⟩, hr _⟩

theorem keeps_table {c : Cfg W} {st lo : List RVal} (hs : ∀ v ∈ st, v.In ρ) (hl : ∀ v ∈ lo, v.In ρ) (h : c.store.In ρ) {i : Nat} {es : List (Option Nat)} (hi : ρ.tab i)
    (he : ∀ a, some a ∈ es → ρ.fn a) : (Out.norm ⟨st, lo, c.store.setTable i es⟩ : Out W).Keeps ρ S c.store := by
  refine ⟨⟨hs, hl, ⟨h.globals, ?_, h.elems, ?_, h.good⟩⟩, hr _⟩
  · intro k T hk hT
    simp only [Store.setTable, List.getElem?_modify] at hT
    by_cases e : i = k
    · simp only [if_pos e] at hT
      obtain ⟨T0, hT0, rfl⟩ := Option.map_eq_some_iff.1 hT
      exact he
    · simp only [if_neg e] at hT
      obtain ⟨T0, hT0, rfl⟩ := Option.map_eq_some_iff.1 hT
      exact h.tables k _ hk hT0
  · intro k hk
    simp only [Store.setTable, List.getElem?_modify]
    have : i ≠ k := fun e => hk (e ▸ hi)
    simp only [if_neg this]
    rw [← h.frozen k hk]
    simp

omit hr in
theorem splice_mem {α : Type} {l r : List α} {d : Nat} {a : α} (h : a ∈ splice l d r) : a ∈ l ∨ a ∈ r := by
  simp only [splice, List.mem_append] at h
  rcases h with (h | h) | h
  · exact .inl (List.mem_of_mem_take h)
  · exact .inr h
  · exact .inl (List.mem_of_mem_drop h)

omit hr in
theorem doCall_keeps {E : Env W} {k : Nat} {ty : FuncType} {c : Cfg W} (hk : D k) (hty : ρ.ft k = some ty) (hc : c.In ρ) (hE : CallsKeep ρ D S E.callF) :
    (doCall E k ty c).Keeps ρ S c.store := by
  unfold doCall
  split
  · rename_i hargs
    have := hE k hk (c.stack.take ty.inputs.length).reverse c.store (fun ty' h => by rw [hty] at h; cases h; exact hargs) (fun v hv => hc.stack v (List.mem_of_mem_take (List.mem_reverse.1 hv))) hc.store
    cases he : E.callF k (c.stack.take ty.inputs.length).reverse c.store with
    | ok vs s =>
      rw [he] at this
      dsimp only
      split
      · refine ⟨⟨?_, hc.locals, this.2.1⟩, this.2.2⟩
        intro v hv
        rcases List.mem_append.1 hv with h | h
        · exact this.1 v (List.mem_reverse.1 h)
        · exact hc.stack v (List.mem_of_mem_drop h)
      · trivial
    | _ => trivial
  · trivial

theorem step_keeps {E : Env W} (hD : ∀ k, ρ.fn k → D k) (hft : E.ftype = ρ.ft) {b : Basic} {c : Cfg W} (hb : b.In ρ D) (hc : c.In ρ) (hE : CallsKeep ρ D S E.callF) :
    (step E b c).Keeps ρ S c.store := by
  obtain ⟨st, lo, s⟩ := c
  obtain ⟨hst, hlo, hsto⟩ := hc
  dsimp only at hst hlo hsto ⊢
  cases b with
  | call f =>
    simp only [step]
    split
    · rename_i ty hty
      exact doCall_keeps hb (hft ▸ hty) ⟨hst, hlo, hsto⟩ hE
    · trivial
  | callIndirect ty tbl =>
    simp only [step]
    split
    · rename_i x st'
      split
      · rename_i T hT
        split
        · rename_i f hf
          split
          · rename_i hty
            refine doCall_keeps (c := ⟨st', lo, s⟩) (hD _ <| hsto.tables tbl T hb hT f (List.mem_of_getElem? hf)) (hft ▸ hty) ⟨fun v hv => hst v (List.mem_cons_of_mem _ hv), hlo, hsto⟩ hE
          · trivial
        · trivial
      · trivial
    · trivial
  | loc op i =>
    cases op <;> simp only [step] <;> (repeat' split) <;> try trivial
    · rename_i v hv
      refine keeps_norm (c := ⟨[], lo, s⟩) hr ?_ hlo hsto
      intro w hw
      rcases List.mem_cons.1 hw with rfl | hw
      · exact hlo _ (List.mem_of_getElem? hv)
      · exact hst _ hw
    · rename_i v st' _
      refine keeps_norm (c := ⟨[], lo, s⟩) hr (fun v hv => hst v (List.mem_cons_of_mem _ hv)) ?_ hsto
      intro w hw
      rcases List.mem_or_eq_of_mem_set hw with h | rfl
      · exact hlo _ h
      · exact hst _ List.mem_cons_self
    · rename_i v st' _
      refine keeps_norm (c := ⟨[], lo, s⟩) hr hst ?_ hsto
      intro w hw
      rcases List.mem_or_eq_of_mem_set hw with h | rfl
      · exact hlo _ h
      · exact hst _ List.mem_cons_self
  | glob op i =>
    cases op <;> simp only [step] <;> (repeat' split) <;> try trivial
    · rename_i v hv
      refine keeps_norm (c := ⟨[], lo, s⟩) hr ?_ hlo hsto
      intro w hw
      rcases List.mem_cons.1 hw with rfl | hw
      · exact hsto.globals _ (List.mem_of_getElem? hv)
      · exact hst _ hw
    · rename_i v st' _
      refine ⟨⟨fun v hv => hst v (List.mem_cons_of_mem _ hv), hlo, ⟨?_, hsto.tables, hsto.elems, hsto.frozen, hsto.good⟩⟩, hr _⟩
      intro w hw
      rcases List.mem_or_eq_of_mem_set hw with h | rfl
      · exact hsto.globals _ h
      · exact hst _ List.mem_cons_self
  | refFunc f =>
    refine keeps_norm (c := ⟨[], lo, s⟩) hr ?_ hlo hsto
    intro w hw
    rcases List.mem_cons.1 hw with rfl | hw
    · exact hb
    · exact hst _ hw
  | tableGet i =>
    simp only [step]
    (repeat' split) <;> try trivial
    rename_i x st' _ T hT _ a ha
    refine keeps_norm (c := ⟨[], lo, s⟩) hr ?_ hlo hsto
    intro w hw
    rcases List.mem_cons.1 hw with rfl | hw
    · cases a with
      | none => trivial
      | some a => exact hsto.tables i T hb hT a (List.mem_of_getElem? ha)
    · exact hst _ (List.mem_cons_of_mem _ hw)
  | tableSet i =>
    simp only [step]
    (repeat' split) <;> try trivial
    rename_i rt a x st' _ T hT _
    refine keeps_table (c := ⟨[], lo, s⟩) hr (fun v hv => hst v (List.mem_cons_of_mem _ (List.mem_cons_of_mem _ hv))) hlo hsto hb ?_
    intro b hm
    rcases List.mem_or_eq_of_mem_set hm with h | h
    · exact hsto.tables i T hb hT b h
    · subst h
      exact hst (.ref rt (some b)) List.mem_cons_self
  | tableGrow i =>
    simp only [step]
    (repeat' split) <;> try trivial
    · rename_i n rt a st' _ T hT _
      refine keeps_table (c := ⟨[], lo, s⟩) hr ?_ hlo hsto hb ?_
      · intro w hw
        rcases List.mem_cons.1 hw with rfl | hw
        · trivial
        · exact hst w (List.mem_cons_of_mem _ (List.mem_cons_of_mem _ hw))
      · intro b hm
        rcases List.mem_append.1 hm with h | h
        · exact hsto.tables i T hb hT b h
        · obtain ⟨_, rfl⟩ := List.mem_replicate.1 h
          exact hst (.ref rt (some b)) (List.mem_cons_of_mem _ List.mem_cons_self)
    · rename_i n rt a st' _ T hT _
      refine keeps_norm (c := ⟨[], lo, s⟩) hr ?_ hlo hsto
      intro w hw
      rcases List.mem_cons.1 hw with rfl | hw
      · trivial
      · exact hst w (List.mem_cons_of_mem _ (List.mem_cons_of_mem _ hw))
  | tableFill i =>
    simp only [step]
    (repeat' split) <;> try trivial
    rename_i n rt a x st' _ T hT _
    refine keeps_table (c := ⟨[], lo, s⟩) hr (fun v hv => hst v (by simp [hv])) hlo hsto hb ?_
    intro b hm
    rcases splice_mem hm with h | h
    · exact hsto.tables i T hb hT b h
    · obtain ⟨_, rfl⟩ := List.mem_replicate.1 h
      exact hst (.ref rt (some b)) (by simp)
  | tableCopy i j =>
    simp only [step]
    (repeat' split) <;> try trivial
    rename_i n x y st' _ _ T U hT hU _
    refine keeps_table (c := ⟨[], lo, s⟩) hr (fun v hv => hst v (by simp [hv])) hlo hsto hb.1 ?_
    intro b hm
    rcases splice_mem hm with h | h
    · exact hsto.tables i T hb.1 hT b h
    · exact hsto.tables j U hb.2 hU b (List.mem_of_mem_drop (List.mem_of_mem_take h))
  | tableInit i e =>
    simp only [step]
    (repeat' split) <;> try trivial
    rename_i n x y st' _ _ T U hT hU _
    refine keeps_table (c := ⟨[], lo, s⟩) hr (fun v hv => hst v (by simp [hv])) hlo hsto hb.1 ?_
    intro b hm
    rcases splice_mem hm with h | h
    · exact hsto.tables i T hb.1 hT b h
    · exact hsto.elems e U hb.2 hU b (List.mem_of_mem_drop (List.mem_of_mem_take h))
  | elemDrop e =>
    refine ⟨⟨hst, hlo, ⟨hsto.globals, hsto.tables, ?_, hsto.frozen, hsto.good⟩⟩, hr _⟩
    intro k u hk hu
    simp only [step, List.getElem?_modify] at hu
    obtain ⟨u0, hu0, rfl⟩ := Option.map_eq_some_iff.1 hu
    split
    · intro a ha; simp at ha
    · exact hsto.elems k _ hk hu0
  | dataDrop x => exact ⟨⟨hst, hlo, ⟨hsto.globals, hsto.tables, hsto.elems, hsto.frozen, hsto.good⟩⟩, hr _⟩
  | _ =>
    simp only [step]
    (repeat' split) <;> first
      | trivial
      | (refine ⟨⟨?_, hlo, ⟨hsto.globals, hsto.tables, hsto.elems, hsto.frozen, hsto.good⟩⟩, hr _⟩
         intro v hv
         first
         | exact hst v hv
         | exact hst v (by simp only [List.mem_cons]; exact .inr hv)
         | exact hst v (by simp only [List.mem_cons]; exact .inr (.inr hv))
         | exact hst v (by simp only [List.mem_cons]; exact .inr (.inr (.inr hv)))
         | (rcases List.mem_cons.1 hv with rfl | hv
            · first
              | trivial
              | exact hst _ (by simp)
            · first
              | exact hst v hv
              | exact hst v (by simp only [List.mem_cons]; exact .inr hv)
              | exact hst v (by simp only [List.mem_cons]; exact .inr (.inr hv))
              | exact hst v (by simp only [List.mem_cons]; exact .inr (.inr (.inr hv)))))

include ht

/-- A piece of code keeps what must not change. -/
def Preserves (ρ : Realm W) (S : W → W → Prop) (f : Cfg W → Out W) : Prop := ∀ c, c.In ρ → (f c).Keeps ρ S c.store

omit ht in
theorem preserves_norm : Preserves ρ S (Out.norm : Cfg W → Out W) := fun c hc => ⟨hc, hr _⟩

omit hr in
theorem Out.Keeps.bind {s : Store W} {o : Out W} {f : Cfg W → Out W} (ho : o.Keeps ρ S s) (hf : Preserves ρ S f) : (o.bind f).Keeps ρ S s := by
  cases o with
  | norm c => exact (hf c ho.1).trans ht ho.2
  | br l c => exact ho
  | ret c => exact ho
  | _ => trivial

omit hr ht in
theorem inBlock_preserves {t : FuncType} {f : Cfg W → Out W} (hf : Preserves ρ S f) : Preserves ρ S (inBlock t f) := by
  intro c hc
  unfold inBlock
  split
  · have := hf { c with stack := c.stack.take t.inputs.length } ⟨fun v hv => hc.stack v (List.mem_of_mem_take hv), hc.locals, hc.store⟩
    dsimp only at this ⊢
    cases ho : f { c with stack := c.stack.take t.inputs.length } with
    | norm c' =>
      rw [ho] at this
      refine ⟨⟨?_, this.1.locals, this.1.store⟩, this.2⟩
      intro v hv
      rcases List.mem_append.1 hv with h | h
      · exact this.1.stack v h
      · exact hc.stack v (List.mem_of_mem_drop h)
    | br l c' =>
      rw [ho] at this
      cases l with
      | zero =>
        dsimp only
        split
        · refine ⟨⟨?_, this.1.locals, this.1.store⟩, this.2⟩
          intro v hv
          rcases List.mem_append.1 hv with h | h
          · exact this.1.stack v (List.mem_of_mem_take h)
          · exact hc.stack v (List.mem_of_mem_drop h)
        · trivial
      | succ l => exact this
    | ret c' => rw [ho] at this; exact this
    | _ => trivial
  · trivial

omit hr in
theorem iterate_preserves {t : FuncType} {f : Cfg W → Out W} (hf : Preserves ρ S f) (k : Nat) : Preserves ρ S (iterate t f k) := by
  induction k with
  | zero => intro c hc; trivial
  | succ k ih =>
    intro c hc
    have := hf c hc
    unfold iterate
    cases ho : f c with
    | norm c' => rw [ho] at this; exact this
    | br l c' =>
      rw [ho] at this
      cases l with
      | zero =>
        dsimp only
        split
        · exact (ih { c' with stack := c'.stack.take t.inputs.length } ⟨fun v hv => this.1.stack v (List.mem_of_mem_take hv), this.1.locals, this.1.store⟩).trans ht this.2
        · trivial
      | succ l => exact this
    | ret c' => rw [ho] at this; exact this
    | _ => trivial

omit hr in
theorem inLoop_preserves {t : FuncType} {f : Cfg W → Out W} (hf : Preserves ρ S f) (k : Nat) : Preserves ρ S (inLoop t f k) := by
  intro c hc
  unfold inLoop
  split
  · have := iterate_preserves ht (t := t) hf k { c with stack := c.stack.take t.inputs.length } ⟨fun v hv => hc.stack v (List.mem_of_mem_take hv), hc.locals, hc.store⟩
    dsimp only at this ⊢
    cases ho : iterate t f k { c with stack := c.stack.take t.inputs.length } with
    | norm c' =>
      rw [ho] at this
      refine ⟨⟨?_, this.1.locals, this.1.store⟩, this.2⟩
      intro v hv
      rcases List.mem_append.1 hv with h | h
      · exact this.1.stack v h
      · exact hc.stack v (List.mem_of_mem_drop h)
    | br l c' => rw [ho] at this; exact this
    | ret c' => rw [ho] at this; exact this
    | _ => trivial
  · trivial

omit hr ht in
theorem branchOn_preserves {f g : Cfg W → Out W} (hf : Preserves ρ S f) (hg : Preserves ρ S g) : Preserves ρ S (branchOn f g) := by
  intro c hc
  unfold branchOn
  split
  · rename_i x st hx
    have : ({ c with stack := st } : Cfg W).In ρ := ⟨fun v hv => hc.stack v (by rw [hx]; exact List.mem_cons_of_mem _ hv), hc.locals, hc.store⟩
    split
    · exact hg _ this
    · exact hf _ this
  · trivial

/-- Code that names things of the realm only preserves what must not change if the functions of the realm do. -/
theorem den_preserves {E : Env W} (hD : ∀ k, ρ.fn k → D k) (hft : E.ftype = ρ.ft) (hE : CallsKeep ρ D S E.callF) : (∀ i : HI, i.In ρ D → Preserves ρ S (denI E i)) ∧ (∀ l : List HI, HI.InL ρ D l → Preserves ρ S (denL E l)) := by
  apply HI.lower.mutual_induct
  · intro b hb c hc; exact step_keeps hr hD hft hb hc hE
  · intro t body ih h c hc; exact inBlock_preserves (ih h) c hc
  · intro t body ih h c hc; exact inLoop_preserves ht (ih h) _ c hc
  · intro t body ih h c hc; exact branchOn_preserves (inBlock_preserves (ih h)) (inBlock_preserves (preserves_norm hr)) c hc
  · intro t a b ih1 ih2 h c hc; exact branchOn_preserves (inBlock_preserves (ih1 h.1)) (inBlock_preserves (ih2 h.2)) c hc
  · intro _ c hc; exact ⟨hc, hr _⟩
  · intro i l ih1 ih2 h c hc; exact (ih1 h.1 c hc).bind ht (ih2 h.2)

theorem denFlat_preserves {E : Env W} (hD : ∀ k, ρ.fn k → D k) (hft : E.ftype = ρ.ft) (hE : CallsKeep ρ D S E.callF) {code : List LInstr} (hc : CodeIn ρ D code) : Preserves ρ S (denFlat E code) := by
  intro c hcfg
  unfold denFlat
  split
  · rename_i body hb
    have hl := C02_lower_raise _ _ hb
    exact (den_preserves hr ht hD hft hE).2 body (in_lowerL.2 body fun b hm => hc b (by rw [← hl, lower]; exact List.mem_append_left _ hm)) c hcfg
  · trivial

omit hr ht in
theorem runBody_keeps {ty : FuncType} {locals : List ValType} {f : Cfg W → Out W} (hf : Preserves ρ S f) {args : List RVal} {s : Store W} (ha : ∀ v ∈ args, v.In ρ)
    (hs : s.In ρ) : (runBody ty locals f args s).Keeps ρ S s := by
  have hz : ∀ v : ValType, v.zero.In ρ := by intro v; cases v <;> trivial
  have := hf ⟨[], args ++ locals.map ValType.zero, s⟩ ⟨by simp, fun v hv => by
    rcases List.mem_append.1 hv with h | h
    · exact ha v h
    · obtain ⟨w, _, rfl⟩ := List.mem_map.1 h; exact hz w, hs⟩
  unfold runBody
  cases ho : f ⟨[], args ++ locals.map ValType.zero, s⟩ with
  | norm c =>
    rw [ho] at this
    dsimp only
    split
    · exact ⟨fun v hv => this.1.stack v (List.mem_reverse.1 hv), this.1.store, this.2⟩
    · trivial
  | br l c =>
    rw [ho] at this
    cases l with
    | zero =>
      dsimp only
      split
      · exact ⟨fun v hv => this.1.stack v (List.mem_of_mem_take (List.mem_reverse.1 hv)), this.1.store, this.2⟩
      · trivial
    | succ l => trivial
  | ret c =>
    rw [ho] at this
    dsimp only
    split
    · exact ⟨fun v hv => this.1.stack v (List.mem_of_mem_take (List.mem_reverse.1 hv)), this.1.store, this.2⟩
    · trivial
  | _ => trivial

end

end Wastrum
