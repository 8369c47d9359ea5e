import Verif.Sim
/-!
# Single instructions keep two executions in step (supporting lemmas)
-/

set_option linter.unusedSimpArgs false
set_option linter.unusedVariables false

namespace Wastrum

variable {W W' : Type} {Γ : Ctx}

/-- The elements of a table or segment of function references refer to functions of the program. -/
def RefsOK (Γ : Ctx) (r : RefType) (es : List (Option Nat)) : Prop := r = .funcRef → ∀ f, some f ∈ es → ∃ ty, Γ.ftype f = some ty

/-- A memory has, and may grow to, at most 65536 pages (2^32 bytes). -/
def Mem.Bounded (x : Mem) : Prop := x.pages ≤ 65536 ∧ x.limit ≤ 65536

/-- A store fits the declarations of a program: globals, memories, tables and segments are as many and of the types
declared, and function references refer to functions of the program. -/
structure StoreOK (Γ : Ctx) (s : Store W) : Prop where
  globals : ValsOK Γ s.globals (Γ.globals.map (·.1))
  mems : s.mems.length = Γ.mems
  tables : s.tables.map (·.ref) = Γ.tables
  tableElems : ∀ t ∈ s.tables, RefsOK Γ t.ref t.elems
  datas : s.datas.length = Γ.datas
  elems : s.elems.map (·.1) = Γ.elems
  elemElems : ∀ e ∈ s.elems, RefsOK Γ e.1 e.2
  pages : ∀ x ∈ s.mems, x.Bounded

/-- The same program state in another world, with further tables and segments behind those of the program. -/
def Store.extend (s : Store W) (T : List Table) (X : List (RefType × List (Option Nat))) (w : W') : Store W' where
  globals := s.globals
  mems := s.mems
  tables := s.tables ++ T
  datas := s.datas
  elems := s.elems ++ X
  world := w

/-- Stores that agree on everything that belongs to the program (which fits its declarations); the worlds are related by
`Q`, and the second store has further tables `T` and element segments `X`. -/
def SameState (Γ : Ctx) (T : List Table) (X : List (RefType × List (Option Nat))) (Q : W → W' → Prop) (s : Store W) (s' : Store W') : Prop :=
  StoreOK Γ s ∧ ∃ w, Q s.world w ∧ s' = s.extend T X w

/-- The rest of the surroundings is related: same arithmetic, function types and bounds; calls of functions of the
program on related stores give related results. -/
structure Rel.Envs (R : Rel W W') (Γ : Ctx) (E : Env W) (E' : Env W') : Prop where
  num : E'.num = E.num
  loopFuel : E'.loopFuel = E.loopFuel
  ftype : ∀ f ty, Γ.ftype f = some ty → E.ftype f = some ty ∧ E'.ftype f = some ty
  callF : ∀ f ty args s s', Γ.ftype f = some ty → ValsOK Γ args ty.inputs → R.S s s' →
    R.Ress Γ ty.results (E.callF f args s) (E'.callF f args s')

theorem doCall_sim {R : Rel W W'} {E : Env W} {E' : Env W'} {f ty r c c'} (hE : R.Envs Γ E E') (hf : Γ.ftype f = some ty)
    (h : R.Cfgs Γ (ty.inputs.reverse ++ r) c c') : R.Outs Γ (ty.results.reverse ++ r) (doCall E f ty c) (doCall E' f ty c') := by
  obtain ⟨h1, h2⟩ := h.stackOK.split
  simp only [List.length_reverse] at h1 h2
  have h3 := h1.reverse
  rw [List.reverse_reverse] at h3
  unfold doCall
  rw [h.stack, if_pos h3.1, if_pos h3.1]
  have := hE.callF f ty _ _ _ hf h3 h.store
  generalize E.callF f _ _ = o at this ⊢
  generalize E'.callF f _ _ = o' at this ⊢
  cases this with
  | @ok vs s s' hv hs =>
    dsimp only
    rw [if_pos hv.1, if_pos hv.1]
    exact .norm ⟨rfl, h.locals, hs, hv.reverse.append h2, h.localsOK⟩
  | trap hs => exact .trap hs
  | fuel => exact .fuel
  | fuelL h => exact .fuelL h
  | fuelR h => exact .fuelR h
  | trapL h => exact .trapL h
  | trapT h => exact .trapT h
  | trapR h => exact .trapR h

theorem modify_append_left {α : Type} (a b : List α) (i : Nat) (f : α → α) (h : i < a.length) : (a ++ b).modify i f = a.modify i f ++ b := by
  apply List.ext_getElem?
  intro j
  by_cases hj : j < a.length
  · rw [List.getElem?_append_left (by simpa using hj)]
    simp only [List.getElem?_modify]
    rw [List.getElem?_append_left hj]
  · rw [List.getElem?_append_right (by simpa using hj)]
    simp only [List.getElem?_modify, List.length_modify]
    have : ¬ i = j := by omega
    simp only [this, if_false]
    rw [List.getElem?_append_right (by omega)]
    simp

theorem SameState.step {T X} {Q : W → W' → Prop} {s s2 : Store W} {s' : Store W'} {w} (h : Q s.world w) (hw : s2.world = s.world)
    (hok : StoreOK Γ s2) (he : s' = s2.extend T X w) : SameState Γ T X Q s2 s' := ⟨hok, w, hw ▸ h, he⟩

theorem StoreOK.setMem {s : Store W} (h : StoreOK Γ s) (i : Nat) {m : Mem} (hm : m.Bounded) : StoreOK Γ (s.setMem i m) := by
  refine ⟨h.1, by simpa [Store.setMem] using h.2, h.3, h.4, h.5, h.6, h.7, fun x hx => ?_⟩
  rcases List.mem_or_eq_of_mem_set hx with h1 | rfl
  · exact h.pages x h1
  · exact hm

theorem Mem.Bounded.setBytes {m : Mem} {d n f} (h : m.Bounded) : (m.setBytes d n f).Bounded := h

theorem Mem.Bounded.store {m m' : Mem} {op ea v} (h : m.Bounded) (e : m.store op ea v = some m') : m'.Bounded := by
  unfold Mem.store at e
  split at e <;> cases e
  exact h

theorem Mem.Bounded.grow {m m' : Mem} {n} (h : m.Bounded) (e : m.grow n = some m') : m'.Bounded := by
  unfold Mem.grow at e
  split at e <;> cases e
  exact ⟨Nat.le_trans (by assumption) h.2, h.2⟩

theorem StoreOK.setGlobal {s : Store W} (h : StoreOK Γ s) {i : Nat} {v : RVal} {t mu} (hi : Γ.globals[i]? = some (t, mu)) (ht : v.type = t)
    (hv : v.OK Γ) : StoreOK Γ { s with globals := s.globals.set i v } := by
  refine ⟨⟨?_, ?_⟩, h.2, h.3, h.4, h.5, h.6, h.7, h.8⟩
  · dsimp only
    rw [List.map_set, h.globals.1, ht]
    apply List.ext_getElem?
    intro j
    simp only [List.getElem?_set, List.length_map]
    split
    · rename_i hij
      subst hij
      obtain ⟨hlt, hge⟩ := List.getElem?_eq_some_iff.1 hi
      simp [hlt, hge]
    · rfl
  · intro w hw
    rcases List.mem_or_eq_of_mem_set hw with h1 | rfl
    · exact h.globals.2 _ h1
    · exact hv

theorem StoreOK.setTable {s : Store W} (h : StoreOK Γ s) {i : Nat} {es : List (Option Nat)} {t : Table} (ht : s.tables[i]? = some t)
    (hes : RefsOK Γ t.ref es) : StoreOK Γ (s.setTable i es) := by
  refine ⟨h.1, h.2, ?_, ?_, h.5, h.6, h.7, h.8⟩
  · rw [← h.tables]
    simp only [Store.setTable]
    apply List.ext_getElem?
    intro j
    simp only [List.getElem?_map, List.getElem?_modify]
    split <;> cases s.tables[j]? <;> rfl
  · intro u hu
    obtain ⟨j, hj⟩ := List.getElem?_of_mem hu
    simp only [Store.setTable, List.getElem?_modify] at hj
    split at hj
    · rename_i hij
      subst hij
      rw [ht] at hj
      cases hj
      exact hes
    · have hj : s.tables[j]? = some u := by cases hs : s.tables[j]? <;> rw [hs] at hj <;> cases hj; rfl
      exact h.tableElems u (List.mem_of_getElem? hj)

theorem extend_setTable (s : Store W) {T X} {w : W'} {i : Nat} {es} (hi : i < s.tables.length) :
    (s.extend T X w).setTable i es = (s.setTable i es).extend T X w := by
  simp only [Store.extend, Store.setTable]
  rw [modify_append_left _ _ _ _ hi]

theorem extend_tables (s : Store W) {T X} {w : W'} {i : Nat} (hi : i < s.tables.length) : (s.extend T X w).tables[i]? = s.tables[i]? := by
  simp only [Store.extend]; rw [List.getElem?_append_left hi]

theorem extend_elems (s : Store W) {T X} {w : W'} {i : Nat} (hi : i < s.elems.length) : (s.extend T X w).elems[i]? = s.elems[i]? := by
  simp only [Store.extend]; rw [List.getElem?_append_left hi]

theorem StoreOK.table {s : Store W} (h : StoreOK Γ s) {i : Nat} {r} (hi : Γ.tables[i]? = some r) :
    ∃ t, s.tables[i]? = some t ∧ t.ref = r ∧ i < s.tables.length ∧ RefsOK Γ t.ref t.elems := by
  rw [← h.tables, List.getElem?_map, Option.map_eq_some_iff] at hi
  obtain ⟨t, ht, hr⟩ := hi
  exact ⟨t, ht, hr, (List.getElem?_eq_some_iff.1 ht).1, h.tableElems t (List.mem_of_getElem? ht)⟩

theorem StoreOK.elem {s : Store W} (h : StoreOK Γ s) {i : Nat} {r} (hi : Γ.elems[i]? = some r) :
    ∃ t, s.elems[i]? = some t ∧ t.1 = r ∧ i < s.elems.length ∧ RefsOK Γ t.1 t.2 := by
  rw [← h.elems, List.getElem?_map, Option.map_eq_some_iff] at hi
  obtain ⟨t, ht, hr⟩ := hi
  exact ⟨t, ht, hr, (List.getElem?_eq_some_iff.1 ht).1, h.elemElems t (List.mem_of_getElem? ht)⟩

theorem StoreOK.mem {s : Store W} (h : StoreOK Γ s) {i : Nat} (hi : i < Γ.mems) : ∃ m, s.mems[i]? = some m :=
  ⟨_, List.getElem?_eq_getElem (by rw [h.mems]; exact hi)⟩

theorem StoreOK.data {s : Store W} (h : StoreOK Γ s) {i : Nat} (hi : i < Γ.datas) : ∃ m, s.datas[i]? = some m :=
  ⟨_, List.getElem?_eq_getElem (by rw [h.datas]; exact hi)⟩

theorem RefsOK.get {r : RefType} {es : List (Option Nat)} {x : Nat} {a} (h : RefsOK Γ r es) (hx : es[x]? = some a) : (RVal.ref r a).OK Γ := by
  intro f hf
  injection hf with h1 h2
  subst h2
  exact h h1 f (List.mem_of_getElem? hx)

theorem RefsOK.splice {r : RefType} {es fs : List (Option Nat)} {d} (h : RefsOK Γ r es) (hf : RefsOK Γ r fs) : RefsOK Γ r (splice es d fs) := by
  intro hr f hm
  simp only [Wastrum.splice, List.mem_append] at hm
  rcases hm with (hm | hm) | hm
  · exact h hr f (List.mem_of_mem_take hm)
  · exact hf hr f hm
  · exact h hr f (List.mem_of_mem_drop hm)

theorem RefsOK.sub {r : RefType} {es fs : List (Option Nat)} (h : RefsOK Γ r es) (hs : ∀ x ∈ fs, x ∈ es) : RefsOK Γ r fs :=
  fun hr f hm => h hr f (hs _ hm)

theorem RefsOK.replicate {r : RefType} {a : Option Nat} {n : Nat} (h : (RVal.ref r a).OK Γ) : RefsOK Γ r (List.replicate n a) := by
  intro hr f hm
  have := List.eq_of_mem_replicate hm
  subst this hr
  exact h f rfl

theorem RVal.type_ref {v : RVal} {r} (h : v.type = .ref r) : ∃ a, v = .ref r a := by
  cases v with
  | num v => cases v <;> simp [RVal.type, Val.type] at h
  | ref r' a => simp only [RVal.type, ValType.ref.injEq] at h; subst h; exact ⟨a, rfl⟩

theorem RVal.type_num {v : RVal} {t} (h : v.type = t) (ht : ∀ r, t ≠ .ref r) : ∃ x, v = .num x ∧ x.type = t := by
  cases v with
  | num v => exact ⟨v, rfl, h⟩
  | ref r a => exact absurd h.symm (ht r)

theorem LoadOp.ty_num (op : LoadOp) : ∀ r, op.ty ≠ .ref r := by intro r; cases op <;> simp [LoadOp.ty]
theorem StoreOp.ty_num (op : StoreOp) : ∀ r, op.ty ≠ .ref r := by intro r; cases op <;> simp [StoreOp.ty]
theorem UnaryOp.sig_num (op : UnaryOp) : (∀ r, op.sig.1 ≠ .ref r) := by intro r; cases op <;> simp [UnaryOp.sig]
theorem BinaryOp.sig_num (op : BinaryOp) : (∀ r, op.sig.1 ≠ .ref r) := by intro r; cases op <;> simp [BinaryOp.sig]
theorem LoadOp.decode_type (op : LoadOp) (x : Nat) : (op.decode x).type = op.ty := by cases op <;> rfl

theorem ValsOK.get {vs : List RVal} {ts : List ValType} {i : Nat} {t} (h : ValsOK Γ vs ts) (hi : ts[i]? = some t) :
    ∃ v, vs[i]? = some v ∧ v.type = t ∧ v.OK Γ := by
  rw [← h.1, List.getElem?_map, Option.map_eq_some_iff] at hi
  obtain ⟨v, hv, ht⟩ := hi
  exact ⟨v, hv, ht, h.2 v (List.mem_of_getElem? hv)⟩

theorem ValsOK.set {vs : List RVal} {ts : List ValType} {i : Nat} {t} {v : RVal} (h : ValsOK Γ vs ts) (hi : ts[i]? = some t) (ht : v.type = t)
    (hv : v.OK Γ) : ValsOK Γ (vs.set i v) ts := by
  refine ⟨?_, ?_⟩
  · rw [List.map_set, h.1, ht]
    apply List.ext_getElem?
    intro j
    simp only [List.getElem?_set]
    split
    · rename_i hij
      subst hij
      obtain ⟨hlt, hge⟩ := List.getElem?_eq_some_iff.1 hi
      simp [hlt, hge]
    · rfl
  · intro w hw
    rcases List.mem_or_eq_of_mem_set hw with h1 | rfl
    · exact h.2 _ h1
    · exact hv

theorem Pops.use {ins outs a c : List ValType} (h : Pops ins outs a c) : ∃ r, a = ins ++ r ∧ c = outs ++ r := h

theorem StoreOK.i32s1 {st : List RVal} {r} (h : ValsOK Γ st (.i32 :: r)) : ∃ x st2, st = .num (.i32 x) :: st2 ∧ ValsOK Γ st2 r := by
  obtain ⟨v, st2, rfl, hv, _, h2⟩ := h.cons_inv
  obtain ⟨x, rfl⟩ := RVal.type_i32 hv
  exact ⟨x, st2, rfl, h2⟩

theorem StoreOK.i32s3 {st : List RVal} {r} (h : ValsOK Γ st (.i32 :: .i32 :: .i32 :: r)) :
    ∃ x y z st2, st = .num (.i32 x) :: .num (.i32 y) :: .num (.i32 z) :: st2 ∧ ValsOK Γ st2 r := by
  obtain ⟨x, st3, rfl, h2⟩ := StoreOK.i32s1 h
  obtain ⟨y, st3, rfl, h3⟩ := StoreOK.i32s1 h2
  obtain ⟨z, st4, rfl, h4⟩ := StoreOK.i32s1 h3
  exact ⟨x, y, z, st4, rfl, h4⟩

theorem StoreOK.dropElem {s : Store W} (h : StoreOK Γ s) (e : Nat) : StoreOK Γ { s with elems := s.elems.modify e fun u => (u.1, []) } := by
  refine ⟨h.1, h.2, h.3, h.4, h.5, ?_, ?_, h.8⟩
  · rw [← h.elems]
    dsimp only
    apply List.ext_getElem?
    intro j
    simp only [List.getElem?_map, List.getElem?_modify]
    split <;> cases s.elems[j]? <;> rfl
  · intro u hu
    obtain ⟨j, hj⟩ := List.getElem?_of_mem hu
    dsimp only at hj
    rw [List.getElem?_modify] at hj
    split at hj
    · cases hs : s.elems[j]? <;> rw [hs] at hj <;> cases hj
      intro _ f hf; simp at hf
    · have hj : s.elems[j]? = some u := by cases hs : s.elems[j]? <;> rw [hs] at hj <;> cases hj; rfl
      exact h.elemElems u (List.mem_of_getElem? hj)

theorem StoreOK.dropData {s : Store W} (h : StoreOK Γ s) (e : Nat) : StoreOK Γ { s with datas := s.datas.modify e fun _ => [] } :=
  ⟨h.1, h.2, h.3, h.4, by simpa using h.5, h.6, h.7, h.8⟩

/-- Every well-typed instruction keeps two executions in step. -/
theorem step_sim {R : Rel W W'} {T X} {Q : W → W' → Prop} (hS : R.S = SameState Γ T X Q) {E : Env W} {E' : Env W'} (hE : R.Envs Γ E E')
    {b : Basic} {a e : List ValType} {c : Cfg W} {c' : Cfg W'} (ht : BTyped Γ b a e) (hc : R.Cfgs Γ a c c') :
    R.Outs Γ e (step E b c) (step E' b c') := by
  have hc0 := hc
  obtain ⟨st, lo, s⟩ := c
  obtain ⟨st', lo', s'⟩ := c'
  obtain ⟨h1, h2, h3, h4, h5⟩ := hc
  dsimp only at *
  subst h1 h2
  have tr := h3
  rw [hS] at h3
  obtain ⟨hok, w, hw, rfl⟩ := h3
  have mk : ∀ {ts st2}, ValsOK Γ st2 ts → R.Cfgs Γ ts ⟨st2, lo', s⟩ ⟨st2, lo', s.extend T X w⟩ := fun h => ⟨rfl, rfl, tr, h, h5⟩
  have mk2 : ∀ {ts st2} {s2 : Store W} {s2' : Store W'}, ValsOK Γ st2 ts → s2.world = s.world → StoreOK Γ s2 → s2' = s2.extend T X w →
      R.Cfgs Γ ts ⟨st2, lo', s2⟩ ⟨st2, lo', s2'⟩ := fun h h1 h2 h3 => ⟨rfl, rfl, by rw [hS]; exact ⟨h2, w, h1 ▸ hw, h3⟩, h, h5⟩
  have numOK : ∀ v : Val, (RVal.num v).OK Γ := RVal.OK.num
  cases b with
  | unreachable => exact .trap tr
  | nop => obtain ⟨r, rfl, rfl⟩ := ht; exact .norm (mk h4)
  | br l => obtain ⟨lt, hl, r, rfl⟩ := ht; exact .br hl (mk h4)
  | brIf l =>
    obtain ⟨lt, hl, r, rfl, rfl⟩ := ht
    obtain ⟨x, st2, rfl, h⟩ := StoreOK.i32s1 h4
    simp only [step]
    split
    · exact .norm (mk h)
    · exact .br hl (mk h)
  | brTable ls d =>
    have hd : ∃ r, a = .i32 :: r := by obtain ⟨lt, _, r, rfl⟩ := ht d (List.mem_cons_self ..); exact ⟨_, rfl⟩
    obtain ⟨r, rfl⟩ := hd
    obtain ⟨x, st2, rfl, h⟩ := StoreOK.i32s1 h4
    simp only [step]
    have hm : tableLabel ls d x ∈ d :: ls := by
      unfold tableLabel
      rw [List.getD_eq_getElem?_getD]
      cases hx : ls[x.toNat]? with
      | none => simp
      | some y => simp [List.mem_of_getElem? hx]
    obtain ⟨lt, hl, r', hr⟩ := ht _ hm
    simp only [List.cons_append, List.cons.injEq, true_and] at hr
    subst hr
    exact .br hl (mk h)
  | ret => obtain ⟨r, rfl⟩ := ht; exact .ret (mk h4)
  | call f =>
    obtain ⟨ty, hf, r, rfl, rfl⟩ := ht
    obtain ⟨e1, e2⟩ := hE.ftype f ty hf
    simp only [step, e1, e2]
    exact doCall_sim hE hf hc0
  | callIndirect ty tbl =>
    obtain ⟨htb, r, rfl, rfl⟩ := ht
    obtain ⟨x, st2, rfl, h⟩ := StoreOK.i32s1 h4
    obtain ⟨t, htt, hr, hlt, hre⟩ := hok.table htb
    simp only [step, extend_tables s hlt, htt]
    cases hx : t.elems[x.toNat]? with
    | none => exact .trap tr
    | some o =>
      cases o with
      | none => exact .trap tr
      | some f =>
        obtain ⟨ty', hty⟩ := hre hr f (List.mem_of_getElem? hx)
        obtain ⟨e1, e2⟩ := hE.ftype f ty' hty
        dsimp only
        rw [e1, e2]
        by_cases heq : some ty' = some ty
        · rw [if_pos heq, if_pos heq]
          cases heq
          exact doCall_sim hE hty (mk h)
        · rw [if_neg heq, if_neg heq]; exact .trap tr
  | refNull r0 =>
    obtain ⟨r, rfl, rfl⟩ := ht
    exact .norm (mk (h4.cons rfl (by intro f hf; cases hf)))
  | refIsNull =>
    obtain ⟨r0, r, rfl, rfl⟩ := ht
    obtain ⟨v, st2, rfl, hv, _, h⟩ := h4.cons_inv
    obtain ⟨a, rfl⟩ := RVal.type_ref hv
    exact .norm (mk (h.cons rfl (numOK _)))
  | refFunc f =>
    obtain ⟨⟨ty, hty⟩, r, rfl, rfl⟩ := ht
    exact .norm (mk (h4.cons rfl (by intro f hf; cases hf; exact ⟨ty, hty⟩)))
  | drop =>
    obtain ⟨t, r, rfl, rfl⟩ := ht
    obtain ⟨v, st2, rfl, hv, _, h⟩ := h4.cons_inv
    exact .norm (mk h)
  | select =>
    obtain ⟨t, _, r, rfl, rfl⟩ := ht
    obtain ⟨x, st2, rfl, h⟩ := StoreOK.i32s1 h4
    obtain ⟨v, st3, rfl, hv, hvo, hb⟩ := h.cons_inv
    obtain ⟨v', st4, rfl, hv', hvo', hc⟩ := hb.cons_inv
    simp only [step]
    split
    · exact .norm (mk (hc.cons hv hvo))
    · exact .norm (mk (hc.cons hv' hvo'))
  | typedSelect t =>
    obtain ⟨r, rfl, rfl⟩ := ht
    obtain ⟨x, st2, rfl, h⟩ := StoreOK.i32s1 h4
    obtain ⟨v, st3, rfl, hv, hvo, hb⟩ := h.cons_inv
    obtain ⟨v', st4, rfl, hv', hvo', hc⟩ := hb.cons_inv
    simp only [step]
    split
    · exact .norm (mk (hc.cons hv hvo))
    · exact .norm (mk (hc.cons hv' hvo'))
  | loc op i =>
    cases op with
    | get =>
      obtain ⟨t, hl, r, rfl, rfl⟩ := ht
      obtain ⟨v, hv, hvt, hvo⟩ := h5.get hl
      simp only [step, hv]
      exact .norm (mk (h4.cons hvt hvo))
    | set =>
      obtain ⟨t, hl, r, rfl, rfl⟩ := ht
      obtain ⟨v, st2, rfl, hvt, hvo, h⟩ := h4.cons_inv
      have hlt : i < lo'.length := by rw [h5.length]; exact (List.getElem?_eq_some_iff.1 hl).1
      simp only [step, hlt, if_true]
      exact .norm ⟨rfl, rfl, tr, h, h5.set hl hvt hvo⟩
    | tee =>
      obtain ⟨t, hl, r, rfl, rfl⟩ := ht
      have h40 := h4
      obtain ⟨v, st2, rfl, hvt, hvo, h⟩ := h4.cons_inv
      have hlt : i < lo'.length := by rw [h5.length]; exact (List.getElem?_eq_some_iff.1 hl).1
      simp only [step, hlt, if_true]
      exact .norm ⟨rfl, rfl, tr, h40, h5.set hl hvt hvo⟩
  | glob op i =>
    cases op with
    | get =>
      obtain ⟨t, mu, hl, r, rfl, rfl⟩ := ht
      have hl' : (Γ.globals.map (·.1))[i]? = some t := by simp [hl]
      obtain ⟨v, hv, hvt, hvo⟩ := hok.globals.get hl'
      have hv' : (s.extend T X w).globals[i]? = some v := hv
      simp only [step, hv, hv']
      exact .norm (mk (h4.cons hvt hvo))
    | set =>
      obtain ⟨t, hl, r, rfl, rfl⟩ := ht
      obtain ⟨v, st2, rfl, hvt, hvo, h⟩ := h4.cons_inv
      have hlt : i < s.globals.length := by
        rw [hok.globals.length]; simpa using (List.getElem?_eq_some_iff.1 hl).1
      have hlt' : i < (s.extend T X w).globals.length := hlt
      simp only [step, hlt, hlt', if_true]
      exact .norm (mk2 h rfl (hok.setGlobal hl hvt hvo) rfl)
  | tableGet i =>
    obtain ⟨r0, htb, r, rfl, rfl⟩ := ht
    obtain ⟨x, st2, rfl, h⟩ := StoreOK.i32s1 h4
    obtain ⟨t, htt, hr, hlt, hre⟩ := hok.table htb
    simp only [step, extend_tables s hlt, htt]
    cases hx : t.elems[x.toNat]? with
    | none => exact .trap tr
    | some o => exact .norm (mk (h.cons (by simp [RVal.type, hr]) (hre.get hx)))
  | tableSet i =>
    obtain ⟨r0, htb, r, rfl, rfl⟩ := ht
    obtain ⟨v, st2, rfl, hvt, hvo, h⟩ := h4.cons_inv
    obtain ⟨o, rfl⟩ := RVal.type_ref hvt
    obtain ⟨x, st3, rfl, hb⟩ := StoreOK.i32s1 h
    obtain ⟨t, htt, hr, hlt, hre⟩ := hok.table htb
    simp only [step, extend_tables s hlt, htt]
    split
    · refine .norm (mk2 hb rfl (hok.setTable htt ?_) (extend_setTable s hlt))
      intro hrr f hf
      rcases List.mem_or_eq_of_mem_set hf with hf | hf
      · exact hre hrr f hf
      · rw [hr] at hrr; subst hrr; exact hvo f (by rw [hf])
    · exact .trap tr
  | tableSize i =>
    obtain ⟨⟨r0, htb⟩, r, rfl, rfl⟩ := ht
    obtain ⟨t, htt, hr, hlt, hre⟩ := hok.table htb
    simp only [step, extend_tables s hlt, htt]
    exact .norm (mk (h4.cons rfl (numOK _)))
  | tableGrow i =>
    obtain ⟨r0, htb, r, rfl, rfl⟩ := ht
    obtain ⟨x, st2, rfl, h⟩ := StoreOK.i32s1 h4
    obtain ⟨v, st3, rfl, hvt, hvo, hb⟩ := h.cons_inv
    obtain ⟨o, rfl⟩ := RVal.type_ref hvt
    obtain ⟨t, htt, hr, hlt, hre⟩ := hok.table htb
    simp only [step, extend_tables s hlt, htt]
    split
    · refine .norm (mk2 (hb.cons rfl (numOK _)) rfl (hok.setTable htt ?_) (extend_setTable s hlt))
      intro hrr f hf
      rcases List.mem_append.1 hf with hf | hf
      · exact hre hrr f hf
      · rw [hr] at hrr; subst hrr; exact RefsOK.replicate hvo rfl f hf
    · exact .norm (mk (hb.cons rfl (numOK _)))
  | tableFill i =>
    obtain ⟨r0, htb, r, rfl, rfl⟩ := ht
    obtain ⟨x, st2, rfl, h⟩ := StoreOK.i32s1 h4
    obtain ⟨v, st3, rfl, hvt, hvo, hb⟩ := h.cons_inv
    obtain ⟨o, rfl⟩ := RVal.type_ref hvt
    obtain ⟨y, st4, rfl, hc⟩ := StoreOK.i32s1 hb
    obtain ⟨t, htt, hr, hlt, hre⟩ := hok.table htb
    simp only [step, extend_tables s hlt, htt]
    split
    · exact .norm (mk2 hc rfl (hok.setTable htt (hre.splice (.replicate (hr ▸ hvo)))) (extend_setTable s hlt))
    · exact .trap tr
  | tableCopy i j =>
    obtain ⟨r0, htb, htb2, r, rfl, rfl⟩ := ht
    obtain ⟨x, y, z, st2, rfl, h⟩ := StoreOK.i32s3 h4
    obtain ⟨t, htt, hr, hlt, hre⟩ := hok.table htb
    obtain ⟨u, hut, hur, hult, hure⟩ := hok.table htb2
    simp only [step, extend_tables s hlt, extend_tables s hult, htt, hut]
    split
    · refine .norm (mk2 h rfl (hok.setTable htt (hre.splice ?_)) (extend_setTable s hlt))
      rw [hr, ← hur]
      exact hure.sub fun x hx => List.mem_of_mem_drop (List.mem_of_mem_take hx)
    · exact .trap tr
  | tableInit i j =>
    obtain ⟨r0, htb, htb2, r, rfl, rfl⟩ := ht
    obtain ⟨x, y, z, st2, rfl, h⟩ := StoreOK.i32s3 h4
    obtain ⟨t, htt, hr, hlt, hre⟩ := hok.table htb
    obtain ⟨u, hut, hur, hult, hure⟩ := hok.elem htb2
    simp only [step, extend_tables s hlt, extend_elems s hult, htt, hut]
    split
    · refine .norm (mk2 h rfl (hok.setTable htt (hre.splice ?_)) (extend_setTable s hlt))
      rw [hr, ← hur]
      exact hure.sub fun x hx => List.mem_of_mem_drop (List.mem_of_mem_take hx)
    · exact .trap tr
  | elemDrop j =>
    obtain ⟨hj, r, rfl, rfl⟩ := ht
    have hlt : j < s.elems.length := by rw [← hok.elems] at hj; simpa using hj
    refine .norm (mk2 h4 rfl (hok.dropElem j) ?_)
    simp only [Store.extend]
    rw [modify_append_left _ _ _ _ hlt]
  | load op ma =>
    obtain ⟨hm, r, rfl, rfl⟩ := ht
    obtain ⟨x, st2, rfl, h⟩ := StoreOK.i32s1 h4
    obtain ⟨m, hm⟩ := hok.mem hm
    have hm' : (s.extend T X w).mems[0]? = some m := hm
    simp only [step, hm, hm']
    cases hv : m.load op (x.toNat + ma.offset.toNat) with
    | none => exact .trap tr
    | some v =>
      refine .norm (mk (h.cons ?_ (numOK _)))
      simp only [Mem.load] at hv
      split at hv
      · cases hv; exact LoadOp.decode_type _ _
      · cases hv
  | store op ma =>
    obtain ⟨hm, r, rfl, rfl⟩ := ht
    obtain ⟨v, st2, rfl, hvt, _, h⟩ := h4.cons_inv
    obtain ⟨v, rfl, hvn⟩ := RVal.type_num hvt op.ty_num
    obtain ⟨x, st3, rfl, hb⟩ := StoreOK.i32s1 h
    obtain ⟨m, hm⟩ := hok.mem hm
    have hm' : (s.extend T X w).mems[0]? = some m := hm
    simp only [step, hm, hm', hvn, if_true]
    cases hv : m.store op (x.toNat + ma.offset.toNat) v with
    | none => exact .trap tr
    | some m' => exact .norm (mk2 hb rfl (hok.setMem 0 ((hok.pages _ (List.mem_of_getElem? hm)).store hv)) rfl)
  | memorySize i =>
    obtain ⟨hm, r, rfl, rfl⟩ := ht
    obtain ⟨m, hm⟩ := hok.mem hm
    have hm' : (s.extend T X w).mems[i]? = some m := hm
    simp only [step, hm, hm']
    exact .norm (mk (h4.cons rfl (numOK _)))
  | memoryGrow i =>
    obtain ⟨hm, r, rfl, rfl⟩ := ht
    obtain ⟨x, st2, rfl, h⟩ := StoreOK.i32s1 h4
    obtain ⟨m, hm⟩ := hok.mem hm
    have hm' : (s.extend T X w).mems[i]? = some m := hm
    simp only [step, hm, hm']
    cases hv : m.grow x.toNat with
    | none => exact .norm (mk (h.cons rfl (numOK _)))
    | some m' => exact .norm (mk2 (h.cons rfl (numOK _)) rfl (hok.setMem i ((hok.pages _ (List.mem_of_getElem? hm)).grow hv)) rfl)
  | memoryFill =>
    obtain ⟨hm, r, rfl, rfl⟩ := ht
    obtain ⟨x, y, z, st2, rfl, h⟩ := StoreOK.i32s3 h4
    obtain ⟨m, hm⟩ := hok.mem hm
    have hm' : (s.extend T X w).mems[0]? = some m := hm
    simp only [step, hm, hm']
    split
    · exact .norm (mk2 h rfl (hok.setMem 0 (hok.pages m (List.mem_of_getElem? hm)).setBytes) rfl)
    · exact .trap tr
  | memoryCopy =>
    obtain ⟨hm, r, rfl, rfl⟩ := ht
    obtain ⟨x, y, z, st2, rfl, h⟩ := StoreOK.i32s3 h4
    obtain ⟨m, hm⟩ := hok.mem hm
    have hm' : (s.extend T X w).mems[0]? = some m := hm
    simp only [step, hm, hm']
    split
    · exact .norm (mk2 h rfl (hok.setMem 0 (hok.pages m (List.mem_of_getElem? hm)).setBytes) rfl)
    · exact .trap tr
  | memoryInit i =>
    obtain ⟨hm, hd, r, rfl, rfl⟩ := ht
    obtain ⟨x, y, z, st2, rfl, h⟩ := StoreOK.i32s3 h4
    obtain ⟨m, hm⟩ := hok.mem hm
    obtain ⟨d, hd⟩ := hok.data hd
    have hm' : (s.extend T X w).mems[0]? = some m := hm
    have hd' : (s.extend T X w).datas[i]? = some d := hd
    simp only [step, hm, hm', hd, hd']
    split
    · exact .norm (mk2 h rfl (hok.setMem 0 (hok.pages m (List.mem_of_getElem? hm)).setBytes) rfl)
    · exact .trap tr
  | dataDrop i =>
    obtain ⟨hd, r, rfl, rfl⟩ := ht
    exact .norm (mk2 h4 rfl (hok.dropData i) rfl)
  | const v => obtain ⟨r, rfl, rfl⟩ := ht; exact .norm (mk (h4.cons rfl (numOK _)))
  | unary op =>
    obtain ⟨r, rfl, rfl⟩ := ht
    obtain ⟨v, st2, rfl, hvt, _, h⟩ := h4.cons_inv
    obtain ⟨v, rfl, hvn⟩ := RVal.type_num hvt op.sig_num
    simp only [step, hvn, if_true, hE.num]
    cases hv : E.num.unary op v with
    | none => exact .trap tr
    | some w => exact .norm (mk (h.cons (v := .num w) (E.num.unary_type _ _ _ hv) (numOK _)))
  | binary op =>
    obtain ⟨r, rfl, rfl⟩ := ht
    obtain ⟨v, st2, rfl, hvt, _, h⟩ := h4.cons_inv
    obtain ⟨v, rfl, hvn⟩ := RVal.type_num hvt op.sig_num
    obtain ⟨v', st3, rfl, hvt', _, hb⟩ := h.cons_inv
    obtain ⟨v', rfl, hvn'⟩ := RVal.type_num hvt' op.sig_num
    simp only [step, hvn, hvn', and_self, if_true, hE.num]
    cases hv : E.num.binary op v' v with
    | none => exact .trap tr
    | some w => exact .norm (mk (hb.cons (v := .num w) (E.num.binary_type _ _ _ _ hv) (numOK _)))

end Wastrum
