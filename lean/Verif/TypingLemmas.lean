import Verif.Typing
import Verif.InterposeLemmas
/-!
# The rewrite preserves types (lemmas for C15)
-/

set_option linter.unusedSimpArgs false
set_option linter.unusedVariables false

namespace Wastrum

theorem HTyL.append {Γ : Ctx} {x y : List HI} {a b c : List ValType} (h1 : HTyL Γ x a b) (h2 : HTyL Γ y b c) : HTyL Γ (x ++ y) a c := by
  induction x generalizing a with
  | nil => cases h1; exact h2
  | cons i x ih => cases h1 with | cons hi hl => exact .cons hi (ih hl)

theorem HTyL.one {Γ : Ctx} {i : HI} {a c : List ValType} (h : HTyI Γ i a c) : HTyL Γ [i] a c := .cons h .nil

theorem HTyL.ofBasic {Γ : Ctx} {b : Basic} {a c : List ValType} (h : BTyped Γ b a c) : HTyL Γ [.basic b] a c := .one (.basic h)

/-- One context offers at least what another does. -/
structure Ctx.Le (Γ Γ' : Ctx) : Prop where
  ftype : ∀ f ty, Γ.ftype f = some ty → Γ'.ftype f = some ty
  tables : ∀ (i : Nat) r, Γ.tables[i]? = some r → Γ'.tables[i]? = some r
  elems : ∀ (i : Nat) r, Γ.elems[i]? = some r → Γ'.elems[i]? = some r
  globals : Γ'.globals = Γ.globals
  mems : Γ'.mems = Γ.mems
  datas : Γ'.datas = Γ.datas
  locals : Γ'.locals = Γ.locals
  labels : Γ'.labels = Γ.labels
  ret : Γ'.ret = Γ.ret

theorem Ctx.Le.refl (Γ : Ctx) : Γ.Le Γ := ⟨fun _ _ h => h, fun _ _ h => h, fun _ _ h => h, rfl, rfl, rfl, rfl, rfl, rfl⟩

theorem Ctx.Le.label {Γ Γ' : Ctx} (h : Γ.Le Γ') (l : List ValType) : (Γ.label l).Le (Γ'.label l) :=
  ⟨h.ftype, h.tables, h.elems, h.globals, h.mems, h.datas, h.locals, by simp [Ctx.label, h.labels], h.ret⟩

theorem Ctx.Le.body {Γ Γ' : Ctx} (h : Γ.Le Γ') (ty : FuncType) (ls : List ValType) : (Γ.body ty ls).Le (Γ'.body ty ls) :=
  ⟨h.ftype, h.tables, h.elems, h.globals, h.mems, h.datas, rfl, rfl, rfl⟩

theorem BTyped.mono {Γ Γ' : Ctx} (hl : Γ.Le Γ') {b : Basic} {a c : List ValType} (h : BTyped Γ b a c) : BTyped Γ' b a c := by
  have he : ∀ e, e < Γ.elems.length → e < Γ'.elems.length := by
    intro e he
    exact (List.getElem?_eq_some_iff.1 (hl.elems e _ (List.getElem?_eq_getElem he))).1
  cases b
  case loc op i => cases op <;> simpa only [BTyped, hl.locals] using h
  case glob op i => cases op <;> simpa only [BTyped, hl.globals] using h
  case call f => obtain ⟨ty, h1, h2⟩ := h; exact ⟨ty, hl.ftype _ _ h1, h2⟩
  case callIndirect t tbl => exact ⟨hl.tables _ _ h.1, h.2⟩
  case refFunc f => obtain ⟨⟨ty, h1⟩, h2⟩ := h; exact ⟨⟨ty, hl.ftype _ _ h1⟩, h2⟩
  case tableGet i => obtain ⟨r, h1, h2⟩ := h; exact ⟨r, hl.tables _ _ h1, h2⟩
  case tableSet i => obtain ⟨r, h1, h2⟩ := h; exact ⟨r, hl.tables _ _ h1, h2⟩
  case tableSize i => obtain ⟨⟨r, h1⟩, h2⟩ := h; exact ⟨⟨r, hl.tables _ _ h1⟩, h2⟩
  case tableGrow i => obtain ⟨r, h1, h2⟩ := h; exact ⟨r, hl.tables _ _ h1, h2⟩
  case tableFill i => obtain ⟨r, h1, h2⟩ := h; exact ⟨r, hl.tables _ _ h1, h2⟩
  case tableCopy i j => obtain ⟨r, h1, h2, h3⟩ := h; exact ⟨r, hl.tables _ _ h1, hl.tables _ _ h2, h3⟩
  case tableInit i e => obtain ⟨r, h1, h2, h3⟩ := h; exact ⟨r, hl.tables _ _ h1, hl.elems _ _ h2, h3⟩
  case elemDrop e => exact ⟨he _ h.1, h.2⟩
  all_goals first | simpa only [BTyped, hl.labels, hl.ret, hl.mems, hl.datas] using h | trivial

mutual
theorem HTyI.mono {Γ Γ' : Ctx} (hl : Γ.Le Γ') {i : HI} {a c : List ValType} (h : HTyI Γ i a c) : HTyI Γ' i a c :=
  match h with
  | .basic hb => .basic (hb.mono hl)
  | .block hb => .block (HTyL.mono (hl.label _) hb)
  | .loop hb => .loop (HTyL.mono (hl.label _) hb)
  | .ifThen he hb => .ifThen he (HTyL.mono (hl.label _) hb)
  | .ifElse hb hb' => .ifElse (HTyL.mono (hl.label _) hb) (HTyL.mono (hl.label _) hb')
theorem HTyL.mono {Γ Γ' : Ctx} (hl : Γ.Le Γ') {l : List HI} {a c : List ValType} (h : HTyL Γ l a c) : HTyL Γ' l a c :=
  match h with
  | .nil => .nil
  | .cons hi hr => .cons (HTyI.mono hl hi) (HTyL.mono hl hr)
end

theorem AnnotOK.mono {Γ Γ' : Ctx} (hl : Γ.Le Γ') {m : Meta} {b : Basic} (h : AnnotOK Γ m b) : AnnotOK Γ' m b := by
  cases b
  case loc op i => cases op <;> simpa only [AnnotOK, hl.locals] using h
  case glob op i => cases op <;> simpa only [AnnotOK, hl.globals] using h
  all_goals trivial

mutual
theorem TTyI.mono {Γ Γ' : Ctx} (hl : Γ.Le Γ') {i : TI} {a c : List ValType} (h : TTyI Γ i a c) : TTyI Γ' i a c :=
  match h with
  | .basic hb hA => .basic (hb.mono hl) (hA.mono hl)
  | .block hb => .block (TTyL.mono (hl.label _) hb)
  | .loop hb => .loop (TTyL.mono (hl.label _) hb)
  | .ifThen he hb => .ifThen he (TTyL.mono (hl.label _) hb)
  | .ifElse hb hb' => .ifElse (TTyL.mono (hl.label _) hb) (TTyL.mono (hl.label _) hb')
theorem TTyL.mono {Γ Γ' : Ctx} (hl : Γ.Le Γ') {l : List TI} {a c : List ValType} (h : TTyL Γ l a c) : TTyL Γ' l a c :=
  match h with
  | .nil => .nil
  | .cons hi hr => .cons (TTyI.mono hl hi) (TTyL.mono hl hr)
end

mutual
theorem TTyI.erase {Γ : Ctx} {i : TI} {a c : List ValType} (h : TTyI Γ i a c) : HTyI Γ i.erase a c :=
  match h with
  | .basic hb _ => by simp only [TI.erase]; exact .basic hb
  | .block hb => by simp only [TI.erase]; exact .block (TTyL.erase hb)
  | .loop hb => by simp only [TI.erase]; exact .loop (TTyL.erase hb)
  | .ifThen he hb => by simp only [TI.erase]; exact .ifThen he (TTyL.erase hb)
  | .ifElse hb hb' => by simp only [TI.erase]; exact .ifElse (TTyL.erase hb) (TTyL.erase hb')
theorem TTyL.erase {Γ : Ctx} {l : List TI} {a c : List ValType} (h : TTyL Γ l a c) : HTyL Γ (TI.eraseL l) a c :=
  match h with
  | .nil => by simp only [TI.eraseL]; exact .nil
  | .cons hi hr => by simp only [TI.eraseL]; exact .cons (TTyI.erase hi) (TTyL.erase hr)
end

/-- Inserted constants push their types. -/
theorem HTyL.consts (Γ : Ctx) (vs : List Val) (a : List ValType) :
    HTyL Γ ((vs.map Basic.const).map HI.basic) a ((vs.map Val.type).reverse ++ a) := by
  induction vs generalizing a with
  | nil => exact .nil
  | cons v vs ih =>
    have := ih (v.type :: a)
    simp only [List.map_cons, List.reverse_cons, List.append_assoc, List.singleton_append]
    exact .cons (.basic ⟨a, rfl, rfl⟩) this

theorem HTyL.hookCall {Γ : Ctx} {m : Meta} {t : Trap} {k : Nat} {vs : List Val} {ops outs r : List ValType}
    (hf : Γ.ftype k = some ⟨t.args, t.results⟩) (ha : t.args = ops.reverse ++ vs.map Val.type ++ [.i64, .i64])
    (hr : t.results = outs.reverse) : HTyL Γ (TI.eraseL (Wastrum.hookCall m (vs.map .const) k)) (ops ++ r) (outs ++ r) := by
  unfold Wastrum.hookCall
  rw [eraseL_map_ins, List.map_append]
  refine HTyL.append (HTyL.consts Γ vs _) ?_
  refine .cons (.basic ⟨_, rfl, rfl⟩) (.cons (.basic ⟨_, rfl, rfl⟩) (.ofBasic ⟨_, hf, r, ?_, ?_⟩))
  · simp [ha, Val.type]
  · simp [hr]

/-- A hook call that returns what it is given. -/
theorem HTyL.hooked {Γ : Ctx} {σ : Sel} {m : Meta} {t : Trap} {vs : List Val} (ops : List ValType) {r : List ValType}
    (hi : ∀ t k, σ t = some k → Γ.ftype k = some ⟨t.args, t.results⟩) (ha : t.args = ops.reverse ++ vs.map Val.type ++ [.i64, .i64])
    (hr : t.results = ops.reverse) : HTyL Γ (TI.eraseL (Wastrum.hooked σ m (some (t, vs.map .const)))) (ops ++ r) (ops ++ r) := by
  cases hσ : σ t with
  | none => simp only [Wastrum.hooked, hσ, TI.eraseL]; exact .nil
  | some k => simp only [Wastrum.hooked, hσ]; exact HTyL.hookCall (hi t k hσ) ha hr

/-- The helper functions have their type. -/
def HelpersTyped (Γ : Ctx) (n k : Nat) : Prop := ∀ j < k, Γ.ftype (n + j) = some ⟨[.i32], [.i32, .i32]⟩

theorem bind_some_iff {α β : Type} {o : Option α} {f : α → Option β} {t : β} (h : o.bind f = some t) : ∃ v, o = some v ∧ f v = some t := by
  cases o with
  | none => simp at h
  | some v => exact ⟨v, rfl, h⟩

theorem type_before {Γ : Ctx} {σ : Sel} (hi : ∀ t k, σ t = some k → Γ.ftype k = some ⟨t.args, t.results⟩) (n : Nat) {m : Meta} {b : Basic}
    {a c : List ValType} (hm : m.flag = false) (hb : BTyped Γ b a c) (hA : AnnotOK Γ m b)
    (hh : σ .brTableTrap ≠ none → HelpersTyped Γ n (TI.tables (.basic m b)).length) :
    HTyL Γ (TI.eraseL (hooked σ m (hookBefore n m b))) a a := by
  cases b
  case loc op i =>
    cases op
    case get => exact .nil
    case set =>
      simp only [hookBefore]
      cases ht : m.ty.writes.bind (localTrap .set) with
      | none => exact .nil
      | some t =>
        obtain ⟨v, h1, h2⟩ := bind_some_iff ht
        obtain ⟨t', h3, r, rfl, rfl⟩ := hb
        rw [hA v h1] at h3; cases h3
        obtain ⟨h4, h5⟩ := localTrap_args h2
        exact HTyL.hooked (vs := [.i64 (BitVec.ofNat 64 i)]) [v] hi h4 h5
    case tee =>
      simp only [hookBefore]
      cases ht : m.ty.tees.bind (localTrap .tee) with
      | none => exact .nil
      | some t =>
        obtain ⟨v, h1, h2⟩ := bind_some_iff ht
        obtain ⟨t', h3, r, rfl, rfl⟩ := hb
        rw [hA v h1] at h3; cases h3
        obtain ⟨h4, h5⟩ := localTrap_args h2
        exact HTyL.hooked (vs := [.i64 (BitVec.ofNat 64 i)]) [v] hi h4 h5
  case glob op i =>
    cases op
    case get => exact .nil
    case set =>
      simp only [hookBefore]
      cases ht : m.ty.writes.bind (globalTrap .set) with
      | none => exact .nil
      | some t =>
        obtain ⟨v, h1, h2⟩ := bind_some_iff ht
        obtain ⟨t', h3, r, rfl, rfl⟩ := hb
        have := hA v h1
        rw [h3] at this; cases this
        obtain ⟨h4, h5⟩ := globalTrap_args h2
        exact HTyL.hooked (vs := [.i64 (BitVec.ofNat 64 i)]) [t'] hi h4 h5
  case br l => exact HTyL.hooked (t := .brTrap) (vs := [.i64 (BitVec.ofNat 64 l)]) [] hi rfl rfl
  case brIf l =>
    obtain ⟨lt, _, r, rfl, rfl⟩ := hb
    exact HTyL.hooked (t := .brIfTrap) (vs := [.i32 (BitVec.ofNat 32 l)]) [.i32] hi rfl rfl
  case brTable ls d =>
    obtain ⟨lt, _, r, rfl⟩ := hb d (by simp)
    simp only [hookBefore]
    cases hσ : σ .brTableTrap with
    | none => simp only [Wastrum.hooked, hσ, TI.eraseL]; exact .nil
    | some k =>
      have h0 := hh (by simp [hσ]) 0 (by simp [TI.tables, hm])
      simp only [hooked, hσ, Nat.add_zero] at h0 ⊢
      unfold Wastrum.hookCall
      rw [eraseL_map_ins]
      simp only [List.map_append, List.map_cons, List.map_nil, List.cons_append, List.nil_append]
      refine .cons (.basic ⟨_, h0, lt ++ r, rfl, rfl⟩) (.cons (.basic ⟨_, rfl, rfl⟩) (.cons (.basic ⟨_, rfl, rfl⟩)
        (.cons (.basic ⟨_, rfl, rfl⟩) (.ofBasic ⟨_, hi _ _ hσ, lt ++ r, ?_, ?_⟩))))
      · simp [Trap.args, Val.type, cI32]
      · simp [Trap.results]
  case call f => exact HTyL.hooked (t := .preTrapCall) (vs := [.i32 (BitVec.ofNat 32 f)]) [] hi rfl rfl
  case callIndirect t tbl =>
    obtain ⟨_, r, rfl, _⟩ := hb
    exact HTyL.hooked (t := .preTrapCallIndirect) (vs := [.i32 (BitVec.ofNat 32 tbl)]) [.i32] hi rfl rfl
  case ret => exact HTyL.hooked (t := .returnTrap) (vs := []) [] hi rfl rfl
  case drop => exact HTyL.hooked (t := .dropTrap) (vs := []) [] hi rfl rfl
  case select =>
    obtain ⟨t, _, r, rfl, _⟩ := hb
    exact HTyL.hooked (t := .select) (vs := []) [.i32] hi rfl rfl
  case typedSelect t =>
    obtain ⟨r, rfl, _⟩ := hb
    exact HTyL.hooked (t := .select) (vs := []) [.i32] hi rfl rfl
  all_goals exact .nil

theorem type_after {Γ : Ctx} {σ : Sel} (hi : ∀ t k, σ t = some k → Γ.ftype k = some ⟨t.args, t.results⟩) {m : Meta} {b : Basic}
    {a c : List ValType} (hb : BTyped Γ b a c) (hA : AnnotOK Γ m b) : HTyL Γ (TI.eraseL (hooked σ m (hookAfter m b))) c c := by
  cases b
  case loc op i =>
    cases op
    case get =>
      simp only [hookAfter]
      cases ht : m.ty.reads.bind (localTrap .get) with
      | none => exact .nil
      | some t =>
        obtain ⟨v, h1, h2⟩ := bind_some_iff ht
        obtain ⟨t', h3, r, rfl, rfl⟩ := hb
        rw [hA v h1] at h3; cases h3
        obtain ⟨h4, h5⟩ := localTrap_args h2
        exact HTyL.hooked (vs := [.i64 (BitVec.ofNat 64 i)]) [v] hi h4 h5
    all_goals exact .nil
  case glob op i =>
    cases op
    case get =>
      simp only [hookAfter]
      cases ht : m.ty.reads.bind (globalTrap .get) with
      | none => exact .nil
      | some t =>
        obtain ⟨v, h1, h2⟩ := bind_some_iff ht
        obtain ⟨t', mu, h3, r, rfl, rfl⟩ := hb
        have := hA v h1
        rw [h3] at this; cases this
        obtain ⟨h4, h5⟩ := globalTrap_args h2
        exact HTyL.hooked (vs := [.i64 (BitVec.ofNat 64 i)]) [t'] hi h4 h5
    all_goals exact .nil
  case call f => exact HTyL.hooked (t := .postTrapCall) (vs := [.i32 (BitVec.ofNat 32 f)]) [] hi rfl rfl
  case callIndirect t tbl => exact HTyL.hooked (t := .postTrapCallIndirect) (vs := [.i32 (BitVec.ofNat 32 tbl)]) [] hi rfl rfl
  case const v =>
    simp only [hookAfter]
    cases ht : constTrap v.type with
    | none => exact .nil
    | some t =>
      obtain ⟨r, rfl, rfl⟩ := hb
      obtain ⟨h4, h5⟩ := constTrap_args ht
      exact HTyL.hooked (vs := []) [v.type] hi h4 h5
  case memorySize i =>
    obtain ⟨_, r, rfl, rfl⟩ := hb
    exact HTyL.hooked (t := .memorySize) (vs := [.i64 (BitVec.ofNat 64 i)]) [.i32] hi rfl rfl
  all_goals exact .nil

theorem type_perform {Γ : Ctx} {σ : Sel} (hi : ∀ t k, σ t = some k → Γ.ftype k = some ⟨t.args, t.results⟩) {m : Meta} {b : Basic}
    {a c : List ValType} (hb : BTyped Γ b a c) : HTyL Γ (TI.eraseL (orReplaced σ m b)) a c := by
  have self : HTyL Γ (TI.eraseL [TI.basic m b]) a c := by simp only [TI.eraseL, TI.erase]; exact .ofBasic hb
  have key : ∀ (t : Option Trap) (vs : List Val) (ops outs r : List ValType), hookReplace b = t.map (·, vs.map .const) →
      a = ops ++ r → c = outs ++ r →
      (∀ t', t = some t' → t'.args = ops.reverse ++ vs.map Val.type ++ [.i64, .i64] ∧ t'.results = outs.reverse) →
      HTyL Γ (TI.eraseL (orReplaced σ m b)) a c := by
    intro t vs ops outs r hr ha hc ht
    unfold orReplaced
    rw [hr]
    cases t with
    | none => exact self
    | some t =>
      simp only [Option.map_some]
      cases hσ : σ t with
      | none => exact self
      | some k =>
        obtain ⟨h1, h2⟩ := ht t rfl
        subst ha hc
        exact HTyL.hookCall (hi t k hσ) h1 h2
  cases b
  case unary op =>
    obtain ⟨r, ha, hc⟩ := hb
    exact key (unaryTrap op.sig) [.i32 op.serialize] _ _ r rfl ha hc fun t ht => unaryTrap_args ht
  case binary op =>
    obtain ⟨r, ha, hc⟩ := hb
    exact key (binaryTrap op.sig) [.i32 op.serialize] _ _ r rfl ha hc fun t ht => binaryTrap_args ht
  case load op ma =>
    obtain ⟨_, r, ha, hc⟩ := hb
    exact key (loadTrap op.ty) [.i64 (ma.offset.setWidth 64), .i32 op.serialize] _ _ r rfl ha hc fun t ht => loadTrap_args ht
  case store op ma =>
    obtain ⟨_, r, ha, hc⟩ := hb
    exact key (storeTrap op.ty) [.i64 (ma.offset.setWidth 64), .i32 op.serialize] _ _ r rfl ha hc fun t ht => storeTrap_args ht
  case memoryGrow i =>
    obtain ⟨_, r, ha, hc⟩ := hb
    exact key (some .memoryGrow) [.i64 (BitVec.ofNat 64 i)] _ _ r rfl ha hc fun t ht => by cases ht; exact ⟨rfl, rfl⟩
  all_goals exact self

theorem HelpersTyped.left {Γ : Ctx} {n a b} (h : HelpersTyped Γ n (a + b)) : HelpersTyped Γ n a := fun j hj => h j (by omega)
theorem HelpersTyped.right {Γ : Ctx} {n a b} (h : HelpersTyped Γ n (a + b)) : HelpersTyped Γ (n + a) b := fun j hj => by
  rw [Nat.add_assoc]; exact h (a + j) (by omega)
theorem HelpersTyped.label {Γ : Ctx} {n a} (h : HelpersTyped Γ n a) (l) : HelpersTyped (Γ.label l) n a := h

theorem arity_eq (t : FuncType) :
    arity t = [Val.i32 (BitVec.ofNat 32 t.inputs.length), Val.i32 (BitVec.ofNat 32 t.results.length)].map Basic.const := rfl

/-- The rewrite preserves types. -/
theorem expand_typed (σ : Sel) :
    (∀ i : TI, (∀ x ∈ i.locs, x.2.2.1 = false) → ∀ Γ : Ctx, (∀ t k, σ t = some k → Γ.ftype k = some ⟨t.args, t.results⟩) → ∀ a c, TTyI Γ i a c → ∀ n,
      (σ .brTableTrap ≠ none → HelpersTyped Γ n i.tables.length) → HTyL Γ (TI.eraseL (expandI σ n i)) a c) ∧
    (∀ l : List TI, Pristine l → ∀ Γ : Ctx, (∀ t k, σ t = some k → Γ.ftype k = some ⟨t.args, t.results⟩) → ∀ a c, TTyL Γ l a c → ∀ n,
      (σ .brTableTrap ≠ none → HelpersTyped Γ n (TI.tablesL l).length) → HTyL Γ (TI.eraseL (expandL σ n l)) a c) := by
  have nullary : ∀ {Γ : Ctx} {m : Meta} {t : Trap} {a : List ValType}, (∀ t k, σ t = some k → Γ.ftype k = some ⟨t.args, t.results⟩) →
      t.args = [.i64, .i64] → t.results = [] → HTyL Γ (TI.eraseL (hooked σ m (some (t, [])))) a a := by
    intro Γ m t a hi ha hr
    exact HTyL.hooked (vs := []) [] hi ha hr
  refine TI.induct ?_ ?_ ?_ ?_ ?_ ?_ ?_
  · intro m b hp Γ hi a c h n hh
    have hp : m.flag = false := by simpa [TI.locs] using hp
    cases h with
    | basic hb hA =>
      simp only [expandI, hp, Bool.false_eq_true, if_false, TI.eraseL_append]
      exact HTyL.append (HTyL.append (type_before hi n hp hb hA hh) (type_perform hi hb)) (type_after hi hb hA)
  · intro m t body ih hp Γ hi a c h n hh
    simp only [TI.locs, List.mem_cons, forall_eq_or_imp] at hp
    cases h with
    | block hb =>
      simp only [expandI, hp.1, Bool.false_eq_true, if_false, TI.eraseL, TI.erase, TI.eraseL_append]
      refine .one (.block ?_)
      refine HTyL.append (HTyL.append ?_ (ih hp.2 (Γ.label t.results.reverse) hi _ _ hb n fun h => (hh h).label _)) (nullary hi rfl rfl)
      rw [arity_eq]
      exact HTyL.hooked (t := .preBlock) [] hi rfl rfl
  · intro m t body ih hp Γ hi a c h n hh
    simp only [TI.locs, List.mem_cons, forall_eq_or_imp] at hp
    cases h with
    | loop hb =>
      simp only [expandI, hp.1, Bool.false_eq_true, if_false, TI.eraseL, TI.erase, TI.eraseL_append]
      refine .one (.loop ?_)
      refine HTyL.append (HTyL.append ?_ (ih hp.2 (Γ.label t.inputs.reverse) hi _ _ hb n fun h => (hh h).label _)) (nullary hi rfl rfl)
      rw [arity_eq]
      exact HTyL.hooked (t := .preLoop) [] hi rfl rfl
  · intro m t thn ih hp Γ hi a c h n hh
    simp only [TI.locs, List.mem_cons, forall_eq_or_imp] at hp
    cases h with
    | @ifThen _ _ _ _ r heq hb =>
      simp only [expandI, hp.1, Bool.false_eq_true, if_false, TI.eraseL_append]
      have hthn := ih hp.2 (Γ.label t.results.reverse) hi _ _ hb n fun h => (hh h).label _
      refine HTyL.append (b := .i32 :: t.inputs.reverse ++ r) ?_ ?_
      · rw [arity_eq]
        exact HTyL.hooked (t := .ifThenTrap) (r := t.inputs.reverse ++ r) [.i32] hi rfl rfl
      · cases hσ : σ .ifThenPostTrap with
        | none =>
          simp only [TI.eraseL, TI.erase]
          exact .one (.ifThen heq hthn)
        | some k =>
          simp only [TI.eraseL, TI.erase, TI.eraseL_append]
          have hk : ∀ x, HTyL (Γ.label t.results.reverse) (TI.eraseL (hookCall m [] k)) x x := fun x =>
            HTyL.hookCall (t := .ifThenPostTrap) (vs := []) (ops := []) (outs := []) (hi _ _ hσ) rfl rfl
          refine .one (.ifElse (HTyL.append hthn (hk _)) ?_)
          rw [heq]
          exact hk _
  · intro m t thn els ih1 ih2 hp Γ hi a c h n hh
    simp only [TI.locs, List.mem_cons, forall_eq_or_imp, List.mem_append] at hp
    cases h with
    | @ifElse _ _ _ _ _ r hb hb' =>
      simp only [expandI, hp.1, Bool.false_eq_true, if_false, TI.eraseL_append, TI.eraseL, TI.erase]
      simp only [TI.tables, List.length_append] at hh
      refine HTyL.append (b := .i32 :: t.inputs.reverse ++ r) ?_ ?_
      · rw [arity_eq]
        exact HTyL.hooked (t := .ifThenElseTrap) (r := t.inputs.reverse ++ r) [.i32] hi rfl rfl
      · exact .one (.ifElse
          (HTyL.append (ih1 (fun x hx => hp.2 x (.inl hx)) (Γ.label t.results.reverse) hi _ _ hb n fun h => ((hh h).left).label _) (nullary hi rfl rfl))
          (HTyL.append (ih2 (fun x hx => hp.2 x (.inr hx)) (Γ.label t.results.reverse) hi _ _ hb' _ fun h => ((hh h).right).label _) (nullary hi rfl rfl)))
  · intro hp Γ hi a c h n hh
    cases h
    exact .nil
  · intro i l ih1 ih2 hp Γ hi a c h n hh
    simp only [Pristine, TI.locsL, List.mem_append, or_imp, forall_and] at hp
    cases h with
    | cons h1 h2 =>
      simp only [TI.tablesL, List.length_append] at hh
      simp only [expandL, TI.eraseL_append]
      exact HTyL.append (ih1 hp.1 Γ hi _ _ h1 n fun h => (hh h).left) (ih2 hp.2 Γ hi _ _ h2 _ fun h => (hh h).right)

end Wastrum
