import Verif.Interpose
import Verif.PassSpec
import Verif.NestingLemmas
/-!
# The instrumented body runs like the interposed original (lemmas)
-/

set_option linter.unusedSimpArgs false
set_option linter.unusedVariables false

namespace Wastrum

variable {W : Type}

@[simp] theorem Out.bind_norm (c : Cfg W) (k) : (Out.norm c).bind k = k c := rfl
@[simp] theorem Out.bind_trap (s : Store W) (k) : (Out.trap s).bind k = .trap s := rfl
@[simp] theorem Out.bind_stuck (k : Cfg W → Out W) : Out.stuck.bind k = .stuck := rfl
@[simp] theorem Out.bind_fuel (k : Cfg W → Out W) : Out.fuel.bind k = .fuel := rfl
@[simp] theorem Out.bind_br (l) (c : Cfg W) (k) : (Out.br l c).bind k = .br l c := rfl
@[simp] theorem Out.bind_ret (c : Cfg W) (k) : (Out.ret c).bind k = .ret c := rfl

@[simp] theorem Out.bind_norm_right (o : Out W) : o.bind .norm = o := by cases o <;> rfl

theorem Out.bind_assoc (o : Out W) (f g) : (o.bind f).bind g = o.bind fun c => (f c).bind g := by
  cases o <;> rfl

theorem denL_append (E : Env W) (a b : List HI) (c : Cfg W) : denL E (a ++ b) c = (denL E a c).bind (denL E b) := by
  induction a generalizing c with
  | nil => simp [denL]
  | cons i a ih =>
    simp only [List.cons_append, denL, Out.bind_assoc]
    congr 1
    funext c'
    exact ih c'

theorem denL_single (E : Env W) (i : HI) (c : Cfg W) : denL E [i] c = denI E i c := by
  have : denL E [] = Out.norm := by funext c; rfl
  rw [denL, this, Out.bind_norm_right]

theorem denL_const (E : Env W) (v : Val) (l : List HI) (c : Cfg W) :
    denL E (.basic (.const v) :: l) c = denL E l { c with stack := .num v :: c.stack } := by
  simp [denL, denI, step]

/-- Running inserted constants pushes them. -/
theorem denL_consts (E : Env W) (vs : List Val) (l : List HI) (c : Cfg W) :
    denL E (vs.map (fun v => HI.basic (.const v)) ++ l) c =
      denL E l { c with stack := (vs.map RVal.num).reverse ++ c.stack } := by
  induction vs generalizing c with
  | nil => rfl
  | cons v vs ih => simp [denL_const, ih]

theorem eraseL_map_ins (m : Meta) (l : List Basic) : TI.eraseL (l.map (ins m)) = l.map HI.basic := by
  induction l with
  | nil => rfl
  | cons b l ih => simp [TI.eraseL, ih, ins, TI.erase]

/-- The operands consumed by a call with `k` operands and given extra arguments. -/
theorem doCall_ask (E : Env W) (σ : Sel) (m : Meta) (t : Trap) (h : Nat) (k : Nat) (info : List RVal) (c : Cfg W)
    (hσ : σ t = some h) (hl : t.args.length = k + info.length + 2) :
    doCall E h ⟨t.args, t.results⟩ { c with stack := nI64 m.iidx :: nI64 m.fidx :: info.reverse ++ c.stack } =
      ask E σ m t k info c := by
  unfold doCall ask
  rw [hσ]
  simp only
  have htake : ∀ st : List RVal, (List.take t.args.length (nI64 m.iidx :: nI64 m.fidx :: info.reverse ++ st)).reverse =
      (st.take k).reverse ++ info ++ [nI64 m.fidx, nI64 m.iidx] := by
    intro st
    have e : t.args.length = (k + info.length) + 1 + 1 := by omega
    rw [e]
    simp only [List.cons_append, List.take_succ_cons, List.reverse_cons]
    rw [List.take_append]
    rw [List.take_of_length_le (by simp)]
    simp
  have hdrop : ∀ st : List RVal, List.drop t.args.length (nI64 m.iidx :: nI64 m.fidx :: info.reverse ++ st) = st.drop k := by
    intro st
    have e : t.args.length = (k + info.length) + 1 + 1 := by omega
    rw [e]
    simp only [List.cons_append, List.drop_succ_cons]
    rw [List.drop_append]
    rw [List.drop_of_length_le (by simp)]
    simp
  rw [htake, hdrop]
  rfl

/-- Running a hook call is asking the analysis. -/
theorem run_hookCall (E : Env W) (σ : Sel) (m : Meta) (t : Trap) (h : Nat) (k : Nat) (vs : List Val) (c : Cfg W)
    (hσ : σ t = some h) (hi : HooksInstalled E σ) (hl : t.args.length = k + vs.length + 2) :
    denL E (TI.eraseL (hookCall m (vs.map .const) h)) c = ask E σ m t k (vs.map .num) c := by
  unfold hookCall
  rw [eraseL_map_ins, List.map_append, List.map_map]
  have : (HI.basic ∘ Basic.const) = fun v => HI.basic (.const v) := rfl
  rw [this, denL_consts]
  simp only [List.map_cons, List.map_nil, denL_const, denL_single, denI, step, hi t h hσ]
  exact doCall_ask E σ m t h k (vs.map .num) c hσ (by simpa using hl)

theorem run_hooked (E : Env W) (σ : Sel) (m : Meta) (t : Trap) (k : Nat) (vs : List Val) (c : Cfg W)
    (hi : HooksInstalled E σ) (hl : t.args.length = k + vs.length + 2) :
    denL E (TI.eraseL (hooked σ m (some (t, vs.map .const)))) c = ask E σ m t k (vs.map .num) c := by
  cases hσ : σ t with
  | none => simp [hooked, ask, hσ, denL, TI.eraseL]
  | some h =>
    simp only [hooked, hσ]
    exact run_hookCall E σ m t h k vs c hσ hi hl

theorem run_hookedO (E : Env W) (σ : Sel) (m : Meta) (t : Option Trap) (k : Nat) (vs : List Val) (c : Cfg W)
    (hi : HooksInstalled E σ) (hl : ∀ t', t = some t' → t'.args.length = k + vs.length + 2) :
    denL E (TI.eraseL (hooked σ m (t.map (·, vs.map .const)))) c = askO E σ m t k (vs.map .num) c := by
  cases t with
  | none => rfl
  | some t => exact run_hooked E σ m t k vs c hi (hl t rfl)

theorem localTrap_args {op v t} (h : localTrap op v = some t) : t.args = [v, .i64, .i64, .i64] ∧ t.results = [v] := by
  cases op <;> cases v <;> simp [localTrap] at h <;> subst h <;> exact ⟨rfl, rfl⟩
theorem globalTrap_args {op v t} (h : globalTrap op v = some t) : t.args = [v, .i64, .i64, .i64] ∧ t.results = [v] := by
  cases op <;> cases v <;> simp [globalTrap] at h <;> subst h <;> exact ⟨rfl, rfl⟩
theorem constTrap_args {v t} (h : constTrap v = some t) : t.args = [v, .i64, .i64] ∧ t.results = [v] := by
  cases v <;> simp [constTrap] at h <;> subst h <;> exact ⟨rfl, rfl⟩
theorem loadTrap_args {v t} (h : loadTrap v = some t) : t.args = [.i32, .i64, .i32, .i64, .i64] ∧ t.results = [v] := by
  cases v <;> simp [loadTrap] at h <;> subst h <;> exact ⟨rfl, rfl⟩
theorem storeTrap_args {v t} (h : storeTrap v = some t) : t.args = [.i32, v, .i64, .i32, .i64, .i64] ∧ t.results = [] := by
  cases v <;> simp [storeTrap] at h <;> subst h <;> exact ⟨rfl, rfl⟩
theorem unaryTrap_args {p t} (h : unaryTrap p = some t) : t.args = [p.1, .i32, .i64, .i64] ∧ t.results = [p.2] := by
  obtain ⟨a, b⟩ := p
  cases a <;> cases b <;> simp [unaryTrap] at h <;> subst h <;> exact ⟨rfl, rfl⟩
theorem binaryTrap_args {p t} (h : binaryTrap p = some t) : t.args = [p.1, p.1, .i32, .i64, .i64] ∧ t.results = [p.2] := by
  obtain ⟨a, b⟩ := p
  cases a <;> cases b <;> simp [binaryTrap] at h <;> subst h <;> exact ⟨rfl, rfl⟩

theorem bind_localTrap_args {o : Option ValType} {op t} (h : o.bind (localTrap op) = some t) : t.args.length = 4 := by
  cases o with
  | none => simp at h
  | some v => rw [(localTrap_args (by simpa using h)).1]; rfl
theorem bind_globalTrap_args {o : Option ValType} {op t} (h : o.bind (globalTrap op) = some t) : t.args.length = 4 := by
  cases o with
  | none => simp at h
  | some v => rw [(globalTrap_args (by simpa using h)).1]; rfl

theorem run_before (E : Env W) (σ : Sel) (n : Nat) (m : Meta) (b : Basic) (c : Cfg W) (hi : HooksInstalled E σ)
    (hm : m.flag = false) (hh : σ .brTableTrap ≠ none → HelpersInstalled E n (TI.tables (.basic m b))) (k : Cfg W → Out W)
    (hk : ∀ ls d, b = .brTable ls d → (∀ x st, c.stack ≠ .num (.i32 x) :: st) → σ .brTableTrap = none → k c = .stuck) :
    (denL E (TI.eraseL (hooked σ m (hookBefore n m b))) c).bind k = (askBefore E σ m b c).bind k := by
  cases b
  case loc op i =>
    cases op
    case get => rfl
    all_goals
      congr 1
      exact run_hookedO E σ m _ 1 [.i64 (BitVec.ofNat 64 i)] c hi fun t ht => bind_localTrap_args ht
  case glob op i =>
    cases op
    case get => rfl
    all_goals
      congr 1
      exact run_hookedO E σ m _ 1 [.i64 (BitVec.ofNat 64 i)] c hi fun t ht => bind_globalTrap_args ht
  case br l => congr 1; exact run_hooked E σ m .brTrap 0 [.i64 (BitVec.ofNat 64 l)] c hi rfl
  case brIf l => congr 1; exact run_hooked E σ m .brIfTrap 1 [.i32 (BitVec.ofNat 32 l)] c hi rfl
  case brTable ls d =>
    simp only [hookBefore, hooked]
    have hh' : σ .brTableTrap ≠ none → _ := fun h => hh h 0 (ls, d) (by simp [TI.tables, hm])
    cases hσ : σ .brTableTrap with
    | none =>
      simp only [TI.eraseL, denL, Out.bind_norm, askBefore]
      split
      · simp [ask, hσ]
      · rename_i h; exact hk ls d rfl (fun x st hx => h x st hx) hσ
    | some h =>
      obtain ⟨h1, h2⟩ := hh' (by simp [hσ])
      congr 1
      unfold hookCall
      rw [eraseL_map_ins]
      simp only [List.map_append, List.map_cons, List.map_nil, List.cons_append, List.nil_append]
      simp only [Nat.add_zero] at h1 h2
      rw [denL]
      simp only [denI, step, h1, doCall, askBefore]
      rcases hs : c.stack with _ | ⟨v, st⟩
      · simp
      · simp only [List.length_cons, List.length_nil, Nat.zero_add, List.take_succ_cons, List.take_zero, List.reverse_cons,
          List.reverse_nil, List.nil_append, List.map_cons, List.map_nil, List.drop_succ_cons, List.drop_zero]
        by_cases hv : v.type = .i32
        · obtain ⟨x, rfl⟩ : ∃ x, v = .num (.i32 x) := by
            cases v with
            | num v => cases v <;> simp [RVal.type, Val.type] at hv; exact ⟨_, rfl⟩
            | ref r a => simp [RVal.type] at hv
          rw [if_pos (by simp [RVal.type, Val.type])]
          rcases h2 with h2 | h2
          · rw [h2]
            simp only [List.map_cons, List.map_nil, RVal.type, Val.type, nI32, if_true, Out.bind_norm]
            rw [cI32, denL_const, denL_const, denL_const, denL_single]
            simp only [denI, step, hi _ _ hσ]
            exact doCall_ask E σ m .brTableTrap h 1 [nI32 (tableLabel ls d x), nI32 d] c hσ rfl ▸ by
              simp [hs, nI64, nI32]
          · rw [h2]
            simp only [Out.bind_fuel, ask, hσ, hs, h2]
            rw [if_pos]
            rfl
        · rw [if_neg (by simpa using hv)]
          cases v with
          | num v => cases v <;> first | rfl | (exact absurd rfl hv)
          | ref r a => rfl
  case call f => congr 1; exact run_hooked E σ m .preTrapCall 0 [.i32 (BitVec.ofNat 32 f)] c hi rfl
  case callIndirect t tbl =>
    congr 1; exact run_hooked E σ m .preTrapCallIndirect 1 [.i32 (BitVec.ofNat 32 tbl)] c hi rfl
  case ret => congr 1; exact run_hooked E σ m .returnTrap 0 [] c hi rfl
  case drop => congr 1; exact run_hooked E σ m .dropTrap 0 [] c hi rfl
  case select => congr 1; exact run_hooked E σ m .select 1 [] c hi rfl
  case typedSelect t => congr 1; exact run_hooked E σ m .select 1 [] c hi rfl
  all_goals rfl

theorem run_after (E : Env W) (σ : Sel) (m : Meta) (b : Basic) (c : Cfg W) (hi : HooksInstalled E σ) :
    denL E (TI.eraseL (hooked σ m (hookAfter m b))) c = askAfter E σ m b c := by
  cases b
  case loc op i =>
    cases op
    case get => exact run_hookedO E σ m _ 1 [.i64 (BitVec.ofNat 64 i)] c hi fun t ht => bind_localTrap_args ht
    all_goals rfl
  case glob op i =>
    cases op
    case get => exact run_hookedO E σ m _ 1 [.i64 (BitVec.ofNat 64 i)] c hi fun t ht => bind_globalTrap_args ht
    all_goals rfl
  case call f => exact run_hooked E σ m .postTrapCall 0 [.i32 (BitVec.ofNat 32 f)] c hi rfl
  case callIndirect t tbl => exact run_hooked E σ m .postTrapCallIndirect 0 [.i32 (BitVec.ofNat 32 tbl)] c hi rfl
  case const v => exact run_hookedO E σ m _ 1 [] c hi fun t ht => by rw [(constTrap_args ht).1]; rfl
  case memorySize i => exact run_hooked E σ m .memorySize 1 [.i64 (BitVec.ofNat 64 i)] c hi rfl
  all_goals rfl

theorem run_perform (E : Env W) (σ : Sel) (m : Meta) (b : Basic) (c : Cfg W) (hi : HooksInstalled E σ) :
    denL E (TI.eraseL (orReplaced σ m b)) c = perform E σ m b c := by
  have key : ∀ (t : Option Trap) (k : Nat) (vs : List Val),
      (∀ t', t = some t' → t'.args.length = k + vs.length + 2) → hookReplace b = t.map (·, vs.map .const) →
      denL E (TI.eraseL (orReplaced σ m b)) c = match (generalizing := false) t with
        | none => step E b c
        | some t => if (σ t).isSome then ask E σ m t k (vs.map .num) c else step E b c := by
    intro t k vs hl hr
    unfold orReplaced
    rw [hr]
    cases t with
    | none => exact denL_single E _ c
    | some t =>
      simp only [Option.map_some]
      cases hσ : σ t with
      | none => simp only [TI.eraseL, TI.erase, denL_single, denI, Option.isSome_none, Bool.false_eq_true, if_false]
      | some h =>
        simp only [Option.isSome_some, if_true]
        exact run_hookCall E σ m t h k vs c hσ hi (hl t rfl)
  cases b
  case unary op =>
    exact key (unaryTrap op.sig) 1 [.i32 op.serialize] (fun t ht => by rw [(unaryTrap_args ht).1]; rfl) rfl
  case binary op =>
    exact key (binaryTrap op.sig) 2 [.i32 op.serialize] (fun t ht => by rw [(binaryTrap_args ht).1]; rfl) rfl
  case load op ma =>
    exact key (loadTrap op.ty) 1 [.i64 (ma.offset.setWidth 64), .i32 op.serialize]
      (fun t ht => by rw [(loadTrap_args ht).1]; rfl) rfl
  case store op ma =>
    exact key (storeTrap op.ty) 2 [.i64 (ma.offset.setWidth 64), .i32 op.serialize]
      (fun t ht => by rw [(storeTrap_args ht).1]; rfl) rfl
  case memoryGrow i =>
    exact key (some .memoryGrow) 1 [.i64 (BitVec.ofNat 64 i)] (fun t ht => by cases ht; rfl) rfl
  all_goals exact denL_single E _ c

theorem HelpersInstalled.left {E : Env W} {n a b} (h : HelpersInstalled E n (a ++ b)) : HelpersInstalled E n a := by
  intro j p hp
  refine h j p ?_
  rw [List.getElem?_append_left (List.getElem?_eq_some_iff.1 hp).1, hp]

theorem HelpersInstalled.right {E : Env W} {n a b} (h : HelpersInstalled E n (a ++ b)) :
    HelpersInstalled E (n + a.length) b := by
  intro j p hp
  have := h (a.length + j) p (by rw [List.getElem?_append_right (by omega), Nat.add_sub_cancel_left]; exact hp)
  rw [Nat.add_assoc]
  exact this

theorem expand_runs (E : Env W) (σ : Sel) (hi : HooksInstalled E σ) :
    (∀ i : TI, (∀ x ∈ i.locs, x.2.2.1 = false) → ∀ n, (σ .brTableTrap ≠ none → HelpersInstalled E n i.tables) →
      ∀ c, denL E (TI.eraseL (expandI σ n i)) c = hdenI E σ i c) ∧
    (∀ l : List TI, Pristine l → ∀ n, (σ .brTableTrap ≠ none → HelpersInstalled E n (TI.tablesL l)) →
      ∀ c, denL E (TI.eraseL (expandL σ n l)) c = hdenL E σ l c) := by
  have hpost : ∀ (m : Meta) t, t.args.length = 2 →
      (fun c => denL E (TI.eraseL (hooked σ m (some (t, [])))) c) = ask E σ m t 0 [] := by
    intro m t ht; funext c
    exact run_hooked E σ m t 0 [] c hi ht
  apply TI.induct
  · intro m b h n hh c
    have hm : m.flag = false := by simpa [TI.locs] using h
    rw [expandI_basic _ _ _ _ hm]
    simp only [TI.eraseL_append, denL_append, Out.bind_assoc]
    rw [run_before E σ n m b c hi hm hh]
    · rw [hdenI]
      congr 1
      funext c1
      rw [run_perform E σ m b c1 hi]
      congr 1
      funext c2
      exact run_after E σ m b c2 hi
    · intro ls d hb hst hσ
      subst hb
      rw [run_perform E σ m _ c hi]
      simp only [perform, step]
      rfl
  · intro m t body ih h n hh c
    simp only [TI.locs, List.mem_cons, forall_eq_or_imp] at h
    rw [expandI.eq_def]
    simp only [h.1, Bool.false_eq_true, if_false, TI.eraseL, TI.erase, denL_single, denI, hdenI]
    congr 1
    funext c
    simp only [TI.eraseL_append, denL_append, Out.bind_assoc]
    rw [show arity t = List.map Basic.const [.i32 (BitVec.ofNat 32 t.inputs.length), .i32 (BitVec.ofNat 32 t.results.length)]
      from rfl, run_hooked E σ m .preBlock 0 _ c hi rfl]
    congr 1
    funext c1
    rw [ih h.2 n hh, ← hpost m .postBlock rfl]
  · intro m t body ih h n hh c
    simp only [TI.locs, List.mem_cons, forall_eq_or_imp] at h
    rw [expandI.eq_def]
    simp only [h.1, Bool.false_eq_true, if_false, TI.eraseL, TI.erase, denL_single, denI, hdenI]
    congr 1
    funext c
    simp only [TI.eraseL_append, denL_append, Out.bind_assoc]
    rw [show arity t = List.map Basic.const [.i32 (BitVec.ofNat 32 t.inputs.length), .i32 (BitVec.ofNat 32 t.results.length)]
      from rfl, run_hooked E σ m .preLoop 0 _ c hi rfl]
    congr 1
    funext c1
    rw [ih h.2 n hh, ← hpost m .postLoop rfl]
  · intro m t thn ih h n hh c
    simp only [TI.locs, List.mem_cons, forall_eq_or_imp] at h
    rw [expandI.eq_def]
    simp only [h.1, Bool.false_eq_true, if_false, TI.eraseL_append, denL_append, hdenI]
    rw [show arity t = List.map Basic.const [.i32 (BitVec.ofNat 32 t.inputs.length), .i32 (BitVec.ofNat 32 t.results.length)]
      from rfl, run_hooked E σ m .ifThenTrap 1 _ c hi rfl]
    congr 1
    funext c1
    have hthn : denL E (TI.eraseL (expandL σ n thn)) = hdenL E σ thn := by funext c; exact ih h.2 n hh c
    cases hσ : σ .ifThenPostTrap with
    | none =>
      have : ∀ m, ask E σ m .ifThenPostTrap 0 [] = Out.norm := by intro m; funext c; simp [ask, hσ]
      simp only [TI.eraseL, TI.erase, denL_single, denI, hthn, this, Out.bind_norm_right]
    | some k =>
      have : ∀ c, denL E (TI.eraseL (hookCall m [] k)) c = ask E σ m .ifThenPostTrap 0 [] c :=
        fun c => run_hookCall E σ m .ifThenPostTrap k 0 [] c hσ hi rfl
      have e1 : denL E (TI.eraseL (hookCall m [] k)) = ask E σ m .ifThenPostTrap 0 [] := by funext c; exact this c
      have e2 : denL E (TI.eraseL (expandL σ n thn) ++ TI.eraseL (hookCall m [] k)) =
          fun c => (hdenL E σ thn c).bind (ask E σ m .ifThenPostTrap 0 []) := by
        funext c; rw [denL_append, hthn, e1]
      simp only [TI.eraseL, TI.erase, TI.eraseL_append, denL_single, denI, e1, e2]
  · intro m t thn els ih1 ih2 h n hh c
    simp only [TI.locs, List.mem_cons, forall_eq_or_imp, List.mem_append] at h
    rw [expandI.eq_def]
    simp only [h.1, Bool.false_eq_true, if_false, TI.eraseL_append, denL_append, hdenI]
    rw [show arity t = List.map Basic.const [.i32 (BitVec.ofNat 32 t.inputs.length), .i32 (BitVec.ofNat 32 t.results.length)]
      from rfl, run_hooked E σ m .ifThenElseTrap 1 _ c hi rfl]
    congr 1
    funext c1
    have h1 : denL E (TI.eraseL (expandL σ n thn)) = hdenL E σ thn := by
      funext c; exact ih1 (fun x hx => h.2 x (.inl hx)) n (fun hb => (hh hb).left) c
    have h2 : denL E (TI.eraseL (expandL σ (n + (TI.tablesL thn).length) els)) = hdenL E σ els := by
      funext c; exact ih2 (fun x hx => h.2 x (.inr hx)) _ (fun hb => (hh hb).right) c
    have hp := hpost m .ifThenElsePostTrap rfl
    have e1 : denL E (TI.eraseL (expandL σ n thn) ++ TI.eraseL (hooked σ m (some (.ifThenElsePostTrap, [])))) =
        fun c => (hdenL E σ thn c).bind (ask E σ m .ifThenElsePostTrap 0 []) := by
      funext c; rw [denL_append, h1, ← hp]
    have e2 : denL E (TI.eraseL (expandL σ (n + (TI.tablesL thn).length) els) ++
          TI.eraseL (hooked σ m (some (.ifThenElsePostTrap, [])))) =
        fun c => (hdenL E σ els c).bind (ask E σ m .ifThenElsePostTrap 0 []) := by
      funext c; rw [denL_append, h2, ← hp]
    simp only [TI.eraseL, TI.erase, TI.eraseL_append, denL_single, denI, e1, e2]
  · intro _ n _ c; rfl
  · intro i l hi' hl h n hh c
    simp only [expandL, TI.eraseL_append, denL_append, hdenL]
    rw [hi' (fun x hx => h x (by simp [TI.locsL, hx])) n (fun hb => HelpersInstalled.left (by simpa [TI.tablesL] using hh hb))]
    congr 1
    funext c1
    exact hl (fun x hx => h x (by simp [TI.locsL, hx])) _ (fun hb => HelpersInstalled.right (by simpa [TI.tablesL] using hh hb)) c1

end Wastrum
