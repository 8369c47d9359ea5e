import Verif.StepSim
import Verif.Settle
import Verif.MemoryThms
/-!
# An analysis that forwards keeps the program in step (supporting lemmas)

The first of two executions is that of the original program, in which every question to the analysis merely changes the
state of the world by a function `u` (nothing at all, or an entry in a log). The second is the execution with an analysis
interposed that answers every question by what it was shown.
-/

set_option linter.unusedSimpArgs false
set_option linter.unusedVariables false

namespace Wastrum

variable {W W' : Type} {Γ : Ctx}

/-- Change the world by `u`. -/
def note (u : Trap → List RVal → W → W) (t : Trap) (args : List RVal) (s : Store W) : Store W := { s with world := u t args s.world }

/-- What the analysis is shown: `k` operands (deepest first), further information and the location. -/
def shown (m : Meta) (k : Nat) (info : List RVal) (c : Cfg W) : List RVal := (c.stack.take k).reverse ++ info ++ [nI64 m.fidx, nI64 m.iidx]

/-- Plain execution in which every question is noted. -/
def noting (E : Env W) (u : Trap → List RVal → W → W) : Asker W where
  ask m t k info c := .norm { c with store := note u t (shown m k info c) c.store }
  perf m b c := match delegation b with
    | some (t, k, info) => step E b { c with store := note u t (shown m k info c) c.store }
    | none => step E b c

theorem noting_nothing (E : Env W) : noting E (fun _ _ w => w) = plain E := by
  unfold noting plain note
  congr 1
  funext m b c
  split <;> rfl

/-- The memory the operation needs is there. -/
def Ctx.HasMem (Γ : Ctx) : Basic → Prop
  | .load _ _ | .store _ _ => 0 < Γ.mems
  | .memoryGrow i => i < Γ.mems
  | _ => True

theorem Ctx.HasMem.congr {Γ Γ' : Ctx} (h : Γ'.mems = Γ.mems) {b : Basic} (hb : Γ'.HasMem b) : Γ.HasMem b := by
  unfold Ctx.HasMem at hb ⊢
  split at hb <;> simp_all

theorem Ctx.HasMem.of_typed {b : Basic} {a e} (h : BTyped Γ b a e) : Γ.HasMem b := by
  cases b <;> first | trivial | exact h.1

/-- The analysis' hooks forward (those that perform operations: for operations satisfying `B`). -/
structure Rel.Hooks (R : Rel W W') (Γ : Ctx) (B : Basic → Prop) (σ : Sel) (u : Trap → List RVal → W → W) (E : Env W) (E' : Env W') : Prop where
  unselected : ∀ t, σ t = none → ∀ args s s', R.S s s' → R.S (note u t args s) s'
  observing : ∀ t h, σ t = some h → t.Observes → t.args.take t.results.length = t.results → ∀ args s s', args.map RVal.type = t.args → R.S s s' →
    ∃ vs, SameAnswer t (args.take t.results.length) vs ∧ R.Ress Γ t.results (.ok vs (note u t args s)) (E'.callF h args s')
  delegated : ∀ b t k info h, delegation b = some (t, k, info) → σ t = some h → B b → Γ.HasMem b → ∀ ops loc s s', ops.length = k → loc.length = 2 →
    (ops ++ info ++ loc).map RVal.type = t.args → R.S s s' →
    R.Ress Γ t.results (execInstr E b ops (note u t (ops ++ info ++ loc) s)) (E'.callF h (ops ++ info ++ loc) s')

theorem Rel.Cfgs.noted {R : Rel W W'} {u : Trap → List RVal → W → W} {ts c c' t args} (h : R.Cfgs Γ ts c c')
    (hs : R.S (note u t args c.store) c'.store) : R.Cfgs Γ ts { c with store := note u t args c.store } c' :=
  ⟨h.stack, h.locals, hs, h.stackOK, h.localsOK⟩

/-- Questions to a forwarding analysis keep the executions in step. -/
theorem ask_sim {R : Rel W W'} {σ : Sel} {u} {B} {E : Env W} {E' : Env W'} (hH : R.Hooks Γ B σ u E E') {m t ins info a c c'}
    (hq : Question t ins info) (hc : R.Cfgs Γ (ins.reverse ++ a) c c') :
    R.Outs Γ (ins.reverse ++ a) ((noting E u).ask m t ins.length info c) ((settling (hooking E' σ)).ask m t ins.length info c') := by
  simp only [noting, settling, hooking]
  cases hσ : σ t with
  | none =>
    have e : ask E' σ m t ins.length info c' = .norm c' := by unfold ask; rw [hσ]
    have es : settled c'.stack c' = c' := by
      unfold settled
      split
      · rename_i x _ y rest h1 h2
        rw [h1] at h2; cases h2
        rw [if_pos Iff.rfl]
        cases c'; cases h1; rfl
      · rfl
    have := hc.noted (hH.unselected t hσ (shown m ins.length info c) _ _ hc.store)
    split
    · rw [e]
      show R.Outs Γ _ _ (.norm (settled c'.stack c'))
      rw [es]
      exact .norm this
    · rw [e]
      exact .norm this
  | some h =>
    have hsp := hc.stackOK.split
    simp only [List.length_reverse] at hsp
    have hsh : (c'.stack.take ins.length).reverse ++ info ++ [nI64 m.fidx, nI64 m.iidx] = shown m ins.length info c := by
      rw [hc.stack]; rfl
    have hty : (shown m ins.length info c).map RVal.type = t.args := by
      rw [hq.args]
      have := hsp.1.reverse.1
      rw [List.reverse_reverse] at this
      simp only [shown, List.map_append, this]
      rfl
    have e : ask E' σ m t ins.length info c' = match E'.callF h (shown m ins.length info c) c'.store with
        | .ok vs s => if vs.map RVal.type = t.results then Out.norm { c' with stack := vs.reverse ++ c'.stack.drop ins.length, store := s } else .stuck
        | .trap s => .trap s
        | .stuck => .stuck
        | .fuel => .fuel := by
      unfold ask
      rw [hσ]
      dsimp only
      rw [hsh, if_pos hty]
      rfl
    obtain ⟨vs0, hsame, this⟩ := hH.observing t h hσ hq.observes (by rw [hq.args, hq.results, List.append_assoc]; simp) _ _ _ hty hc.store
    have hlen : (c.stack.take ins.length).reverse.length = ins.length := by
      have := hsp.1.reverse.length; simpa using this
    have htk : (shown m ins.length info c).take t.results.length = (c.stack.take ins.length).reverse := by
      rw [hq.results, shown, List.append_assoc, List.take_append_of_le_length (by omega), List.take_of_length_le (by omega)]
    rw [htk] at hsame
    rw [e]
    generalize E'.callF h _ _ = o at this ⊢
    have key : ∀ {s' : Store W'} {o' : Out W'}, R.S (note u t (shown m ins.length info c) c.store) s' →
        o' = .norm { c' with store := s' } → R.Outs Γ (ins.reverse ++ a) (.norm { c with store := note u t (shown m ins.length info c) c.store }) o' := by
      intro s' o' hs ho
      rw [ho]
      exact .norm ⟨hc.stack, hc.locals, hs, hc.stackOK, hc.localsOK⟩
    cases this with
    | @ok vs s s' hv hs =>
      dsimp only
      rw [if_pos hv.1]
      rcases hsame with rfl | ⟨hT, x, y, hx, rfl, hxy⟩
      · have e1 : (c.stack.take ins.length).reverse.reverse ++ c'.stack.drop ins.length = c'.stack := by
          rw [List.reverse_reverse, hc.stack, List.take_append_drop]
        rw [e1]
        split
        · refine key hs ?_
          show Out.norm (settled c'.stack _) = _
          unfold settled
          split
          · rename_i x _ y rest h1 h2
            dsimp only at h2
            rw [h1] at h2; cases h2
            rw [if_pos Iff.rfl, ← h1]
          · rfl
        · exact key hs rfl
      · rw [if_pos hT]
        refine key hs ?_
        show Out.norm (settled c'.stack _) = _
        have hx' : c.stack.take ins.length = [.i32 x] := by
          have := congrArg List.reverse hx
          rw [List.reverse_reverse] at this
          exact this
        have hst : c'.stack = .num (.i32 x) :: c'.stack.drop ins.length := by
          conv => lhs; rw [hc.stack, ← List.take_append_drop ins.length c.stack, hx', ← hc.stack]
          rfl
        rw [hst]
        unfold settled
        simp only [RVal.i32, List.reverse_cons, List.reverse_nil, List.nil_append, List.cons_append, hxy, if_true]
        rw [← hst]
        exact congrArg (fun st => Out.norm ⟨st, c'.locals, s'⟩) hst.symm
    | fuelR h =>
      dsimp only
      split <;> exact .fuelR h
    | trapR h =>
      dsimp only
      split <;> exact .trapR h

theorem perform_eq (E : Env W) (σ : Sel) (m : Meta) (b : Basic) (c : Cfg W) : perform E σ m b c = match delegation b with
    | some (t, k, info) => if (σ t).isSome then ask E σ m t k info c else step E b c
    | none => step E b c := by
  cases b <;> try rfl
  case unary op => simp only [perform, delegation]; cases unaryTrap op.sig <;> rfl
  case binary op => simp only [perform, delegation]; cases binaryTrap op.sig <;> rfl
  case load op ma => simp only [perform, delegation]; cases loadTrap op.ty <;> rfl
  case store op ma => simp only [perform, delegation]; cases storeTrap op.ty <;> rfl

/-- A delegated operation only looks at its operands. -/
theorem step_frame (E : Env W) {b t k info a e} {c : Cfg W} (hd : delegation b = some (t, k, info)) (ht : BTyped Γ b a e)
    (hs : ValsOK Γ c.stack a) :
    ∃ ins r, a = ins.reverse ++ r ∧ e = t.results.reverse ++ r ∧ ins.length = k ∧ t.args = ins ++ info.map RVal.type ++ [.i64, .i64] ∧
      step E b c = match execInstr E b (c.stack.take k).reverse c.store with
        | .ok vs s => .norm { c with stack := vs.reverse ++ c.stack.drop k, store := s }
        | .trap s => .trap s
        | .stuck => .stuck
        | .fuel => .fuel := by
  obtain ⟨st, lo, s⟩ := c
  dsimp only at hs
  cases b <;> try (simp [delegation] at hd; done)
  case unary op =>
    obtain ⟨r, rfl, rfl⟩ := ht
    simp only [delegation, Option.map_eq_some_iff, Prod.mk.injEq] at hd
    obtain ⟨_, hd, rfl, rfl, rfl⟩ := hd
    have ha := unaryTrap_args hd
    refine ⟨[op.sig.1], r, rfl, by rw [ha.2]; rfl, rfl, by rw [ha.1]; rfl, ?_⟩
    obtain ⟨v, st2, rfl, hvt, _, h⟩ := hs.cons_inv
    obtain ⟨v, rfl, hvn⟩ := RVal.type_num hvt op.sig_num
    simp only [step, execInstr, List.take_succ_cons, List.take_zero, List.reverse_cons, List.reverse_nil, List.nil_append, hvn, if_true]
    cases E.num.unary op v <;> rfl
  case binary op =>
    obtain ⟨r, rfl, rfl⟩ := ht
    simp only [delegation, Option.map_eq_some_iff, Prod.mk.injEq] at hd
    obtain ⟨_, hd, rfl, rfl, rfl⟩ := hd
    have ha := binaryTrap_args hd
    refine ⟨[op.sig.1, op.sig.1], r, rfl, by rw [ha.2]; rfl, rfl, by rw [ha.1]; rfl, ?_⟩
    obtain ⟨v, st2, rfl, hvt, _, h⟩ := hs.cons_inv
    obtain ⟨v, rfl, hvn⟩ := RVal.type_num hvt op.sig_num
    obtain ⟨v', st3, rfl, hvt', _, h'⟩ := h.cons_inv
    obtain ⟨v', rfl, hvn'⟩ := RVal.type_num hvt' op.sig_num
    simp only [step, execInstr, List.take_succ_cons, List.take_zero, List.reverse_cons, List.reverse_nil, List.nil_append, List.cons_append,
      hvn, hvn', and_self, if_true]
    cases E.num.binary op v' v <;> rfl
  case load op ma =>
    obtain ⟨_, r, rfl, rfl⟩ := ht
    simp only [delegation, Option.map_eq_some_iff, Prod.mk.injEq] at hd
    obtain ⟨_, hd, rfl, rfl, rfl⟩ := hd
    have ha := loadTrap_args hd
    refine ⟨[.i32], r, rfl, by rw [ha.2]; rfl, rfl, by rw [ha.1]; rfl, ?_⟩
    obtain ⟨x, st2, rfl, h⟩ := StoreOK.i32s1 hs
    simp only [step, execInstr, List.take_succ_cons, List.take_zero, List.reverse_cons, List.reverse_nil, List.nil_append]
    cases s.mems[0]? with
    | none => rfl
    | some m => dsimp only; cases m.load op (x.toNat + ma.offset.toNat) <;> rfl
  case store op ma =>
    obtain ⟨_, r, rfl, rfl⟩ := ht
    simp only [delegation, Option.map_eq_some_iff, Prod.mk.injEq] at hd
    obtain ⟨_, hd, rfl, rfl, rfl⟩ := hd
    have ha := storeTrap_args hd
    refine ⟨[.i32, op.ty], _, rfl, by rw [ha.2]; rfl, rfl, by rw [ha.1]; rfl, ?_⟩
    obtain ⟨v, st2, rfl, hvt, _, h⟩ := hs.cons_inv
    obtain ⟨v, rfl, hvn⟩ := RVal.type_num hvt op.ty_num
    obtain ⟨x, st3, rfl, h'⟩ := StoreOK.i32s1 h
    simp only [step, execInstr, List.take_succ_cons, List.take_zero, List.reverse_cons, List.reverse_nil, List.nil_append, List.cons_append,
      hvn, if_true]
    cases s.mems[0]? with
    | none => rfl
    | some m => dsimp only; cases m.store op (x.toNat + ma.offset.toNat) v <;> rfl
  case memoryGrow i =>
    obtain ⟨_, r, rfl, rfl⟩ := ht
    simp only [delegation, Option.some.injEq, Prod.mk.injEq] at hd
    obtain ⟨rfl, rfl, rfl⟩ := hd
    refine ⟨[.i32], r, rfl, rfl, rfl, rfl, ?_⟩
    obtain ⟨x, st2, rfl, h⟩ := StoreOK.i32s1 hs
    simp only [step, execInstr, List.take_succ_cons, List.take_zero, List.reverse_cons, List.reverse_nil, List.nil_append]
    cases s.mems[i]? with
    | none => rfl
    | some m => dsimp only; cases m.grow x.toNat <;> rfl

/-- Operations performed by a forwarding analysis keep the executions in step. -/
theorem perform_sim {R : Rel W W'} {T X} {Q : W → W' → Prop} (hS : R.S = SameState Γ T X Q) {σ : Sel} {u} {B} {E : Env W} {E' : Env W'}
    (hE : R.Envs Γ E E') (hH : R.Hooks Γ B σ u E E') {m b a e c c'} (hB : B b) (ht : BTyped Γ b a e) (hc : R.Cfgs Γ a c c') :
    R.Outs Γ e ((noting E u).perf m b c) (perform E' σ m b c') := by
  rw [perform_eq]
  simp only [noting]
  cases hd : delegation b with
  | none => exact step_sim hS hE ht hc
  | some p =>
    obtain ⟨t, k, info⟩ := p
    dsimp only
    cases hσ : σ t with
    | none =>
      simp only [Option.isSome_none, Bool.false_eq_true, if_false]
      exact step_sim hS hE ht (hc.noted (hH.unselected t hσ _ _ _ hc.store))
    | some h =>
      simp only [Option.isSome_some, if_true]
      obtain ⟨ins, r, rfl, rfl, rfl, hargs, hstep⟩ := step_frame E (c := { c with store := note u t (shown m k info c) c.store }) hd ht hc.stackOK
      rw [hstep]
      have hsp := hc.stackOK.split
      simp only [List.length_reverse] at hsp
      unfold ask
      rw [hσ]
      dsimp only
      rw [hc.stack]
      change R.Outs Γ _ _ (if (shown m ins.length info c).map RVal.type = t.args then _ else _)
      have hty : (shown m ins.length info c).map RVal.type = t.args := by
        rw [hargs]
        have := hsp.1.reverse.1
        rw [List.reverse_reverse] at this
        simp only [shown, List.map_append, this]
        rfl
      rw [if_pos hty]
      have := hH.delegated b t _ info h hd hσ hB (.of_typed ht) (c.stack.take ins.length).reverse [nI64 m.fidx, nI64 m.iidx] c.store c'.store
        (by simpa using hsp.1.reverse.length) rfl hty hc.store
      change R.Ress Γ _ _ (E'.callF h (shown m ins.length info c) c'.store) at this
      change R.Ress Γ _ (execInstr E b _ (note u t (shown m ins.length info c) c.store)) _ at this
      change R.Outs Γ _ _ (match E'.callF h (shown m ins.length info c) c'.store with
        | .ok vs s => if vs.map RVal.type = t.results then Out.norm { c' with stack := vs.reverse ++ c.stack.drop ins.length, store := s } else .stuck
        | .trap s => .trap s
        | .stuck => .stuck
        | .fuel => .fuel)
      generalize execInstr E b _ _ = o at this ⊢
      generalize E'.callF h _ _ = o' at this ⊢
      cases this with
      | @ok vs s s' hv hs =>
        dsimp only
        rw [if_pos hv.1]
        exact .norm ⟨rfl, hc.locals, hs, hv.reverse.append hsp.2, hc.localsOK⟩
      | trap hs => exact .trap hs
      | fuel => exact .fuel
      | fuelL h => exact .fuelL h
      | fuelR h => exact .fuelR h
      | trapL h => exact .trapL h
      | trapT h => exact .trapT h
      | trapR h => exact .trapR h

end Wastrum
