import Verif.Trace
import Verif.WatchersThms
/-!
# The shape of what an analysis is told (C64-C66)
-/

set_option linter.unusedSimpArgs false
set_option linter.unusedVariables false

namespace Wastrum

variable {W A : Type}

/-! ## Specification -/

/-- The events an instruction of the program can raise: the hook, the number of operands shown, and the further information. -/
def LInstr.events : LInstr → List (Trap × Nat × List RVal)
  | .block t => [(.preBlock, 0, [nI32 t.inputs.length, nI32 t.results.length]), (.postBlock, 0, [])]
  | .loop t => [(.preLoop, 0, [nI32 t.inputs.length, nI32 t.results.length]), (.postLoop, 0, [])]
  | .ite t => [(.ifThenTrap, 1, [nI32 t.inputs.length, nI32 t.results.length]), (.ifThenPostTrap, 0, []),
      (.ifThenElseTrap, 1, [nI32 t.inputs.length, nI32 t.results.length]), (.ifThenElsePostTrap, 0, [])]
  | .br l => [(.brTrap, 0, [nI64 l])]
  | .brIf l => [(.brIfTrap, 1, [nI32 l])]
  | .brTable ls d => (ls ++ [d]).map fun l => (.brTableTrap, 1, [nI32 l, nI32 d])
  | .call f => [(.preTrapCall, 0, [nI32 f]), (.postTrapCall, 0, [nI32 f])]
  | .callIndirect _ tbl => [(.preTrapCallIndirect, 1, [nI32 tbl]), (.postTrapCallIndirect, 0, [nI32 tbl])]
  | .ret => [(.returnTrap, 0, [])]
  | .drop => [(.dropTrap, 0, [])]
  | .select | .typedSelect _ => [(.select, 1, [])]
  | .const v => (constTrap v.type).toList.map (·, 1, [])
  | .unary op => (unaryTrap op.sig).toList.map (·, 1, [.i32 op.serialize])
  | .binary op => (binaryTrap op.sig).toList.map (·, 2, [.i32 op.serialize])
  | .load op ma => (loadTrap op.ty).toList.map (·, 1, [.i64 (ma.offset.setWidth 64), .i32 op.serialize])
  | .store op ma => (storeTrap op.ty).toList.map (·, 2, [.i64 (ma.offset.setWidth 64), .i32 op.serialize])
  | .memorySize i => [(.memorySize, 1, [nI64 i])]
  | .memoryGrow i => [(.memoryGrow, 1, [nI64 i])]
  | .loc op i => ([.i32, .i64, .f32, .f64].filterMap (localTrap op)).map (·, 1, [nI64 i])
  | .glob op i => ([.i32, .i64, .f32, .f64].filterMap (globalTrap op)).map (·, 1, [nI64 i])
  | _ => []

/-- The event is one that the instruction at its location raises, the location being an instruction of one of the functions `targets`. -/
def RaisedBy (m : Module) (targets : List Nat) (t : Trap) (args : List RVal) : Prop :=
  ∃ f ∈ targets, ∃ fn c i instr, m.functions[f]? = some fn ∧ fn.code = .present c ∧ c.body[i]? = some instr ∧
    ∃ k info operands, (t, k, info) ∈ instr.events ∧ operands.length ≤ k ∧ args = operands ++ info ++ [nI64 f, nI64 i]

/-- Calls are properly nested: every call that is announced is also reported as returned, with the same callee (or table) and the same place, and what happens
in between is properly nested. -/
inductive CallsNested : Log → Prop where
  | nil : CallsNested []
  | other {t args rest} : t ≠ .preTrapCall → t ≠ .postTrapCall → t ≠ .preTrapCallIndirect → t ≠ .postTrapCallIndirect → CallsNested rest → CallsNested ((t, args) :: rest)
  | call {callee f i inner rest} : CallsNested inner → CallsNested rest →
      CallsNested ((.preTrapCall, [callee, f, i]) :: (inner ++ (.postTrapCall, [callee, f, i]) :: rest))
  | callIndirect {index table f i inner rest} : CallsNested inner → CallsNested rest →
      CallsNested ((.preTrapCallIndirect, [index, table, f, i]) :: (inner ++ (.postTrapCallIndirect, [table, f, i]) :: rest))

/-- The imported functions of the traced program do not touch the log, except by calling back into the program. -/
def LeavesLog {ε : Type} (m : Module) (T : Imports (W × List ε)) : Prop :=
  ∀ f ∈ m.functions, ∀ ns name, f.code = .imported ns name → ∀ V : Evolution (W × List ε), (∀ w w' l, V.done (w, l) (w', l)) → HostEvolves V (T ns name)

/-! ## Lemmas -/

theorem LeavesLog.beside {ε : Type} {m : Module} (H : Imports W) : LeavesLog m (H.beside (List ε)) := by
  intro f hf ns name hc V hV call hcall args s
  unfold Imports.beside
  cases H ns name (fun _ _ _ => .stuck) args ⟨s.globals, s.mems, s.tables, s.datas, s.elems, s.world.1⟩ with
  | ok vs s1 => exact hV _ _ _
  | trap s1 => exact V.cut_of (hV _ _ _)
  | stuck => trivial
  | fuel => trivial

section
variable {V : Evolution W} {u : Trap → List RVal → W → W}

theorem noting_ask_evolves {E : Env W} {m : Meta} {t k info} (h : ∀ ops : List RVal, ops.length ≤ k → ∀ w, V.done w (u t (ops ++ info ++ [nI64 m.fidx, nI64 m.iidx]) w)) :
    Evolves V ((noting E u).ask m t k info) := by
  intro c
  exact h (c.stack.take k).reverse (by simp; omega) _

/-- An instruction all of whose events may be noted. -/
theorem noting_basic_evolves {E : Env W} (hE : CallEvolves V E.callF) {m : Meta} {b : Basic}
    (h : ∀ t k info, (t, k, info) ∈ b.toL.events → ∀ ops : List RVal, ops.length ≤ k → ∀ w, V.done w (u t (ops ++ info ++ [nI64 m.fidx, nI64 m.iidx]) w)) :
    Evolves V ((noting E u).basic m b) := by
  have ha : ∀ t k info, (t, k, info) ∈ b.toL.events → Evolves V ((noting E u).ask m t k info) := fun t k info hm => noting_ask_evolves (h t k info hm)
  have hb : Evolves V ((noting E u).before m b) := by
    intro c
    unfold Asker.before
    dsimp only
    cases b <;> try exact V.refl _
    case br l => exact ha _ _ _ (by simp [Basic.toL, LInstr.events]) c
    case brIf l => exact ha _ _ _ (by simp [Basic.toL, LInstr.events]) c
    case brTable ls d =>
      dsimp only
      split
      · rename_i x _ _
        refine ha _ _ _ ?_ c
        simp only [Basic.toL, LInstr.events, List.mem_map]
        refine ⟨tableLabel ls d x, ?_, rfl⟩
        unfold tableLabel
        rw [List.getD_eq_getElem?_getD]
        cases hx : ls[x.toNat]? with
        | none => simp
        | some l => simp only [Option.getD_some]; exact List.mem_append_left _ (List.mem_of_getElem? hx)
      · trivial
    case ret => exact ha _ _ _ (by simp [Basic.toL, LInstr.events]) c
    case call f => exact ha _ _ _ (by simp [Basic.toL, LInstr.events]) c
    case callIndirect ty tbl => exact ha _ _ _ (by simp [Basic.toL, LInstr.events]) c
    case drop => exact ha _ _ _ (by simp [Basic.toL, LInstr.events]) c
    case select => exact ha _ _ _ (by simp [Basic.toL, LInstr.events]) c
    case typedSelect => exact ha _ _ _ (by simp [Basic.toL, LInstr.events]) c
    case loc op i =>
      cases op <;> try exact V.refl _
      all_goals dsimp only; split
      all_goals first | exact V.refl _ | skip
      all_goals rename_i t ht
      all_goals refine ha _ _ _ ?_ c
      all_goals simp only [Basic.toL, LInstr.events, List.mem_map, List.mem_filterMap]
      all_goals refine ⟨t, ?_, rfl⟩
      all_goals obtain ⟨ty, _, ht⟩ := Option.bind_eq_some_iff.1 ht
      all_goals exact ⟨ty, by cases ty <;> simp_all [localTrap], ht⟩
    case glob op i =>
      cases op <;> try exact V.refl _
      all_goals dsimp only; split
      all_goals first | exact V.refl _ | skip
      all_goals rename_i t ht
      all_goals refine ha _ _ _ ?_ c
      all_goals simp only [Basic.toL, LInstr.events, List.mem_map, List.mem_filterMap]
      all_goals refine ⟨t, ?_, rfl⟩
      all_goals obtain ⟨ty, _, ht⟩ := Option.bind_eq_some_iff.1 ht
      all_goals exact ⟨ty, by cases ty <;> simp_all [globalTrap], ht⟩
  have hp : Evolves V ((noting E u).perf m b) := by
    intro c
    unfold noting
    dsimp only
    split
    · rename_i t k info hd
      refine (step_evolves hE b _).after ?_
      refine h t k info ?_ (c.stack.take k).reverse (by simp; omega) _
      cases b <;> simp only [delegation, reduceCtorEq, Option.map_eq_some_iff, Prod.mk.injEq, Option.some.injEq] at hd
      all_goals first
        | obtain ⟨t', ht, rfl, rfl, rfl⟩ := hd; simp [Basic.toL, LInstr.events, ht]; done
        | obtain ⟨rfl, rfl, rfl⟩ := hd; simp [Basic.toL, LInstr.events]; done
    · exact step_evolves hE b c
  have hf : Evolves V ((noting E u).after m b) := by
    intro c
    unfold Asker.after
    dsimp only
    cases b <;> try exact V.refl _
    case call f => exact ha _ _ _ (by simp [Basic.toL, LInstr.events]) c
    case callIndirect ty tbl => exact ha _ _ _ (by simp [Basic.toL, LInstr.events]) c
    case memorySize i => exact ha _ _ _ (by simp [Basic.toL, LInstr.events]) c
    case const v =>
      dsimp only
      split
      · exact V.refl _
      · rename_i t ht
        exact ha _ _ _ (by simp [Basic.toL, LInstr.events, ht]) c
    case loc op i =>
      cases op <;> try exact V.refl _
      all_goals dsimp only; split
      all_goals first | exact V.refl _ | skip
      all_goals rename_i t ht
      all_goals refine ha _ _ _ ?_ c
      all_goals simp only [Basic.toL, LInstr.events, List.mem_map, List.mem_filterMap]
      all_goals refine ⟨t, ?_, rfl⟩
      all_goals obtain ⟨ty, _, ht⟩ := Option.bind_eq_some_iff.1 ht
      all_goals exact ⟨ty, by cases ty <;> simp_all [localTrap], ht⟩
    case glob op i =>
      cases op <;> try exact V.refl _
      all_goals dsimp only; split
      all_goals first | exact V.refl _ | skip
      all_goals rename_i t ht
      all_goals refine ha _ _ _ ?_ c
      all_goals simp only [Basic.toL, LInstr.events, List.mem_map, List.mem_filterMap]
      all_goals refine ⟨t, ?_, rfl⟩
      all_goals obtain ⟨ty, _, ht⟩ := Option.bind_eq_some_iff.1 ht
      all_goals exact ⟨ty, by cases ty <;> simp_all [globalTrap], ht⟩
  intro c
  exact (hb c).bind (hp.bind hf)

/-- An instruction all of whose events may be noted, structured instructions included. -/
theorem noting_node_evolves {E : Env W} (hE : CallEvolves V E.callF) {n : TI}
    (h : ∀ t k info, (t, k, info) ∈ n.headLoc.2.2.2.events → ∀ ops : List RVal, ops.length ≤ k → ∀ w, V.done w (u t (ops ++ info ++ [nI64 n.headLoc.1, nI64 n.headLoc.2.1]) w)) :
    NodeEvolves V (noting E u) n := by
  cases n with
  | basic m b => exact noting_basic_evolves hE h
  | block m t _ => exact ⟨noting_ask_evolves (h _ _ _ (by simp [TI.headLoc, LInstr.events, arityInfo])), noting_ask_evolves (h _ _ _ (by simp [TI.headLoc, LInstr.events]))⟩
  | loop m t _ => exact ⟨noting_ask_evolves (h _ _ _ (by simp [TI.headLoc, LInstr.events, arityInfo])), noting_ask_evolves (h _ _ _ (by simp [TI.headLoc, LInstr.events]))⟩
  | ifThen m t _ => exact ⟨noting_ask_evolves (h _ _ _ (by simp [TI.headLoc, LInstr.events, arityInfo])), noting_ask_evolves (h _ _ _ (by simp [TI.headLoc, LInstr.events]))⟩
  | ifElse m t _ _ => exact ⟨noting_ask_evolves (h _ _ _ (by simp [TI.headLoc, LInstr.events, arityInfo])), noting_ask_evolves (h _ _ _ (by simp [TI.headLoc, LInstr.events]))⟩
end


/-! ### Every event is of an instruction -/

/-- Logs to which only events satisfying `S` are added. -/
def adding (W : Type) (S : Trap → List RVal → Prop) : Evolution (W × Log) where
  done p q := ∃ new, q.2 = p.2 ++ new ∧ ∀ e ∈ new, S e.1 e.2
  cut p q := ∃ new, q.2 = p.2 ++ new ∧ ∀ e ∈ new, S e.1 e.2
  refl p := ⟨[], by simp, by simp⟩
  trans := by
    rintro a b c ⟨n1, h1, g1⟩ ⟨n2, h2, g2⟩
    exact ⟨n1 ++ n2, by rw [h2, h1, List.append_assoc], fun e he => (List.mem_append.1 he).elim (g1 e) (g2 e)⟩
  cut_trans := by
    rintro a b c ⟨n1, h1, g1⟩ ⟨n2, h2, g2⟩
    exact ⟨n1 ++ n2, by rw [h2, h1, List.append_assoc], fun e he => (List.mem_append.1 he).elim (g1 e) (g2 e)⟩
  cut_of h := h

/-- The instructions of a raised body are those of the function, where they say they are. -/
theorem bodyOf_locs {C : Checker} {m : Module} {i : Nat} : ∀ e ∈ TI.locsL (bodyOf C m i),
    ∃ fn c, m.functions[i]? = some fn ∧ fn.code = .present c ∧ e.1 = i ∧ c.body[e.2.1]? = some e.2.2.2 := by
  rintro ⟨f, j, fl, h0⟩ he
  unfold bodyOf at he
  split at he
  · rename_i b hb
    obtain ⟨fn, c, hf, hc, hr⟩ := raiseTarget_present hb
    obtain ⟨h1, h2, h3⟩ := C04_location_points_to_itself _ _ _ _ _ hr f j fl h0 he
    exact ⟨fn, c, hf, hc, h1, h3⟩
  · simp [TI.locsL] at he

theorem traced_raised {C : Checker} {m : Module} {targets : List Nat} {T : Imports (W × Log)} (hT : LeavesLog m T) (N : Num) (L d : Nat) :
    CallEvolves (adding W (RaisedBy m targets)) (callF N (traced C m targets T logEvent) L d) := by
  refine traced_evolves (fun f hf ns name hc => hT f hf ns name hc (adding W _) fun w w' l => ⟨[], by simp, by simp⟩) (fun E hE i hi => ?_) N L d
  refine (TI.All.imp ?_).2 _ (all_of_locs.2 _ bodyOf_locs)
  rintro n ⟨fn, c, hf, hc, h1, h2⟩
  refine noting_node_evolves hE fun t k info hm ops hk w => ⟨[(t, ops ++ info ++ [nI64 n.headLoc.1, nI64 n.headLoc.2.1])], rfl, ?_⟩
  simp only [List.mem_singleton, forall_eq]
  rw [h1]
  exact ⟨i, hi, fn, c, _, _, hf, hc, h2, k, info, ops, hm, hk, rfl⟩

/-! ### Calls are nested -/

theorem CallsNested.append {a b : Log} (ha : CallsNested a) (hb : CallsNested b) : CallsNested (a ++ b) := by
  induction ha with
  | nil => exact hb
  | other h1 h2 h3 h4 _ ih => exact .other h1 h2 h3 h4 ih
  | call h1 _ _ ih2 => rw [List.cons_append, List.append_assoc, List.cons_append]; exact .call h1 ih2
  | callIndirect h1 _ _ ih2 => rw [List.cons_append, List.append_assoc, List.cons_append]; exact .callIndirect h1 ih2

/-- Logs to which properly nested events are added. -/
def nesting (W : Type) : Evolution (W × Log) where
  done p q := ∃ new, q.2 = p.2 ++ new ∧ CallsNested new
  cut p q := ∃ new, q.2 = p.2 ++ new ∧ ∃ rest, CallsNested (new ++ rest)
  refl p := ⟨[], by simp, .nil⟩
  trans := by
    rintro a b c ⟨n1, h1, g1⟩ ⟨n2, h2, g2⟩
    exact ⟨n1 ++ n2, by rw [h2, h1, List.append_assoc], g1.append g2⟩
  cut_trans := by
    rintro a b c ⟨n1, h1, g1⟩ ⟨n2, h2, rest, g2⟩
    exact ⟨n1 ++ n2, by rw [h2, h1, List.append_assoc], rest, by rw [List.append_assoc]; exact g1.append g2⟩
  cut_of := fun ⟨n, h, g⟩ => ⟨n, h, [], by simpa using g⟩

theorem doCall_norm {E : Env W} {f ty} {c : Cfg W} : (∃ c', doCall E f ty c = .norm c') ∨ (∃ s, doCall E f ty c = .trap s) ∨ doCall E f ty c = .stuck ∨ doCall E f ty c = .fuel := by
  unfold doCall
  split
  · split
    · split <;> simp
    · simp
    · simp
    · simp
  · simp

theorem call_nested {E : Env (W × Log)} (hE : CallEvolves (nesting W) E.callF) (m : Meta) (f : Nat) : Evolves (nesting W) ((noting E logEvent).basic m (.call f)) := by
  intro c
  have hs := step_evolves hE (.call f) { c with store := note logEvent .preTrapCall (shown m 0 [nI32 f] c) c.store }
  have hn : (∃ c', step E (.call f) { c with store := note logEvent .preTrapCall (shown m 0 [nI32 f] c) c.store } = .norm c') ∨
      (∃ s, step E (.call f) { c with store := note logEvent .preTrapCall (shown m 0 [nI32 f] c) c.store } = .trap s) ∨
      step E (.call f) { c with store := note logEvent .preTrapCall (shown m 0 [nI32 f] c) c.store } = .stuck ∨
      step E (.call f) { c with store := note logEvent .preTrapCall (shown m 0 [nI32 f] c) c.store } = .fuel := by
    simp only [step]
    split
    · exact doCall_norm
    · simp
  simp only [Asker.basic, Asker.before, noting, Out.bind, delegation, Asker.after]
  generalize step E (.call f) { c with store := note logEvent .preTrapCall (shown m 0 [nI32 f] c) c.store } = o at hs hn
  have e : ∀ c : Cfg (W × Log), shown m 0 [nI32 f] c = [nI32 f, nI64 m.fidx, nI64 m.iidx] := fun c => rfl
  rcases hn with ⟨c', rfl⟩ | ⟨s, rfl⟩ | rfl | rfl
  · obtain ⟨new, h, g⟩ := hs
    dsimp only [note, logEvent] at h
    refine ⟨(.preTrapCall, [nI32 f, nI64 m.fidx, nI64 m.iidx]) :: (new ++ [(.postTrapCall, [nI32 f, nI64 m.fidx, nI64 m.iidx])]), ?_, .call g .nil⟩
    dsimp only [note, logEvent]
    rw [h, e, e]
    simp
  · obtain ⟨new, h, rest, g⟩ := hs
    dsimp only [note, logEvent] at h
    refine ⟨(.preTrapCall, [nI32 f, nI64 m.fidx, nI64 m.iidx]) :: new, ?_, rest ++ [(.postTrapCall, [nI32 f, nI64 m.fidx, nI64 m.iidx])], ?_⟩
    · rw [h, e]
      simp
    · rw [List.cons_append, ← List.append_assoc]
      exact .call g .nil
  · trivial
  · trivial

theorem callIndirect_nested {E : Env (W × Log)} (hE : CallEvolves (nesting W) E.callF) (m : Meta) (ty : FuncType) (tbl : Nat) :
    Evolves (nesting W) ((noting E logEvent).basic m (.callIndirect ty tbl)) := by
  intro c
  have hs := step_evolves hE (.callIndirect ty tbl) { c with store := note logEvent .preTrapCallIndirect (shown m 1 [nI32 tbl] c) c.store }
  have hn : (∃ x st, c.stack = .num (.i32 x) :: st) ∧ ((∃ c', step E (.callIndirect ty tbl) { c with store := note logEvent .preTrapCallIndirect (shown m 1 [nI32 tbl] c) c.store } = .norm c') ∨
      (∃ s, step E (.callIndirect ty tbl) { c with store := note logEvent .preTrapCallIndirect (shown m 1 [nI32 tbl] c) c.store } = .trap s)) ∨
      step E (.callIndirect ty tbl) { c with store := note logEvent .preTrapCallIndirect (shown m 1 [nI32 tbl] c) c.store } = .stuck ∨
      step E (.callIndirect ty tbl) { c with store := note logEvent .preTrapCallIndirect (shown m 1 [nI32 tbl] c) c.store } = .fuel := by
    simp only [step]
    split
    · rename_i x st hst
      have hx : ∃ x st, c.stack = .num (.i32 x) :: st := ⟨x, st, hst⟩
      simp only [hx, true_and]
      split
      · split
        · split
          · rw [or_assoc]; exact doCall_norm
          · simp
        · simp
      · simp
    · simp
  simp only [Asker.basic, Asker.before, noting, Out.bind, delegation, Asker.after]
  generalize step E (.callIndirect ty tbl) { c with store := note logEvent .preTrapCallIndirect (shown m 1 [nI32 tbl] c) c.store } = o at hs hn
  rcases hn with ⟨⟨x, st, hst⟩, hn⟩ | rfl | rfl
  · have e : shown m 1 [nI32 tbl] c = [.num (.i32 x), nI32 tbl, nI64 m.fidx, nI64 m.iidx] := by unfold shown; rw [hst]; rfl
    have e' : ∀ c : Cfg (W × Log), shown m 0 [nI32 tbl] c = [nI32 tbl, nI64 m.fidx, nI64 m.iidx] := fun c => rfl
    rcases hn with ⟨c', rfl⟩ | ⟨s, rfl⟩
    · obtain ⟨new, h, g⟩ := hs
      dsimp only [note, logEvent] at h
      refine ⟨(.preTrapCallIndirect, [.num (.i32 x), nI32 tbl, nI64 m.fidx, nI64 m.iidx]) :: (new ++ [(.postTrapCallIndirect, [nI32 tbl, nI64 m.fidx, nI64 m.iidx])]), ?_, .callIndirect g .nil⟩
      dsimp only [note, logEvent]
      rw [h, e, e']
      simp
    · obtain ⟨new, h, rest, g⟩ := hs
      dsimp only [note, logEvent] at h
      refine ⟨(.preTrapCallIndirect, [.num (.i32 x), nI32 tbl, nI64 m.fidx, nI64 m.iidx]) :: new, ?_, rest ++ [(.postTrapCallIndirect, [nI32 tbl, nI64 m.fidx, nI64 m.iidx])], ?_⟩
      · rw [h, e]
        simp
      · rw [List.cons_append, ← List.append_assoc]
        exact .callIndirect g .nil
  · trivial
  · trivial

/-- Only call instructions raise call events. -/
theorem events_not_call {i : LInstr} (h1 : ∀ f, i ≠ .call f) (h2 : ∀ ty tbl, i ≠ .callIndirect ty tbl) {t k info} (h : (t, k, info) ∈ i.events) :
    t ≠ .preTrapCall ∧ t ≠ .postTrapCall ∧ t ≠ .preTrapCallIndirect ∧ t ≠ .postTrapCallIndirect := by
  cases i <;> simp only [LInstr.events, List.not_mem_nil, List.mem_map, List.mem_cons, List.mem_append, List.mem_filterMap, Option.mem_toList, Prod.mk.injEq, or_false] at h
  case call f => exact absurd rfl (h1 f)
  case callIndirect ty tbl => exact absurd rfl (h2 ty tbl)
  case const v => obtain ⟨t, h, rfl, _⟩ := h; unfold constTrap at h; split at h <;> cases h <;> decide
  case unary op => obtain ⟨t, h, rfl, _⟩ := h; unfold unaryTrap at h; split at h <;> cases h <;> decide
  case binary op => obtain ⟨t, h, rfl, _⟩ := h; unfold binaryTrap at h; split at h <;> cases h <;> decide
  case load op ma => obtain ⟨t, h, rfl, _⟩ := h; unfold loadTrap at h; split at h <;> cases h <;> decide
  case store op ma => obtain ⟨t, h, rfl, _⟩ := h; unfold storeTrap at h; split at h <;> cases h <;> decide
  case loc op i => obtain ⟨t, ⟨ty, _, h⟩, rfl, _⟩ := h; unfold localTrap at h; split at h <;> cases h <;> decide
  case glob op i => obtain ⟨t, ⟨ty, _, h⟩, rfl, _⟩ := h; unfold globalTrap at h; split at h <;> cases h <;> decide
  case brTable ls d => obtain ⟨l, _, rfl, _⟩ := h; decide
  all_goals first
    | exact h.elim
    | (obtain ⟨rfl, _⟩ := h; decide; done)
    | (rcases h with h | h <;> obtain ⟨rfl, _⟩ := h <;> decide; done)
    | (rcases h with h | h | h | h <;> obtain ⟨rfl, _⟩ := h <;> decide)

theorem traced_nested {C : Checker} {m : Module} {targets : List Nat} {T : Imports (W × Log)} (hT : LeavesLog m T) (N : Num) (L d : Nat) :
    CallEvolves (nesting W) (callF N (traced C m targets T logEvent) L d) := by
  refine traced_evolves (fun f hf ns name hc => hT f hf ns name hc (nesting W) fun w w' l => ⟨[], by simp, .nil⟩) (fun E hE i hi => ?_) N L d
  refine (TI.All.imp ?_).2 _ ((all_of_locs (S := fun _ => True)).2 _ fun _ _ => trivial)
  intro n _
  have other : ∀ {n : TI}, (∀ f, n.headLoc.2.2.2 ≠ .call f) → (∀ ty tbl, n.headLoc.2.2.2 ≠ .callIndirect ty tbl) → NodeEvolves (nesting W) (noting E logEvent) n := by
    intro n h1 h2
    refine noting_node_evolves hE fun t k info hm ops hk w => ⟨[(t, ops ++ info ++ [nI64 n.headLoc.1, nI64 n.headLoc.2.1])], rfl, ?_⟩
    obtain ⟨g1, g2, g3, g4⟩ := events_not_call h1 h2 hm
    exact .other g1 g2 g3 g4 .nil
  cases n with
  | basic m b =>
    cases b <;> first
      | exact call_nested hE m _
      | exact callIndirect_nested hE m _ _
      | exact other (by simp [TI.headLoc, Basic.toL]) (by simp [TI.headLoc, Basic.toL])
  | _ => exact other (by simp [TI.headLoc]) (by simp [TI.headLoc])

/-! ## C64 -/

/-- **C64.** The calls of a run are properly nested: in the sequence of events of a run that ends normally, every announced call is reported as returned, with the same
callee and the same place, and the announced and returned calls form a bracket structure. If the run traps, the sequence is the beginning of
such a sequence: calls that were interrupted are not reported as returned. -/
theorem C64_calls_nest {C : Checker} {m : Module} {targets : List Nat} {T : Imports (W × Log)} (hT : LeavesLog m T) {N : Num} {L d f : Nat} {args : List RVal} {s : Store W} :
    (∀ vs (s1 : Store W) (log : Log), callF N (traced C m targets T logEvent) L d f args (s.withAnalysis []) = .ok vs (s1.withAnalysis log) → CallsNested log) ∧
    (∀ (s1 : Store W) (log : Log), callF N (traced C m targets T logEvent) L d f args (s.withAnalysis []) = .trap (s1.withAnalysis log) → ∃ rest, CallsNested (log ++ rest)) := by
  have h := traced_nested (C := C) (targets := targets) hT N L d f args (s.withAnalysis [])
  constructor
  · intro vs s1 log e
    rw [e] at h
    obtain ⟨new, h, g⟩ := h
    rw [show log = new from h]
    exact g
  · intro s1 log e
    rw [e] at h
    obtain ⟨new, h, g⟩ := h
    rw [show log = new from h]
    exact g

/-! ## C65 -/

/-- **C65.** No event is made up: every event of a run — whether it ends normally or traps — carries the place of an instruction of one of the instrumented functions, and it
is one of the events that this very instruction raises, with that instruction's information. -/
theorem C65_events_are_of_instructions {C : Checker} {m : Module} {targets : List Nat} {T : Imports (W × Log)} (hT : LeavesLog m T) {N : Num} {L d f : Nat} {args : List RVal} {s : Store W}
    (s1 : Store W) (log : Log) (h : (∃ vs, callF N (traced C m targets T logEvent) L d f args (s.withAnalysis []) = .ok vs (s1.withAnalysis log)) ∨
      callF N (traced C m targets T logEvent) L d f args (s.withAnalysis []) = .trap (s1.withAnalysis log)) :
    ∀ t as, (t, as) ∈ log → RaisedBy m targets t as := by
  have g := traced_raised (C := C) (targets := targets) hT N L d f args (s.withAnalysis [])
  have : ∃ new, log = [] ++ new ∧ ∀ e ∈ new, RaisedBy m targets e.1 e.2 := by
    rcases h with ⟨vs, h⟩ | h <;> (rw [h] at g; exact g)
  obtain ⟨new, rfl, g⟩ := this
  exact fun t as h => g (t, as) h


theorem Interface.Hears.cons {iface : Interface} {t args} {log : Log} {advs : List Advice} (h : iface.Hears ((t, args) :: log) advs) :
    (iface.trap t = none ∧ iface.Hears log advs) ∨ ∃ a as, advs = a :: as ∧ stdEntry t args = some a ∧ (iface.trap t).isSome ∧ iface.Hears log as := by
  unfold Interface.Hears Interface.observed at *
  rw [List.filter_cons] at h
  cases ht : iface.trap t with
  | none => rw [ht] at h; exact .inl ⟨rfl, h⟩
  | some e =>
    rw [ht] at h
    cases advs with
    | nil => cases h
    | cons a as =>
      simp only [Option.isSome_some, if_true, List.map_cons, List.cons.injEq] at h
      exact .inr ⟨a, as, rfl, h.1, rfl, h.2⟩

theorem Interface.Hears.mem {iface : Interface} {log : Log} {advs : List Advice} (h : iface.Hears log advs) {a} (ha : a ∈ advs) : ∃ t args, (t, args) ∈ log ∧ stdEntry t args = some a := by
  have : some a ∈ advs.map some := List.mem_map_of_mem ha
  rw [← h] at this
  obtain ⟨⟨t, args⟩, h1, h2⟩ := List.mem_map.1 this
  exact ⟨t, args, (List.mem_filter.1 h1).1, h2⟩

theorem stdEntry_at {t ops f i a} (h : stdEntry t (ops ++ [nI64 f, nI64 i]) = some a) : a.At (BitVec.ofNat 64 f) (BitVec.ofNat 64 i) := by
  obtain ⟨h1, h2⟩ := C22_accessors_are_swapped t ops _ _ a h
  unfold Advice.At
  rw [← h1, ← h2]
  rfl

/-- **C65, of what an analysis is told.** Whatever a recording analysis is told of a run, it is told of an instruction of one of the instrumented functions, at
its place, and it is one of the events this instruction raises. -/
theorem C65_analysis_told_of_instructions {C iface ts} {m : Module} {N : Num} {T : Imports (W × Log)} (hT : LeavesLog m T)
    {L d f : Nat} {args : List RVal} {s : Store W} {o : Res (W × A)} {a1 : A} {advs : List Advice} (h : Saw C iface ts m N T L d f args s o a1 advs) :
    ∀ a ∈ advs, ∃ f ∈ bodyTargets m ts, ∃ fn c i instr, m.functions[f]? = some fn ∧ fn.code = .present c ∧ c.body[i]? = some instr ∧
      a.At (BitVec.ofNat 64 f) (BitVec.ofNat 64 i) ∧
      ∃ t k info operands, (t, k, info) ∈ instr.events ∧ operands.length ≤ k ∧ stdEntry t (operands ++ info ++ [nI64 f, nI64 i]) = some a := by
  obtain ⟨s1, log, hl, h⟩ := h
  intro a ha
  obtain ⟨t, as, hm, he⟩ := hl.mem ha
  have : RaisedBy m (bodyTargets m ts) t as := by
    refine C65_events_are_of_instructions hT (N := N) (C := C) (L := L) (d := d) (f := f) (args := args) (s := s) s1 log ?_ t as hm
    rcases h with ⟨vs, _, h⟩ | ⟨_, h⟩
    · exact .inl ⟨vs, h⟩
    · exact .inr h
  obtain ⟨f, hf, fn, c, i, instr, h1, h2, h3, k, info, ops, h4, h5, rfl⟩ := this
  exact ⟨f, hf, fn, c, i, instr, h1, h2, h3, stdEntry_at he, t, k, info, ops, h4, h5, he⟩

theorem stdEntry_callPre {t args g l} (h : stdEntry t args = some (.callPre g l)) : t = .preTrapCall := by
  unfold stdEntry at h
  split at h <;> first | rfl | (exfalso; split at h <;> simp at h)

theorem stdEntry_callPost {t args g l} (h : stdEntry t args = some (.callPost g l)) : t = .postTrapCall := by
  unfold stdEntry at h
  split at h <;> first | rfl | (exfalso; split at h <;> simp at h)

theorem events_call {i : LInstr} {k info} (h : (Trap.preTrapCall, k, info) ∈ i.events) : ∃ g, i = .call g ∧ k = 0 ∧ info = [nI32 g] := by
  by_cases h1 : ∃ g, i = .call g
  · obtain ⟨g, rfl⟩ := h1
    simp only [LInstr.events, List.mem_cons, Prod.mk.injEq, reduceCtorEq, true_and, false_and, List.not_mem_nil, or_false] at h
    exact ⟨g, rfl, h⟩
  · by_cases h2 : ∃ ty tbl, i = .callIndirect ty tbl
    · obtain ⟨ty, tbl, rfl⟩ := h2
      simp [LInstr.events] at h
    · exact absurd rfl (events_not_call (fun g e => h1 ⟨g, e⟩) (fun ty tbl e => h2 ⟨ty, tbl, e⟩) h).1

/-- **C65, of calls.** An analysis is told of a direct call of `callee` at instruction `x` of function `caller` only if this instruction is that call. -/
theorem C65_calls_told_are_in_the_program {C iface ts} {m : Module} {N : Num} {T : Imports (W × Log)} (hT : LeavesLog m T)
    {L d f : Nat} {args : List RVal} {s : Store W} {o : Res (W × A)} {a1 : A} {advs : List Advice} (h : Saw C iface ts m N T L d f args s o a1 advs)
    {callee caller x} (ha : Advice.callPre callee (.new caller x) ∈ advs) :
    ∃ f ∈ bodyTargets m ts, ∃ fn c i g, m.functions[f]? = some fn ∧ fn.code = .present c ∧ c.body[i]? = some (.call g) ∧
      caller = BitVec.ofNat 64 f ∧ x = BitVec.ofNat 64 i ∧ callee = BitVec.ofNat 32 g := by
  obtain ⟨f, hf, fn, c, i, instr, h1, h2, h3, h4, t, k, info, ops, h5, h6, h7⟩ := C65_analysis_told_of_instructions hT h _ ha
  obtain rfl := stdEntry_callPre h7
  obtain ⟨g, rfl, rfl, rfl⟩ := events_call h5
  obtain rfl : ops = [] := List.eq_nil_of_length_eq_zero (by omega)
  cases h7
  exact ⟨f, hf, fn, c, i, g, h1, h2, h3, rfl, rfl, rfl⟩

/-- **C65, of the call graph.** Every edge the call-graph analysis reports (C62) stems from a call instruction of the program: there is a function that calls
the second component at the instruction whose index is the first component. -/
theorem C65_call_graph_edges_are_calls {C iface ts m r} {N : Num} {T : Imports (W × Log)} {H : Imports (W × CallGraph)} (hT : LeavesLog m T)
    (hW : Watching C iface ts m r N (.ahead callGraph) T H)
    (hoff : ∀ i ∈ bodyTargets m ts, ∀ f c, m.functions[i]? = some f → f.code = .present c → OnlyCode (OffsetsAre iface fun o => o = 0) c.body)
    {f : Nat} {ty : FuncType} {args : List RVal} {s : Store W} (hf : m.ctx.ftype f = some ty) (hargs : ValsOK m.ctx args ty.inputs)
    (hok : StoreOK m.ctx s) (L d : Nat) {a1 : CallGraph} {s1 : Store W}
    (h : (∃ vs, callF N (machineOf H r.module.functions) L d f args (s.withAnalysis []) = .ok vs (s1.withAnalysis a1)) ∨
      callF N (machineOf H r.module.functions) L d f args (s.withAnalysis []) = .trap (s1.withAnalysis a1)) :
    ∀ x g, (x, g) ∈ a1 → ∃ f ∈ bodyTargets m ts, ∃ fn c i callee, m.functions[f]? = some fn ∧ fn.code = .present c ∧ c.body[i]? = some (.call callee) ∧
      x = BitVec.ofNat 64 i ∧ g = (BitVec.ofNat 32 callee).signExtend 64 := by
  intro x g hm
  rcases C58_told_everything (C58_rust_analysis_qualifies hW) hoff hf hargs hok [] L d with hfu | ⟨advs, hs⟩
  · rw [hfu] at h
    rcases h with ⟨vs, h⟩ | h <;> cases h
  · have e : a1 = advs.foldl (fun x e => callGraph e x) [] := by
      obtain ⟨s2, log, _, hs⟩ := hs
      rcases h with ⟨vs, h⟩ | h
      · rcases hs with ⟨vs', hs, _⟩ | ⟨hs, _⟩
        · rw [h] at hs; injection hs with _ hs; exact (withAnalysis_inj hs).2
        · rw [h] at hs; cases hs
      · rcases hs with ⟨vs', hs, _⟩ | ⟨hs, _⟩
        · rw [h] at hs; cases hs
        · rw [h] at hs; injection hs with hs; exact (withAnalysis_inj hs).2
    rw [e] at hm
    have := (keys_of_events (upd := callGraph) (keysOf := id) (key := Advice.edge) (fun a b => by cases a <;> rfl) advs [] (by simp)).2 (x, g)
    simp only [id, List.not_mem_nil, false_or] at this
    obtain ⟨a, ha, he⟩ := this.1 hm
    cases a <;> simp only [Advice.edge, Option.some.injEq, reduceCtorEq, Prod.mk.injEq] at he
    rename_i callee l
    obtain ⟨rfl, rfl⟩ := he
    obtain ⟨f, hf, fn, c, i, g, h1, h2, h3, h4, h5, h6⟩ := C65_calls_told_are_in_the_program hT hs (caller := l.instructionIndex) (x := l.functionIndex) ha
    exact ⟨f, hf, fn, c, i, g, h1, h2, h3, h5, by rw [h6]⟩


-- C64 and C65: `main(0, 5)` of the example.
example : LeavesLog exModule (exImports.beside Log) := .beside _
example : ∃ log, callF exNum (traced exTypedChecker exModule (bodyTargets exModule none) (exImports.beside Log) logEvent) 10 10 1 [.i32 0, .i32 5] (exStore.withAnalysis []) =
      .ok [.i32 49] (Store.withAnalysis { exStore with world := [.i32 7] } log) ∧ CallsNested log ∧
    ∀ t as, (t, as) ∈ log → RaisedBy exModule (bodyTargets exModule none) t as := by
  obtain ⟨log, h, _⟩ := exModule_traced
  exact ⟨log, h, (C64_calls_nest (.beside _)).1 _ _ _ h, C65_events_are_of_instructions (.beside _) _ _ (.inl ⟨_, h⟩)⟩
-- The call of function 0 lies within that of function 2 ...
example : CallsNested [(.preTrapCall, [nI32 2, nI64 1, nI64 5]), (.localGetI32, [.i32 7, nI64 0, nI64 2, nI64 0]), (.preTrapCall, [nI32 0, nI64 2, nI64 1]),
    (.postTrapCall, [nI32 0, nI64 2, nI64 1]), (.postTrapCall, [nI32 2, nI64 1, nI64 5])] :=
  .call (inner := [_, _, _]) (.other (by decide) (by decide) (by decide) (by decide) (.call (inner := []) .nil .nil)) .nil
-- ... and two calls that overlap are not nested.
example : ¬ CallsNested [(.preTrapCall, [nI32 2, nI64 1, nI64 5]), (.preTrapCall, [nI32 0, nI64 2, nI64 1]),
    (.postTrapCall, [nI32 2, nI64 1, nI64 5]), (.postTrapCall, [nI32 0, nI64 2, nI64 1])] := by
  intro h
  generalize hl : [_, _, _, _] = l at h
  cases h with
  | nil => cases hl
  | other h1 => cases hl; exact h1 rfl
  | callIndirect => cases hl
  | @call callee f i inner rest h1 h2 =>
    simp only [List.cons.injEq, Prod.mk.injEq] at hl
    obtain ⟨⟨_, rfl, rfl, rfl, _⟩, hl⟩ := hl
    match inner, hl, h1 with
    | [], hl, _ => simp at hl
    | [x], hl, h1 =>
      simp only [List.cons_append, List.nil_append, List.cons.injEq] at hl
      obtain ⟨rfl, _⟩ := hl
      generalize hx : [(Trap.preTrapCall, [nI32 0, nI64 2, nI64 1])] = y at h1
      cases h1 with
      | nil => cases hx
      | other g => cases hx; exact g rfl
      | callIndirect => cases hx
      | call => simp at hx
    | [x, y], hl, _ =>
      simp only [List.cons_append, List.nil_append, List.cons.injEq] at hl
      obtain ⟨_, _, h, _⟩ := hl
      exact absurd (congrArg (fun p => p.2.head?) h) (by decide)
    | _ :: _ :: _ :: _, hl, _ => simp at hl
-- An event that no instruction raises: instruction 4 of function 2 is a multiplication.
example : ¬ RaisedBy exModule [1, 2, 3] .binaryI32I32ToI32 [.i32 1, .i32 1, .i32 (BinaryOp.serialize .i32Add), nI64 2, nI64 4] := by
  rintro ⟨f, hf, fn, c, i, instr, h1, h2, h3, k, info, ops, h4, h5, h6⟩
  simp only [List.mem_cons, List.not_mem_nil, or_false] at hf
  have hlen := congrArg List.length h6
  simp only [List.length_cons, List.length_nil, List.length_append] at hlen
  rcases hf with rfl | rfl | rfl <;> cases h1 <;> cases h2
  all_goals
    have hi := (List.getElem?_eq_some_iff.1 h3).1
    simp only [List.length_cons, List.length_nil] at hi
    rcases i with _ | _ | _ | _ | _ | _ | _ | _ | i <;> first | omega | skip
    all_goals cases h3
    all_goals simp [LInstr.events, constTrap, Val.type, binaryTrap, BinaryOp.sig, localTrap] at h4
  all_goals
    obtain ⟨rfl, rfl⟩ := h4
    match ops, hlen, h6 with
    | [a, b], _, h6 => exact absurd h6 (by simp only [List.cons_append, List.nil_append, List.cons.injEq]; rintro ⟨_, _, h, _⟩; revert h; decide +kernel)

/-! ## C66 -/

/-- The direct calls announced, and reported as returned. -/
def Advice.isCallPre : Advice → Bool
  | .callPre .. => true
  | _ => false
def Advice.isCallPost : Advice → Bool
  | .callPost .. => true
  | _ => false

/-- The number of direct calls that have been made and have not returned. -/
def openCalls (advs : List Advice) : Nat := times advs Advice.isCallPre - times advs Advice.isCallPost

/-- `d` is the largest number of direct calls that were open at the same time. -/
def DeepestCalls (advs : List Advice) (d : Nat) : Prop := (∃ p, p <+: advs ∧ openCalls p = d) ∧ ∀ p, p <+: advs → openCalls p ≤ d

/-- Events that announce and finish calls. -/
def announced (log : Log) : Nat := log.countP fun e => e.1 = .preTrapCall
def finished (log : Log) : Nat := log.countP fun e => e.1 = .postTrapCall

theorem Interface.Hears.counts {iface : Interface} (h1 : (iface.trap .preTrapCall).isSome) (h2 : (iface.trap .postTrapCall).isSome) {log : Log} {advs : List Advice}
    (h : iface.Hears log advs) : times advs Advice.isCallPre = announced log ∧ times advs Advice.isCallPost = finished log := by
  unfold times announced finished
  induction log generalizing advs with
  | nil =>
    have : advs = [] := by simpa [Interface.Hears, Interface.observed] using h.symm
    subst this; exact ⟨rfl, rfl⟩
  | cons e log ih =>
    obtain ⟨t, args⟩ := e
    rcases h.cons with ⟨ht, h⟩ | ⟨a, as, rfl, he, ht, h⟩
    · obtain ⟨e1, e2⟩ := ih h
      have n1 : t ≠ .preTrapCall := by rintro rfl; rw [ht] at h1; cases h1
      have n2 : t ≠ .postTrapCall := by rintro rfl; rw [ht] at h2; cases h2
      rw [List.countP_cons_of_neg (by simpa using n1), List.countP_cons_of_neg (by simpa using n2)]
      exact ⟨e1, e2⟩
    · obtain ⟨e1, e2⟩ := ih h
      have n1 : a.isCallPre = decide (t = .preTrapCall) := by
        by_cases ht : t = .preTrapCall
        · subst ht
          simp only [stdEntry] at he
          split at he <;> cases he
          rfl
        · rw [decide_eq_false ht]
          cases a <;> first | rfl | exact absurd (stdEntry_callPre he) ht
      have n2 : a.isCallPost = decide (t = .postTrapCall) := by
        by_cases ht : t = .postTrapCall
        · subst ht
          simp only [stdEntry] at he
          split at he <;> cases he
          rfl
        · rw [decide_eq_false ht]
          cases a <;> first | rfl | exact absurd (stdEntry_callPost he) ht
      simp only [List.countP_cons, e1, e2, n1, n2, and_self]

theorem Interface.Hears.prefix {iface : Interface} {log : Log} {advs p : List Advice} (h : iface.Hears log advs) (hp : p <+: advs) : ∃ q, q <+: log ∧ iface.Hears q p := by
  induction log generalizing advs p with
  | nil =>
    have : advs = [] := by simpa [Interface.Hears, Interface.observed] using h.symm
    subst this
    exact ⟨[], List.prefix_rfl, by rw [List.prefix_nil.1 hp]; rfl⟩
  | cons e log ih =>
    obtain ⟨t, args⟩ := e
    rcases h.cons with ⟨ht, h⟩ | ⟨a, as, rfl, he, ht, h⟩
    · obtain ⟨q, hq, hh⟩ := ih h hp
      refine ⟨(t, args) :: q, (List.prefix_cons_inj _).2 hq, ?_⟩
      unfold Interface.Hears Interface.observed at *
      rw [List.filter_cons_of_neg (by simp [ht])]
      exact hh
    · cases p with
      | nil => exact ⟨[], List.nil_prefix, rfl⟩
      | cons b p =>
        obtain ⟨rfl, hp'⟩ := List.cons_prefix_cons.1 hp
        obtain ⟨q, hq, hh⟩ := ih (by assumption) hp'
        refine ⟨(t, args) :: q, (List.prefix_cons_inj _).2 hq, ?_⟩
        unfold Interface.Hears Interface.observed at *
        rw [List.filter_cons_of_pos (by simpa using ht), List.map_cons, he, hh]
        rfl

theorem prefix_append_cases {α : Type} {q a b : List α} (h : q <+: a ++ b) : q <+: a ∨ ∃ q', q = a ++ q' ∧ q' <+: b := by
  obtain ⟨r, h⟩ := h
  rcases List.append_eq_append_iff.1 h with ⟨x, h1, h2⟩ | ⟨x, h1, h2⟩
  · exact .inl ⟨x, h1.symm⟩
  · exact .inr ⟨x, h1, ⟨r, h2.symm⟩⟩

theorem CallsNested.counts {l : Log} (h : CallsNested l) : announced l = finished l ∧ ∀ q, q <+: l → finished q ≤ announced q := by
  unfold announced finished
  induction h with
  | nil => exact ⟨rfl, fun q hq => by rw [List.prefix_nil.1 hq]; exact Nat.le_refl _⟩
  | other h1 h2 h3 h4 _ ih =>
    refine ⟨by rw [List.countP_cons_of_neg (by simpa using h1), List.countP_cons_of_neg (by simpa using h2)]; exact ih.1, fun q hq => ?_⟩
    cases q with
    | nil => exact Nat.le_refl _
    | cons e q =>
      obtain ⟨rfl, hq'⟩ := List.cons_prefix_cons.1 hq
      rw [List.countP_cons_of_neg (by simpa using h2), List.countP_cons_of_neg (by simpa using h1)]
      exact ih.2 q hq'
  | call h1 _ ih1 ih2 =>
    refine ⟨?_, fun q hq => ?_⟩
    · simp only [List.countP_cons, List.countP_append, decide_true, reduceCtorEq, decide_false, if_true, Bool.false_eq_true, if_false]
      omega
    · cases q with
      | nil => exact Nat.le_refl _
      | cons e q =>
        obtain ⟨rfl, hq'⟩ := List.cons_prefix_cons.1 hq
        rw [List.countP_cons_of_neg (by simp), List.countP_cons_of_pos (by simp)]
        rcases prefix_append_cases hq' with hq | ⟨q', rfl, hq3⟩
        · exact Nat.le_succ_of_le (ih1.2 q hq)
        · cases q' with
          | nil => rw [List.append_nil]; omega
          | cons e q' =>
            obtain ⟨rfl, hq''⟩ := List.cons_prefix_cons.1 hq3
            have := ih2.2 q' hq''
            simp only [List.countP_cons, List.countP_append, decide_true, reduceCtorEq, decide_false, if_true, Bool.false_eq_true, if_false]
            omega
  | callIndirect h1 _ ih1 ih2 =>
    refine ⟨?_, fun q hq => ?_⟩
    · simp only [List.countP_cons, List.countP_append, decide_true, reduceCtorEq, decide_false, if_true, Bool.false_eq_true, if_false]
      omega
    · cases q with
      | nil => exact Nat.le_refl _
      | cons e q =>
        obtain ⟨rfl, hq'⟩ := List.cons_prefix_cons.1 hq
        rw [List.countP_cons_of_neg (by simp), List.countP_cons_of_neg (by simp)]
        rcases prefix_append_cases hq' with hq | ⟨q', rfl, hq3⟩
        · exact ih1.2 q hq
        · cases q' with
          | nil => rw [List.append_nil]; exact ih1.2 _ List.prefix_rfl
          | cons e q' =>
            obtain ⟨rfl, hq''⟩ := List.cons_prefix_cons.1 hq3
            have := ih2.2 q' hq''
            simp only [List.countP_cons, List.countP_append, decide_true, reduceCtorEq, decide_false, if_true, Bool.false_eq_true, if_false]
            omega

theorem snoc_induction {α : Type} {P : List α → Prop} (h0 : P []) (h1 : ∀ l a, P l → P (l ++ [a])) (l : List α) : P l := by
  have : ∀ l : List α, P l.reverse := by
    intro l
    induction l with
    | nil => exact h0
    | cons a l ih => rw [List.reverse_cons]; exact h1 _ _ ih
  rw [← List.reverse_reverse l]
  exact this _

/-- The counters after events whose prefixes all have at least as many calls made as returned. -/
theorem callStack_counts (advs : List Advice) (hp : ∀ p, p <+: advs → times p Advice.isCallPost ≤ times p Advice.isCallPre) (hb : times advs Advice.isCallPre < 2 ^ 31) :
    (advs.foldl (fun x e => callStack e x) CallStack.init).numberOfCalls = BitVec.ofNat 32 (times advs Advice.isCallPre) ∧
    (advs.foldl (fun x e => callStack e x) CallStack.init).callStack = BitVec.ofNat 32 (openCalls advs) ∧
    ∃ d, DeepestCalls advs d ∧ (advs.foldl (fun x e => callStack e x) CallStack.init).maxCallDepth = BitVec.ofNat 32 d := by
  induction advs using snoc_induction with
  | h0 => exact ⟨rfl, rfl, 0, ⟨⟨[], List.prefix_rfl, rfl⟩, fun p hp => by rw [List.prefix_nil.1 hp]; exact Nat.le_refl _⟩, rfl⟩
  | h1 l a ih =>
    have hb' : times l Advice.isCallPre < 2 ^ 31 := by
      unfold times at hb ⊢; rw [List.countP_append] at hb; omega
    obtain ⟨i1, i2, d, ⟨⟨p, hp1, hp2⟩, i3⟩, i4⟩ := ih (fun p h => hp p (h.trans (List.prefix_append _ _))) hb'
    have hd : d < 2 ^ 31 := by
      rw [← hp2]
      have : times p Advice.isCallPre ≤ times l Advice.isCallPre := by
        obtain ⟨r, rfl⟩ := hp1
        unfold times; rw [List.countP_append]; omega
      unfold openCalls; omega
    have ho : openCalls l ≤ d := i3 l List.prefix_rfl
    have hl := hp l (List.prefix_append _ _)
    have hla := hp (l ++ [a]) List.prefix_rfl
    have last : ∀ {q : List Advice}, q <+: l ++ [a] → q <+: l ∨ q = l ++ [a] := by
      intro q hq
      rcases prefix_append_cases hq with h | ⟨q', rfl, h⟩
      · exact .inl h
      · cases q' with
        | nil => exact .inl (by rw [List.append_nil]; exact List.prefix_rfl)
        | cons x q' =>
          obtain ⟨rfl, h'⟩ := List.cons_prefix_cons.1 h
          rw [List.prefix_nil.1 h']; exact .inr rfl
    rw [List.foldl_append]
    simp only [List.foldl_cons, List.foldl_nil]
    generalize l.foldl (fun x e => callStack e x) CallStack.init = st at i1 i2 i4
    by_cases h1 : a.isCallPre
    · obtain ⟨g, loc, rfl⟩ : ∃ g loc, a = .callPre g loc := by cases a <;> simp [Advice.isCallPre] at h1; exact ⟨_, _, rfl⟩
      have t1 : times (l ++ [.callPre g loc]) Advice.isCallPre = times l Advice.isCallPre + 1 := by simp [times, Advice.isCallPre]
      have t2 : times (l ++ [.callPre g loc]) Advice.isCallPost = times l Advice.isCallPost := by simp [times, Advice.isCallPost]
      have t3 : openCalls (l ++ [.callPre g loc]) = openCalls l + 1 := by unfold openCalls; rw [t1, t2]; omega
      have t4 : openCalls l + 1 ≤ times l Advice.isCallPre + 1 := by unfold openCalls; omega
      simp only [callStack, i1, i2, i4, t1, t3]
      refine ⟨by simp [BitVec.ofNat_add], by simp [BitVec.ofNat_add], max d (openCalls l + 1), ⟨?_, fun q hq => ?_⟩, ?_⟩
      · by_cases hm : d ≤ openCalls l + 1
        · exact ⟨_, List.prefix_rfl, by rw [t3, Nat.max_eq_right hm]⟩
        · exact ⟨p, hp1.trans (List.prefix_append _ _), by rw [hp2, Nat.max_eq_left (by omega)]⟩
      · rcases last hq with h | rfl
        · exact Nat.le_trans (i3 q h) (Nat.le_max_left _ _)
        · rw [t3]; exact Nat.le_max_right _ _
      · rw [t1] at hb
        unfold i32Max
        have e1 : (BitVec.ofNat 32 d).toInt = d := by
          rw [BitVec.toInt_eq_toNat_cond, BitVec.toNat_ofNat, Nat.mod_eq_of_lt (by omega)]
          split <;> omega
        have e2 : (BitVec.ofNat 32 (openCalls l) + 1).toInt = (openCalls l + 1 : Nat) := by
          rw [show BitVec.ofNat 32 (openCalls l) + 1 = BitVec.ofNat 32 (openCalls l + 1) by simp [BitVec.ofNat_add]]
          rw [BitVec.toInt_eq_toNat_cond, BitVec.toNat_ofNat, Nat.mod_eq_of_lt (by omega)]
          split <;> omega
        rw [e1, e2]
        split
        · rw [Nat.max_eq_right (by omega)]; simp [BitVec.ofNat_add]
        · rw [Nat.max_eq_left (by omega)]
    · have hsame : ∀ x : Nat, x = openCalls (l ++ [a]) → x ≤ d → DeepestCalls (l ++ [a]) d := by
        intro x hx hxd
        refine ⟨⟨p, hp1.trans (List.prefix_append _ _), hp2⟩, fun q hq => ?_⟩
        rcases last hq with h | rfl
        · exact i3 q h
        · omega
      have t1 : times (l ++ [a]) Advice.isCallPre = times l Advice.isCallPre := by simp [times, h1]
      by_cases h2 : a.isCallPost
      · obtain ⟨g, loc, rfl⟩ : ∃ g loc, a = .callPost g loc := by cases a <;> simp [Advice.isCallPost] at h2; exact ⟨_, _, rfl⟩
        have t2 : times (l ++ [.callPost g loc]) Advice.isCallPost = times l Advice.isCallPost + 1 := by simp [times, Advice.isCallPost]
        have t3 : openCalls l = openCalls (l ++ [.callPost g loc]) + 1 := by unfold openCalls; rw [t1, t2]; rw [t1, t2] at hla; omega
        simp only [callStack, i1, i2, i4, t1]
        refine ⟨trivial, ?_, d, hsame _ rfl (by omega), rfl⟩
        rw [t3, BitVec.ofNat_add]
        exact BitVec.add_sub_cancel _ _
      · have t2 : times (l ++ [a]) Advice.isCallPost = times l Advice.isCallPost := by simp [times, h2]
        have t3 : openCalls (l ++ [a]) = openCalls l := by unfold openCalls; rw [t1, t2]
        have e : callStack a st = st := by
          cases a <;> first | rfl | exact absurd rfl h1 | exact absurd rfl h2
        rw [e, i1, i2, i4, t1, t3]
        exact ⟨rfl, rfl, d, hsame _ rfl (by omega), rfl⟩

/-- **C66.** For the call advice of the `call-stack` analysis: after a run of the instrumented program — one making fewer than 2^31 direct calls — `get_number_of_calls` is the number of direct
calls the original program made, and `get_max_call_depth` the largest number of direct calls open at the same time. The counter of open calls
ends at the number of calls that were interrupted, which is zero if the run ended normally. -/
theorem C66_call_stack_reports_depth {C iface ts m r} {N : Num} {T : Imports (W × Log)} {H : Imports (W × CallStack)} (hT : LeavesLog m T)
    (hW : Watching C iface ts m r N (.ahead callStack) T H) (h1 : (iface.trap .preTrapCall).isSome) (h2 : (iface.trap .postTrapCall).isSome)
    (hoff : ∀ i ∈ bodyTargets m ts, ∀ f c, m.functions[i]? = some f → f.code = .present c → OnlyCode (OffsetsAre iface fun o => o = 0) c.body)
    {f : Nat} {ty : FuncType} {args : List RVal} {s : Store W} (hf : m.ctx.ftype f = some ty) (hargs : ValsOK m.ctx args ty.inputs)
    (hok : StoreOK m.ctx s) (L d : Nat) :
    callF N (machineOf H r.module.functions) L d f args (s.withAnalysis CallStack.init) = .fuel ∨
    ∃ (a1 : CallStack) (advs : List Advice), Saw C iface ts m N T L d f args s (callF N (machineOf H r.module.functions) L d f args (s.withAnalysis CallStack.init)) a1 advs ∧
      (times advs Advice.isCallPre < 2 ^ 31 →
        a1.getNumberOfCalls = BitVec.ofNat 32 (times advs Advice.isCallPre) ∧
        (∃ depth, DeepestCalls advs depth ∧ a1.getMaxCallDepth = BitVec.ofNat 32 depth) ∧
        a1.callStack = BitVec.ofNat 32 (openCalls advs)) ∧
      ((∃ vs s1, callF N (machineOf H r.module.functions) L d f args (s.withAnalysis CallStack.init) = .ok vs s1) →
        times advs Advice.isCallPost = times advs Advice.isCallPre ∧ openCalls advs = 0) := by
  rcases C58_told_everything (C58_rust_analysis_qualifies hW) hoff hf hargs hok CallStack.init L d with h | ⟨advs, hs⟩
  · exact .inl h
  · refine .inr ⟨_, advs, hs, fun hb => ?_, ?_⟩
    · have hp : ∀ p, p <+: advs → times p Advice.isCallPost ≤ times p Advice.isCallPre := by
        intro p hp
        obtain ⟨s1, log, hl, hs⟩ := hs
        obtain ⟨q, hq, hh⟩ := hl.prefix hp
        obtain ⟨e1, e2⟩ := hh.counts h1 h2
        rw [e1, e2]
        rcases hs with ⟨vs, _, hs⟩ | ⟨_, hs⟩
        · exact ((C64_calls_nest hT).1 _ _ _ hs).counts.2 q hq
        · obtain ⟨rest, hn⟩ := (C64_calls_nest hT).2 _ _ hs
          exact hn.counts.2 q (hq.trans (List.prefix_append _ _))
      obtain ⟨g1, g2, d, g3, g4⟩ := callStack_counts advs hp hb
      exact ⟨g1, ⟨d, g3, g4⟩, g2⟩
    · rintro ⟨vs, s1, ho⟩
      obtain ⟨s2, log, hl, hs⟩ := hs
      obtain ⟨e1, e2⟩ := hl.counts h1 h2
      rcases hs with ⟨vs, _, hs⟩ | ⟨hs, _⟩
      · have := ((C64_calls_nest hT).1 _ _ _ hs).counts.1
        exact ⟨by rw [e1, e2, this], by unfold openCalls; rw [e1, e2, this]; exact Nat.sub_self _⟩
      · rw [ho] at hs; cases hs

-- C66: `main(0, 5)` makes two calls, one within the other.
example : ∃ r, Instruments exTypedChecker exIface none exModule r ∧ ∃ a1,
    callF exNum (machineOf (exWatched (.ahead callStack) r.module.exported) r.module.functions) 10 12 1 [.i32 0, .i32 5] (exStore.withAnalysis CallStack.init) =
      .ok [.i32 49] (Store.withAnalysis { exStore with world := [.i32 7] } a1) ∧ a1.getNumberOfCalls = 2 ∧ a1.getMaxCallDepth = 2 ∧ a1.callStack = 0 := by
  obtain ⟨r, hr⟩ := instruments_of_ok (C := exTypedChecker) (iface := exIface) (ts := none) (m := exModule) (by decide) exModule_small exModule_raises_typed
  exact ⟨r, hr, _, exWatched_run _ _ hr, by decide +kernel, by decide +kernel, by decide +kernel⟩
example : (exIface.trap .preTrapCall).isSome ∧ (exIface.trap .postTrapCall).isSome ∧ DeepestCalls exAdvs 2 := by
  refine ⟨rfl, rfl, ⟨exAdvs.take 3, List.take_prefix _ _, by decide +kernel⟩, fun p hp => ?_⟩
  rw [List.prefix_iff_eq_take] at hp
  rw [hp]
  have hl : p.length ≤ 6 := by
    have := congrArg List.length hp
    rw [List.length_take] at this
    simp [exAdvs] at this; omega
  generalize p.length = n at hl
  rcases n with _ | _ | _ | _ | _ | _ | _ | n <;> first | decide +kernel | omega

end Wastrum
