import Verif.WaspTell
import Verif.CheckedThms
/-!
# Wasp analyses of the test suite that count (C83)

`block.wasp`, `loop.wasp` and the three `call_chain*.wasp`.
-/

set_option linter.unusedSimpArgs false
set_option linter.unusedVariables false

namespace Wastrum

variable {W A : Type}

/-! ## The analyses -/

/-- A statement of guest code that changes a global of the analysis. -/
def noteState (f : A → A) : Act (W × A) Unit := fun s => .ok () { s with world := (s.world.1, f s.world.2) }

/-- The two globals of `block.wasp` and of `loop.wasp`: `/repo/wastrumentation-instr-lib/tests/analyses/wasp-as/block.wasp` 2-3
(`number_of_blocks_pre`, `number_of_block_post`), `loop.wasp` 2-3 (`number_of_loops_pre`, `number_of_loop_post`). -/
structure Passed where
  pre : BitVec 32 := 0
  post : BitVec 32 := 0
deriving DecidableEq

/-- `block.wasp`, without the text of its guest code. -/
def blockProg : List Wasp.Advice := [.global "..", .global "..", .plain .blockPre "..", .plain .blockPost ".."]
/-- The guest code of `block.wasp` (5-6). -/
def blockWasp : WaspCode (W × Passed) :=
  { WaspCode.idle with
    blockPre := noteState fun g => { g with pre := g.pre + 1 }
    blockPost := noteState fun g => { g with post := g.post + 1 } }

/-- `loop.wasp`, without the text of its guest code. -/
def loopProg : List Wasp.Advice := [.global "..", .global "..", .plain .loopPre "..", .plain .loopPost ".."]
/-- The guest code of `loop.wasp` (5-6). -/
def loopWasp : WaspCode (W × Passed) :=
  { WaspCode.idle with
    loopPre := noteState fun g => { g with pre := g.pre + 1 }
    loopPost := noteState fun g => { g with post := g.post + 1 } }

/-- The globals of `call_chain_pre.wasp`, `call_chain_post.wasp` and `call_chain_pre_post.wasp` (2-5 in each). -/
structure ChainCounts where
  number_of_calls_pre : BitVec 32 := 0
  number_of_calls_post : BitVec 32 := 0
  number_of_apply_pre : BitVec 32 := 0
  number_of_apply_post : BitVec 32 := 0
deriving DecidableEq

/-- `call_chain_pre.wasp` (`pre`), `call_chain_post.wasp` (`post`) and `call_chain_pre_post.wasp` (both), without the text of their guest code. -/
def chainProg (pre post : Bool) : List Wasp.Advice :=
  [.global ".."] ++ (if pre then [.plain (.call .pre "f") ".."] else []) ++ (if post then [.plain (.call .post "f") ".."] else []) ++ [.apply (.gen .mutableDynamic "func" "args" "results") ".."]
/-- Their guest code before and after calls: `call_chain_pre_post.wasp` 7-8. (Code no advice asks for is not compiled.) -/
def chainWasp : WaspCode (World W ChainCounts) :=
  { WaspCode.idle with
    callPre := fun _ => updateState fun g => { g with number_of_calls_pre := g.number_of_calls_pre + 1 }
    callPost := fun _ => updateState fun g => { g with number_of_calls_post := g.number_of_calls_post + 1 } }
/-- Their `apply` advice: `call_chain_pre.wasp` 9-12, `call_chain_post.wasp` 9-12, `call_chain_pre_post.wasp` 9-12. -/
def chainWaspApply (_ : AsFunction) (call : Act (World W ChainCounts) Unit) (_ _ : DynValues) : Act (World W ChainCounts) Unit := do
  updateState fun g => { g with number_of_apply_pre := g.number_of_apply_pre + 1 }
  call
  updateState fun g => { g with number_of_apply_post := g.number_of_apply_post + 1 }

/-! ## Counting -/

/-- A counter that goes up by one whenever the analysis is told of something that satisfies `p` ends with the number of those in the log. -/
theorem fold_counts {iface : Interface} {upd : Advice → A → A} (count : A → BitVec 32) (p : Trap → Bool)
    (h : ∀ t args e x, stdEntry t args = some e → (iface.trap t).isSome → count (upd e x) = count x + if p t then 1 else 0) (hp : ∀ t, iface.trap t = none → p t = false)
    {log : Log} {advs : List Advice} (hh : iface.Hears log advs) (a : A) :
    count (advs.foldl (fun x e => upd e x) a) = count a + BitVec.ofNat 32 (log.countP fun e => p e.1) := by
  induction log generalizing advs a with
  | nil =>
    have : advs = [] := by simpa [Interface.Hears, Interface.observed] using hh.symm
    subst this; simp
  | cons e log ih =>
    obtain ⟨t, args⟩ := e
    rcases hh.cons with ⟨ht, hh⟩ | ⟨e, as, rfl, he, ht, hh⟩
    · rw [ih hh, List.countP_cons_of_neg (by simp [hp t ht])]
    · rw [List.foldl_cons, ih hh, h t args e a he ht, List.countP_cons]
      dsimp only
      cases p t
      · simp
      · simp only [if_true, BitVec.ofNat_add]
        ac_rfl

/-- The same of the story. -/
theorem hear_counts {iface : Interface} {w : CallWatcher A} (count : A → BitVec 32) (p : Note → Bool)
    (h : ∀ n t x y, n.tale = some t → iface.hasHook n = true → w.tell t x = some y → count y = count x + if p n then 1 else 0) (hp : ∀ n, iface.hasHook n = false → p n = false)
    {st : Story} {tales : List Tale} (ht : iface.Tells st tales) {a a1 : A} (hh : w.hear tales a = some a1) : count a1 = count a + BitVec.ofNat 32 (st.countP p) := by
  induction st generalizing tales a with
  | nil =>
    have : tales = [] := by simpa [Interface.Tells] using ht.symm
    subst this
    cases hh
    simp
  | cons n st ih =>
    rcases ht.cons with ⟨hn, ht⟩ | ⟨t, ts, rfl, e, hn, ht⟩
    · rw [ih ht hh, List.countP_cons_of_neg (by simp [hp n hn])]
    · rw [CallWatcher.hear] at hh
      cases hy : w.tell t a with
      | none => rw [hy] at hh; cases hh
      | some y =>
        rw [hy, Option.bind_some] at hh
        rw [ih ht hh, h n t a y e hn hy, List.countP_cons]
        cases p n
        · simp
        · simp only [if_true, BitVec.ofNat_add]
          ac_rfl

/-! ## C83 -/

/-- The watcher of two kinds of events. -/
def passing (before after : Advice → Bool) : Advice → Passed → Passed := fun e g =>
  if before e then { g with pre := g.pre + 1 } else if after e then { g with post := g.post + 1 } else g

/-- Going into and out of blocks. -/
def Advice.isBlockPre : Advice → Bool
  | .blockPre .. => true
  | _ => false
def Advice.isBlockPost : Advice → Bool
  | .blockPost .. => true
  | _ => false
/-- Going into and out of loops. -/
def Advice.isLoopPre : Advice → Bool
  | .loopPre .. => true
  | _ => false
def Advice.isLoopPost : Advice → Bool
  | .loopPost .. => true
  | _ => false

theorem passing_counts {iface : Interface} {before after : Advice → Bool} {t1 t2 : Trap} (h1 : (iface.trap t1).isSome) (h2 : (iface.trap t2).isSome) (h12 : t1 ≠ t2)
    (hb : ∀ t args e, stdEntry t args = some e → before e = decide (t = t1)) (ha : ∀ t args e, stdEntry t args = some e → after e = decide (t = t2))
    {log : Log} {advs : List Advice} (hh : iface.Hears log advs) (a : Passed) :
    advs.foldl (fun x e => passing before after e x) a = ⟨a.pre + BitVec.ofNat 32 (log.countP fun e => e.1 = t1), a.post + BitVec.ofNat 32 (log.countP fun e => e.1 = t2)⟩ := by
  have none : ∀ t0 t, (iface.trap t0).isSome → iface.trap t = none → decide (t = t0) = false := by
    intro t0 t h0 h
    refine decide_eq_false ?_
    rintro rfl
    rw [h] at h0; cases h0
  have e1 := fold_counts (iface := iface) (upd := passing before after) Passed.pre (fun t => decide (t = t1)) (fun t args e x he _ => by
    unfold passing
    rw [hb t args e he, ha t args e he]
    by_cases h : t = t1
    · simp [h]
    · by_cases h' : t = t2 <;> simp [h, h']; subst h'; simp [h]) (fun t => none t1 t h1) hh a
  have e2 := fold_counts (iface := iface) (upd := passing before after) Passed.post (fun t => decide (t = t2)) (fun t args e x he _ => by
    unfold passing
    rw [hb t args e he, ha t args e he]
    by_cases h : t = t1
    · simp [h, h12]
    · by_cases h' : t = t2 <;> simp [h, h']; subst h'; simp [h]) (fun t => none t2 t h2) hh a
  rw [← e1, ← e2]

/-- What is shared by `block.wasp` and `loop.wasp`. -/
theorem passing_reports {C iface ts m r} {N : Num} {T : Imports (W × Log)} {H : Imports (W × Passed)} {prog : List Wasp.Advice} (hi : Wasp.interface prog = some iface)
    {before after : Advice → Bool} (hW : Hearing C iface ts m r N (.ahead (passing before after)) T H) {t1 t2 : Trap} (h1 : (iface.trap t1).isSome) (h2 : (iface.trap t2).isSome) (h12 : t1 ≠ t2)
    (hb : ∀ t args e, stdEntry t args = some e → before e = decide (t = t1)) (ha : ∀ t args e, stdEntry t args = some e → after e = decide (t = t2))
    {f : Nat} {ty : FuncType} {args : List RVal} {s : Store W} (hf : m.ctx.ftype f = some ty) (hargs : ValsOK m.ctx args ty.inputs)
    (hok : StoreOK m.ctx s) (a : Passed) (L d : Nat) :
    let original := callF N (traced C m (bodyTargets m ts) T logEvent) L d f args (s.withAnalysis [])
    let instrumented := callF N (machineOf H r.module.functions) L d f args (s.withAnalysis a)
    instrumented = .fuel ∨ ∃ (s1 : Store W) (log : Log) (a1 : Passed),
      a1 = ⟨a.pre + BitVec.ofNat 32 (log.countP fun e => e.1 = t1), a.post + BitVec.ofNat 32 (log.countP fun e => e.1 = t2)⟩ ∧
      ((∃ vs, instrumented = .ok vs (s1.withAnalysis a1) ∧ original = .ok vs (s1.withAnalysis log)) ∨ instrumented = .trap (s1.withAnalysis a1) ∧ original = .trap (s1.withAnalysis log)) := by
  rcases C58_told_everything hW (fun _ _ _ _ _ _ b _ => wasp_offsets hi _ b) hf hargs hok a L d with h | ⟨advs, s1, log, hh, h⟩
  · exact .inl h
  · exact .inr ⟨s1, log, _, passing_counts h1 h2 h12 hb ha hh a, h⟩

/-- A stored event is presented as what it is. -/
theorem stdEntry_marks {t : Trap} {args : List RVal} {e : Advice} (h : stdEntry t args = some e) :
    e.isBlockPre = decide (t = .preBlock) ∧ e.isBlockPost = decide (t = .postBlock) ∧ e.isLoopPre = decide (t = .preLoop) ∧ e.isLoopPost = decide (t = .postLoop) ∧
    e.isCallPre = decide (t = .preTrapCall) ∧ e.isCallPost = decide (t = .postTrapCall) := by
  revert h
  cases t <;> simp only [stdEntry] <;> intro h <;> (repeat' split at h) <;> first
    | (cases h; done)
    | (cases h; exact ⟨rfl, rfl, rfl, rfl, rfl, rfl⟩)
    | (obtain ⟨_, _, rfl⟩ := Option.map_eq_some_iff.1 h; exact ⟨rfl, rfl, rfl, rfl, rfl, rfl⟩)

open Wasp in
/-- **C83 (`block.wasp`).** The instrumented program does what the original does, and in the course of a run `number_of_blocks_pre` has grown by the number of times the original goes into a block and
`number_of_block_post` by the number of times it leaves one at its end (modulo 2^32; in instrumented functions). -/
theorem C83_block_wasp_counts {C iface ts m r} (hi : Wasp.interface blockProg = some iface) (hs : SmallModule m)
    (h : Instruments C iface ts m r) (hv : ValidModule m)
    (hB : ∀ i ∈ bodyTargets m ts, ∀ f, m.functions[i]? = some f → WellAnnotated m f (bodyOf C m i)) (hres : ∀ name ∈ iface.toolExports, name ∉ m.exportNames)
    (N : Num) {T : Imports (W × Log)} {H : Imports (W × Passed)}
    (hH : ∀ t ∈ [Trap.preBlock, .postBlock], H analysisModule t.exportName = blockWasp.host t) (hI : ImportsBeside m T H)
    {f : Nat} {ty : FuncType} {args : List RVal} {s : Store W} (hf : m.ctx.ftype f = some ty) (hargs : ValsOK m.ctx args ty.inputs)
    (hok : StoreOK m.ctx s) (a : Passed) (L d : Nat) :
    let original := callF N (traced C m (bodyTargets m ts) T logEvent) L d f args (s.withAnalysis [])
    let instrumented := callF N (machineOf H r.module.functions) L d f args (s.withAnalysis a)
    instrumented = .fuel ∨ ∃ (s1 : Store W) (log : Log) (a1 : Passed),
      a1 = ⟨a.pre + BitVec.ofNat 32 (log.countP fun e => e.1 = .preBlock), a.post + BitVec.ofNat 32 (log.countP fun e => e.1 = .postBlock)⟩ ∧
      ((∃ vs, instrumented = .ok vs (s1.withAnalysis a1) ∧ original = .ok vs (s1.withAnalysis log)) ∨ instrumented = .trap (s1.withAnalysis a1) ∧ original = .trap (s1.withAnalysis log)) := by
  have hex := (C35_interface_exact_partial blockProg iface hi).1
  have hook : ∀ t, (∃ x ∈ blockProg, Advises x t) → (iface.trap t).isSome := fun t ht => by rw [(hex t t.export).2 ⟨rfl, ht⟩]; rfl
  refine passing_reports hi (before := Advice.isBlockPre) (after := Advice.isBlockPost) (C83_wasp_watcher_qualifies (c := blockWasp) hi ?_ hs h hv hB hres N ?_ hI) (hook _ ⟨.plain .blockPre "..", by simp [blockProg], .blockPre _⟩)
    (hook _ ⟨.plain .blockPost "..", by simp [blockProg], .blockPost _⟩) (by decide) (fun _ _ _ h => (stdEntry_marks h).1) (fun _ _ _ h => (stdEntry_marks h).2.1) hf hargs hok a L d
  · rintro ⟨x, hx, _, _, _, _, _, rfl⟩
    simp [blockProg] at hx
  · rintro t ⟨x, hx, ha⟩
    have ht : t = .preBlock ∨ t = .postBlock := by
      simp only [blockProg, List.mem_cons, List.not_mem_nil, or_false] at hx
      rcases hx with rfl | rfl | rfl | rfl <;> cases ha <;> simp
    refine ⟨hH t (by rcases ht with rfl | rfl <;> simp), ?_⟩
    rcases ht with rfl | rfl
    · exact fun _ _ _ s a => ⟨(), rfl, trivial⟩
    · exact fun _ s a => ⟨(), rfl, trivial⟩

open Wasp in
/-- **C83 (`loop.wasp`).** The same of loops: `number_of_loops_pre` counts the times the original goes into a loop — from before it or back to its start —, `number_of_loop_post` the times it leaves one at its end. -/
theorem C83_loop_wasp_counts {C iface ts m r} (hi : Wasp.interface loopProg = some iface) (hs : SmallModule m)
    (h : Instruments C iface ts m r) (hv : ValidModule m)
    (hB : ∀ i ∈ bodyTargets m ts, ∀ f, m.functions[i]? = some f → WellAnnotated m f (bodyOf C m i)) (hres : ∀ name ∈ iface.toolExports, name ∉ m.exportNames)
    (N : Num) {T : Imports (W × Log)} {H : Imports (W × Passed)}
    (hH : ∀ t ∈ [Trap.preLoop, .postLoop], H analysisModule t.exportName = loopWasp.host t) (hI : ImportsBeside m T H)
    {f : Nat} {ty : FuncType} {args : List RVal} {s : Store W} (hf : m.ctx.ftype f = some ty) (hargs : ValsOK m.ctx args ty.inputs)
    (hok : StoreOK m.ctx s) (a : Passed) (L d : Nat) :
    let original := callF N (traced C m (bodyTargets m ts) T logEvent) L d f args (s.withAnalysis [])
    let instrumented := callF N (machineOf H r.module.functions) L d f args (s.withAnalysis a)
    instrumented = .fuel ∨ ∃ (s1 : Store W) (log : Log) (a1 : Passed),
      a1 = ⟨a.pre + BitVec.ofNat 32 (log.countP fun e => e.1 = .preLoop), a.post + BitVec.ofNat 32 (log.countP fun e => e.1 = .postLoop)⟩ ∧
      ((∃ vs, instrumented = .ok vs (s1.withAnalysis a1) ∧ original = .ok vs (s1.withAnalysis log)) ∨ instrumented = .trap (s1.withAnalysis a1) ∧ original = .trap (s1.withAnalysis log)) := by
  have hex := (C35_interface_exact_partial loopProg iface hi).1
  have hook : ∀ t, (∃ x ∈ loopProg, Advises x t) → (iface.trap t).isSome := fun t ht => by rw [(hex t t.export).2 ⟨rfl, ht⟩]; rfl
  refine passing_reports hi (before := Advice.isLoopPre) (after := Advice.isLoopPost) (C83_wasp_watcher_qualifies (c := loopWasp) hi ?_ hs h hv hB hres N ?_ hI) (hook _ ⟨.plain .loopPre "..", by simp [loopProg], .loopPre _⟩)
    (hook _ ⟨.plain .loopPost "..", by simp [loopProg], .loopPost _⟩) (by decide) (fun _ _ _ h => (stdEntry_marks h).2.2.1) (fun _ _ _ h => (stdEntry_marks h).2.2.2.1) hf hargs hok a L d
  · rintro ⟨x, hx, _, _, _, _, _, rfl⟩
    simp [loopProg] at hx
  · rintro t ⟨x, hx, ha⟩
    have ht : t = .preLoop ∨ t = .postLoop := by
      simp only [loopProg, List.mem_cons, List.not_mem_nil, or_false] at hx
      rcases hx with rfl | rfl | rfl | rfl <;> cases ha <;> simp
    refine ⟨hH t (by rcases ht with rfl | rfl <;> simp), ?_⟩
    rcases ht with rfl | rfl
    · exact fun _ _ _ s a => ⟨(), rfl, trivial⟩
    · exact fun _ s a => ⟨(), rfl, trivial⟩

/-- `call_chain*.wasp` as analyses that are told of calls. -/
def chainWatcher : CallWatcher ChainCounts where
  toWatcher := .ahead fun e g => match e with
    | .callPre _ _ => { g with number_of_calls_pre := g.number_of_calls_pre + 1 }
    | .callPost _ _ => { g with number_of_calls_post := g.number_of_calls_post + 1 }
    | _ => g
  enter _ _ g := some { g with number_of_apply_pre := g.number_of_apply_pre + 1 }
  leave _ _ _ g := some { g with number_of_apply_post := g.number_of_apply_post + 1 }

/-- The number of calls announced in, and of calls finished in, a story. -/
def Note.isInstr (t : Trap) : Note → Bool
  | .instr u _ => u = t
  | _ => false

theorem Story.countP_instr (st : Story) (t : Trap) : st.countP (Note.isInstr t) = st.instrs.countP fun e => e.1 = t := by
  induction st with
  | nil => rfl
  | cons n st ih =>
    unfold Story.instrs at ih ⊢
    cases n <;> simp only [List.countP_cons, List.filterMap_cons, ih, Note.isInstr] <;> simp

open Wasp in
theorem chain_advises {pre post : Bool} {t : Trap} : (∃ x ∈ chainProg pre post, Advises x t) ↔ pre = true ∧ t = .preTrapCall ∨ post = true ∧ t = .postTrapCall := by
  constructor
  · rintro ⟨x, hx, ha⟩
    cases pre <;> cases post <;> simp only [chainProg, Bool.false_eq_true, if_false, if_true, List.nil_append, List.cons_append, List.append_nil, List.mem_cons, List.not_mem_nil, or_false] at hx
    · rcases hx with rfl | rfl <;> cases ha
    · rcases hx with rfl | rfl | rfl <;> cases ha; simp
    · rcases hx with rfl | rfl | rfl <;> cases ha; simp
    · rcases hx with rfl | rfl | rfl | rfl <;> cases ha <;> simp
  · rintro (⟨rfl, rfl⟩ | ⟨rfl, rfl⟩)
    · exact ⟨.plain (.call .pre "f") "..", by simp [chainProg], .callPre _ _⟩
    · exact ⟨.plain (.call .post "f") "..", by simp [chainProg], .callPost _ _⟩

theorem chain_reports (pre post : Bool) (ts : Option (List Nat)) (m : Module) : WaspReports (W := W) (chainProg pre post) ts m chainWasp chainWaspApply chainWatcher := by
  refine ⟨fun t ht => ?_, ⟨_, _, rfl, fun i hi f hf hr hn j p => ⟨fun _ _ _ _ _ _ => rfl, fun _ _ _ _ _ _ => rfl⟩⟩, fun _ _ => rfl⟩
  rcases chain_advises.1 ht with ⟨_, rfl⟩ | ⟨_, rfl⟩ <;> exact fun f l s a => ⟨(), rfl, trivial⟩

theorem chain_counts {iface : Interface} {pre post : Bool} (hook : ∀ t, (iface.trap t).isSome = true ↔ pre = true ∧ t = .preTrapCall ∨ post = true ∧ t = .postTrapCall)
    {st : Story} {tales : List Tale} {g : ChainCounts} (ht : iface.Tells st tales) (hh : chainWatcher.hear tales {} = some g) :
    g = ⟨BitVec.ofNat 32 (if pre then announced st.instrs else 0), BitVec.ofNat 32 (if post then finished st.instrs else 0),
      BitVec.ofNat 32 (st.countP Note.isEnter), BitVec.ofNat 32 (st.countP Note.isLeave)⟩ := by
  have split : ∀ (n : Note) (t : Tale), n.tale = some t → match n with
      | .instr u xs => ∃ e, stdEntry u xs = some e ∧ t = .adv e
      | .enter i xs => ∃ ys, t = .enter i ys
      | .leave i xs zs => ∃ ys ys', t = .leave i ys ys' := by
    intro n t hn
    cases n with
    | instr u xs => obtain ⟨e, he, rfl⟩ := Option.map_eq_some_iff.1 hn; exact ⟨e, he, rfl⟩
    | enter i xs => obtain ⟨e, he, rfl⟩ := Option.map_eq_some_iff.1 hn; exact ⟨e, rfl⟩
    | leave i xs zs =>
      obtain ⟨ys, _, hn⟩ := Option.bind_eq_some_iff.1 hn
      obtain ⟨e, he, rfl⟩ := Option.map_eq_some_iff.1 hn
      exact ⟨ys, e, rfl⟩
  have c1 := hear_counts (iface := iface) ChainCounts.number_of_calls_pre (fun n => pre && n.isInstr .preTrapCall) (fun n t x y hn hk hy => by
    have hn := split n t hn
    cases n with
    | instr u xs =>
      obtain ⟨e, he, rfl⟩ := hn
      obtain ⟨_, _, _, _, m1, m2⟩ := stdEntry_marks he
      cases hy
      rcases (hook u).1 hk with ⟨rfl, rfl⟩ | ⟨_, rfl⟩ <;> cases e <;> simp_all [Note.isInstr, Advice.isCallPre, Advice.isCallPost]
    | enter i xs => obtain ⟨_, rfl⟩ := hn; cases hy; simp [Note.isInstr]
    | leave i xs zs => obtain ⟨_, _, rfl⟩ := hn; cases hy; simp [Note.isInstr])
    (fun n hn => by
      cases n with
      | instr u xs =>
        have := hook u
        simp only [Interface.hasHook] at hn
        rw [hn] at this
        simp only [Note.isInstr, Bool.and_eq_false_iff, decide_eq_false_iff_not]
        rcases pre with _ | _
        · exact .inl rfl
        · exact .inr fun h => by simp [h] at this
      | enter | leave => cases hn) ht hh
  have c2 := hear_counts (iface := iface) ChainCounts.number_of_calls_post (fun n => post && n.isInstr .postTrapCall) (fun n t x y hn hk hy => by
    have hn := split n t hn
    cases n with
    | instr u xs =>
      obtain ⟨e, he, rfl⟩ := hn
      obtain ⟨_, _, _, _, m1, m2⟩ := stdEntry_marks he
      cases hy
      rcases (hook u).1 hk with ⟨rfl, rfl⟩ | ⟨_, rfl⟩ <;> cases e <;> simp_all [Note.isInstr, Advice.isCallPre, Advice.isCallPost]
    | enter i xs => obtain ⟨_, rfl⟩ := hn; cases hy; simp [Note.isInstr]
    | leave i xs zs => obtain ⟨_, _, rfl⟩ := hn; cases hy; simp [Note.isInstr])
    (fun n hn => by
      cases n with
      | instr u xs =>
        have := hook u
        simp only [Interface.hasHook] at hn
        rw [hn] at this
        simp only [Note.isInstr, Bool.and_eq_false_iff, decide_eq_false_iff_not]
        rcases post with _ | _
        · exact .inl rfl
        · exact .inr fun h => by simp [h] at this
      | enter | leave => cases hn) ht hh
  have c3 := hear_counts (iface := iface) ChainCounts.number_of_apply_pre Note.isEnter (fun n t x y hn _ hy => by
    have hn := split n t hn
    cases n with
    | instr u xs => obtain ⟨e, _, rfl⟩ := hn; cases hy; cases e <;> simp [Note.isEnter]
    | enter i xs => obtain ⟨_, rfl⟩ := hn; cases hy; simp [Note.isEnter]
    | leave i xs zs => obtain ⟨_, _, rfl⟩ := hn; cases hy; simp [Note.isEnter]) (fun n hn => by cases n <;> first | rfl | cases hn) ht hh
  have c4 := hear_counts (iface := iface) ChainCounts.number_of_apply_post Note.isLeave (fun n t x y hn _ hy => by
    have hn := split n t hn
    cases n with
    | instr u xs => obtain ⟨e, _, rfl⟩ := hn; cases hy; cases e <;> simp [Note.isLeave]
    | enter i xs => obtain ⟨_, rfl⟩ := hn; cases hy; simp [Note.isLeave]
    | leave i xs zs => obtain ⟨_, _, rfl⟩ := hn; cases hy; simp [Note.isLeave]) (fun n hn => by cases n <;> first | rfl | cases hn) ht hh
  obtain ⟨g1, g2, g3, g4⟩ := g
  dsimp only at c1 c2 c3 c4
  have z : ∀ x : BitVec 32, 0#32 + x = x := BitVec.zero_add
  rw [ChainCounts.mk.injEq]
  refine ⟨?_, ?_, c3.trans (z _), c4.trans (z _)⟩
  · refine c1.trans ((z _).trans ?_)
    cases pre
    · simp [List.countP_false]
    · simp only [Bool.true_and, if_true, Story.countP_instr, announced]
  · refine c2.trans ((z _).trans ?_)
    cases post
    · simp [List.countP_false]
    · simp only [Bool.true_and, if_true, Story.countP_instr, finished]

open Wasp in
/-- **C83 (`call_chain*.wasp`).** After a run of the instrumented program from the start of the analysis: the program did what the original does; `number_of_apply_pre` is the number of times the original program
entered one of the intercepted functions, `number_of_apply_post` the number of times it left one; `number_of_calls_pre` is the number of direct calls made by instrumented functions, or 0 in `call_chain_post.wasp`, and
`number_of_calls_post` the number of those that returned, or 0 in `call_chain_pre.wasp` (all modulo 2^32). If the run ended normally as many were left as were entered, and as many calls returned as were made. -/
theorem C83_call_chain_wasp_counts {C iface ts m r} (pre post : Bool) (hi : Wasp.interface (chainProg pre post) = some iface) (hs : SmallModule m)
    (h : Instruments C iface ts m r) (hv : ValidModule m)
    (hB : ∀ i ∈ bodyTargets m ts, ∀ f, m.functions[i]? = some f → WellAnnotated m f (bodyOf C m i)) (hres : ∀ name ∈ iface.toolExports, name ∉ m.exportNames) :
    ∃ base : Nat, (∃ f, r.module.functions[base]? = some f ∧ f.exports = ["call_base"]) ∧
      ∀ (W : Type) (K : LibLink) (N : Num) (T : List Table) (X : List (RefType × List (Option Nat))) (B : Nat) (I : Imports W) (IL : Imports (W × Log)) (G : Imports (W × Story)) (H : Imports (World W ChainCounts)),
        WaspLinked (chainProg pre post) ts m r K base T X B chainWasp chainWaspApply G H →
        ImportsAgree m (fun (p : W × Log) w => p.1 = w) IL I → ImportsBeside m IL G → LeavesLog m IL → LeavesLog m G →
        ∀ (f : Nat) (ty : FuncType) (args : List RVal) (s : Store W) (l : Lib),
          m.ctx.ftype f = some ty → ValsOK m.ctx args ty.inputs → StoreOK m.ctx s →
          l.Ok → l.mem.pages < 65536 → SegmentsIntact m r (s.extend T X (s.world, ({} : ChainCounts), l.store)) →
        ∀ (L d : Nat), l.free + d * B ≤ l.mem.limit * 65536 → l.free + d * B ≤ 65535 * 65536 →
          let told := toldCall C m (bodyTargets m ts) (applyTargets m ts) G N L d f args (s.withAnalysis [])
          let original := callF N (machineOf I m.functions) L d f args s
          let instrumented := callF N (machineOf H r.module.functions) L d f args (s.extend T X (s.world, ({} : ChainCounts), l.store))
          instrumented = .fuel ∨ ∃ (s1 : Store W) (st : Story) (g : ChainCounts) (u : Store Unit),
            g = ⟨BitVec.ofNat 32 (if pre then announced st.instrs else 0), BitVec.ofNat 32 (if post then finished st.instrs else 0),
              BitVec.ofNat 32 (st.countP Note.isEnter), BitVec.ofNat 32 (st.countP Note.isLeave)⟩ ∧
            ((∃ vs, original = .ok vs s1 ∧ told = .ok vs (s1.withAnalysis st) ∧ instrumented = .ok vs (s1.extend T X (s1.world, g, u)) ∧
                st.countP Note.isEnter = st.countP Note.isLeave ∧ announced st.instrs = finished st.instrs) ∨
              original = .trap s1 ∧ told = .trap (s1.withAnalysis st) ∧ instrumented = .trap (s1.extend T X (s1.world, g, u))) := by
  have hex := (C35_interface_exact_partial (chainProg pre post) iface hi).1
  have hg : ∃ x ∈ chainProg pre post, IsGeneric x := ⟨.apply (.gen .mutableDynamic "func" "args" "results") "..", by simp [chainProg], ⟨_, _, _, _, _, rfl⟩⟩
  have hook : ∀ t, (iface.trap t).isSome = true ↔ pre = true ∧ t = .preTrapCall ∨ post = true ∧ t = .postTrapCall := by
    intro t
    rw [← chain_advises]
    constructor
    · intro h
      obtain ⟨e, he⟩ := Option.isSome_iff_exists.1 h
      exact ((hex t e).1 he).2
    · intro h
      rw [(hex t t.export).2 ⟨rfl, h⟩]; rfl
  obtain ⟨base, hb, hmain⟩ := C76_analysis_hears_the_story (wasp_watchable hi hg hs h hv hB hres) fun _ _ _ _ _ _ b _ => wasp_offsets hi _ b
  refine ⟨base, hb, ?_⟩
  intro W K N T X B I IL G H hW hI hG hIL hLG f ty args s l hf hargs hok ok hpg hseg L d hc1 hc2 told original instrumented
  obtain ⟨_, _, g3, g4, _, g6⟩ := hmain W ChainCounts K N T X B chainWatcher G H (C83_wasp_analysis_qualifies hi N (chain_reports pre post ts m) hW) (fun _ _ => rfl)
    (fun t x => by cases t <;> exact nofun) f ty args s {} l hf hargs hok ok hpg hseg L d hc1 hc2
  obtain ⟨st0, k1, k2, _⟩ := C76_story_is_of_the_program (iface := iface) (ts := ts) hs h hv hB (N := N) hI hG hf hargs hok L d
  have kn := C76_calls_nest (C := C) (targets := bodyTargets m ts) (intercepted := applyTargets m ts) hLG (N := N) (L := L) (d := d) (f := f) (args := args) (s := s)
  have kc := C64_calls_nest (C := C) (targets := bodyTargets m ts) hIL (N := N) (L := L) (d := d) (f := f) (args := args) (s := s)
  have counts := @chain_counts iface pre post hook
  cases ho : instrumented with
  | fuel => exact .inl rfl
  | stuck => exact absurd ho g6
  | ok vs s1' =>
    obtain ⟨s1, st, tales, c, l1, e1, ht, hh, rfl, _⟩ := g3 vs s1' ho
    have hn := kn.1 _ _ _ e1
    have e1' := e1
    rw [k1] at e1'
    have ho' : original = .ok vs s1 ∧ st0 = st := by
      change original.withAnalysis st0 = _ at e1'
      cases hr : original <;> rw [hr] at e1' <;> simp only [Res.withAnalysis, Res.ok.injEq, reduceCtorEq] at e1'
      obtain ⟨rfl, e⟩ := e1'
      obtain ⟨rfl, rfl⟩ := withAnalysis_inj e
      exact ⟨rfl, rfl⟩
    obtain ⟨ho1, rfl⟩ := ho'
    change _ = original.withAnalysis _ at k2
    rw [ho1] at k2
    exact .inr ⟨s1, st0, c, _, counts ht hh, .inl ⟨vs, ho1, e1, rfl, hn.counts.1, (kc.1 _ _ _ k2).counts.1⟩⟩
  | trap s1' =>
    obtain ⟨s1, st, tales, c, u, e1, ht, hh, rfl⟩ := g4 s1' ho
    have e1' := e1
    rw [k1] at e1'
    have ho' : original = .trap s1 ∧ st0 = st := by
      change original.withAnalysis st0 = _ at e1'
      cases hr : original <;> rw [hr] at e1' <;> simp only [Res.withAnalysis, Res.trap.injEq, reduceCtorEq] at e1'
      obtain ⟨rfl, rfl⟩ := withAnalysis_inj e1'
      exact ⟨rfl, rfl⟩
    obtain ⟨ho1, rfl⟩ := ho'
    exact .inr ⟨s1, st0, c, u, counts ht hh, .inr ⟨ho1, e1, rfl⟩⟩

/-! ## Examples -/

/-- `main(n)` goes, in a block, through a loop, counting down from `n` to zero. -/
def exLoop : Module where
  functions := [⟨⟨[.i32], [.i32]⟩, .present ⟨[], [.block ⟨[], []⟩, .loop ⟨[], []⟩, .loc .get 0, .const (.i32 (-1)), .binary .i32Add, .loc .tee 0, .brIf 0, .fin, .fin, .loc .get 0, .fin]⟩, ["main"]⟩]
  tables := []
  elements := []
  memories := [⟨1, none, none, []⟩]
  globals := []
  datas := []
  start := none

theorem exLoop_valid : ValidModule exLoop where
  functions := by
    intro f hf c hc
    simp only [exLoop, List.mem_cons, List.not_mem_nil, or_false] at hf
    subst hf
    simp only [FuncCode.present.injEq] at hc; subst hc
    refine .intro (b := [.block ⟨[], []⟩ [.loop ⟨[], []⟩ [.basic (.loc .get 0), .basic (.const (.i32 (-1))), .basic (.binary .i32Add), .basic (.loc .tee 0), .basic (.brIf 0)]], .basic (.loc .get 0)]) rfl ?_
    refine .cons (.block (t := ⟨[], []⟩) (r := []) (.one (.loop (t := ⟨[], []⟩) (r := []) ?_))) (.ofBasic ⟨.i32, rfl, [], rfl, rfl⟩)
    exact .cons (.basic ⟨.i32, rfl, [], rfl, rfl⟩) (.cons (.basic ⟨_, rfl, rfl⟩) (.cons (.basic ⟨[], rfl, rfl⟩) (.cons (.basic ⟨.i32, rfl, [], rfl, rfl⟩) (.ofBasic ⟨_, rfl, [], rfl, rfl⟩))))
  elements := by simp [exLoop]
  start := by simp [exLoop]
  exports := by decide

theorem exLoop_limits : exLoop.WithinLimits where
  functions := by decide
  tables := by decide
  arity := by decide
  length := by
    intro f hf c hc
    simp only [exLoop, List.mem_cons, List.not_mem_nil, or_false] at hf
    subst hf; cases hc; decide
  blocks := by
    intro f hf c hc t ht
    simp only [exLoop, List.mem_cons, List.not_mem_nil, or_false] at hf
    subst hf; cases hc; simp at ht; subst ht; decide

/-- Its state after instantiation. -/
def exLoopStore : Store Unit := ⟨[], [⟨1, 65536, fun _ => 0⟩], [], [], [], ()⟩

/-- Advice of one of these programs, linked with a program without imports. -/
def exPassedHost (ts : List Trap) (c : WaspCode (Unit × Passed)) : Imports (Unit × Passed) := fun _ name =>
  match ts.find? fun t => t.exportName == name with
  | some t => c.host t
  | none => fun _ _ _ => .stuck

/-- The program instrumented for a Wasp program. -/
def exLooped (prog : List Wasp.Advice) : Instrumented :=
  ((instrument lookupChecker id id ((Wasp.interface prog).getD ⟨none, fun _ => none⟩) none exLoop).toOption).getD ⟨exLoop, none⟩

theorem exLooped_instruments (prog) : Instruments lookupChecker ((Wasp.interface prog).getD ⟨none, fun _ => none⟩) none exLoop (exLooped prog) := by
  obtain ⟨r, hr⟩ := (C82_valid_programs_are_instrumented (ord := id) (ord' := id) exLoop_valid exLoop_limits (C82_right_checker_exists _) ((Wasp.interface prog).getD ⟨none, fun _ => none⟩) none
    (fun _ => .rfl) (fun _ => .rfl)).2 (by decide)
  refine ⟨id, id, fun _ => .rfl, fun _ => .rfl, ?_⟩
  unfold exLooped
  rw [hr]; rfl

theorem exLoop_noImports {f ns name} (hf : f ∈ exLoop.functions) (hc : f.code = .imported ns name) : False := by
  simp only [exLoop, List.mem_cons, List.not_mem_nil, or_false] at hf
  subst hf
  cases hc

theorem exLoopStore_ok : StoreOK exLoop.ctx exLoopStore where
  globals := .nil
  mems := rfl
  tables := rfl
  tableElems := by intro e he; cases he
  datas := rfl
  elems := rfl
  elemElems := by simp [exLoopStore]
  pages := by
    intro x hx
    simp only [exLoopStore, List.mem_cons, List.not_mem_nil, or_false] at hx
    subst hx
    exact ⟨by decide, by decide⟩

theorem exPassedHost_has {ts : List Trap} {c : WaspCode (Unit × Passed)} (t : Trap) (ht : t ∈ ts) (h : ∀ t ∈ ts, ts.find? (fun u => u.exportName == t.exportName) = some t) :
    exPassedHost ts c analysisModule t.exportName = c.host t := by
  simp only [exPassedHost, h t ht]

-- C83 (`block.wasp`): all hypotheses hold of the example. `main(3)` goes into one block, and leaves it at its end.
example : ∃ vs s1, callF exNum (machineOf (exPassedHost [.preBlock, .postBlock] blockWasp) (exLooped blockProg).module.functions) 10 10 0 [.i32 3] (exLoopStore.withAnalysis {}) =
    .ok vs (Store.withAnalysis s1 ⟨1, 1⟩) := by
  have e : (match callF exNum (traced lookupChecker exLoop (bodyTargets exLoop none) (fun _ _ _ _ _ => .stuck) logEvent) 10 10 0 [.i32 3] (exLoopStore.withAnalysis []) with
      | .ok _ s => some (s.world.2.countP fun e => e.1 = Trap.preBlock, s.world.2.countP fun e => e.1 = Trap.postBlock)
      | _ => none) = some (1, 1) := by decide +kernel
  have nf : (match callF exNum (machineOf (exPassedHost [.preBlock, .postBlock] blockWasp) (exLooped blockProg).module.functions) 10 10 0 [.i32 3] (exLoopStore.withAnalysis {}) with
      | .fuel => true
      | _ => false) = false := by decide +kernel
  rcases C83_block_wasp_counts (iface := (Wasp.interface blockProg).getD ⟨none, fun _ => none⟩) rfl (exLoop_limits.small exLoop_valid) (exLooped_instruments _) exLoop_valid
    (fun i _ f hf => wellAnnotated_of exLoop_valid (C82_right_checker_exists _) i f hf) (by decide +kernel) exNum (T := fun _ _ _ _ _ => .stuck) (H := exPassedHost [.preBlock, .postBlock] blockWasp)
    (fun t ht => exPassedHost_has t ht (by decide +kernel)) (fun f hf ns name hc => (exLoop_noImports hf hc).elim) (f := 0) rfl
    (args := [.i32 3]) (ValsOK.nil.cons rfl (by simp [RVal.OK])) exLoopStore_ok {} 10 10 with h | ⟨s1, log, a1, ha, ⟨vs, h1, h2⟩ | ⟨h1, h2⟩⟩
  · rw [h] at nf; cases nf
  · rw [h2] at e
    simp only [Option.some.injEq, Prod.mk.injEq, Store.withAnalysis] at e
    rw [ha, e.1, e.2] at h1
    exact ⟨vs, s1, h1⟩
  · rw [h2] at e; cases e

-- C83 (`loop.wasp`): all hypotheses hold of the example. `main(3)` goes through the loop three times, and leaves it at its end once.
example : ∃ vs s1, callF exNum (machineOf (exPassedHost [.preLoop, .postLoop] loopWasp) (exLooped loopProg).module.functions) 10 10 0 [.i32 3] (exLoopStore.withAnalysis {}) =
    .ok vs (Store.withAnalysis s1 ⟨3, 1⟩) := by
  have e : (match callF exNum (traced lookupChecker exLoop (bodyTargets exLoop none) (fun _ _ _ _ _ => .stuck) logEvent) 10 10 0 [.i32 3] (exLoopStore.withAnalysis []) with
      | .ok _ s => some (s.world.2.countP fun e => e.1 = Trap.preLoop, s.world.2.countP fun e => e.1 = Trap.postLoop)
      | _ => none) = some (3, 1) := by decide +kernel
  have nf : (match callF exNum (machineOf (exPassedHost [.preLoop, .postLoop] loopWasp) (exLooped loopProg).module.functions) 10 10 0 [.i32 3] (exLoopStore.withAnalysis {}) with
      | .fuel => true
      | _ => false) = false := by decide +kernel
  rcases C83_loop_wasp_counts (iface := (Wasp.interface loopProg).getD ⟨none, fun _ => none⟩) rfl (exLoop_limits.small exLoop_valid) (exLooped_instruments _) exLoop_valid
    (fun i _ f hf => wellAnnotated_of exLoop_valid (C82_right_checker_exists _) i f hf) (by decide +kernel) exNum (T := fun _ _ _ _ _ => .stuck) (H := exPassedHost [.preLoop, .postLoop] loopWasp)
    (fun t ht => exPassedHost_has t ht (by decide +kernel)) (fun f hf ns name hc => (exLoop_noImports hf hc).elim) (f := 0) rfl
    (args := [.i32 3]) (ValsOK.nil.cons rfl (by simp [RVal.OK])) exLoopStore_ok {} 10 10 with h | ⟨s1, log, a1, ha, ⟨vs, h1, h2⟩ | ⟨h1, h2⟩⟩
  · rw [h] at nf; cases nf
  · rw [h2] at e
    simp only [Option.some.injEq, Prod.mk.injEq, Store.withAnalysis] at e
    rw [ha, e.1, e.2] at h1
    exact ⟨vs, s1, h1⟩
  · rw [h2] at e; cases e

theorem exChain_linked (base : Nat) : WaspLinked (chainProg true true) none exModule exWaspResumed exWaspLink base [exWaspTable] [] 36 chainWasp chainWaspApply (exImports.beside Story)
    (exWaspHost chainWasp chainWaspApply base) where
  sigs := (exWasp_resuming base).sigs
  small := (exWasp_resuming base).small
  good := (exWasp_resuming base).good
  lib := fun _ => rfl
  hooks t ht := by
    have ht := chain_advises.1 ht
    have e1 : t.exportName ≠ interfaceGenericApply.1.name := by rcases ht with ⟨_, rfl⟩ | ⟨_, rfl⟩ <;> decide +kernel
    have e2 : List.find? (fun u => u.exportName == t.exportName) [Trap.preTrapCall, .postTrapCall] = some t := by rcases ht with ⟨_, rfl⟩ | ⟨_, rfl⟩ <;> decide +kernel
    have e3 : ("WASTRUMENTATION_ANALYSIS" : String) ≠ stackModule := by decide
    simp only [exWaspHost, e1, e2, e3, if_false, analysisModule, if_true]
  applies := rfl
  imports := by
    refine .plain _ _ fun f hf ns name hc => ?_
    simp only [exModule, List.mem_cons, List.not_mem_nil, or_false] at hf
    rcases hf with rfl | rfl | rfl | rfl <;> cases hc
    exact ⟨⟨fun _ _ => rfl, fun call args s ha hs => .inl ⟨_, _, rfl, .nil, hs.world rfl rfl rfl rfl rfl⟩⟩, rfl⟩
  frame := (exWasp_resuming base).frame

-- C83 (`call_chain_pre_post.wasp`): all hypotheses hold of the example. In `main(0, 5)` two calls are made and return, and three functions are entered and left.
example : ∃ base : Nat, callF exNum (machineOf (exWaspHost chainWasp chainWaspApply base) exWaspResumed.module.functions) 10 52 1 [.i32 0, .i32 5]
      (exStore.extend [exWaspTable] [] ([], ({} : ChainCounts), exLib.store)) = .fuel ∨
    ∃ s1 u, callF exNum (machineOf (exWaspHost chainWasp chainWaspApply base) exWaspResumed.module.functions) 10 52 1 [.i32 0, .i32 5]
      (exStore.extend [exWaspTable] [] ([], ({} : ChainCounts), exLib.store)) = .ok [.i32 49] (Store.extend s1 [exWaspTable] [] (s1.world, (⟨2, 2, 3, 3⟩ : ChainCounts), u)) := by
  obtain ⟨base, _, h⟩ := C83_call_chain_wasp_counts (iface := exWaspIface) true true rfl exModule_small exWaspResumed_instruments exModule_valid exModule_annotated exWasp_reserved
  refine ⟨base, ?_⟩
  have e : (match toldCall exTypedChecker exModule (bodyTargets exModule none) (applyTargets exModule none) (exImports.beside Story) exNum 10 52 1 [.i32 0, .i32 5] (exStore.withAnalysis []) with
      | .ok vs s => some (vs, announced s.world.2.instrs, finished s.world.2.instrs, s.world.2.countP Note.isEnter, s.world.2.countP Note.isLeave)
      | _ => none) = some ([.i32 49], 2, 2, 3, 3) := by decide +kernel
  rcases h _ _ _ _ _ _ _ _ _ _ (exChain_linked base) exImports_beside.1 exImports_beside.2 (.beside _) (.beside _) 1 _ [.i32 0, .i32 5] exStore exLib rfl
    (ValsOK.nil.cons rfl (by simp [RVal.OK]) |>.cons rfl (by simp [RVal.OK])) exStore_ok exLib_ok (by decide) (exWaspResumed_intact _ rfl _) 10 52 (by decide) (by decide) with h | ⟨s1, st, g, u, hg, h⟩
  · exact .inl h
  · rcases h with ⟨vs, _, h2, h3, _⟩ | ⟨_, h2, _⟩
    · rw [h2] at e
      simp only [Option.some.injEq, Prod.mk.injEq, Store.withAnalysis] at e
      obtain ⟨rfl, e1, e2, e3, e4⟩ := e
      rw [hg, e1, e2, e3, e4] at h3
      exact .inr ⟨s1, u, h3⟩
    · rw [h2] at e; cases e

end Wastrum
