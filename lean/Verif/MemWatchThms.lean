import Verif.PanicThms
import Verif.TraceThms
import Verif.MemWatchers
import Verif.ExMem
/-!
# What the analyses that record memory accesses report (C68), and that accesses survived are within bounds
-/

set_option linter.unusedSimpArgs false
set_option linter.unusedVariables false

namespace Wastrum

variable {W A : Type}

/-! ## Loads and stores an analysis is told of are in the program -/

theorem stdEntry_is_load {t args i o op l} (h : stdEntry t args = some (.load i o op l)) :
    (t = .i32Load ∨ t = .i64Load ∨ t = .f32Load ∨ t = .f64Load) ∧ ∃ f g c, args = [.i32 i, .i64 o, .i32 c, .i64 f, .i64 g] ∧ LoadOp.ofCode c = some op ∧ l = .new f g := by
  unfold stdEntry at h
  split at h
  all_goals (split at h <;> first | (cases h; done) | skip)
  all_goals first | (simp at h; done) | skip
  all_goals (simp only [Option.map_eq_some_iff] at h; obtain ⟨op', h1, h2⟩ := h; cases h2)
  all_goals exact ⟨by simp, _, _, _, rfl, h1, rfl⟩

theorem stdEntry_is_store {t args i v o op l} (h : stdEntry t args = some (.store i v o op l)) :
    (t = .i32Store ∨ t = .i64Store ∨ t = .f32Store ∨ t = .f64Store) ∧ ∃ f g c, args = [.i32 i, .num v, .i64 o, .i32 c, .i64 f, .i64 g] ∧ StoreOp.ofCode c = some op ∧ l = .new f g := by
  unfold stdEntry at h
  split at h
  all_goals (split at h <;> first | (cases h; done) | skip)
  all_goals first | (simp at h; done) | skip
  all_goals (simp only [Option.map_eq_some_iff] at h; obtain ⟨op', h1, h2⟩ := h; cases h2)
  all_goals exact ⟨by simp, _, _, _, rfl, h1, rfl⟩

/-- The hooks of loads and stores. -/
def Trap.accesses : Trap → Bool
  | .i32Load | .i64Load | .f32Load | .f64Load | .i32Store | .i64Store | .f32Store | .f64Store => true
  | _ => false

theorem events_access {instr : LInstr} {t k info} (h : (t, k, info) ∈ instr.events) (ht : t.accesses = true) :
    (∃ op ma, instr = .load op ma ∧ loadTrap op.ty = some t ∧ k = 1 ∧ info = [.i64 (ma.offset.setWidth 64), .i32 op.serialize]) ∨
    (∃ op ma, instr = .store op ma ∧ storeTrap op.ty = some t ∧ k = 2 ∧ info = [.i64 (ma.offset.setWidth 64), .i32 op.serialize]) := by
  cases instr
  case load op ma =>
    simp only [LInstr.events, List.mem_map, Option.mem_toList, Prod.mk.injEq] at h
    obtain ⟨t', h1, rfl, rfl, rfl⟩ := h
    exact .inl ⟨op, ma, rfl, h1, rfl, rfl⟩
  case store op ma =>
    simp only [LInstr.events, List.mem_map, Option.mem_toList, Prod.mk.injEq] at h
    obtain ⟨t', h1, rfl, rfl, rfl⟩ := h
    exact .inr ⟨op, ma, rfl, h1, rfl, rfl⟩
  all_goals exfalso
  case const v =>
    simp only [LInstr.events, List.mem_map, Option.mem_toList, Prod.mk.injEq] at h
    obtain ⟨t', h1, rfl, rfl, rfl⟩ := h
    unfold constTrap at h1
    split at h1 <;> first | (cases h1; cases ht) | cases h1
  case unary op =>
    simp only [LInstr.events, List.mem_map, Option.mem_toList, Prod.mk.injEq] at h
    obtain ⟨t', h1, rfl, rfl, rfl⟩ := h
    unfold unaryTrap at h1
    split at h1 <;> first | (cases h1; cases ht) | cases h1
  case binary op =>
    simp only [LInstr.events, List.mem_map, Option.mem_toList, Prod.mk.injEq] at h
    obtain ⟨t', h1, rfl, rfl, rfl⟩ := h
    unfold binaryTrap at h1
    split at h1 <;> first | (cases h1; cases ht) | cases h1
  case loc op i =>
    cases op <;> simp [LInstr.events, localTrap] at h
    all_goals rcases h with ⟨rfl, _⟩ | ⟨rfl, _⟩ | ⟨rfl, _⟩ | ⟨rfl, _⟩ <;> cases ht
  case glob op i =>
    cases op <;> simp [LInstr.events, globalTrap] at h
    all_goals rcases h with ⟨rfl, _⟩ | ⟨rfl, _⟩ | ⟨rfl, _⟩ | ⟨rfl, _⟩ <;> cases ht
  case brTable ls d =>
    simp only [LInstr.events, List.mem_map, Prod.mk.injEq] at h
    obtain ⟨t', h1, rfl, rfl, rfl⟩ := h
    cases ht
  all_goals simp only [LInstr.events, List.mem_cons, Prod.mk.injEq, List.not_mem_nil, or_false] at h
  all_goals first
    | (obtain ⟨rfl, _⟩ := h; cases ht; done)
    | (rcases h with ⟨rfl, _⟩ | ⟨rfl, _⟩ <;> cases ht; done)
    | (rcases h with ⟨rfl, _⟩ | ⟨rfl, _⟩ | ⟨rfl, _⟩ | ⟨rfl, _⟩ <;> cases ht; done)

/-! ## Specification -/

/-- The event is one of the instruction at place `i` of function `f`, which is a load (or a store, `write`) with an immediate offset of `offset`; `index` is the address it was given. -/
def AccessAt (m : Module) (targets : List Nat) (a : Advice) (write : Bool) (index : BitVec 32) (offset f i : Nat) : Prop :=
  f ∈ targets ∧ ∃ fn c, m.functions[f]? = some fn ∧ fn.code = .present c ∧
    ((∃ op ma l, c.body[i]? = some (.load op ma) ∧ ma.offset.toNat = offset ∧ a = .load index (ma.offset.setWidth 64) op l ∧ write = false) ∨
     (∃ op ma v l, c.body[i]? = some (.store op ma) ∧ ma.offset.toNat = offset ∧ a = .store index v (ma.offset.setWidth 64) op l ∧ write = true))

def Advice.isAccess : Advice → Bool
  | .load .. | .store .. => true
  | _ => false

/-- The loads and stores among the events. -/
def accessesOf (advs : List Advice) : List Advice := advs.filter Advice.isAccess

/-- The last `n` elements. -/
def latest {α} (n : Nat) (l : List α) : List α := l.drop (l.length - n)

/-! ## C68 -/

/-- A load or store an analysis is told of is one of the program, and the library hands it at its place. -/
theorem raised_access {m : Module} {targets : List Nat} {t args a} (h : RaisedBy m targets t args) (he : stdEntry t args = some a) (ha : a.isAccess = true) :
    ∃ write index offset f i, AccessAt m targets a write index offset f i ∧ a.At (BitVec.ofNat 64 f) (BitVec.ofNat 64 i) ∧
      ∃ fn c, m.functions[f]? = some fn ∧ fn.code = .present c ∧ i < c.body.length := by
  obtain ⟨f, hf, fn, c, i, instr, h1, h2, h3, k, info, ops, h4, h5, rfl⟩ := h
  have hAt := stdEntry_at he
  have hi : i < c.body.length := (List.getElem?_eq_some_iff.1 h3).1
  cases a with
  | load x o op l =>
    obtain ⟨ht, f', g', code, e1, e2, e3⟩ := stdEntry_is_load he
    have hta : t.accesses = true := by rcases ht with rfl | rfl | rfl | rfl <;> rfl
    rcases events_access h4 hta with ⟨op', ma, rfl, _, rfl, rfl⟩ | ⟨op', ma, rfl, hs, rfl, rfl⟩
    · have hl : ops.length = 1 := by have := congrArg List.length e1; simp at this; omega
      match ops, hl with
      | [v], _ =>
        simp only [List.cons_append, List.nil_append, List.cons.injEq, RVal.i32, RVal.i64, RVal.num.injEq, Val.i64.injEq, Val.i32.injEq] at e1
        obtain ⟨rfl, rfl, rfl, _⟩ := e1
        have : op' = op := Option.some.inj (((C17_load_codes _ _).2 rfl).symm.trans e2)
        subst this
        exact ⟨false, x, _, f, i, ⟨hf, fn, c, h1, h2, .inl ⟨_, ma, l, h3, rfl, rfl, rfl⟩⟩, hAt, fn, c, h1, h2, hi⟩
    · exfalso
      revert hs
      rcases ht with rfl | rfl | rfl | rfl <;> cases op' <;> decide
  | store x v o op l =>
    obtain ⟨ht, f', g', code, e1, e2, e3⟩ := stdEntry_is_store he
    have hta : t.accesses = true := by rcases ht with rfl | rfl | rfl | rfl <;> rfl
    rcases events_access h4 hta with ⟨op', ma, rfl, hs, rfl, rfl⟩ | ⟨op', ma, rfl, _, rfl, rfl⟩
    · exfalso
      revert hs
      rcases ht with rfl | rfl | rfl | rfl <;> cases op' <;> decide
    · have hl : ops.length = 2 := by have := congrArg List.length e1; simp at this; omega
      match ops, hl with
      | [v', w'], _ =>
        simp only [List.cons_append, List.nil_append, List.cons.injEq, RVal.i32, RVal.i64, RVal.num.injEq, Val.i64.injEq, Val.i32.injEq] at e1
        obtain ⟨rfl, rfl, rfl, rfl, _⟩ := e1
        have : op' = op := Option.some.inj (((C17_store_codes _ _).2 rfl).symm.trans e2)
        subst this
        exact ⟨true, x, _, f, i, ⟨hf, fn, c, h1, h2, .inr ⟨_, ma, v, l, h3, rfl, rfl, rfl⟩⟩, hAt, fn, c, h1, h2, hi⟩
  | _ => cases ha

theorem pushBack_latest {α} {n : Nat} (hn : 0 < n) (l : List α) (x : α) : pushBack n (latest n l) x = latest n (l ++ [x]) := by
  unfold pushBack latest
  simp only [List.length_drop, List.length_append, List.length_cons, List.length_nil]
  split
  · rename_i h
    have : l.length - n = 0 := by omega
    have h2 : l.length + (0 + 1) - n = 0 := by omega
    rw [this, h2]; rfl
  · rename_i h
    have : l.length + (0 + 1) - n = (l.length - n) + 1 := by omega
    rw [this, List.drop_drop, List.drop_append_of_le_length (by omega)]

/-- What is recorded of an access. -/
def Advice.recorded : Advice → Access
  | .load i o _ l => ⟨l.functionIndex.setWidth 32, l.instructionIndex.setWidth 32, i.signExtend 64 + o, false⟩
  | .store i _ o _ l => ⟨l.functionIndex.setWidth 32, l.instructionIndex.setWidth 32, i.signExtend 64 + o, true⟩
  | _ => ⟨0, 0, 0, false⟩

theorem i64ToU32_ofNat {n : Nat} (h : n < 2 ^ 32) : i64ToU32 (BitVec.ofNat 64 n) = some ((BitVec.ofNat 64 n).setWidth 32) := by
  unfold i64ToU32
  rw [if_pos]
  rw [BitVec.toInt_eq_toNat_of_lt (by simp; omega)]
  simp
  omega

theorem memoryTracing_step {a : Advice} {f i : Nat} (h : a.At (BitVec.ofNat 64 f) (BitVec.ofNat 64 i)) (hf : f < 2 ^ 32) (hi : i < 2 ^ 32) (t : MemTrace) :
    memoryTracing.step a t = some (if a.isAccess then t.add a.recorded else t) := by
  unfold Advice.At at h
  cases a
  case load x o op l =>
    simp only [Advice.location] at h
    subst h
    simp [Watcher.step, memoryTracing, MemTrace.record, Location.functionIndex, Location.instructionIndex, Location.new, i64ToU32_ofNat hf, i64ToU32_ofNat hi,
      Advice.isAccess, Advice.recorded]
  case store x v o op l =>
    simp only [Advice.location] at h
    subst h
    simp [Watcher.step, memoryTracing, MemTrace.record, Location.functionIndex, Location.instructionIndex, Location.new, i64ToU32_ofNat hf, i64ToU32_ofNat hi,
      Advice.isAccess, Advice.recorded]
  all_goals rfl

theorem memoryTracing_run (advs : List Advice) (h : ∀ a ∈ advs, ∃ f i : Nat, a.At (BitVec.ofNat 64 f) (BitVec.ofNat 64 i) ∧ f < 2 ^ 32 ∧ i < 2 ^ 32) :
    memoryTracing.run advs MemTrace.init = some ⟨latest traceCapacity ((accessesOf advs).map Advice.recorded), BitVec.ofNat 64 (accessesOf advs).length⟩ := by
  induction advs using snoc_induction with
  | h0 => rfl
  | h1 advs a ih =>
    obtain ⟨f, i, h1, h2, h3⟩ := h a (by simp)
    rw [Watcher.run_append, ih (fun b hb => h b (by simp [hb]))]
    simp only [Option.bind_some, Watcher.run, memoryTracing_step h1 h2 h3, Option.some.injEq]
    cases ha : a.isAccess
    · simp [accessesOf, ha]
    · simp only [if_true, MemTrace.add, accessesOf, List.filter_append, List.filter_cons_of_pos ha, List.filter_nil, List.map_append, List.map_cons, List.map_nil,
        List.length_append, List.length_cons, List.length_nil]
      rw [pushBack_latest (by decide)]
      simp [BitVec.ofNat_add]

theorem latest_length {α} (n : Nat) (l : List α) : (latest n l).length = min n l.length := by
  unfold latest; rw [List.length_drop]; omega

theorem map_latest {α β} (g : α → β) (n : Nat) (l : List α) : latest n (l.map g) = (latest n l).map g := by
  unfold latest; rw [List.length_map, List.map_drop]

theorem mem_of_latest {α} {n : Nat} {l : List α} {k : Nat} {a : α} (h : (latest n l)[k]? = some a) : a ∈ l :=
  List.mem_of_mem_drop (List.mem_of_getElem? h)

/-- The address recorded is the address accessed, except that an index from 2^31 on counts as negative. -/
theorem recorded_address (index offset : BitVec 32) :
    index.signExtend 64 + offset.setWidth 64 =
      BitVec.ofInt 64 (if index.toNat < 2 ^ 31 then (index.toNat + offset.toNat : Int) else (index.toNat + offset.toNat : Int) - 2 ^ 32) := by
  apply BitVec.eq_of_toInt_eq
  rw [BitVec.toInt_add, BitVec.toInt_signExtend_of_le (by decide), BitVec.toInt_ofInt]
  have h1 : (offset.setWidth 64).toInt = offset.toNat := by
    rw [BitVec.toInt_eq_toNat_of_lt (by rw [BitVec.toNat_setWidth]; have := offset.isLt; omega), BitVec.toNat_setWidth]
    have := offset.isLt
    omega
  rw [h1, BitVec.toInt_eq_toNat_cond]
  congr 1
  have := index.isLt
  split <;> split <;> omega

/-- **C68.** What `memory-tracing` reports. Let the original program end normally, having gone through the events `advs`. Then the instrumented program ends normally too, and with the same
results and state. Afterwards `total_accesses` is the number of loads and stores made (as a 64-bit number), and the buffer has the last million of them, oldest first: each with
whether it was a store and its address. But an address whose index is 2^31 or larger is reported 2^32 too small; and the function index reported is the index of the *instruction*, the instruction
index reported is that of the *function* (C22). -/
theorem C68_memory_tracing_reports_accesses {C iface ts m r} {N : Num} {T : Imports (W × Log)} {H : Imports (W × MemTrace)}
    (hW : Watching C iface ts m r N memoryTracing T H) (hT : LeavesLog m T) (hP : PassesCuts m T)
    (hoff : ∀ i ∈ bodyTargets m ts, ∀ f c, m.functions[i]? = some f → f.code = .present c → OnlyCode (OffsetsAre iface fun o => o.toNat < 2 ^ 31) c.body)
    (hlen : ∀ f ∈ m.functions, ∀ c, f.code = .present c → c.body.length ≤ 2 ^ 32)
    {f : Nat} {ty : FuncType} {args : List RVal} {s : Store W} (hf : m.ctx.ftype f = some ty) (hargs : ValsOK m.ctx args ty.inputs)
    (hok : StoreOK m.ctx s) {L d : Nat} {vs : List RVal} {s1 : Store W} {log : Log}
    (hrun : callF N (traced C m (bodyTargets m ts) T logEvent) L d f args (s.withAnalysis []) = .ok vs (s1.withAnalysis log))
    {advs : List Advice} (hl : iface.Hears log advs) :
    ∃ t : MemTrace, callF N (machineOf H r.module.functions) L (d + 2) f args (s.withAnalysis MemTrace.init) = .ok vs (s1.withAnalysis t) ∧
      t.totalAccesses = BitVec.ofNat 64 (accessesOf advs).length ∧
      t.totalFromBuffer = some (BitVec.ofNat 32 (min 1000000 (accessesOf advs).length)) ∧
      ∀ k : BitVec 32,
        ((latest 1000000 (accessesOf advs))[k.toNat]? = none →
          t.nthOperation k = none ∧ t.nthAddress k = none ∧ t.nthFunctIndex k = none ∧ t.nthInstrIndex k = none) ∧
        ∀ a, (latest 1000000 (accessesOf advs))[k.toNat]? = some a → ∃ write index offset f i, AccessAt m (bodyTargets m ts) a write index offset f i ∧
          t.nthOperation k = some (if write then 1 else 0) ∧
          t.nthAddress k = some (BitVec.ofInt 64 (if index.toNat < 2 ^ 31 then (index.toNat + offset : Int) else (index.toNat + offset : Int) - 2 ^ 32)) ∧
          t.nthFunctIndex k = some (BitVec.ofNat 64 i) ∧ t.nthInstrIndex k = some (BitVec.ofNat 64 f) := by
  have hraised : ∀ a ∈ advs, ∃ t args, RaisedBy m (bodyTargets m ts) t args ∧ stdEntry t args = some a := by
    intro a ha
    obtain ⟨t, as, hm, he⟩ := hl.mem ha
    exact ⟨t, as, C65_events_are_of_instructions hT s1 log (.inl ⟨vs, hrun⟩) t as hm, he⟩
  have hsmall : ∀ a ∈ advs, ∃ f i : Nat, a.At (BitVec.ofNat 64 f) (BitVec.ofNat 64 i) ∧ f < 2 ^ 32 ∧ i < 2 ^ 32 := by
    intro a ha
    obtain ⟨t, as, ⟨f, hf, fn, c, i, instr, h1, h2, h3, k, info, ops, h4, h5, rfl⟩, he⟩ := hraised a ha
    have g1 := (List.getElem?_eq_some_iff.1 h1).1
    have g2 := hW.small.functions
    have g3 := (List.getElem?_eq_some_iff.1 h3).1
    have g4 := hlen fn (List.mem_of_getElem? h1) c h2
    exact ⟨f, i, stdEntry_at he, by omega, by omega⟩
  refine ⟨_, (C67_panics_exactly (C58_rust_analysis_qualifies hW) hT hP hoff hf hargs hok MemTrace.init hrun hl).1 _ (memoryTracing_run advs hsmall), rfl, ?_, fun k => ?_⟩
  · have : (latest traceCapacity ((accessesOf advs).map Advice.recorded)).length = min 1000000 (accessesOf advs).length := by
      rw [latest_length, List.length_map]; rfl
    unfold MemTrace.totalFromBuffer
    rw [this, if_pos (by omega)]
  · have hnth : (⟨latest traceCapacity ((accessesOf advs).map Advice.recorded), BitVec.ofNat 64 (accessesOf advs).length⟩ : MemTrace).nth k =
        (latest 1000000 (accessesOf advs))[k.toNat]?.map Advice.recorded := by
      unfold MemTrace.nth
      have e : latest traceCapacity ((accessesOf advs).map Advice.recorded) = (latest 1000000 (accessesOf advs)).map Advice.recorded := map_latest _ _ _
      simp only [e, List.getElem?_map]
      split
      · rename_i hk
        rw [List.getElem?_eq_none]
        · rfl
        · rw [latest_length]
          rw [BitVec.toInt_eq_toNat_cond] at hk
          split at hk <;> omega
      · rfl
    simp only [MemTrace.nthOperation, MemTrace.nthAddress, MemTrace.nthFunctIndex, MemTrace.nthInstrIndex, hnth]
    constructor
    · intro h
      rw [h]
      exact ⟨rfl, rfl, rfl, rfl⟩
    · intro a ha
      have hm := mem_of_latest ha
      obtain ⟨hm, hacc⟩ := List.mem_filter.1 hm
      obtain ⟨t, as, hr, he⟩ := hraised a hm
      obtain ⟨write, index, offset, f, i, h1, h2, fn, c, h3, h4, h5⟩ := raised_access hr he hacc
      have g1 := (List.getElem?_eq_some_iff.1 h3).1
      have g2 := hW.small.functions
      have g4 := hlen fn (List.mem_of_getElem? h3) c h4
      have hset : ∀ n : Nat, n < 2 ^ 32 → ((BitVec.ofNat 64 n).setWidth 32).setWidth 64 = BitVec.ofNat 64 n := by
        intro n hn
        apply BitVec.eq_of_toNat_eq
        simp
        omega
      refine ⟨write, index, offset, f, i, h1, ?_⟩
      rw [ha]
      obtain ⟨_, _, _, _, _, ⟨op, ma, l, _, rfl, rfl, rfl⟩ | ⟨op, ma, v, l, _, rfl, rfl, rfl⟩⟩ := h1
      all_goals
        unfold Advice.At at h2
        simp only [Advice.location] at h2
        subst h2
        refine ⟨rfl, ?_, ?_, ?_⟩
        · exact congrArg some (recorded_address _ _)
        · exact congrArg some (hset i (by omega))
        · exact congrArg some (hset f (by omega))

theorem exMem_leaves : LeavesLog (W := Unit) (ε := Trap × List RVal) exMem (fun _ _ _ _ _ => .stuck) := fun f hf ns name hc => (exMem_noImports hf hc).elim
theorem exMem_passes : PassesCuts (W := Unit) (ε := Trap × List RVal) exMem (fun _ _ _ _ _ => .stuck) := fun f hf ns name hc => (exMem_noImports hf hc).elim
theorem exMem_lengths : ∀ f ∈ exMem.functions, ∀ c, f.code = .present c → c.body.length ≤ 2 ^ 32 := by
  intro f hf c hc
  simp only [exMem, List.mem_cons, List.not_mem_nil, or_false] at hf
  subst hf
  cases hc
  decide

-- C68: of `main(8)`, a write to 11 and a read from 10, by instructions 2 and 4 of function 0.
example : ∃ r, Instruments exTypedChecker exMemIface none exMem r ∧ ∃ (s1 : Store Unit) (t : MemTrace),
    callF exNum (machineOf (exMemImports (memoryTracing.body exNum r.module.exported)) r.module.functions) 10 12 0 [.i32 8] (exMemStore.withAnalysis MemTrace.init) =
      .ok [.i32 1280] (s1.withAnalysis t) ∧ t.totalAccesses = 2 ∧ t.totalFromBuffer = some 2 ∧ t.nthOperation 2 = none := by
  obtain ⟨r, hr⟩ := exMem_instruments
  obtain ⟨s1, log, h, hl⟩ := exMem_traced8
  obtain ⟨t, h1, h2, h3, h4⟩ := C68_memory_tracing_reports_accesses (exMem_watching memoryTracing hr) exMem_leaves exMem_passes exMem_offsets exMem_lengths (f := 0) rfl
    (ValsOK.nil.cons rfl (by simp [RVal.OK])) exMemStore_ok h hl
  exact ⟨r, hr, s1, t, h1, h2, h3, ((h4 2).1 rfl).1⟩
-- The state the analysis is in then, and how it reports an access at 4294967282 + 3.
example : memoryTracing.run (exMemAdvs 8) MemTrace.init = some ⟨[⟨2, 0, 11, true⟩, ⟨4, 0, 10, false⟩], 2⟩ ∧
    (memoryTracing.run (exMemAdvs 4294967282) MemTrace.init).map (·.nthAddress 0) = some (some (BitVec.ofInt 64 (-11))) := by decide +kernel

/-! ## Accesses that succeed are within the address space -/

/-- The access touches the first `n` bytes only. -/
def Advice.Within (n : Nat) : Advice → Prop
  | .load i o op _ => i.toNat + o.toNat + op.width ≤ n
  | .store i _ o op _ => i.toNat + o.toNat + op.width ≤ n
  | _ => True

/-- The access touches bytes of the address space only. -/
def Advice.InBounds (a : Advice) : Prop := a.Within (2 ^ 32)

theorem Advice.Within.mono {n k : Nat} (h : n ≤ k) {a : Advice} (ha : a.Within n) : a.Within k := by
  cases a <;> first | trivial | exact Nat.le_trans ha h

/-- Number of pages of the memory. -/
def Store.pages (s : Store W) : Nat := (s.mems[0]?.map Mem.pages).getD 0

def EventInBounds (t : Trap) (args : List RVal) : Prop := ∀ adv, stdEntry t args = some adv → adv.InBounds

theorem eventInBounds_of_not_access {t : Trap} {args} (h : t.accesses = false) : EventInBounds t args := by
  intro adv he
  cases adv
  case load => rcases (stdEntry_is_load he).1 with rfl | rfl | rfl | rfl <;> cases h
  case store => rcases (stdEntry_is_store he).1 with rfl | rfl | rfl | rfl <;> cases h
  all_goals trivial

theorem access_delegated {b t k info} (hd : delegation b = some (t, k, info)) (ht : t.accesses = true) : (∃ op ma, b = .load op ma) ∨ ∃ op ma, b = .store op ma := by
  cases b <;> try (simp [delegation] at hd; done)
  case load op ma => exact .inl ⟨_, _, rfl⟩
  case store op ma => exact .inr ⟨_, _, rfl⟩
  case unary op =>
    simp only [delegation, Option.map_eq_some_iff, Prod.mk.injEq] at hd
    obtain ⟨t, hd, rfl, rfl, rfl⟩ := hd
    unfold unaryTrap at hd
    split at hd <;> first | (cases hd; cases ht) | cases hd
  case binary op =>
    simp only [delegation, Option.map_eq_some_iff, Prod.mk.injEq] at hd
    obtain ⟨t, hd, rfl, rfl, rfl⟩ := hd
    unfold binaryTrap at hd
    split at hd <;> first | (cases hd; cases ht) | cases hd
  case memoryGrow j =>
    simp only [delegation, Option.some.injEq, Prod.mk.injEq] at hd
    obtain ⟨rfl, rfl, rfl⟩ := hd
    cases ht

theorem mem_size_le {x : Mem} (h : x.Bounded) : x.size ≤ 2 ^ 32 := by
  unfold Mem.size
  have := h.1
  omega

/-- A load or store that is performed is within memory. -/
theorem performed_in_memory {N : Num} {b t k info} (hd : delegation b = some (t, k, info)) {ops loc : List RVal} {s : Store W} (hk : ops.length = k) {vs s1}
    (hx : execute N b ops s = .ok vs s1) {adv : Advice} (hadv : stdEntry t (ops ++ info ++ loc) = some adv) : adv.Within (s.pages * 65536) := by
  revert adv
  cases ht : t.accesses
  · intro adv he
    cases adv
    case load => rcases (stdEntry_is_load he).1 with rfl | rfl | rfl | rfl <;> cases ht
    case store => rcases (stdEntry_is_store he).1 with rfl | rfl | rfl | rfl <;> cases ht
    all_goals trivial
  rcases access_delegated hd ht with ⟨op, ma, rfl⟩ | ⟨op, ma, rfl⟩
  · simp only [delegation, Option.map_eq_some_iff, Prod.mk.injEq] at hd
    obtain ⟨t, hd, rfl, rfl, rfl⟩ := hd
    intro adv he
    cases adv
    case store => exfalso; revert hd; rcases (stdEntry_is_store he).1 with rfl | rfl | rfl | rfl <;> cases op <;> decide
    case load x o op' l =>
      obtain ⟨_, f, g, c, e1, e2, e3⟩ := stdEntry_is_load he
      obtain ⟨v, rfl⟩ : ∃ v, ops = [v] := by match ops, hk with | [v], _ => exact ⟨v, rfl⟩
      simp only [List.cons_append, List.nil_append, List.cons.injEq, RVal.i32, RVal.i64, RVal.num.injEq, Val.i64.injEq, Val.i32.injEq] at e1
      obtain ⟨rfl, rfl, rfl, _⟩ := e1
      have : op = op' := Option.some.inj (((C17_load_codes _ _).2 rfl).symm.trans e2)
      subst this
      show x.toNat + (ma.offset.setWidth 64).toNat + op.width ≤ s.pages * 65536
      have ho : (ma.offset.setWidth 64).toNat = ma.offset.toNat := by rw [BitVec.toNat_setWidth]; have := ma.offset.isLt; omega
      rw [ho]
      simp only [execute, execInstr, step, List.reverse_cons, List.reverse_nil, List.nil_append] at hx
      cases hm : s.mems[0]? with
      | none => rw [hm] at hx; cases hx
      | some me =>
        rw [hm] at hx
        dsimp only at hx
        have hp : s.pages * 65536 = me.size := by simp [Store.pages, hm, Mem.size]
        unfold Mem.load at hx
        by_cases hle : x.toNat + ma.offset.toNat + op.width ≤ me.size
        · omega
        · rw [if_neg hle] at hx; cases hx
    all_goals trivial
  · simp only [delegation, Option.map_eq_some_iff, Prod.mk.injEq] at hd
    obtain ⟨t, hd, rfl, rfl, rfl⟩ := hd
    intro adv he
    cases adv
    case load => exfalso; revert hd; rcases (stdEntry_is_load he).1 with rfl | rfl | rfl | rfl <;> cases op <;> decide
    case store x w o op' l =>
      obtain ⟨_, f, g, c, e1, e2, e3⟩ := stdEntry_is_store he
      obtain ⟨v, v', rfl⟩ : ∃ v w, ops = [v, w] := by match ops, hk with | [v, w], _ => exact ⟨v, w, rfl⟩
      simp only [List.cons_append, List.nil_append, List.cons.injEq, RVal.i32, RVal.i64, RVal.num.injEq, Val.i64.injEq, Val.i32.injEq] at e1
      obtain ⟨rfl, rfl, rfl, rfl, _⟩ := e1
      have : op = op' := Option.some.inj (((C17_store_codes _ _).2 rfl).symm.trans e2)
      subst this
      show x.toNat + (ma.offset.setWidth 64).toNat + op.width ≤ s.pages * 65536
      have ho : (ma.offset.setWidth 64).toNat = ma.offset.toNat := by rw [BitVec.toNat_setWidth]; have := ma.offset.isLt; omega
      rw [ho]
      simp only [execute, execInstr, step, List.reverse_cons, List.reverse_nil, List.nil_append, List.cons_append] at hx
      by_cases hty : w.type = op.ty
      · rw [if_pos hty] at hx
        cases hm : s.mems[0]? with
        | none => rw [hm] at hx; cases hx
        | some me =>
          rw [hm] at hx
          dsimp only at hx
          have hp : s.pages * 65536 = me.size := by simp [Store.pages, hm, Mem.size]
          unfold Mem.store at hx
          by_cases hle : x.toNat + ma.offset.toNat + op.width ≤ me.size
          · omega
          · rw [if_neg hle] at hx; cases hx
      · rw [if_neg hty] at hx; cases hx
    all_goals trivial

/-- A load or store that is performed is within bounds. -/
theorem performed_in_bounds {N : Num} {b t k info} (hd : delegation b = some (t, k, info)) {ops loc : List RVal} {s : Store W} (hb : ∀ x ∈ s.mems, x.Bounded) (hk : ops.length = k) {vs s1}
    (hx : execute N b ops s = .ok vs s1) : EventInBounds t (ops ++ info ++ loc) := by
  intro adv he
  refine (performed_in_memory hd hk hx he).mono ?_
  unfold Store.pages
  cases hm : s.mems[0]? with
  | none => simp
  | some me =>
    have := (hb me (List.mem_of_getElem? hm)).1
    simp only [Option.map_some, Option.getD_some]
    omega

/-- The events a watching analysis survives without trapping are within bounds. -/
theorem WatchesFor.inBounds {N : Num} {iface : Interface} {P : Trap → List RVal → A → A → Prop} {callOK : (Nat → List RVal → Store (W × A) → Res (W × A)) → Prop} {B : Basic → Prop}
    {mo : Bool} {pn : Trap → List RVal → A → Prop} {H : Imports (W × A)} (h : WatchesFor N iface P callOK B true mo pn H) :
    WatchesFor N iface (fun t args a a' => P t args a a' ∧ EventInBounds t args) callOK B true mo pn H where
  shown t e he ho call hc args s a hty := by
    have ht : t.accesses = false := by
      have := Trap.not_performs ho
      cases t <;> first | rfl | cases this
    rcases h.shown t e he ho call hc args s a hty with h1 | ⟨a', h1, h2⟩
    · exact .inl h1
    · exact .inr ⟨a', ⟨h1, eventInBounds_of_not_access ht⟩, h2⟩
  performed t e he b k info hd hB call hc ops loc s a hk hl hty hb := by
    rcases h.performed t e he b k info hd hB call hc ops loc s a hk hl hty hb with h1 | h1 | h1 | ⟨a', h1, h2⟩
    · exact .inl h1
    · exact .inr (.inl h1)
    · exact .inr (.inr (.inl h1))
    · cases hx : execute N b ops s with
      | trap s1 => exact .inl ⟨rfl, s1, rfl⟩
      | ok vs s1 => exact .inr (.inr (.inr ⟨a', fun n1 n2 => ⟨h1 (by rw [hx]; exact n1) (by rw [hx]; exact n2), performed_in_bounds hd hb hk hx⟩, by rw [← hx]; exact h2⟩))
      | stuck => exact .inr (.inr (.inr ⟨a', fun n => absurd rfl n, by rw [← hx]; exact h2⟩))
      | fuel => exact .inr (.inr (.inr ⟨a', fun _ n => absurd rfl n, by rw [← hx]; exact h2⟩))

/-- The log and the state of the analysis after the events of the log, which are within bounds. -/
def HeardInBounds (iface : Interface) (w : Watcher A) (a : A) (log : Log) (a' : A) : Prop :=
  Heard iface w a log a' ∧ ∀ t args, (t, args) ∈ log → (iface.trap t).isSome → EventInBounds t args

/-- As `watch_agrees`, with the events so far within bounds. -/
theorem watch_agrees_bounds {C iface ts m r} {N : Num} {w : Watcher A} {T : Imports (W × Log)} {H : Imports (W × A)} (hW : Watching C iface ts m r N w T H)
    (hoff : ∀ i ∈ bodyTargets m ts, ∀ f c, m.functions[i]? = some f → f.code = .present c → OnlyCode (OffsetsAre iface fun o => o.toNat < 2 ^ 31) c.body)
    (a0 : A) (L d : Nat) :
    CallsAgree (watchingRel m.ctx (HeardInBounds iface w a0) true false true (∃ adv x, w.step adv x = none)) m.ctx
      (callF N (traced C m (bodyTargets m ts) T logEvent) L d) (callF N (machineOf H r.module.functions) L (d + 2)) := by
  have hm1 : m.memories.length ≤ 1 := by
    obtain ⟨ord, ord', ho, ho', h⟩ := hW.instruments
    exact ((instrument_ok_iff ho ho' hW.small).1 ⟨r, h⟩).1
  have hvr := C15_instrumented_module_valid hW.small hW.documented.standard (by intro ge cb h; rw [hW.noApply] at h; cases h) hW.instruments hW.valid hW.annotated hW.reserved
  have hoff' : ∀ i ∈ bodyTargets m ts, ∀ f c, m.functions[i]? = some f → f.code = .present c →
      OnlyCode (OffsetsAre iface (fun o => o.toNat < 2 ^ 31 ∧ (false = true → o = 0))) c.body := by
    intro i hi f c hf hc b hb t k info hd ht
    have := hoff i hi f c hf hc b hb t k info hd ht
    cases b <;> first | trivial | exact ⟨this, fun h => by cases h⟩
  refine traced_agrees (u := logEvent) hW.small hW.documented.standard hW.noApply hW.instruments hW.valid hW.annotated
    (B := OffsetsAre iface (fun o => o.toNat < 2 ^ 31 ∧ (false = true → o = 0))) hoff'
    (R := watchingRel m.ctx (HeardInBounds iface w a0) true false true (∃ adv x, w.step adv x = none))
    (Q := fun (p : W × Log) (q : W × A) => p.1 = q.1 ∧ HeardInBounds iface w a0 p.2 q.2) rfl
    (k := 2) (.inl rfl) (N := N) (L := L) (H := T) (H' := H) (fun f hf ns name hc => hW.imports f hf ns name hc (HeardInBounds iface w a0) true false _ _)
    (fun d => watching_hooks hW.small hW.instruments (watcher_watches hm1 hW.documented (exact := false) (mo := false) (fun h => by cases h) hW.linked).inBounds
      (fun t args a ⟨adv, _, h⟩ => ⟨adv, a, h⟩) ?_ ?_ (by simp) (.inr (by omega)) rfl ?_) d
  · rintro t args l x y ht ⟨⟨adv, he, hs⟩, hb⟩ ⟨⟨advs, hl, hr⟩, hall⟩
    refine ⟨⟨advs ++ [adv], hl.heard ht he, by rw [Watcher.run_append, hr]; simp only [Option.bind_some, Watcher.run, hs]⟩, ?_⟩
    intro t' args' hm ht'
    rcases List.mem_append.1 hm with hm | hm
    · exact hall t' args' hm ht'
    · cases List.mem_singleton.1 hm; exact hb
  · rintro t args l x ht ⟨⟨advs, hl, hr⟩, hall⟩
    refine ⟨⟨advs, hl.unheard ht, hr⟩, ?_⟩
    intro t' args' hm ht'
    rcases List.mem_append.1 hm with hm | hm
    · exact hall t' args' hm ht'
    · cases List.mem_singleton.1 hm; rw [ht] at ht'; cases ht'
  · intro d' hd'
    have e : callF N (underAnalysis C m (bodyTargets m ts) H (hookSel iface m.functions.length) (r.module.functions.drop m.functions.length)) L d' =
        callF N (machineOf H r.module.functions) L d' := by
      funext f args s; exact (C09_instrumented_is_interposed hW.small hW.documented.standard hW.noApply hW.instruments N H L d' f args s).symm
    rw [e]
    exact base_calls hW.small hW.instruments hvr.exports N H L d' false (.inr (by omega))

/-- If the original ends normally and the analysis survives its events, all loads and stores among them were within the address space. -/
theorem survived_in_bounds {C iface ts m r} {N : Num} {w : Watcher A} {T : Imports (W × Log)} {H : Imports (W × A)}
    (hW : Watching C iface ts m r N w T H) (hT : LeavesLog m T) (hP : PassesCuts m T)
    (hoff : ∀ i ∈ bodyTargets m ts, ∀ f c, m.functions[i]? = some f → f.code = .present c → OnlyCode (OffsetsAre iface fun o => o.toNat < 2 ^ 31) c.body)
    {f : Nat} {ty : FuncType} {args : List RVal} {s : Store W} (hf : m.ctx.ftype f = some ty) (hargs : ValsOK m.ctx args ty.inputs)
    (hok : StoreOK m.ctx s) {a a1 : A} {L d : Nat} {vs : List RVal} {s1 : Store W} {log : Log}
    (hrun : callF N (traced C m (bodyTargets m ts) T logEvent) L d f args (s.withAnalysis []) = .ok vs (s1.withAnalysis log))
    {advs : List Advice} (hl : iface.Hears log advs) (hr : w.run advs a = some a1) : ∀ adv ∈ advs, adv.InBounds := by
  have h1 := (C67_panics_exactly (C58_rust_analysis_qualifies hW) hT hP hoff hf hargs hok a hrun hl).1 a1 hr
  have hS : (watchingRel (W := W) m.ctx (HeardInBounds iface w a) true false true
      (∃ adv x, w.step adv x = none)).S (s.withAnalysis []) (s.withAnalysis a) :=
    (SameState.iff (Q := fun (p : W × Log) (q : W × A) => p.1 = q.1 ∧ HeardInBounds iface w a p.2 q.2)
      (s := s.withAnalysis []) (s' := s.withAnalysis a)).2 ⟨hok.world rfl rfl rfl rfl rfl, ⟨rfl, ⟨[], rfl, rfl⟩, fun _ _ h => by cases h⟩, rfl, rfl, rfl, rfl, rfl⟩
  have h2 := watch_agrees_bounds hW hoff a L d f ty args _ _ hf hargs hS
  rw [hrun, h1] at h2
  cases h2 with
  | ok _ hs =>
    obtain ⟨_, ⟨_, _, hall⟩, _⟩ := (SameState.iff (Q := fun (p : W × Log) (q : W × A) => p.1 = q.1 ∧ HeardInBounds iface w a p.2 q.2)
      (s := s1.withAnalysis log) (s' := s1.withAnalysis a1)).1 hs
    intro adv hm
    have : some adv ∈ (iface.observed log).map (fun e => stdEntry e.1 e.2) := by rw [hl]; exact List.mem_map_of_mem hm
    obtain ⟨⟨t, as⟩, hm, he⟩ := List.mem_map.1 this
    unfold Interface.observed at hm
    obtain ⟨hm, ht⟩ := List.mem_filter.1 hm
    exact hall t as hm ht adv he

end Wastrum
