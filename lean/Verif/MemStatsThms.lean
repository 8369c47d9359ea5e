import Verif.MemWatchThms
/-!
# What `memstats` reports (C69)
-/

set_option linter.unusedSimpArgs false
set_option linter.unusedVariables false

namespace Wastrum

variable {W A : Type}

/-! ## Specification -/

/-- The bytes an event reads: the first, and how many. -/
def Advice.bytesRead : Advice → Option (Nat × Nat)
  | .load i o op _ => some (i.toNat + o.toNat, op.width)
  | _ => none
/-- The bytes an event writes. -/
def Advice.bytesWritten : Advice → Option (Nat × Nat)
  | .store i _ o op _ => some (i.toNat + o.toNat, op.width)
  | _ => none

/-- Byte `b` is among them. -/
def hits (range : Option (Nat × Nat)) (b : Nat) : Bool :=
  match range with
  | some (x, n) => decide (x ≤ b ∧ b < x + n)
  | none => false

/-- The end of the range. -/
def rangeEnd : Option (Nat × Nat) → Nat
  | some (x, n) => x + n
  | none => 0

/-- The number of events whose range has byte `b`. -/
def hitsOf (range : Advice → Option (Nat × Nat)) (advs : List Advice) (b : Nat) : Nat := times advs fun a => hits (range a) b

/-- The largest end of a range. -/
def farthest (range : Advice → Option (Nat × Nat)) (advs : List Advice) : Nat := advs.foldl (fun x a => max x (rangeEnd (range a))) 0

/-! ## Lemmas -/

/-- A buffer of counters. -/
def tally (n : Nat) (g : Nat → Nat) : List (BitVec 64) := (List.range n).map fun b => BitVec.ofNat 64 (g b)

theorem tally_length (n g) : (tally n g).length = n := by simp [tally]

theorem tally_get (n g b) : (tally n g)[b]? = if b < n then some (BitVec.ofNat 64 (g b)) else none := by
  unfold tally
  rw [List.getElem?_map]
  by_cases h : b < n
  · rw [List.getElem?_range h, if_pos h]; rfl
  · rw [List.getElem?_eq_none (by simpa using h), if_neg h]; rfl

theorem tally_congr {n : Nat} {g g' : Nat → Nat} (h : ∀ b, b < n → g b = g' b) : tally n g = tally n g' := by
  unfold tally
  apply List.map_congr_left
  intro b hb
  rw [h b (List.mem_range.1 hb)]

theorem tally_modify (n g j) : (tally n g).modify j (· + 1) = tally n fun b => g b + if b = j then 1 else 0 := by
  apply List.ext_getElem?
  intro b
  rw [List.getElem?_modify, tally_get, tally_get]
  by_cases h : b < n
  · rw [if_pos h, if_pos h]
    by_cases hj : j = b
    · subst hj
      simp [BitVec.ofNat_add]
    · have : ¬ b = j := fun e => hj e.symm
      simp [hj, this]
  · rw [if_neg h, if_neg h]; split <;> rfl

theorem memstatsBump_ok (x : BitVec 32) {len : Nat} (hlen : len ≤ 2 ^ 28) : ∀ (n i : Nat) (g : Nat → Nat), x.toNat + i + n ≤ len →
    bump x i n (tally len g) = some (tally len fun b => g b + if x.toNat + i ≤ b ∧ b < x.toNat + i + n then 1 else 0)
  | 0, i, g, _ => by
    unfold bump
    congr 1
    apply tally_congr
    intro b _
    rw [if_neg (by omega)]; rfl
  | n + 1, i, g, h => by
    unfold bump
    have e : (x + BitVec.ofNat 32 i).toNat = x.toNat + i := by
      rw [BitVec.toNat_add, BitVec.toNat_ofNat]
      omega
    simp only [e, tally_length]
    rw [if_pos (by omega), tally_modify, memstatsBump_ok x hlen n (i + 1) _ (by omega)]
    congr 1
    apply tally_congr
    intro b _
    by_cases hb : b = x.toNat + i
    · rw [if_pos hb, if_neg (by omega), if_pos (by omega)]
    · rw [if_neg hb]
      by_cases h2 : x.toNat + (i + 1) ≤ b ∧ b < x.toNat + (i + 1) + n
      · rw [if_pos h2, if_pos (by omega)]
      · rw [if_neg h2, if_neg (by omega)]

theorem memstatsBump_fails (x : BitVec 32) : ∀ (n i : Nat) (buffer : List (BitVec 64)), buffer.length ≤ 2 ^ 28 → x.toNat + i < 2 ^ 32 → 0 < n → buffer.length < x.toNat + i + n → bump x i n buffer = none
  | 0, _, _, _, _, h, _ => by omega
  | n + 1, i, buffer, hlen, hx, _, h => by
    unfold bump
    have e : (x + BitVec.ofNat 32 i).toNat = x.toNat + i := by
      rw [BitVec.toNat_add, BitVec.toNat_ofNat]
      have : i % 2 ^ 32 = i := by omega
      rw [this]; omega
    simp only [e]
    by_cases h1 : x.toNat + i < buffer.length
    · rw [if_pos h1]
      exact memstatsBump_fails x n (i + 1) _ (by rw [List.length_modify]; exact hlen) (by omega) (by omega) (by rw [List.length_modify]; omega)
    · rw [if_neg h1]

theorem resizeWith_tally {cap len n : Nat} {g : Nat → Nat} (hz : ∀ b, len ≤ b → g b = 0) (h : len ≤ n) (hn : n ≤ cap) : resizeWith cap (tally len g) n = some (tally n g) := by
  unfold resizeWith
  rw [tally_length]
  split
  · have : n = len := by omega
    subst this
    rw [List.take_of_length_le (by rw [tally_length]; exact Nat.le_refl _)]
  · congr 1
    apply List.ext_getElem?
    intro b
    rw [List.getElem?_append, tally_length, tally_get, tally_get]
    by_cases h1 : b < len
    · rw [if_pos h1, if_pos h1, if_pos (by omega)]
    · rw [if_neg h1, List.getElem?_replicate, hz b (by omega)]
      by_cases h2 : b < n
      · rw [if_pos (by omega), if_pos h2]; rfl
      · rw [if_neg (by omega), if_neg h2]

theorem increaseAt_ok {cap len n : Nat} (hcap : cap ≤ 2 ^ 28) {g : Nat → Nat} (hz : ∀ b, len ≤ b → g b = 0) (hl : len ≤ cap) {x : BitVec 32} (hn : n ≤ 8) (h : x.toNat + n ≤ cap) :
    increaseAt cap (tally len g) x n = some (tally (max len (x.toNat + n)) fun b => g b + if x.toNat ≤ b ∧ b < x.toNat + n then 1 else 0) := by
  unfold increaseAt
  have e : (x + BitVec.ofNat 32 n).toNat = x.toNat + n := by
    rw [BitVec.toNat_add, BitVec.toNat_ofNat]; omega
  simp only [e, tally_length]
  have hb := fun len' (h1 : len' ≤ 2 ^ 28) (h2 : x.toNat + n ≤ len') => memstatsBump_ok x h1 n 0 g (by omega)
  simp only [Nat.add_zero] at hb
  split
  · rename_i hle
    rw [resizeWith_tally hz hle h, Nat.max_eq_right hle]
    exact hb _ (by omega) (by omega)
  · rename_i hle
    rw [Nat.max_eq_left (by omega)]
    exact hb _ (by omega) (by omega)

theorem increaseAt_fails {cap len n : Nat} (hcap : cap ≤ 2 ^ 28) {g : Nat → Nat} (hz : ∀ b, len ≤ b → g b = 0) (hl : len ≤ cap) {x : BitVec 32} (h0 : 0 < n) (hn : n ≤ 8) (h : cap < x.toNat + n) :
    increaseAt cap (tally len g) x n = none := by
  unfold increaseAt
  have hx := x.isLt
  have e : (x + BitVec.ofNat 32 n).toNat = (x.toNat + n) % 2 ^ 32 := by
    rw [BitVec.toNat_add, BitVec.toNat_ofNat]; omega
  simp only [e, tally_length]
  by_cases hw : x.toNat + n < 2 ^ 32
  · rw [Nat.mod_eq_of_lt hw, if_pos (by omega)]
    unfold resizeWith
    rw [tally_length, if_neg (by omega), if_neg (by omega)]
    rfl
  · have e2 : (x.toNat + n) % 2 ^ 32 = x.toNat + n - 2 ^ 32 := by omega
    rw [e2]
    split
    · rename_i hle
      by_cases hc : x.toNat + n - 2 ^ 32 ≤ cap
      · rw [resizeWith_tally hz hle hc]
        exact memstatsBump_fails x n 0 _ (by rw [tally_length]; omega) (by omega) h0 (by rw [tally_length]; omega)
      · unfold resizeWith
        rw [tally_length, if_neg (by omega), if_neg hc]
        rfl
    · exact memstatsBump_fails x n 0 _ (by rw [tally_length]; omega) (by omega) h0 (by rw [tally_length]; omega)

theorem memstatsLoadSize_eq (op : LoadOp) : memstatsLoadSize op = op.width ∧ 0 < op.width ∧ op.width ≤ 8 := by cases op <;> decide
theorem memstatsStoreSize_eq (op : StoreOp) : memstatsStoreSize op = op.width ∧ 0 < op.width ∧ op.width ≤ 8 := by cases op <;> decide

theorem memstatsAddress_eq (i : BitVec 32) (o : BitVec 64) : (memstatsAddress i o).toNat = (i.toNat + o.toNat) % 2 ^ 32 := by
  unfold memstatsAddress
  rw [BitVec.toNat_setWidth, BitVec.toNat_add, BitVec.toNat_signExtend]
  have h1 := i.isLt
  have h2 := o.isLt
  split <;> simp only [BitVec.toNat_setWidth] <;> omega

/-- The state after the events. -/
def memstatsAfter (advs : List Advice) : MemStats :=
  ⟨tally (farthest Advice.bytesRead advs) (hitsOf Advice.bytesRead advs), tally (farthest Advice.bytesWritten advs) (hitsOf Advice.bytesWritten advs)⟩

/-- The event touches the first `cap` bytes only. -/
def Advice.Below (cap : Nat) (a : Advice) : Prop := rangeEnd a.bytesRead ≤ cap ∧ rangeEnd a.bytesWritten ≤ cap

theorem farthest_snoc (range advs a) : farthest range (advs ++ [a]) = max (farthest range advs) (rangeEnd (range a)) := by
  simp [farthest]

theorem hitsOf_snoc (range advs a b) : hitsOf range (advs ++ [a]) b = hitsOf range advs b + if hits (range a) b then 1 else 0 := by
  unfold hitsOf times
  rw [List.countP_append, List.countP_cons, List.countP_nil]
  simp

theorem hitsOf_zero (range : Advice → Option (Nat × Nat)) (advs : List Advice) (b : Nat) (h : farthest range advs ≤ b) : hitsOf range advs b = 0 := by
  induction advs using snoc_induction with
  | h0 => rfl
  | h1 advs a ih =>
    rw [farthest_snoc] at h
    rw [hitsOf_snoc, ih (by omega)]
    have : hits (range a) b = false := by
      unfold hits
      split
      · rename_i x n e
        rw [e] at h
        simp only [rangeEnd] at h
        exact decide_eq_false (by omega)
      · rfl
    rw [this]; rfl

theorem farthest_le {range : Advice → Option (Nat × Nat)} {advs : List Advice} {cap : Nat} (h : ∀ a ∈ advs, rangeEnd (range a) ≤ cap) : farthest range advs ≤ cap := by
  induction advs using snoc_induction with
  | h0 => exact Nat.zero_le _
  | h1 advs a ih =>
    rw [farthest_snoc]
    have h1 := ih (fun b hb => h b (by simp [hb]))
    have h2 := h a (by simp)
    omega

theorem memstats_step_ok {cap : Nat} (hcap : cap ≤ 2 ^ 28) {advs : List Advice} {a : Advice} (hb : ∀ a ∈ advs, a.Below cap) (ha : a.Below cap) :
    (memstats cap).step a (memstatsAfter advs) = some (memstatsAfter (advs ++ [a])) := by
  have hr : farthest Advice.bytesRead advs ≤ cap := farthest_le fun a h => (hb a h).1
  have hw : farthest Advice.bytesWritten advs ≤ cap := farthest_le fun a h => (hb a h).2
  have hsame : ∀ (range : Advice → Option (Nat × Nat)), range a = none → tally (farthest range (advs ++ [a])) (hitsOf range (advs ++ [a])) = tally (farthest range advs) (hitsOf range advs) := by
    intro range e
    rw [farthest_snoc, e, show max (farthest range advs) (rangeEnd none) = farthest range advs from Nat.max_zero _]
    apply tally_congr
    intro b _
    rw [hitsOf_snoc, e]; rfl
  cases a
  case load i o op l =>
    obtain ⟨e1, e2, e3⟩ := memstatsLoadSize_eq op
    have hx : i.toNat + o.toNat + op.width ≤ cap := ha.1
    have hA : (memstatsAddress i o).toNat = i.toNat + o.toNat := by rw [memstatsAddress_eq, Nat.mod_eq_of_lt (by omega)]
    simp only [Watcher.step, memstats, memstatsAfter, e1]
    rw [increaseAt_ok hcap (hitsOf_zero _ _) hr e3 (by omega), hsame Advice.bytesWritten rfl, hA]
    simp only [Option.map_some, Option.bind_some]
    congr 2
    rw [farthest_snoc]
    apply tally_congr
    intro b _
    rw [hitsOf_snoc]
    simp only [Advice.bytesRead, hits, decide_eq_true_eq]
  case store i v o op l =>
    obtain ⟨e1, e2, e3⟩ := memstatsStoreSize_eq op
    have hx : i.toNat + o.toNat + op.width ≤ cap := ha.2
    have hA : (memstatsAddress i o).toNat = i.toNat + o.toNat := by rw [memstatsAddress_eq, Nat.mod_eq_of_lt (by omega)]
    simp only [Watcher.step, memstats, memstatsAfter, e1]
    rw [increaseAt_ok hcap (hitsOf_zero _ _) hw e3 (by omega), hsame Advice.bytesRead rfl, hA]
    simp only [Option.map_some, Option.bind_some]
    congr 2
    rw [farthest_snoc]
    apply tally_congr
    intro b _
    rw [hitsOf_snoc]
    simp only [Advice.bytesWritten, hits, decide_eq_true_eq]
  all_goals simp only [Watcher.step, memstats, memstatsAfter, Option.bind_some]; rw [hsame Advice.bytesRead rfl, hsame Advice.bytesWritten rfl]

theorem memstats_step_fails {cap : Nat} (hcap : cap ≤ 2 ^ 28) {advs : List Advice} {a : Advice} (hb : ∀ a ∈ advs, a.Below cap) (hi : a.InBounds) (ha : ¬ a.Below cap) :
    (memstats cap).step a (memstatsAfter advs) = none := by
  have hr : farthest Advice.bytesRead advs ≤ cap := farthest_le fun a h => (hb a h).1
  have hw : farthest Advice.bytesWritten advs ≤ cap := farthest_le fun a h => (hb a h).2
  cases a
  case load i o op l =>
    obtain ⟨e1, e2, e3⟩ := memstatsLoadSize_eq op
    have hi : i.toNat + o.toNat + op.width ≤ 2 ^ 32 := hi
    have hx : cap < i.toNat + o.toNat + op.width := Nat.lt_of_not_le fun h => ha ⟨h, Nat.zero_le _⟩
    have hA : (memstatsAddress i o).toNat = i.toNat + o.toNat := by rw [memstatsAddress_eq, Nat.mod_eq_of_lt (by omega)]
    simp only [Watcher.step, memstats, memstatsAfter, e1]
    rw [increaseAt_fails hcap (hitsOf_zero _ _) hr e2 e3 (by omega)]
    rfl
  case store i v o op l =>
    obtain ⟨e1, e2, e3⟩ := memstatsStoreSize_eq op
    have hi : i.toNat + o.toNat + op.width ≤ 2 ^ 32 := hi
    have hx : cap < i.toNat + o.toNat + op.width := Nat.lt_of_not_le fun h => ha ⟨Nat.zero_le _, h⟩
    have hA : (memstatsAddress i o).toNat = i.toNat + o.toNat := by rw [memstatsAddress_eq, Nat.mod_eq_of_lt (by omega)]
    simp only [Watcher.step, memstats, memstatsAfter, e1]
    rw [increaseAt_fails hcap (hitsOf_zero _ _) hw e2 e3 (by omega)]
    rfl
  all_goals exact absurd ⟨Nat.zero_le _, Nat.zero_le _⟩ ha

theorem memstats_run_ok {cap : Nat} (hcap : cap ≤ 2 ^ 28) {advs : List Advice} (hb : ∀ a ∈ advs, a.Below cap) : (memstats cap).run advs MemStats.init = some (memstatsAfter advs) := by
  induction advs using snoc_induction with
  | h0 => rfl
  | h1 advs a ih =>
    rw [Watcher.run_append, ih (fun b h => hb b (by simp [h]))]
    simp only [Option.bind_some, Watcher.run]
    rw [memstats_step_ok hcap (fun b h => hb b (by simp [h])) (hb a (by simp))]
    rfl

theorem memstats_run_fails {cap : Nat} (hcap : cap ≤ 2 ^ 28) {advs : List Advice} (hi : ∀ a ∈ advs, a.InBounds) (hb : ∃ a ∈ advs, ¬ a.Below cap) : (memstats cap).run advs MemStats.init = none := by
  induction advs using snoc_induction with
  | h0 => obtain ⟨a, h, _⟩ := hb; cases h
  | h1 advs a ih =>
    rw [Watcher.run_append]
    by_cases h : ∃ a ∈ advs, ¬ a.Below cap
    · rw [ih (fun b h => hi b (by simp [h])) h]; rfl
    · have hall : ∀ a ∈ advs, a.Below cap := fun a ha => Classical.byContradiction fun n => h ⟨a, ha, n⟩
      have ha : ¬ a.Below cap := by
        obtain ⟨b, hm, hn⟩ := hb
        rcases List.mem_append.1 hm with hm | hm
        · exact absurd (hall b hm) hn
        · cases List.mem_singleton.1 hm; exact hn
      rw [memstats_run_ok hcap hall]
      simp only [Option.bind_some, Watcher.run]
      rw [memstats_step_fails hcap hall (hi a (by simp)) ha]
      rfl

/-! ## C69 -/

/-- **C69.** What `memstats` reports. Let the original program end normally, having gone through the events `advs`. If all its accesses were below `cap`, the number of counters that can be allocated (at most
2^28), then the instrumented program ends normally with the same results and state; afterwards `get_read_at(b)` is the number of loads that read byte `b` (as a 32-bit number), `get_write_at(b)` the
number of stores that wrote it, for every byte up to the farthest one read (or written); for bytes beyond it the functions panic. If however any access touched a byte from `cap` on, the instrumented program traps. -/
theorem C69_memstats_counts_per_byte {C iface ts m r} {N : Num} {cap : Nat} (hcap : cap ≤ 2 ^ 28) {T : Imports (W × Log)} {H : Imports (W × MemStats)}
    (hW : Watching C iface ts m r N (memstats cap) T H) (hT : LeavesLog m T) (hP : PassesCuts m T)
    (hoff : ∀ i ∈ bodyTargets m ts, ∀ f c, m.functions[i]? = some f → f.code = .present c → OnlyCode (OffsetsAre iface fun o => o.toNat < 2 ^ 31) c.body)
    {f : Nat} {ty : FuncType} {args : List RVal} {s : Store W} (hf : m.ctx.ftype f = some ty) (hargs : ValsOK m.ctx args ty.inputs)
    (hok : StoreOK m.ctx s) {L d : Nat} {vs : List RVal} {s1 : Store W} {log : Log}
    (hrun : callF N (traced C m (bodyTargets m ts) T logEvent) L d f args (s.withAnalysis []) = .ok vs (s1.withAnalysis log))
    {advs : List Advice} (hl : iface.Hears log advs) :
    ((∀ a ∈ advs, a.Below cap) → ∃ c : MemStats, callF N (machineOf H r.module.functions) L (d + 2) f args (s.withAnalysis MemStats.init) = .ok vs (s1.withAnalysis c) ∧
      ∀ b : BitVec 32,
        c.getReadAt b = (if b.toNat < farthest Advice.bytesRead advs then some (BitVec.ofNat 32 (hitsOf Advice.bytesRead advs b.toNat)) else none) ∧
        c.getWriteAt b = (if b.toNat < farthest Advice.bytesWritten advs then some (BitVec.ofNat 32 (hitsOf Advice.bytesWritten advs b.toNat)) else none)) ∧
    ((∃ a ∈ advs, ¬ a.Below cap) → ∃ s', callF N (machineOf H r.module.functions) L (d + 2) f args (s.withAnalysis MemStats.init) = .trap s') := by
  have h67 := C67_panics_exactly (C58_rust_analysis_qualifies hW) hT hP hoff hf hargs hok MemStats.init hrun hl
  constructor
  · intro hb
    refine ⟨_, h67.1 _ (memstats_run_ok hcap hb), fun b => ?_⟩
    have hset : ∀ n : Nat, (BitVec.ofNat 64 n).setWidth 32 = BitVec.ofNat 32 n := by
      intro n
      apply BitVec.eq_of_toNat_eq
      simp only [BitVec.toNat_setWidth, BitVec.toNat_ofNat]
      omega
    simp only [MemStats.getReadAt, MemStats.getWriteAt, memstatsAfter, tally_get]
    constructor
    · split
      · simp only [Option.map_some, hset]
      · rfl
    · split
      · simp only [Option.map_some, hset]
      · rfl
  · intro hb
    cases hr : (memstats cap).run advs MemStats.init with
    | none => exact h67.2 hr
    | some c =>
      have := memstats_run_fails hcap (survived_in_bounds hW hT hP hoff hf hargs hok hrun hl hr) hb
      rw [hr] at this
      cases this

-- C69: `main(8)` reads bytes 10 and 11 and writes byte 11; with room for 12 counters it is counted, ...
example : ∃ r, Instruments exTypedChecker exMemIface none exMem r ∧ ∃ (s1 : Store Unit) (c : MemStats),
    callF exNum (machineOf (exMemImports ((memstats 12).body exNum r.module.exported)) r.module.functions) 10 12 0 [.i32 8] (exMemStore.withAnalysis MemStats.init) =
      .ok [.i32 1280] (s1.withAnalysis c) ∧ c.getReadAt 9 = some 0 ∧ c.getReadAt 10 = some 1 ∧ c.getReadAt 11 = some 1 ∧ c.getReadAt 12 = none ∧ c.getWriteAt 10 = some 0 ∧
      c.getWriteAt 11 = some 1 := by
  obtain ⟨r, hr⟩ := exMem_instruments
  obtain ⟨s1, log, h, hl⟩ := exMem_traced8
  obtain ⟨c, h1, h2⟩ := (C69_memstats_counts_per_byte (cap := 12) (by decide) (exMem_watching (memstats 12) hr) exMem_leaves exMem_passes exMem_offsets (f := 0) rfl
    (ValsOK.nil.cons rfl (by simp [RVal.OK])) exMemStore_ok h hl).1 (by
      intro a ha
      simp only [exMemAdvs, List.mem_cons, List.not_mem_nil, or_false] at ha
      rcases ha with rfl | rfl <;> exact ⟨by decide, by decide⟩)
  refine ⟨r, hr, s1, c, h1, ?_⟩
  rw [(h2 9).1, (h2 10).1, (h2 11).1, (h2 12).1, (h2 10).2, (h2 11).2]
  decide +kernel
-- ... and with room for 11 it is stopped.
example : ∃ r, Instruments exTypedChecker exMemIface none exMem r ∧ ∃ s',
    callF exNum (machineOf (exMemImports ((memstats 11).body exNum r.module.exported)) r.module.functions) 10 12 0 [.i32 8] (exMemStore.withAnalysis MemStats.init) = .trap s' := by
  obtain ⟨r, hr⟩ := exMem_instruments
  obtain ⟨s1, log, h, hl⟩ := exMem_traced8
  exact ⟨r, hr, (C69_memstats_counts_per_byte (cap := 11) (by decide) (exMem_watching (memstats 11) hr) exMem_leaves exMem_passes exMem_offsets (f := 0) rfl
    (ValsOK.nil.cons rfl (by simp [RVal.OK])) exMemStore_ok h hl).2 ⟨_, by simp only [exMemAdvs]; exact .head _, fun h => absurd h.2 (by decide)⟩⟩

end Wastrum
