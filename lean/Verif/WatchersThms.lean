import Verif.WatchThms
import Verif.Watchers
/-!
# What the shipped analyses report (C59-C63)
-/

set_option linter.unusedSimpArgs false
set_option linter.unusedVariables false

namespace Wastrum

variable {W A : Type}

/-! ## Specification -/

/-- The event happened at instruction `i` of function `f` (the hooks are passed the two indices in this order: C57). -/
def Advice.At (f i : BitVec 64) (a : Advice) : Prop := a.location = .new f i

instance (f i : BitVec 64) (a : Advice) : Decidable (a.At f i) := inferInstanceAs (Decidable (_ = _))

/-- How often something happened. -/
def times (advs : List Advice) (p : Advice → Bool) : Nat := advs.countP p

/-! ## Lemmas on maps -/

section
variable {K V : Type} [DecidableEq K]

theorem lookup_map_replace (m : List (K × V)) (k : K) (v : V) (k' : K) :
    (m.map fun e => if e.1 = k then (k, v) else e).lookup k' = if k' = k then (m.lookup k').map fun _ => v else m.lookup k' := by
  induction m with
  | nil => simp
  | cons e m ih =>
    obtain ⟨x, y⟩ := e
    simp only [List.map_cons]
    by_cases hx : x = k
    · subst hx
      simp only [if_true, List.lookup_cons]
      by_cases hk : k' = x
      · subst hk; simp
      · rw [show (k' == x) = false by simpa using hk]; simp only; rw [ih]
    · simp only [hx, if_false, List.lookup_cons]
      by_cases hk : k' = x
      · subst hk; simp [hx]
      · rw [show (k' == x) = false by simpa using hk]; simp only; rw [ih]

theorem lookup_append_single (m : List (K × V)) (k : K) (v : V) (k' : K) :
    (m ++ [(k, v)]).lookup k' = (m.lookup k').or (if k' = k then some v else none) := by
  induction m with
  | nil => simp only [List.nil_append, List.lookup_cons, List.lookup_nil]; by_cases h : k' = k
           · subst h; simp
           · rw [show (k' == k) = false by simpa using h]; simp [h]
  | cons e m ih =>
    obtain ⟨x, y⟩ := e
    simp only [List.cons_append, List.lookup_cons]
    by_cases hk : k' = x
    · subst hk; simp
    · rw [show (k' == x) = false by simpa using hk]; simp only; exact ih

theorem HMap.get_insert (m : HMap K V) (k : K) (v : V) (k' : K) : (m.insert k v).get k' = if k' = k then some v else m.get k' := by
  unfold HMap.insert HMap.get
  by_cases h : (m.lookup k).isSome = true
  · rw [if_pos h, lookup_map_replace]
    by_cases hk : k' = k
    · subst hk
      simp only [if_true]
      cases hm : m.lookup k' with
      | none => rw [hm] at h; cases h
      | some x => rfl
    · simp [hk]
  · rw [if_neg h, lookup_append_single]
    by_cases hk : k' = k
    · subst hk
      simp only [if_true]
      cases hm : m.lookup k' with
      | none => rfl
      | some x => rw [hm] at h; exact absurd rfl h
    · simp [hk]

theorem HMap.get_isSome_iff (m : HMap K V) (k : K) : (m.get k).isSome = true ↔ k ∈ m.map (·.1) := by
  unfold HMap.get
  induction m with
  | nil => simp
  | cons e m ih =>
    obtain ⟨x, y⟩ := e
    simp only [List.lookup_cons, List.map_cons, List.mem_cons]
    by_cases hk : k = x
    · subst hk; simp
    · rw [show (k == x) = false by simpa using hk]; simp only [hk, false_or]; exact ih

theorem HMap.keys_insert (m : HMap K V) (k : K) (v : V) :
    (m.insert k v).map (·.1) = hashSetInsert (m.map (·.1)) k := by
  unfold HMap.insert hashSetInsert
  by_cases h : (m.get k).isSome = true
  · rw [if_pos h, if_pos ((HMap.get_isSome_iff m k).1 h), List.map_map]
    apply List.map_congr_left
    intro e _
    simp only [Function.comp]
    split
    · rename_i he; exact he.symm
    · rfl
  · rw [if_neg h, if_neg (fun h' => h ((HMap.get_isSome_iff m k).2 h'))]
    simp

theorem HMap.get_modifyOrInsert (m : HMap K V) (k : K) (f : V → V) (v : V) (k' : K) :
    (m.modifyOrInsert k f v).get k' = if k' = k then some ((m.get k).elim v f) else m.get k' := by
  unfold HMap.modifyOrInsert
  cases hm : m.get k with
  | none => simp only [HMap.get_insert, Option.elim]
  | some x => simp only [HMap.get_insert, Option.elim]

theorem HMap.keys_modifyOrInsert (m : HMap K V) (k : K) (f : V → V) (v : V) :
    (m.modifyOrInsert k f v).map (·.1) = hashSetInsert (m.map (·.1)) k := by
  unfold HMap.modifyOrInsert
  cases m.get k <;> exact HMap.keys_insert _ _ _

theorem mem_hashSetInsert (l : List K) (k x : K) : x ∈ hashSetInsert l k ↔ x ∈ l ∨ x = k := by
  unfold hashSetInsert
  split
  · constructor
    · exact .inl
    · rintro (h | rfl)
      · exact h
      · assumption
  · simp

theorem nodup_hashSetInsert {l : List K} (h : l.Nodup) (k : K) : (hashSetInsert l k).Nodup := by
  unfold hashSetInsert
  split
  · exact h
  · rename_i hk
    rw [List.nodup_append]
    refine ⟨h, by simp, ?_⟩
    intro a ha b hb
    simp only [List.mem_singleton] at hb
    rintro rfl
    exact hk (hb ▸ ha)

/-- The keys of a map that only gets keys chosen by `key` are the keys of the events, without repetition. -/
theorem keys_of_events {B : Type} {upd : Advice → B → B} {keysOf : B → List K} {key : Advice → Option K}
    (h : ∀ a b, keysOf (upd a b) = match key a with | some k => hashSetInsert (keysOf b) k | none => keysOf b) (advs : List Advice) (b : B) (hb : (keysOf b).Nodup) :
    (keysOf (advs.foldl (fun x e => upd e x) b)).Nodup ∧
      ∀ k, k ∈ keysOf (advs.foldl (fun x e => upd e x) b) ↔ k ∈ keysOf b ∨ ∃ a ∈ advs, key a = some k := by
  induction advs generalizing b with
  | nil => exact ⟨hb, by simp⟩
  | cons a as ih =>
    have hk := h a b
    have hn : (keysOf (upd a b)).Nodup := by
      rw [hk]
      split
      · exact nodup_hashSetInsert hb _
      · exact hb
    obtain ⟨h1, h2⟩ := ih (upd a b) hn
    refine ⟨h1, fun k => ?_⟩
    rw [List.foldl_cons, h2 k, hk]
    constructor
    · rintro (hm | ⟨a', ha', he⟩)
      · split at hm
        · rename_i k0 hk0
          rcases (mem_hashSetInsert _ _ _).1 hm with hm | rfl
          · exact .inl hm
          · exact .inr ⟨a, List.mem_cons_self .., hk0⟩
        · exact .inl hm
      · exact .inr ⟨a', List.mem_cons_of_mem _ ha', he⟩
    · rintro (hm | ⟨a', ha', he⟩)
      · refine .inl ?_
        split
        · exact (mem_hashSetInsert _ _ _).2 (.inl hm)
        · exact hm
      · rcases List.mem_cons.1 ha' with rfl | ha'
        · refine .inl ?_
          rw [he]
          exact (mem_hashSetInsert _ _ _).2 (.inr rfl)
        · exact .inr ⟨a', ha', he⟩

/-- A map in which events insert values holds for each key the value of the last event with that key. -/
theorem last_inserted {upd : Advice → HMap K V → HMap K V} {sel : Advice → Option (K × V)}
    (h : ∀ a b, upd a b = match sel a with | some (k, v) => b.insert k v | none => b) (advs : List Advice) (b : HMap K V) (k : K) :
    (advs.foldl (fun x e => upd e x) b).get k =
      ((advs.filterMap fun a => (sel a).bind fun e => if e.1 = k then some e.2 else none).getLast?).or (b.get k) := by
  induction advs generalizing b with
  | nil => simp
  | cons a as ih =>
    rw [List.foldl_cons, ih (upd a b), h a b, List.filterMap_cons]
    cases hs : sel a with
    | none => simp
    | some e =>
      obtain ⟨k0, v⟩ := e
      simp only [Option.bind_some]
      by_cases hk : k0 = k
      · subst hk
        simp only [if_true, HMap.get_insert, List.getLast?_cons]
        cases (as.filterMap fun a => (sel a).bind fun e => if e.1 = k0 then some e.2 else none).getLast? <;> rfl
      · rw [if_neg hk, HMap.get_insert, if_neg (fun h => hk h.symm)]

/-- A map in which events count by `entry(k).and_modify(+1).or_insert(0)` holds one less than the number of events with that key. -/
theorem counted_but_first {n : Nat} {upd : Advice → HMap K (BitVec n) → HMap K (BitVec n)} {key : Advice → Option K}
    (h : ∀ a b, upd a b = match key a with | some k => b.modifyOrInsert k (· + 1) 0 | none => b) (advs : List Advice) (b : HMap K (BitVec n)) (k : K) :
    (advs.foldl (fun x e => upd e x) b).get k = match b.get k with
      | some x => some (x + BitVec.ofNat n (times advs fun a => key a = some k))
      | none => if (times advs fun a => key a = some k) = 0 then none else some (BitVec.ofNat n (times advs fun a => key a = some k) - 1) := by
  unfold times
  induction advs generalizing b with
  | nil => simp; cases b.get k <;> simp
  | cons a as ih =>
    rw [List.foldl_cons, ih (upd a b), h a b, List.countP_cons]
    cases hs : key a with
    | none => simp
    | some k0 =>
      simp only [HMap.get_modifyOrInsert]
      by_cases hk : k0 = k
      · subst hk
        simp only [if_true, decide_true]
        cases b.get k0 with
        | none =>
          simp only [Option.elim, Nat.add_eq_zero_iff, Nat.one_ne_zero, and_false, if_false, Option.some.injEq]
          rw [BitVec.ofNat_add]
          simp only [BitVec.zero_add, BitVec.ofNat_eq_ofNat]
          exact (BitVec.add_sub_cancel _ _).symm
        | some x =>
          simp only [Option.elim, Option.some.injEq]
          rw [BitVec.ofNat_add, BitVec.add_assoc]
          congr 1
          rw [BitVec.add_comm]
          rfl
      · have : (some k0 = some k) = False := by simp [hk]
        rw [if_neg (fun h => hk h.symm)]
        simp [hk]
/-- A map in which events act by `entry(k).and_modify(f).or_insert(v)`: the first event with a key inserts, the others modify. -/
theorem modified_but_first {upd : Advice → HMap K V → HMap K V} {key : Advice → Option K} {f : Advice → V → V} {v : V}
    (h : ∀ a b, upd a b = match key a with | some k => b.modifyOrInsert k (f a) v | none => b) (advs : List Advice) (b : HMap K V) (k : K) :
    (advs.foldl (fun x e => upd e x) b).get k = match b.get k with
      | some x => some ((advs.filter fun a => key a = some k).foldl (fun x e => f e x) x)
      | none => match advs.filter fun a => key a = some k with
        | [] => none
        | _ :: as => some (as.foldl (fun x e => f e x) v) := by
  induction advs generalizing b with
  | nil => simp; cases b.get k <;> simp
  | cons a as ih =>
    rw [List.foldl_cons, ih (upd a b), h a b, List.filter_cons]
    cases hs : key a with
    | none => simp
    | some k0 =>
      simp only [HMap.get_modifyOrInsert]
      by_cases hk : k0 = k
      · subst hk
        simp only [if_true, decide_true]
        cases b.get k0 <;> rfl
      · rw [if_neg (fun h => hk h.symm)]
        simp [hk]

end

/-- What holds of the state of an analysis after any sequence of events holds of the state a run of the instrumented program leaves behind,
the events being those of the original's run. -/
theorem Watching.conclude {C iface ts m r} {N : Num} {upd : Advice → A → A} {T : Imports (W × Log)} {H : Imports (W × A)}
    (hW : Watching C iface ts m r N (.ahead upd) T H)
    (hoff : ∀ i ∈ bodyTargets m ts, ∀ f c, m.functions[i]? = some f → f.code = .present c → OnlyCode (OffsetsAre iface fun o => o = 0) c.body)
    {f : Nat} {ty : FuncType} {args : List RVal} {s : Store W} (hf : m.ctx.ftype f = some ty) (hargs : ValsOK m.ctx args ty.inputs)
    (hok : StoreOK m.ctx s) (a : A) (L d : Nat) (Q : A → List Advice → Prop) (hQ : ∀ advs, Q (advs.foldl (fun x e => upd e x) a) advs) :
    callF N (machineOf H r.module.functions) L d f args (s.withAnalysis a) = .fuel ∨
    ∃ a1 advs, Saw C iface ts m N T L d f args s (callF N (machineOf H r.module.functions) L d f args (s.withAnalysis a)) a1 advs ∧ Q a1 advs :=
  (C58_told_everything (C58_rust_analysis_qualifies hW) hoff hf hargs hok a L d).imp id fun ⟨advs, h⟩ => ⟨_, advs, h, hQ advs⟩

/-- Counters modified at the position `pos` says. -/
theorem modify_counts {n : Nat} {pos : Advice → Option Nat} {upd : Advice → List (BitVec n) → List (BitVec n)}
    (h : ∀ a b, upd a b = match pos a with | some i => b.modify i (· + 1) | none => b) (advs : List Advice) (b : List (BitVec n)) (i : Nat) :
    (advs.foldl (fun x e => upd e x) b)[i]? = b[i]?.map (· + BitVec.ofNat n (times advs fun a => pos a = some i)) := by
  unfold times
  induction advs generalizing b with
  | nil => simp
  | cons a as ih =>
    rw [List.foldl_cons, ih, h, List.countP_cons]
    cases hp : pos a with
    | none => simp
    | some j =>
      simp only [List.getElem?_modify, Option.some.injEq]
      by_cases hj : j = i
      · subst hj
        simp only [if_true, decide_true]
        cases b[j]? with
        | none => rfl
        | some x =>
          simp only [Option.map_eq_map, Option.map_some, Option.some.injEq, BitVec.ofNat_add]
          rw [BitVec.add_assoc]
          congr 1
          rw [BitVec.add_comm]
          rfl
      · simp [hj]

/-! ## C59: `opcodes` and `cryptominer-detection` -/

/-- The events `opcodes` distinguishes, by the number its accessor knows them by. -/
def opcodeEvents : List (Advice → Bool) := [
  (· matches .ifThenElse ..), (· matches .ifThenElsePost _), (· matches .ifThen ..), (· matches .ifThenPost _), (· matches .br ..), (· matches .brIf ..),
  (· matches .brTable ..), (· matches .select ..), (· matches .callPre ..), (· matches .callPost ..), (· matches .callIndirectPre ..), (· matches .callIndirectPost ..),
  (· matches .unary ..), (· matches .binary ..), (· matches .drop _), (· matches .ret _), (· matches .const ..), (· matches .loc ..), (· matches .glob ..),
  (· matches .load ..), (· matches .store ..), (· matches .memorySize ..), (· matches .memoryGrow ..), (· matches .blockPre ..), (· matches .blockPost _),
  (· matches .loopPre ..), (· matches .loopPost _)]

theorem opcodes_counts (advs : List Advice) (k : BitVec 32) :
    OpcodeCounts.getCountInstr (advs.foldl (fun x e => opcodes e x) OpcodeCounts.init) k = opcodeEvents[k.toNat]?.map fun p => BitVec.ofNat 32 (times advs p) := by
  unfold OpcodeCounts.getCountInstr
  rw [modify_counts (upd := opcodes) (pos := fun a => some a.kind.index) (fun a b => rfl)]
  generalize k.toNat = j
  by_cases hj : j < 27
  · have : ∀ a : Advice, ∀ p, opcodeEvents[j]? = some p → decide (a.kind.index = j) = p a := by
      intro a p hp
      have key : ∀ i : Fin 27, ∃ q, opcodeEvents[i.val]? = some q ∧ ∀ a : Advice, q a = decide (a.kind.index = i.val) := by
        intro i
        match i with
        | 0 | 1 | 2 | 3 | 4 | 5 | 6 | 7 | 8 | 9 | 10 | 11 | 12 | 13 | 14 | 15 | 16 | 17 | 18 | 19 | 20 | 21 | 22 | 23 | 24 | 25 | 26 =>
          exact ⟨_, rfl, fun a => by cases a <;> rfl⟩
        | ⟨n + 27, h⟩ => exact absurd h (by omega)
      obtain ⟨q, h1, h2⟩ := key ⟨j, hj⟩
      rw [h1] at hp
      cases hp
      exact (h2 a).symm
    have e : OpcodeCounts.init[j]? = some 0 := by
      rw [OpcodeCounts.init, List.getElem?_replicate, if_pos (show j < InstrKind.count from hj)]
    rw [e]
    obtain ⟨p, hp⟩ : ∃ p, opcodeEvents[j]? = some p := ⟨_, List.getElem?_eq_getElem (by simpa [opcodeEvents] using hj)⟩
    rw [hp]
    simp only [Option.map_some, times, Option.some.injEq]
    rw [show ∀ {n} (x : BitVec n), (0 : BitVec n) + x = x from fun x => BitVec.zero_add x]
    congr 1
    apply List.countP_congr
    intro a _
    rw [← this a p hp]
  · have e : OpcodeCounts.init[j]? = none := by
      rw [OpcodeCounts.init, List.getElem?_replicate, if_neg (show ¬ j < InstrKind.count from hj)]
    have e' : opcodeEvents[j]? = none := List.getElem?_eq_none (by simpa [opcodeEvents] using Nat.le_of_not_lt hj)
    rw [e, e']
    rfl

/-- **C59, `opcodes`.** `get_count_instr(k)` returns the number (modulo 2^32) of events of the `k`-th kind the original program went through;
it panics if there is no such kind. -/
theorem C59_opcodes_counts_every_event {C iface ts m r} {N : Num} {T : Imports (W × Log)} {H : Imports (W × OpcodeCounts)}
    (hW : Watching C iface ts m r N (.ahead opcodes) T H)
    (hoff : ∀ i ∈ bodyTargets m ts, ∀ f c, m.functions[i]? = some f → f.code = .present c → OnlyCode (OffsetsAre iface fun o => o = 0) c.body)
    {f : Nat} {ty : FuncType} {args : List RVal} {s : Store W} (hf : m.ctx.ftype f = some ty) (hargs : ValsOK m.ctx args ty.inputs)
    (hok : StoreOK m.ctx s) (L d : Nat) :
    callF N (machineOf H r.module.functions) L d f args (s.withAnalysis OpcodeCounts.init) = .fuel ∨
    ∃ (a1 : OpcodeCounts) (advs : List Advice), Saw C iface ts m N T L d f args s (callF N (machineOf H r.module.functions) L d f args (s.withAnalysis OpcodeCounts.init)) a1 advs ∧
      ∀ k, a1.getCountInstr k = opcodeEvents[k.toNat]?.map fun p => BitVec.ofNat 32 (times advs p) :=
  hW.conclude hoff hf hargs hok _ L d (fun a1 advs => ∀ k, a1.getCountInstr k = opcodeEvents[k.toNat]?.map fun p => BitVec.ofNat 32 (times advs p)) opcodes_counts

/-- The operations of a mining signature: additions, bitwise conjunctions, shifts left, unsigned shifts right, exclusive disjunctions. -/
def signatureOps : List (List BinaryOp) :=
  [[.i32Add, .i64Add, .f32Add, .f64Add], [.i32And, .i64And], [.i32Shl, .i64Shl], [.i32ShrU, .i64ShrU], [.i32Xor, .i64Xor]]

/-- The event is an operation in `ops`. -/
def Advice.isOp (ops : List BinaryOp) : Advice → Bool
  | .binary op _ _ _ => op ∈ ops
  | _ => false

theorem cryptominer_counts (advs : List Advice) (k : BitVec 32) :
    Signature.get (advs.foldl (fun x e => cryptominer e x) Signature.init) k = signatureOps[k.toNat]?.map fun ops => BitVec.ofNat 64 (times advs (Advice.isOp ops)) := by
  unfold Signature.get
  by_cases hn : k.toInt < 0
  · rw [if_pos hn]
    have : ¬ k.toNat < 5 := by
      rw [BitVec.toInt_eq_toNat_cond] at hn
      intro h
      split at hn <;> omega
    rw [List.getElem?_eq_none (l := signatureOps) (by simpa [signatureOps] using Nat.le_of_not_lt this)]
    rfl
  rw [if_neg hn, modify_counts (upd := cryptominer) (pos := fun a => match a with | .binary op _ _ _ => signatureIndex op | _ => none)
    (fun a b => by cases a <;> rfl)]
  generalize k.toNat = j
  match j with
  | 0 | 1 | 2 | 3 | 4 =>
    simp only [Signature.init, signatureOps, List.getElem?_cons_succ, List.getElem?_cons_zero, Option.map_some, times, Option.some.injEq]
    rw [show ∀ {n} (x : BitVec n), (0 : BitVec n) + x = x from fun x => BitVec.zero_add x]
    congr 1
    apply List.countP_congr
    intro a _
    cases a <;> try (simp [Advice.isOp]; done)
    rename_i op _ _ _ _
    cases op <;> simp [Advice.isOp, signatureIndex]
  | _ + 5 => rfl

/-- **C59, `cryptominer-detection`.** `get_signature(k)` returns the number (modulo 2^64) of operations of the `k`-th class the original program
performed. -/
theorem C59_signature_counts_operations {C iface ts m r} {N : Num} {T : Imports (W × Log)} {H : Imports (W × Signature)}
    (hW : Watching C iface ts m r N (.ahead cryptominer) T H)
    (hoff : ∀ i ∈ bodyTargets m ts, ∀ f c, m.functions[i]? = some f → f.code = .present c → OnlyCode (OffsetsAre iface fun o => o = 0) c.body)
    {f : Nat} {ty : FuncType} {args : List RVal} {s : Store W} (hf : m.ctx.ftype f = some ty) (hargs : ValsOK m.ctx args ty.inputs)
    (hok : StoreOK m.ctx s) (L d : Nat) :
    callF N (machineOf H r.module.functions) L d f args (s.withAnalysis Signature.init) = .fuel ∨
    ∃ (a1 : Signature) (advs : List Advice), Saw C iface ts m N T L d f args s (callF N (machineOf H r.module.functions) L d f args (s.withAnalysis Signature.init)) a1 advs ∧
      ∀ k, a1.get k = signatureOps[k.toNat]?.map fun ops => BitVec.ofNat 64 (times advs (Advice.isOp ops)) :=
  hW.conclude hoff hf hargs hok _ L d (fun a1 advs => ∀ k, a1.get k = signatureOps[k.toNat]?.map fun ops => BitVec.ofNat 64 (times advs (Advice.isOp ops))) cryptominer_counts

-- C59: `main(0, 5)` of the example makes two calls (kind 8) and one binary operation (kind 13), which is not part of the signature.
example : ∃ r, Instruments exTypedChecker exIface none exModule r ∧ ∃ a1,
    callF exNum (machineOf (exWatched (.ahead opcodes) r.module.exported) r.module.functions) 10 12 1 [.i32 0, .i32 5] (exStore.withAnalysis OpcodeCounts.init) =
      .ok [.i32 49] (Store.withAnalysis { exStore with world := [.i32 7] } a1) ∧
    a1.getCountInstr 8 = some 2 ∧ a1.getCountInstr 13 = some 1 ∧ a1.getCountInstr 25 = some 0 ∧ a1.getCountInstr 27 = none := by
  obtain ⟨r, hr⟩ := instruments_of_ok (C := exTypedChecker) (iface := exIface) (ts := none) (m := exModule) (by decide) exModule_small exModule_raises_typed
  exact ⟨r, hr, _, exWatched_run _ _ hr, by decide +kernel, by decide +kernel, by decide +kernel, by decide +kernel⟩
example : (exAdvs ++ [Advice.binary .i64Xor (.i64 1) (.i64 3) (.new 2 9)]).foldl (fun (x : Signature) e => cryptominer e x) Signature.init = [0, 0, 0, 0, 1] := by decide +kernel

/-! ## C60: `coverage-instruction` -/

theorem coverage_reports (advs : List Advice) (x y : BitVec 64) :
    InstrCoverage.getCoverage (advs.foldl (fun x e => coverageInstruction e x) []) x y = if ∃ a ∈ advs, a.At y x then 1 else 0 := by
  unfold InstrCoverage.getCoverage
  rw [last_inserted (upd := coverageInstruction) (sel := fun a => some ((a.location.functionIndex, a.location.instructionIndex), true)) (fun a b => rfl)]
  have e : HMap.get ([] : InstrCoverage) (x, y) = none := rfl
  rw [e, Option.or_none]
  simp only [Option.bind_some]
  have hmem : ∀ a : Advice, (a.location.functionIndex, a.location.instructionIndex) = (x, y) ↔ a.At y x := by
    intro a
    unfold Advice.At Location.functionIndex Location.instructionIndex Location.new
    constructor
    · intro h
      simp only [Prod.mk.injEq] at h
      obtain ⟨h1, h2⟩ := h
      rw [← h1, ← h2]
    · intro h; rw [h]
  split
  · rename_i hex
    obtain ⟨a, ha, hat⟩ := hex
    have : (advs.filterMap fun a => if (a.location.functionIndex, a.location.instructionIndex) = (x, y) then some true else none) ≠ [] := by
      refine List.ne_nil_of_mem (a := true) (List.mem_filterMap.2 ⟨a, ha, ?_⟩)
      rw [if_pos ((hmem a).2 hat)]
    rw [List.getLast?_eq_some_getLast this]
    rfl
  · rename_i hex
    have : (advs.filterMap fun a => if (a.location.functionIndex, a.location.instructionIndex) = (x, y) then some true else none) = [] := by
      refine List.filterMap_eq_nil_iff.2 fun a ha => ?_
      rw [if_neg fun h => hex ⟨a, ha, (hmem a).1 h⟩]
    rw [this]
    rfl

/-- **C60.** `get_coverage(x, y)` returns 1 if the original program went through an event at instruction `x` of function `y`, and 0 if not. (Its parameters
are named `function_index` and `instruction_index`, in this order: they are the other way round, for the reason of C22.) -/
theorem C60_coverage_is_of_executed_instructions {C iface ts m r} {N : Num} {T : Imports (W × Log)} {H : Imports (W × InstrCoverage)}
    (hW : Watching C iface ts m r N (.ahead coverageInstruction) T H)
    (hoff : ∀ i ∈ bodyTargets m ts, ∀ f c, m.functions[i]? = some f → f.code = .present c → OnlyCode (OffsetsAre iface fun o => o = 0) c.body)
    {f : Nat} {ty : FuncType} {args : List RVal} {s : Store W} (hf : m.ctx.ftype f = some ty) (hargs : ValsOK m.ctx args ty.inputs)
    (hok : StoreOK m.ctx s) (L d : Nat) :
    callF N (machineOf H r.module.functions) L d f args (s.withAnalysis []) = .fuel ∨
    ∃ (a1 : InstrCoverage) (advs : List Advice), Saw C iface ts m N T L d f args s (callF N (machineOf H r.module.functions) L d f args (s.withAnalysis [])) a1 advs ∧
      ∀ x y, a1.getCoverage x y = if ∃ a ∈ advs, a.At y x then 1 else 0 :=
  hW.conclude hoff hf hargs hok _ L d (fun a1 advs => ∀ x y, a1.getCoverage x y = if ∃ a ∈ advs, a.At y x then 1 else 0) coverage_reports

-- C60: `main(0, 5)` goes through instruction 5 of function 1 and not through instruction 1 of function 5, but the analysis says otherwise.
example : ∃ r, Instruments exTypedChecker exIface none exModule r ∧ ∃ a1,
    callF exNum (machineOf (exWatched (.ahead coverageInstruction) r.module.exported) r.module.functions) 10 12 1 [.i32 0, .i32 5] (exStore.withAnalysis []) =
      .ok [.i32 49] (Store.withAnalysis { exStore with world := [.i32 7] } a1) ∧ a1.getCoverage 1 5 = 0 ∧ a1.getCoverage 5 1 = 1 := by
  obtain ⟨r, hr⟩ := instruments_of_ok (C := exTypedChecker) (iface := exIface) (ts := none) (m := exModule) (by decide) exModule_small exModule_raises_typed
  exact ⟨r, hr, _, exWatched_run _ _ hr, by decide +kernel, by decide +kernel⟩

/-! ## C61: `branches` and `coverage-branch` -/

/-- The decision an event reports, at a place where control may go several ways: the condition, or the label's position. -/
def Advice.decision : Advice → Option (BitVec 32)
  | .ifThen k _ _ _ | .ifThenElse k _ _ _ | .brIf k _ _ => some k
  | .brTable _ e _ _ => some e
  | _ => none

/-- The same, selecting one of two values being a decision too. -/
def Advice.decisionOrSelect : Advice → Option (BitVec 32)
  | .select k _ => some k
  | a => a.decision

theorem decisions_report {upd : Advice → BranchCoverage → BranchCoverage} {dec : Advice → Option (BitVec 32)}
    (h : ∀ a c, upd a c = match dec a with | some k => c.insert (a.location.functionIndex, a.location.instructionIndex) k | none => c) (advs : List Advice) (x y : BitVec 64) :
    BranchCoverage.getCoverage (advs.foldl (fun x e => upd e x) []) x y = (((advs.filter fun a => a.At y x).filterMap dec).getLast?).getD (-1) := by
  unfold BranchCoverage.getCoverage
  rw [last_inserted (upd := upd) (sel := fun a => (dec a).map fun k => ((a.location.functionIndex, a.location.instructionIndex), k))
    (fun a b => by rw [h a b]; cases dec a <;> rfl)]
  have e : HMap.get ([] : BranchCoverage) (x, y) = none := rfl
  rw [e, Option.or_none, List.filterMap_filter]
  congr 3
  funext a
  have hmem : (a.location.functionIndex, a.location.instructionIndex) = (x, y) ↔ a.At y x := by
    unfold Advice.At Location.functionIndex Location.instructionIndex Location.new
    constructor
    · intro h
      simp only [Prod.mk.injEq] at h
      obtain ⟨h1, h2⟩ := h
      rw [← h1, ← h2]
    · intro h; rw [h]
  cases dec a with
  | none => simp
  | some k =>
    simp only [Option.map_some, Option.bind_some, hmem]
    by_cases ha : a.At y x <;> simp [ha]

/-- **C61.** `get_coverage(x, y)` of `branches` returns the decision last taken at instruction `x` of function `y` (the parameters being exchanged as in C60),
and -1 if none was taken. -/
theorem C61_branches_report_last_decision {C iface ts m r} {N : Num} {T : Imports (W × Log)} {H : Imports (W × BranchCoverage)}
    (hW : Watching C iface ts m r N (.ahead branches) T H)
    (hoff : ∀ i ∈ bodyTargets m ts, ∀ f c, m.functions[i]? = some f → f.code = .present c → OnlyCode (OffsetsAre iface fun o => o = 0) c.body)
    {f : Nat} {ty : FuncType} {args : List RVal} {s : Store W} (hf : m.ctx.ftype f = some ty) (hargs : ValsOK m.ctx args ty.inputs)
    (hok : StoreOK m.ctx s) (L d : Nat) :
    callF N (machineOf H r.module.functions) L d f args (s.withAnalysis []) = .fuel ∨
    ∃ (a1 : BranchCoverage) (advs : List Advice), Saw C iface ts m N T L d f args s (callF N (machineOf H r.module.functions) L d f args (s.withAnalysis [])) a1 advs ∧
      ∀ x y, a1.getCoverage x y = (((advs.filter fun a => a.At y x).filterMap Advice.decision).getLast?).getD (-1) :=
  hW.conclude hoff hf hargs hok _ L d (fun a1 advs => ∀ x y, a1.getCoverage x y = (((advs.filter fun a => a.At y x).filterMap Advice.decision).getLast?).getD (-1))
    (decisions_report fun a c => by cases a <;> rfl)

/-- **C61**, of `coverage-branch`, which takes `select` into account too. -/
theorem C61_coverage_branch_reports_last_decision {C iface ts m r} {N : Num} {T : Imports (W × Log)} {H : Imports (W × BranchCoverage)}
    (hW : Watching C iface ts m r N (.ahead coverageBranch) T H)
    (hoff : ∀ i ∈ bodyTargets m ts, ∀ f c, m.functions[i]? = some f → f.code = .present c → OnlyCode (OffsetsAre iface fun o => o = 0) c.body)
    {f : Nat} {ty : FuncType} {args : List RVal} {s : Store W} (hf : m.ctx.ftype f = some ty) (hargs : ValsOK m.ctx args ty.inputs)
    (hok : StoreOK m.ctx s) (L d : Nat) :
    callF N (machineOf H r.module.functions) L d f args (s.withAnalysis []) = .fuel ∨
    ∃ (a1 : BranchCoverage) (advs : List Advice), Saw C iface ts m N T L d f args s (callF N (machineOf H r.module.functions) L d f args (s.withAnalysis [])) a1 advs ∧
      ∀ x y, a1.getCoverage x y = (((advs.filter fun a => a.At y x).filterMap Advice.decisionOrSelect).getLast?).getD (-1) :=
  hW.conclude hoff hf hargs hok _ L d (fun a1 advs => ∀ x y, a1.getCoverage x y = (((advs.filter fun a => a.At y x).filterMap Advice.decisionOrSelect).getLast?).getD (-1))
    (decisions_report fun a c => by cases a <;> rfl)

-- C61: `main(0, 5)` takes the decision 0 at instruction 1 of function 1.
example : ∃ r, Instruments exTypedChecker exIface none exModule r ∧ ∃ a1,
    callF exNum (machineOf (exWatched (.ahead branches) r.module.exported) r.module.functions) 10 12 1 [.i32 0, .i32 5] (exStore.withAnalysis []) =
      .ok [.i32 49] (Store.withAnalysis { exStore with world := [.i32 7] } a1) ∧ a1.getCoverage 1 1 = 0 ∧ a1.getCoverage 5 1 = -1 := by
  obtain ⟨r, hr⟩ := instruments_of_ok (C := exTypedChecker) (iface := exIface) (ts := none) (m := exModule) (by decide) exModule_small exModule_raises_typed
  exact ⟨r, hr, _, exWatched_run _ _ hr, by decide +kernel, by decide +kernel⟩
example : BranchCoverage.getCoverage ((exAdvs ++ [Advice.select 1 (.new 1 1)]).foldl (fun x e => coverageBranch e x) []) 1 1 = 1 := by decide +kernel

/-! ## C62: `call-graph` -/

/-- The edge an event adds: from the *instruction* of the call, to the function called. -/
def Advice.edge : Advice → Option (BitVec 64 × BitVec 64)
  | .callPre g l => some (l.functionIndex, g.signExtend 64)
  | _ => none

/-- **C62.** The edges reported are enumerated by `get_from_at` and `get_to_at` at the indices below `get_total_edges`, each once. The pair `(x, g)` is among them
if the original program made a direct call of function `g` at instruction `x` — of any function: the calling function is not part of
the edge, because `location.function_index()` is the index of the instruction (C22). The order is that of the set. -/
theorem C62_call_graph_has_the_calls {C iface ts m r} {N : Num} {T : Imports (W × Log)} {H : Imports (W × CallGraph)}
    (hW : Watching C iface ts m r N (.ahead callGraph) T H)
    (hoff : ∀ i ∈ bodyTargets m ts, ∀ f c, m.functions[i]? = some f → f.code = .present c → OnlyCode (OffsetsAre iface fun o => o = 0) c.body)
    {f : Nat} {ty : FuncType} {args : List RVal} {s : Store W} (hf : m.ctx.ftype f = some ty) (hargs : ValsOK m.ctx args ty.inputs)
    (hok : StoreOK m.ctx s) (L d : Nat) (ord : CallGraph → CallGraph) (hord : ∀ c, (ord c).Perm c) :
    callF N (machineOf H r.module.functions) L d f args (s.withAnalysis []) = .fuel ∨
    ∃ (a1 : CallGraph) (advs : List Advice), Saw C iface ts m N T L d f args s (callF N (machineOf H r.module.functions) L d f args (s.withAnalysis [])) a1 advs ∧
      ∃ edges : List (BitVec 64 × BitVec 64), edges.Nodup ∧
        (∀ x g, (x, g) ∈ edges ↔ ∃ callee caller, (Advice.callPre callee (.new caller x)) ∈ advs ∧ g = callee.signExtend 64) ∧
        (edges.length < 2 ^ 31 → a1.getTotalEdges = some (BitVec.ofNat 32 edges.length) ∧
          ∀ i, (h : i < edges.length) → a1.getFromAt ord (BitVec.ofNat 32 i) = some edges[i].1 ∧ a1.getToAt ord (BitVec.ofNat 32 i) = some edges[i].2) := by
  refine hW.conclude hoff hf hargs hok _ L d (fun (a1 : CallGraph) advs => ∃ edges : List (BitVec 64 × BitVec 64), edges.Nodup ∧
        (∀ x g, (x, g) ∈ edges ↔ ∃ callee caller, (Advice.callPre callee (.new caller x)) ∈ advs ∧ g = callee.signExtend 64) ∧
        (edges.length < 2 ^ 31 → a1.getTotalEdges = some (BitVec.ofNat 32 edges.length) ∧
          ∀ i, (h : i < edges.length) → a1.getFromAt ord (BitVec.ofNat 32 i) = some edges[i].1 ∧ a1.getToAt ord (BitVec.ofNat 32 i) = some edges[i].2)) fun advs => ?_
  obtain ⟨h1, h2⟩ := keys_of_events (upd := callGraph) (keysOf := id) (key := Advice.edge) (fun a b => by cases a <;> rfl) advs [] (by simp)
  simp only [id] at h1 h2
  generalize advs.foldl (fun x e => callGraph e x) [] = a1 at h1 h2 ⊢
  refine ⟨ord a1, (hord a1).symm.nodup h1, fun x g => ?_, fun hl => ⟨?_, fun i hi => ?_⟩⟩
  · rw [(hord a1).mem_iff, h2]
    simp only [List.not_mem_nil, false_or]
    constructor
    · rintro ⟨a, ha, he⟩
      cases a <;> simp only [Advice.edge, Option.some.injEq, reduceCtorEq, Prod.mk.injEq] at he
      rename_i callee l
      obtain ⟨rfl, rfl⟩ := he
      exact ⟨callee, l.instructionIndex, ha, rfl⟩
    · rintro ⟨callee, caller, ha, rfl⟩
      exact ⟨_, ha, rfl⟩
  · unfold CallGraph.getTotalEdges
    rw [(hord a1).length_eq] at hl ⊢
    rw [if_pos hl]
  · have e : a1.getEdgeAt ord (BitVec.ofNat 32 i) = some (some (ord a1)[i]) := by
      unfold CallGraph.getEdgeAt
      have hn : (BitVec.ofNat 32 i).toNat = i := by
        rw [BitVec.toNat_ofNat]; exact Nat.mod_eq_of_lt (by omega)
      rw [if_neg, hn, List.getElem?_eq_getElem hi]
      rw [BitVec.toInt_eq_toNat_cond, hn]
      split <;> omega
    simp [CallGraph.getFromAt, CallGraph.getToAt, e]

-- C62: `main(0, 5)` calls function 2 at instruction 5 of function 1, and function 0 at instruction 1 of function 2.
example : ∃ r, Instruments exTypedChecker exIface none exModule r ∧ ∃ a1,
    callF exNum (machineOf (exWatched (.ahead callGraph) r.module.exported) r.module.functions) 10 12 1 [.i32 0, .i32 5] (exStore.withAnalysis []) =
      .ok [.i32 49] (Store.withAnalysis { exStore with world := [.i32 7] } a1) ∧ a1.getTotalEdges = some 2 ∧
      a1.getFromAt id 0 = some 5 ∧ a1.getToAt id 0 = some 2 ∧ a1.getFromAt id 1 = some 1 ∧ a1.getToAt id 1 = some 0 := by
  obtain ⟨r, hr⟩ := instruments_of_ok (C := exTypedChecker) (iface := exIface) (ts := none) (m := exModule) (by decide) exModule_small exModule_raises_typed
  exact ⟨r, hr, _, exWatched_run _ _ hr, by decide +kernel, by decide +kernel, by decide +kernel, by decide +kernel, by decide +kernel⟩

/-! ## C63: `loops`, `block-profiling`, `globals`, `icount` -/

theorem Advice.key_iff (a : Advice) (x y : BitVec 64) : (a.location.functionIndex, a.location.instructionIndex) = (x, y) ↔ a.At y x := by
  unfold Advice.At Location.functionIndex Location.instructionIndex Location.new
  constructor
  · intro h
    simp only [Prod.mk.injEq] at h
    obtain ⟨h1, h2⟩ := h
    rw [← h1, ← h2]
  · intro h; rw [h]

/-- The event is entering the loop at instruction `i` of function `f`. -/
def Advice.entersLoop (f i : BitVec 64) (a : Advice) : Bool := (a matches .loopPre ..) && decide (a.At f i)

/-- The place of the loop an event enters. -/
def Advice.loopKey : Advice → Option (BitVec 64 × BitVec 64)
  | .loopPre _ _ l => some (l.functionIndex, l.instructionIndex)
  | _ => none

theorem Advice.loopKey_iff (a : Advice) (x y : BitVec 64) : a.loopKey = some (x, y) ↔ a.entersLoop y x = true := by
  unfold Advice.entersLoop
  rw [Bool.and_eq_true, decide_eq_true_iff, ← a.key_iff]
  cases a <;> simp [Advice.loopKey, Advice.location]

theorem loops_report (advs : List Advice) :
    (∀ x y, LoopCounts.getCountFor (advs.foldl (fun x e => loops e x) []) x y = BitVec.ofNat 32 (times advs (Advice.entersLoop y x)) - 1) ∧
    ∃ places : List (BitVec 64 × BitVec 64), places.Nodup ∧ (∀ x y, (x, y) ∈ places ↔ ∃ a ∈ advs, a.entersLoop y x = true) ∧
      LoopCounts.totalCountedLoops (advs.foldl (fun x e => loops e x) []) = BitVec.ofNat 32 places.length := by
  constructor
  · intro x y
    unfold LoopCounts.getCountFor
    rw [counted_but_first (upd := loops) (key := Advice.loopKey) (fun a b => by cases a <;> rfl)]
    have e : HMap.get ([] : LoopCounts) (x, y) = none := rfl
    have ht : (times advs fun a => a.loopKey = some (x, y)) = times advs (Advice.entersLoop y x) := by
      apply List.countP_congr
      intro a _
      rw [decide_eq_true_iff]
      exact a.loopKey_iff x y
    rw [e, ht]
    dsimp only
    by_cases h : times advs (Advice.entersLoop y x) = 0
    · rw [if_pos h, h]; rfl
    · rw [if_neg h]; rfl
  · obtain ⟨h1, h2⟩ := keys_of_events (upd := loops) (keysOf := fun (b : LoopCounts) => b.map (·.1)) (key := Advice.loopKey)
      (fun a b => by cases a <;> first | rfl | exact HMap.keys_modifyOrInsert _ _ _ _) advs [] (by simp)
    refine ⟨_, h1, fun x y => ?_, by rw [LoopCounts.totalCountedLoops, List.length_map]⟩
    rw [h2]
    simp only [List.map_nil, List.not_mem_nil, false_or]
    constructor
    · rintro ⟨a, ha, he⟩; exact ⟨a, ha, (a.loopKey_iff x y).1 he⟩
    · rintro ⟨a, ha, he⟩; exact ⟨a, ha, (a.loopKey_iff x y).2 he⟩

/-- **C63, `loops`.** `get_count_for(x, y)` returns one less than the number of times the original program entered the loop at instruction `x` of function `y`
(the parameters being exchanged as in C60); so -1, not 0, if never. `total_counted_loops` is the number of loops entered. (Entering is not iterating: a branch to
the loop's label is not counted.) -/
theorem C63_loops_count_all_but_first {C iface ts m r} {N : Num} {T : Imports (W × Log)} {H : Imports (W × LoopCounts)}
    (hW : Watching C iface ts m r N (.ahead loops) T H)
    (hoff : ∀ i ∈ bodyTargets m ts, ∀ f c, m.functions[i]? = some f → f.code = .present c → OnlyCode (OffsetsAre iface fun o => o = 0) c.body)
    {f : Nat} {ty : FuncType} {args : List RVal} {s : Store W} (hf : m.ctx.ftype f = some ty) (hargs : ValsOK m.ctx args ty.inputs)
    (hok : StoreOK m.ctx s) (L d : Nat) :
    callF N (machineOf H r.module.functions) L d f args (s.withAnalysis []) = .fuel ∨
    ∃ (a1 : LoopCounts) (advs : List Advice), Saw C iface ts m N T L d f args s (callF N (machineOf H r.module.functions) L d f args (s.withAnalysis [])) a1 advs ∧
      (∀ x y, a1.getCountFor x y = BitVec.ofNat 32 (times advs (Advice.entersLoop y x)) - 1) ∧
      ∃ places : List (BitVec 64 × BitVec 64), places.Nodup ∧ (∀ x y, (x, y) ∈ places ↔ ∃ a ∈ advs, a.entersLoop y x = true) ∧
        a1.totalCountedLoops = BitVec.ofNat 32 places.length :=
  hW.conclude hoff hf hargs hok _ L d (fun (a1 : LoopCounts) advs => (∀ x y, a1.getCountFor x y = BitVec.ofNat 32 (times advs (Advice.entersLoop y x)) - 1) ∧
      ∃ places : List (BitVec 64 × BitVec 64), places.Nodup ∧ (∀ x y, (x, y) ∈ places ↔ ∃ a ∈ advs, a.entersLoop y x = true) ∧
        a1.totalCountedLoops = BitVec.ofNat 32 places.length) loops_report

-- C63, `loops`: a loop at instruction 3 of function 4, entered twice, is reported as entered once.
example : LoopCounts.getCountFor ([Advice.loopPre 0 0 (.new 4 3), .blockPre 0 0 (.new 4 9), .loopPre 0 0 (.new 4 3)].foldl (fun x e => loops e x) []) 3 4 = 1 ∧
    times [Advice.loopPre 0 0 (.new 4 3), .blockPre 0 0 (.new 4 9), .loopPre 0 0 (.new 4 3)] (Advice.entersLoop 4 3) = 2 := by decide +kernel

/-- What is entered, of the blocks an event enters: the condition of an `if`, the table index of an indirect call, else 0. -/
def Advice.entered : Advice → Option (BitVec 32)
  | .ifThenElse k _ _ _ | .ifThen k _ _ _ => some k
  | .callIndirectPre x _ _ => some x
  | .callPre _ _ | .blockPre _ _ _ | .loopPre _ _ _ => some 0
  | _ => none

theorem blocks_report (advs : List Advice) (x y : BitVec 64) (t : BitVec 32) :
    BlockCounts.getCount (advs.foldl (fun x e => blockProfiling e x) []) x y t =
      BitVec.ofNat 64 ((times advs fun a => decide (a.At y x) && decide (a.entered = some t)) - 1) := by
  unfold BlockCounts.getCount
  rw [counted_but_first (upd := blockProfiling) (key := fun a => a.entered.map fun t => (a.location.functionIndex, a.location.instructionIndex, t))
    (fun a b => by cases a <;> rfl)]
  have e : HMap.get ([] : BlockCounts) (x, y, t) = none := rfl
  have ht : (times advs fun a => (a.entered.map fun t => (a.location.functionIndex, a.location.instructionIndex, t)) = some (x, y, t)) =
      times advs fun a => decide (a.At y x) && decide (a.entered = some t) := by
    apply List.countP_congr
    intro a _
    rw [decide_eq_true_iff, Bool.and_eq_true, decide_eq_true_iff, decide_eq_true_iff, ← a.key_iff]
    cases a.entered with
    | none => simp
    | some t' => simp [and_assoc]
  rw [e, ht]
  dsimp only
  generalize times advs (fun a => decide (a.At y x) && decide (a.entered = some t)) = n
  by_cases h : n = 0
  · rw [if_pos h, h]; rfl
  · rw [if_neg h]
    obtain ⟨k, rfl⟩ := Nat.exists_eq_succ_of_ne_zero h
    simp only [Option.getD_some, Nat.succ_eq_add_one, Nat.add_sub_cancel, BitVec.ofNat_add]
    exact BitVec.add_sub_cancel _ _

/-- **C63, `block-profiling`.** `get_count(x, y, t)` returns one less than the number of times the original program entered `t` at instruction `x` of function `y`
(the parameters being exchanged as in C60), and 0 if never; so what is entered once is not distinguished from what is never entered. -/
theorem C63_blocks_count_all_but_first {C iface ts m r} {N : Num} {T : Imports (W × Log)} {H : Imports (W × BlockCounts)}
    (hW : Watching C iface ts m r N (.ahead blockProfiling) T H)
    (hoff : ∀ i ∈ bodyTargets m ts, ∀ f c, m.functions[i]? = some f → f.code = .present c → OnlyCode (OffsetsAre iface fun o => o = 0) c.body)
    {f : Nat} {ty : FuncType} {args : List RVal} {s : Store W} (hf : m.ctx.ftype f = some ty) (hargs : ValsOK m.ctx args ty.inputs)
    (hok : StoreOK m.ctx s) (L d : Nat) :
    callF N (machineOf H r.module.functions) L d f args (s.withAnalysis []) = .fuel ∨
    ∃ (a1 : BlockCounts) (advs : List Advice), Saw C iface ts m N T L d f args s (callF N (machineOf H r.module.functions) L d f args (s.withAnalysis [])) a1 advs ∧
      ∀ x y t, a1.getCount x y t = BitVec.ofNat 64 ((times advs fun a => decide (a.At y x) && decide (a.entered = some t)) - 1) :=
  hW.conclude hoff hf hargs hok _ L d (fun (a1 : BlockCounts) advs => ∀ x y t, a1.getCount x y t = BitVec.ofNat 64 ((times advs fun a => decide (a.At y x) && decide (a.entered = some t)) - 1)) blocks_report

-- C63, `block-profiling`: `main(0, 5)` makes a call at instruction 5 of function 1; the count is 0.
example : ∃ r, Instruments exTypedChecker exIface none exModule r ∧ ∃ a1,
    callF exNum (machineOf (exWatched (.ahead blockProfiling) r.module.exported) r.module.functions) 10 12 1 [.i32 0, .i32 5] (exStore.withAnalysis []) =
      .ok [.i32 49] (Store.withAnalysis { exStore with world := [.i32 7] } a1) ∧ a1.getCount 5 1 0 = 0 := by
  obtain ⟨r, hr⟩ := instruments_of_ok (C := exTypedChecker) (iface := exIface) (ts := none) (m := exModule) (by decide) exModule_small exModule_raises_typed
  exact ⟨r, hr, _, exWatched_run _ _ hr, by decide +kernel⟩

/-- The event is an access of global `g`. -/
def Advice.accesses (g : BitVec 64) : Advice → Bool
  | .glob _ i _ _ => i = g
  | _ => false

/-- The event is a read, or a write, of a global. -/
def Advice.isGlobal (op : GlobOp) : Advice → Bool
  | .glob _ _ o _ => o = op
  | _ => false

/-- One access counted. -/
def AccessCount.add (op : GlobOp) (x : AccessCount) : AccessCount :=
  match op with
  | .get => { x with readCount := x.readCount + 1 }
  | .set => { x with writeCount := x.writeCount + 1 }

theorem AccessCount.adds (g : BitVec 64) (as : List Advice) (ha : ∀ a ∈ as, a.accesses g = true) (x : AccessCount) :
    as.foldl (fun x e => match e with | .glob _ _ op _ => x.add op | _ => x) x =
      ⟨x.readCount + BitVec.ofNat 32 (times as (Advice.isGlobal .get)), x.writeCount + BitVec.ofNat 32 (times as (Advice.isGlobal .set))⟩ := by
  unfold times
  induction as generalizing x with
  | nil => simp
  | cons a as ih =>
    have h1 := ha a (List.mem_cons_self ..)
    cases a <;> simp only [Advice.accesses, Bool.false_eq_true] at h1
    rename_i v i op l
    rw [List.foldl_cons, ih (fun a h => ha a (List.mem_cons_of_mem _ h)), List.countP_cons, List.countP_cons]
    cases op
    · simp only [AccessCount.add, Advice.isGlobal, decide_true, if_true, BitVec.ofNat_add, AccessCount.mk.injEq]
      refine ⟨?_, by simp⟩
      rw [BitVec.add_assoc, BitVec.add_comm 1]; rfl
    · simp only [AccessCount.add, Advice.isGlobal, decide_true, if_true, BitVec.ofNat_add, AccessCount.mk.injEq]
      refine ⟨by simp, ?_⟩
      rw [BitVec.add_assoc, BitVec.add_comm 1]; rfl

theorem globals_report (advs : List Advice) (g : BitVec 64) (rw : BitVec 32) :
    GlobalCounts.getInc (advs.foldl (fun x e => globalsAnalysis e x) []) g rw = match advs.filter (Advice.accesses g) with
      | [] => -2
      | _ :: rest => if rw = 0 then BitVec.ofNat 32 (times rest (Advice.isGlobal .get)) else if rw = 1 then BitVec.ofNat 32 (times rest (Advice.isGlobal .set)) else -1 := by
  unfold GlobalCounts.getInc
  rw [modified_but_first (upd := globalsAnalysis) (key := fun a => match a with | .glob _ i _ _ => some i | _ => none)
    (f := fun a x => match a with | .glob _ _ op _ => x.add op | _ => x) (v := ⟨0, 0⟩) (fun a b => by cases a <;> rfl)]
  have e : HMap.get ([] : GlobalCounts) g = none := rfl
  have ht : (advs.filter fun a => decide ((match a with | Advice.glob _ i _ _ => some i | _ => none) = some g)) = advs.filter (Advice.accesses g) := by
    congr 1
    funext a
    cases a <;> simp [Advice.accesses]
  rw [e, ht]
  dsimp only
  cases hl : advs.filter (Advice.accesses g) with
  | nil => rfl
  | cons a rest =>
    have hr : ∀ a ∈ rest, a.accesses g = true := by
      intro a ha
      have : a ∈ advs.filter (Advice.accesses g) := by rw [hl]; exact List.mem_cons_of_mem _ ha
      exact (List.mem_filter.1 this).2
    simp only [AccessCount.adds g rest hr, Option.map_some, Option.getD_some]
    rw [show ∀ {n} (x : BitVec n), (0 : BitVec n) + x = x from fun x => BitVec.zero_add x, show ∀ {n} (x : BitVec n), (0 : BitVec n) + x = x from fun x => BitVec.zero_add x]

/-- **C63, `globals`.** `get_inc(g, 0)` and `get_inc(g, 1)` return the numbers of reads and writes of global `g` the original program made, not counting its first
access of `g`; and -2 if it made none. -/
theorem C63_globals_count_all_but_first {C iface ts m r} {N : Num} {T : Imports (W × Log)} {H : Imports (W × GlobalCounts)}
    (hW : Watching C iface ts m r N (.ahead globalsAnalysis) T H)
    (hoff : ∀ i ∈ bodyTargets m ts, ∀ f c, m.functions[i]? = some f → f.code = .present c → OnlyCode (OffsetsAre iface fun o => o = 0) c.body)
    {f : Nat} {ty : FuncType} {args : List RVal} {s : Store W} (hf : m.ctx.ftype f = some ty) (hargs : ValsOK m.ctx args ty.inputs)
    (hok : StoreOK m.ctx s) (L d : Nat) :
    callF N (machineOf H r.module.functions) L d f args (s.withAnalysis []) = .fuel ∨
    ∃ (a1 : GlobalCounts) (advs : List Advice), Saw C iface ts m N T L d f args s (callF N (machineOf H r.module.functions) L d f args (s.withAnalysis [])) a1 advs ∧
      ∀ g rw, a1.getInc g rw = match advs.filter (Advice.accesses g) with
        | [] => -2
        | _ :: rest => if rw = 0 then BitVec.ofNat 32 (times rest (Advice.isGlobal .get)) else if rw = 1 then BitVec.ofNat 32 (times rest (Advice.isGlobal .set)) else -1 :=
  hW.conclude hoff hf hargs hok _ L d (fun (a1 : GlobalCounts) advs => ∀ g rw, a1.getInc g rw = match advs.filter (Advice.accesses g) with
        | [] => -2
        | _ :: rest => if rw = 0 then BitVec.ofNat 32 (times rest (Advice.isGlobal .get)) else if rw = 1 then BitVec.ofNat 32 (times rest (Advice.isGlobal .set)) else -1) globals_report

-- C63, `globals`: global 7 is written, then read twice; no write is reported.
example : let c := [Advice.glob (.i32 1) 7 .set (.new 1 1), .glob (.i32 1) 7 .get (.new 1 2), .glob (.i32 1) 7 .get (.new 1 3)].foldl (fun (x : GlobalCounts) e => globalsAnalysis e x) []
    c.getInc 7 0 = 2 ∧ c.getInc 7 1 = 0 ∧ c.getInc 8 0 = -2 := by decide +kernel

/-- The event happened at an instruction numbered `i`, of whichever function. -/
def Advice.atInstr (i : BitVec 64) (a : Advice) : Bool := a.location.functionIndex = i

theorem icount_report (advs : List Advice) (x : BitVec 64) (i : BitVec 32) :
    ICounts.getCountFor (advs.foldl (fun x e => icount e x) []) x i = match advs.filter (Advice.atInstr x) with
      | [] => some (-1)
      | _ :: rest => if i = 0 then none else some (BitVec.ofNat 32 (times rest (· matches .ifThenElse ..))) := by
  unfold ICounts.getCountFor
  rw [modified_but_first (upd := icount) (key := fun a => some a.location.functionIndex)
    (f := fun a m => m.modify a.kind.index (· + 1)) (v := List.replicate InstrKind.count 0) (fun a b => rfl)]
  have e : HMap.get ([] : ICounts) x = none := rfl
  have ht : (advs.filter fun a => decide (some a.location.functionIndex = some x)) = advs.filter (Advice.atInstr x) := by
    congr 1
    funext a
    simp [Advice.atInstr]
  rw [e, ht]
  dsimp only
  cases hl : advs.filter (Advice.atInstr x) with
  | nil => rfl
  | cons a rest =>
    dsimp only
    unfold stepByNext
    by_cases hi : i = 0
    · subst hi; rfl
    · have hi' : i.toNat ≠ 0 := fun h => hi (BitVec.eq_of_toNat_eq (by rw [h]; rfl))
      rw [if_neg hi, if_neg hi']
      simp only [Option.map_some, Option.some.injEq, List.head?_eq_getElem?]
      rw [modify_counts (upd := fun a m => m.modify a.kind.index (· + 1)) (pos := fun a => some a.kind.index) (fun a b => rfl)]
      have h0 : (List.replicate InstrKind.count (0 : BitVec 32))[0]? = some 0 := rfl
      rw [h0]
      simp only [Option.map_some, Option.getD_some]
      rw [show ∀ {n} (x : BitVec n), (0 : BitVec n) + x = x from fun x => BitVec.zero_add x]
      congr 1
      apply List.countP_congr
      intro a _
      cases a <;> simp [Advice.kind, InstrKind.index]

/-- **C63, `icount`.** Whatever kind of instruction `get_count_for(x, i)` is asked about, it returns the number of `if`-`else` the original program reached at instructions
numbered `x` of whichever functions — without the first event there — or -1 if there was no event; asked about kind 0 where there was one, it panics. -/
theorem C63_icount_reports_one_kind {C iface ts m r} {N : Num} {T : Imports (W × Log)} {H : Imports (W × ICounts)}
    (hW : Watching C iface ts m r N (.ahead icount) T H)
    (hoff : ∀ i ∈ bodyTargets m ts, ∀ f c, m.functions[i]? = some f → f.code = .present c → OnlyCode (OffsetsAre iface fun o => o = 0) c.body)
    {f : Nat} {ty : FuncType} {args : List RVal} {s : Store W} (hf : m.ctx.ftype f = some ty) (hargs : ValsOK m.ctx args ty.inputs)
    (hok : StoreOK m.ctx s) (L d : Nat) :
    callF N (machineOf H r.module.functions) L d f args (s.withAnalysis []) = .fuel ∨
    ∃ (a1 : ICounts) (advs : List Advice), Saw C iface ts m N T L d f args s (callF N (machineOf H r.module.functions) L d f args (s.withAnalysis [])) a1 advs ∧
      ∀ x i, a1.getCountFor x i = match advs.filter (Advice.atInstr x) with
        | [] => some (-1)
        | _ :: rest => if i = 0 then none else some (BitVec.ofNat 32 (times rest (· matches .ifThenElse ..))) :=
  hW.conclude hoff hf hargs hok _ L d (fun (a1 : ICounts) advs => ∀ x i, a1.getCountFor x i = match advs.filter (Advice.atInstr x) with
        | [] => some (-1)
        | _ :: rest => if i = 0 then none else some (BitVec.ofNat 32 (times rest (· matches .ifThenElse ..)))) icount_report

-- C63, `icount`: `main(0, 5)` makes calls (kind 8) at instruction 5; none is reported.
example : ∃ r, Instruments exTypedChecker exIface none exModule r ∧ ∃ a1,
    callF exNum (machineOf (exWatched (.ahead icount) r.module.exported) r.module.functions) 10 12 1 [.i32 0, .i32 5] (exStore.withAnalysis []) =
      .ok [.i32 49] (Store.withAnalysis { exStore with world := [.i32 7] } a1) ∧ a1.getCountFor 5 8 = some 0 ∧ a1.getCountFor 5 0 = none ∧ a1.getCountFor 2 8 = some (-1) := by
  obtain ⟨r, hr⟩ := instruments_of_ok (C := exTypedChecker) (iface := exIface) (ts := none) (m := exModule) (by decide) exModule_small exModule_raises_typed
  exact ⟨r, hr, _, exWatched_run _ _ hr, by decide +kernel, by decide +kernel, by decide +kernel⟩

end Wastrum
