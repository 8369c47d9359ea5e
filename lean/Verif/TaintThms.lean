import Verif.Taint
import Verif.TellStack
import Verif.MemWatchThms
/-!
# What `taint` reports, and when it stops the program (C78)
-/

set_option linter.unusedSimpArgs false
set_option linter.unusedVariables false

namespace Wastrum

variable {W A : Type}

/-! ## Vocabulary -/

/-- Nothing is tainted: no value, local variable, byte of memory, global variable and no return value. -/
structure TaintState.Untainted (s : TaintState) : Prop where
  values : ∀ f ∈ s.stack, ∀ b ∈ f.blocks, true ∉ b
  locals : ∀ f ∈ s.stack, some true ∉ f.locals
  memory : true ∉ s.memory
  globals : true ∉ s.globals
  returned : s.returnValue ≠ some true

/-- A load or store whose address is 2^31 or larger, or that reaches (with its static offset) beyond what `taint` can allocate. -/
def Advice.TooFar (cap : Nat) : Advice → Prop
  | .load i o _ _ | .store i _ o _ _ => 2 ^ 31 ≤ i.toNat ∨ cap ≤ i.toNat + o.toNat
  | _ => False

def Tale.TooFar (cap : Nat) : Tale → Prop
  | .adv a => a.TooFar cap
  | _ => False

/-- A direct call has returned. -/
def Tale.isReturn : Tale → Bool
  | .adv (.callPost ..) => true
  | _ => false
/-- A function was entered. -/
def Tale.isEnter : Tale → Bool
  | .enter .. => true
  | _ => false

/-- Indices of local and global variables are below 2^32 - 1 (they are 32-bit numbers, and engines allow far fewer variables). -/
def SmallIndices (m : Module) : Prop := ∀ f ∈ m.functions, ∀ c, f.code = .present c →
  (∀ op i, .loc op i ∈ c.body → i < 2 ^ 32 - 1) ∧ ∀ op i, .glob op i ∈ c.body → i < 2 ^ 32 - 1

/-! ## Steps -/

/-- What the analysis preserves. -/
structure TaintState.Good (cap : Nat) (s : TaintState) : Prop extends s.Untainted where
  room : s.memory.length ≤ cap

theorem TaintState.Good.pop {cap : Nat} {s : TaintState} (h : s.Good cap) : s.pop.2.Good cap ∧ s.pop.1 ≠ some true ∧ s.pop.2.stack.length = s.stack.length := by
  unfold TaintState.pop
  split
  · rename_i v vs bs ls fs e
    have hv := h.values
    have hl := h.locals
    simp only [e, List.mem_cons, forall_eq_or_imp] at hv hl
    refine ⟨⟨⟨?_, ?_, h.memory, h.globals, h.returned⟩, h.room⟩, ?_, by simp [e]⟩
    · simp only [List.mem_cons, forall_eq_or_imp]
      exact ⟨⟨fun hm => hv.1.1 (.inr hm), hv.1.2⟩, hv.2⟩
    · simp only [List.mem_cons, forall_eq_or_imp]
      exact hl
    · simp only [ne_eq, Option.some.injEq]
      rintro rfl
      exact hv.1.1 (.inl rfl)
  · exact ⟨h, nofun, rfl⟩

theorem TaintState.Good.push {cap : Nat} {s : TaintState} (h : s.Good cap) {t : Bool} (ht : t = false) : (s.push t).Good cap ∧ (s.push t).stack.length = s.stack.length := by
  subst ht
  unfold TaintState.push
  split
  · rename_i vs bs ls fs e
    have hv := h.values
    have hl := h.locals
    simp only [e, List.mem_cons, forall_eq_or_imp] at hv hl
    refine ⟨⟨⟨?_, ?_, h.memory, h.globals, h.returned⟩, h.room⟩, by simp [e]⟩
    · simp only [List.mem_cons, forall_eq_or_imp]
      exact ⟨⟨by simpa using hv.1.1, hv.1.2⟩, hv.2⟩
    · simp only [List.mem_cons, forall_eq_or_imp]
      exact hl
  · exact ⟨h, rfl⟩

theorem TaintState.Good.popBlock {cap : Nat} {s : TaintState} (h : s.Good cap) : s.popBlock.2.Good cap ∧ (∀ b, s.popBlock.1 = some b → true ∉ b) ∧ s.popBlock.2.stack.length = s.stack.length := by
  unfold TaintState.popBlock
  split
  · rename_i b bs ls fs e
    have hv := h.values
    have hl := h.locals
    simp only [e, List.mem_cons, forall_eq_or_imp] at hv hl
    refine ⟨⟨⟨?_, ?_, h.memory, h.globals, h.returned⟩, h.room⟩, ?_, by simp [e]⟩
    · simp only [List.mem_cons, forall_eq_or_imp]
      exact ⟨hv.1.2, hv.2⟩
    · simp only [List.mem_cons, forall_eq_or_imp]
      exact hl
    · rintro _ ⟨⟩; exact hv.1.1
  · exact ⟨h, nofun, rfl⟩

theorem TaintState.Good.begin {cap : Nat} {s : TaintState} (h : s.Good cap) : s.begin.Good cap ∧ s.begin.stack.length = s.stack.length := by
  unfold TaintState.begin
  split
  · rename_i f fs e
    have hv := h.values
    have hl := h.locals
    simp only [e, List.mem_cons, forall_eq_or_imp] at hv hl
    refine ⟨⟨⟨?_, ?_, h.memory, h.globals, h.returned⟩, h.room⟩, by simp [e]⟩
    · simp only [List.mem_cons, forall_eq_or_imp]
      exact ⟨⟨by simp, hv.1⟩, hv.2⟩
    · simp only [List.mem_cons, forall_eq_or_imp]
      exact hl
  · exact ⟨h, rfl⟩

theorem TaintState.Good.setReturn {cap : Nat} {s : TaintState} (h : s.Good cap) {r : Option Bool} (hr : r ≠ some true) : ({ s with returnValue := r } : TaintState).Good cap :=
  ⟨⟨h.values, h.locals, h.memory, h.globals, hr⟩, h.room⟩

theorem TaintState.Good.endBlock {cap : Nat} {s : TaintState} (h : s.Good cap) (function : Bool) : (s.endBlock function).Good cap ∧ (s.endBlock function).stack.length = s.stack.length := by
  obtain ⟨h1, h2, h3⟩ := h.popBlock
  unfold TaintState.endBlock
  generalize s.popBlock = p at h1 h2 h3 ⊢
  obtain ⟨b, s1⟩ := p
  dsimp only at h1 h2 h3
  split
  · rename_i v vs s' e
    cases e
    split
    · refine ⟨h1.setReturn ?_, h3⟩
      have := h2 _ rfl
      rintro ⟨⟩
      exact this (List.mem_cons_self ..)
    · exact ⟨h1, h3⟩
  · rename_i e
    cases e
    exact ⟨h1, h3⟩

theorem mem_vecResize {α} {l : List α} {n : Nat} {d x : α} (h : x ∈ vecResize l n d) : x ∈ l ∨ x = d := by
  unfold vecResize at h
  rw [List.mem_append] at h
  rcases h with h | h
  · exact .inl (List.mem_of_mem_take h)
  · exact .inr (List.mem_replicate.1 h).2

theorem vecResize_length {α} (l : List α) (n : Nat) (d : α) : (vecResize l n d).length = n := by
  simp [vecResize]; omega

theorem mem_vecSet {α} {l l' : List α} {i : Nat} {x y : α} (h : vecSet l i x = some l') (hy : y ∈ l') : y ∈ l ∨ y = x := by
  unfold vecSet at h
  split at h <;> cases h
  exact List.mem_or_eq_of_mem_set hy

theorem i64ToUsize_small {x : BitVec 64} (h : x.toNat < 2 ^ 32) : i64ToUsize x = some (x.setWidth 32) := by
  unfold i64ToUsize i64ToU32
  rw [if_pos]
  rw [BitVec.toInt_eq_toNat_of_lt (by omega)]
  omega

theorem i32ToUsize_eq (x : BitVec 32) : i32ToUsize x = if x.toNat < 2 ^ 31 then some x else none := by
  unfold i32ToUsize
  have : 0 ≤ x.toInt ↔ x.toNat < 2 ^ 31 := by
    rw [BitVec.toInt_eq_toNat_cond]; have := x.isLt; split <;> omega
  simp only [this]

/-- Both shapes of growing a vector to hold an index. -/
theorem grown_length {α} (l : List α) (i : BitVec 32) (hi : i.toNat < 2 ^ 32 - 1) (d : α) :
    i.toNat < (if l.length ≤ i.toNat then vecResize l (i + 1).toNat d else l).length := by
  split
  · rw [vecResize_length, BitVec.toNat_add]
    have : (1 : BitVec 32).toNat = 1 := rfl
    rw [this, Nat.mod_eq_of_lt (by omega)]
    omega
  · omega

theorem mem_grown {α} {l : List α} {i : BitVec 32} {d x : α} (h : x ∈ (if l.length ≤ i.toNat then vecResize l (i + 1).toNat d else l)) : x ∈ l ∨ x = d := by
  split at h
  · exact mem_vecResize h
  · exact .inl h

theorem setWidth_small {x : BitVec 64} (h : x.toNat < 2 ^ 32 - 1) : (x.setWidth 32).toNat < 2 ^ 32 - 1 := by
  rw [BitVec.toNat_setWidth, Nat.mod_eq_of_lt (by omega)]; exact h

theorem TaintState.Good.localsSet {cap : Nat} {s : TaintState} (h : s.Good cap) {index : BitVec 64} (hi : index.toNat < 2 ^ 32 - 1) {t : Option Bool} (ht : t ≠ some true) :
    ∃ s', s.localsSet index t = some s' ∧ s'.Good cap ∧ s'.stack.length = s.stack.length := by
  unfold TaintState.localsSet
  rw [i64ToUsize_small (by omega), Option.bind_some]
  split
  · rename_i f fs e
    have hv := h.values
    have hl := h.locals
    simp only [e, List.mem_cons, forall_eq_or_imp] at hv hl
    have hs := setWidth_small hi
    generalize index.setWidth 32 = i at hs
    have hlen := grown_length f.locals i hs none
    have hset : ∃ l', vecSet (if f.locals.length ≤ i.toNat then vecResize f.locals (i + 1).toNat none else f.locals) i.toNat t = some l' := by
      unfold vecSet; rw [if_pos hlen]; exact ⟨_, rfl⟩
    obtain ⟨l', hl'⟩ := hset
    dsimp only
    rw [hl']
    refine ⟨_, rfl, ⟨⟨?_, ?_, h.memory, h.globals, h.returned⟩, h.room⟩, by simp [e]⟩
    · simp only [List.mem_cons, forall_eq_or_imp]; exact hv
    · simp only [List.mem_cons, forall_eq_or_imp]
      refine ⟨fun hm => ?_, hl.2⟩
      rcases mem_vecSet hl' hm with hm | hm
      · rcases mem_grown hm with hm | hm
        · exact hl.1 hm
        · cases hm
      · exact ht hm.symm
  · exact ⟨_, rfl, h, rfl⟩

theorem TaintState.Good.localsGet {cap : Nat} {s : TaintState} (h : s.Good cap) {index : BitVec 64} (hi : index.toNat < 2 ^ 32 - 1) : s.localsGet index = some false := by
  unfold TaintState.localsGet
  rw [i64ToUsize_small (by omega), Option.map_some]
  congr 1
  split
  · rename_i f fs e
    have hl := h.locals
    simp only [e, List.mem_cons, forall_eq_or_imp] at hl
    cases hx : f.locals[(index.setWidth 32).toNat]? with
    | none => rfl
    | some t =>
      cases t with
      | none => rfl
      | some b =>
        cases b with
        | false => rfl
        | true => exact absurd (List.mem_of_getElem? hx) hl.1
  · rfl

theorem TaintState.Good.globalsSet {cap : Nat} {s : TaintState} (h : s.Good cap) {index : BitVec 64} (hi : index.toNat < 2 ^ 32 - 1) {t : Option Bool} (ht : t ≠ some true) :
    ∃ s', s.globalsSet index t = some s' ∧ s'.Good cap ∧ s'.stack.length = s.stack.length := by
  unfold TaintState.globalsSet
  rw [i64ToUsize_small (by omega), Option.bind_some]
  have hs := setWidth_small hi
  generalize index.setWidth 32 = i at hs
  have hlen := grown_length s.globals i hs false
  have hg : true ∉ (if s.globals.length ≤ i.toNat then vecResize s.globals (i + 1).toNat false else s.globals) := fun hm => by
    rcases mem_grown hm with hm | hm
    · exact h.globals hm
    · cases hm
  dsimp only
  cases t with
  | none => exact ⟨_, rfl, ⟨⟨h.values, h.locals, h.memory, hg, h.returned⟩, h.room⟩, rfl⟩
  | some t =>
    have hset : ∃ l', vecSet (if s.globals.length ≤ i.toNat then vecResize s.globals (i + 1).toNat false else s.globals) i.toNat t = some l' := by
      unfold vecSet; rw [if_pos hlen]; exact ⟨_, rfl⟩
    obtain ⟨l', hl'⟩ := hset
    dsimp only
    rw [hl']
    refine ⟨_, rfl, ⟨⟨h.values, h.locals, h.memory, fun hm => ?_, h.returned⟩, h.room⟩, rfl⟩
    rcases mem_vecSet hl' hm with hm | hm
    · exact hg hm
    · exact ht (by rw [hm])

theorem TaintState.Good.globalsGet {cap : Nat} {s : TaintState} (h : s.Good cap) {index : BitVec 64} (hi : index.toNat < 2 ^ 32 - 1) :
    ∃ s', s.globalsGet index = some (false, s') ∧ s'.Good cap ∧ s'.stack.length = s.stack.length := by
  unfold TaintState.globalsGet
  rw [i64ToUsize_small (by omega), Option.bind_some]
  have hs := setWidth_small hi
  generalize index.setWidth 32 = i at hs
  have hlen := grown_length s.globals i hs false
  have hg : true ∉ (if s.globals.length ≤ i.toNat then vecResize s.globals (i + 1).toNat false else s.globals) := fun hm => by
    rcases mem_grown hm with hm | hm
    · exact h.globals hm
    · cases hm
  dsimp only
  generalize (if s.globals.length ≤ i.toNat then vecResize s.globals (i + 1).toNat false else s.globals) = g at hlen hg
  have : g[i.toNat]? = some false := by
    rw [List.getElem?_eq_getElem hlen]
    congr 1
    cases hx : g[i.toNat] with
    | false => rfl
    | true => exact absurd (hx ▸ List.getElem_mem hlen) hg
  rw [this]
  exact ⟨_, rfl, ⟨⟨h.values, h.locals, h.memory, hg, h.returned⟩, h.room⟩, rfl⟩

theorem TaintState.Good.memoryFor {cap : Nat} {s : TaintState} (h : s.Good cap) {i : BitVec 32} {o : BitVec 64} (ho : o.toNat < 2 ^ 31) :
    (2 ^ 31 ≤ i.toNat ∨ cap ≤ i.toNat + o.toNat → s.memoryFor cap i o = none) ∧
    (¬ (2 ^ 31 ≤ i.toNat ∨ cap ≤ i.toNat + o.toNat) → ∃ mem, s.memoryFor cap i o = some (i.toNat + o.toNat, mem) ∧ i.toNat + o.toNat < mem.length ∧ mem.length ≤ cap ∧ true ∉ mem) := by
  unfold TaintState.memoryFor
  rw [i32ToUsize_eq, i64ToUsize_small (by omega)]
  by_cases hi : i.toNat < 2 ^ 31
  · rw [if_pos hi, Option.bind_some, Option.bind_some]
    have e : (i + o.setWidth 32).toNat = i.toNat + o.toNat := by
      rw [BitVec.toNat_add, BitVec.toNat_setWidth, Nat.mod_eq_of_lt (a := o.toNat) (by omega), Nat.mod_eq_of_lt (by omega)]
    have e1 : (i + o.setWidth 32 + 1).toNat = i.toNat + o.toNat + 1 := by
      rw [BitVec.toNat_add, e]
      exact Nat.mod_eq_of_lt (by simp; omega)
    have hr := h.room
    simp only [e, e1]
    by_cases hm : s.memory.length ≤ i.toNat + o.toNat
    · rw [if_pos hm]
      refine ⟨fun hc => if_neg (by omega), fun hc => ?_⟩
      rw [if_pos (by omega)]
      refine ⟨_, rfl, by rw [vecResize_length]; omega, by rw [vecResize_length]; omega, fun hm => ?_⟩
      rcases mem_vecResize hm with hm | hm
      · exact h.memory hm
      · cases hm
    · rw [if_neg hm]
      exact ⟨fun hc => by omega, fun hc => ⟨_, rfl, by omega, hr, h.memory⟩⟩
  · rw [if_neg hi]
    exact ⟨fun _ => rfl, fun hc => absurd (.inl (by omega)) hc⟩

theorem TaintState.Good.memoryGet {cap : Nat} {s : TaintState} (h : s.Good cap) {i : BitVec 32} {o : BitVec 64} (ho : o.toNat < 2 ^ 31) :
    (2 ^ 31 ≤ i.toNat ∨ cap ≤ i.toNat + o.toNat → s.memoryGet cap i o = none) ∧
    (¬ (2 ^ 31 ≤ i.toNat ∨ cap ≤ i.toNat + o.toNat) → ∃ s', s.memoryGet cap i o = some (false, s') ∧ s'.Good cap ∧ s'.stack.length = s.stack.length) := by
  obtain ⟨h1, h2⟩ := h.memoryFor (i := i) ho
  refine ⟨fun hc => by unfold TaintState.memoryGet; rw [h1 hc]; rfl, fun hc => ?_⟩
  obtain ⟨mem, e, h3, h4, h5⟩ := h2 hc
  unfold TaintState.memoryGet
  rw [e, Option.bind_some]
  have : mem[i.toNat + o.toNat]? = some false := by
    rw [List.getElem?_eq_getElem h3]
    congr 1
    cases hx : mem[i.toNat + o.toNat] with
    | false => rfl
    | true => exact absurd (hx ▸ List.getElem_mem h3) h5
  dsimp only
  rw [this]
  exact ⟨_, rfl, ⟨⟨h.values, h.locals, h5, h.globals, h.returned⟩, h4⟩, rfl⟩

theorem TaintState.Good.memorySet {cap : Nat} {s : TaintState} (h : s.Good cap) {i : BitVec 32} {t : Bool} {o : BitVec 64} (ho : o.toNat < 2 ^ 31) (ht : t = false) :
    (2 ^ 31 ≤ i.toNat ∨ cap ≤ i.toNat + o.toNat → s.memorySet cap i t o = none) ∧
    (¬ (2 ^ 31 ≤ i.toNat ∨ cap ≤ i.toNat + o.toNat) → ∃ s', s.memorySet cap i t o = some s' ∧ s'.Good cap ∧ s'.stack.length = s.stack.length) := by
  subst ht
  obtain ⟨h1, h2⟩ := h.memoryFor (i := i) ho
  refine ⟨fun hc => by unfold TaintState.memorySet; rw [h1 hc]; rfl, fun hc => ?_⟩
  obtain ⟨mem, e, h3, h4, h5⟩ := h2 hc
  unfold TaintState.memorySet
  rw [e, Option.bind_some]
  have hs : vecSet mem (i.toNat + o.toNat) false = some (mem.set (i.toNat + o.toNat) false) := if_pos h3
  dsimp only
  rw [hs]
  refine ⟨_, rfl, ⟨⟨h.values, h.locals, fun hm => ?_, h.globals, h.returned⟩, by simpa using h4⟩, rfl⟩
  rcases mem_vecSet hs hm with hm | hm
  · exact h5 hm
  · cases hm

/-- What holds of the events of a program. -/
def Advice.Tame : Advice → Prop
  | .load _ o _ _ | .store _ _ o _ _ => o.toNat < 2 ^ 31
  | .loc _ i _ _ | .glob _ i _ _ => i.toNat < 2 ^ 32 - 1
  | _ => True

theorem getD_untainted {t : Option Bool} (h : t ≠ some true) : t.getD false = false := by
  cases t with
  | none => rfl
  | some b => cases b <;> simp at h ⊢

theorem some_untainted {b : Bool} (h : some b ≠ some true) : b = false := by
  cases b <;> simp at h ⊢

/-- One event. -/
theorem taintAdvice_step {cap : Nat} {s : TaintState} (h : s.Good cap) {a : Advice} (ha : a.Tame) :
    (a.TooFar cap → taintAdvice cap a s = none) ∧
    (¬ a.TooFar cap → ∃ s', taintAdvice cap a s = some s' ∧ s'.Good cap ∧ s.stack.length ≤ s'.stack.length + if Tale.isReturn (.adv a) then 1 else 0) := by
  have hp := h.pop
  have hpp := hp.1.pop
  have hppp := hpp.1.pop
  have hb := h.popBlock
  have hpb := hp.1.popBlock
  cases a with
  | load i o op l =>
    obtain ⟨k1, k2⟩ := hp.1.memoryGet (i := i) ha
    refine ⟨fun hc => by simp only [taintAdvice, k1 hc, Option.map_none], fun hc => ?_⟩
    obtain ⟨s', e, g, hl⟩ := k2 hc
    refine ⟨s'.push false, by simp only [taintAdvice, e, Option.map_some], (g.push rfl).1, ?_⟩
    rw [(g.push rfl).2, hl, hp.2.2]; omega
  | store i v o op l =>
    obtain ⟨k1, k2⟩ := hpp.1.memorySet (i := i) ha (getD_untainted hp.2.1)
    refine ⟨fun hc => by simp only [taintAdvice]; exact k1 hc, fun hc => ?_⟩
    obtain ⟨s', e, g, hl⟩ := k2 hc
    refine ⟨s', by simp only [taintAdvice]; exact e, g, ?_⟩
    rw [hl, hpp.2.2, hp.2.2]; omega
  | loc v i op l =>
    refine ⟨nofun, fun _ => ?_⟩
    cases op with
    | get => exact ⟨s.push false, by simp only [taintAdvice, h.localsGet ha, Option.map_some], (h.push rfl).1, by rw [(h.push rfl).2]; omega⟩
    | set =>
      obtain ⟨s', e, g, hl⟩ := hp.1.localsSet ha hp.2.1
      exact ⟨s', by simp only [taintAdvice]; exact e, g, by rw [hl, hp.2.2]; omega⟩
    | tee =>
      obtain ⟨s', e, g, hl⟩ := hp.1.localsSet ha hp.2.1
      exact ⟨s', by simp only [taintAdvice]; exact e, g, by rw [hl, hp.2.2]; omega⟩
  | glob v i op l =>
    refine ⟨nofun, fun _ => ?_⟩
    cases op with
    | get =>
      obtain ⟨s', e, g, hl⟩ := h.globalsGet ha
      exact ⟨s'.push false, by simp only [taintAdvice, e, Option.map_some], (g.push rfl).1, by rw [(g.push rfl).2, hl]; omega⟩
    | set =>
      obtain ⟨s', e, g, hl⟩ := hp.1.globalsSet ha hp.2.1
      exact ⟨s', by simp only [taintAdvice]; exact e, g, by rw [hl, hp.2.2]; omega⟩
  | ifThen | ifThenElse | drop => exact ⟨nofun, fun _ => ⟨_, rfl, hp.1, by rw [hp.2.2]; omega⟩⟩
  | ifThenPost | ifThenElsePost | blockPost | loopPost | callIndirectPost => exact ⟨nofun, fun _ => ⟨_, rfl, (h.endBlock _).1, by rw [(h.endBlock _).2]; omega⟩⟩
  | br => exact ⟨nofun, fun _ => ⟨_, rfl, hb.1, by rw [hb.2.2]; omega⟩⟩
  | brIf k lb l =>
    refine ⟨nofun, fun _ => ?_⟩
    cases hk : isThen k with
    | true => exact ⟨_, by simp only [taintAdvice, hk, if_true], hpb.1, by rw [hpb.2.2, hp.2.2]; omega⟩
    | false => exact ⟨_, by simp only [taintAdvice, hk, Bool.false_eq_true, if_false], hp.1, by rw [hp.2.2]; omega⟩
  | brTable => exact ⟨nofun, fun _ => ⟨_, rfl, hpb.1, by rw [hpb.2.2, hp.2.2]; omega⟩⟩
  | callPre | callIndirectPre => exact ⟨nofun, fun _ => ⟨_, rfl, h, by omega⟩⟩
  | blockPre | loopPre => exact ⟨nofun, fun _ => ⟨_, rfl, h.begin.1, by rw [h.begin.2]; omega⟩⟩
  | const | memorySize => exact ⟨nofun, fun _ => ⟨_, rfl, (h.push rfl).1, by rw [(h.push rfl).2]; omega⟩⟩
  | memoryGrow => exact ⟨nofun, fun _ => ⟨_, rfl, (hp.1.push rfl).1, by rw [(hp.1.push rfl).2, hp.2.2]; omega⟩⟩
  | unary => exact ⟨nofun, fun _ => ⟨s.pop.2.push (s.pop.1.getD false), rfl, (hp.1.push (getD_untainted hp.2.1)).1, by rw [(hp.1.push (getD_untainted hp.2.1)).2, hp.2.2]; omega⟩⟩
  | binary =>
    refine ⟨nofun, fun _ => ?_⟩
    simp only [taintAdvice]
    split
    · rename_i t1 t2 e1 e2
      have g1 := some_untainted (e1 ▸ hp.2.1)
      have g2 := some_untainted (e2 ▸ hpp.2.1)
      have g : taintJoin t1 t2 = false := by rw [g1, g2]; rfl
      exact ⟨_, rfl, (hpp.1.push g).1, by rw [(hpp.1.push g).2, hpp.2.2, hp.2.2]; omega⟩
    · exact ⟨_, rfl, (hpp.1.push rfl).1, by rw [(hpp.1.push rfl).2, hpp.2.2, hp.2.2]; omega⟩
  | select k l =>
    refine ⟨nofun, fun _ => ?_⟩
    simp only [taintAdvice]
    split
    · rename_i t2 t1 e2 e1
      have g2 := some_untainted (e2 ▸ hpp.2.1)
      have g1 := some_untainted (e1 ▸ hppp.2.1)
      have g : (if isThen k then t1 else t2) = false := by rw [g1, g2]; split <;> rfl
      exact ⟨_, rfl, (hppp.1.push g).1, by rw [(hppp.1.push g).2, hppp.2.2, hpp.2.2, hp.2.2]; omega⟩
    · exact ⟨_, rfl, (hppp.1.push rfl).1, by rw [(hppp.1.push rfl).2, hppp.2.2, hpp.2.2, hp.2.2]; omega⟩
  | ret =>
    refine ⟨nofun, fun _ => ?_⟩
    simp only [taintAdvice]
    generalize (s.returnValue.isSome && _ : Bool) = c
    cases c with
    | true => exact ⟨_, rfl, hp.1.setReturn hp.2.1, by rw [hp.2.2]; omega⟩
    | false => exact ⟨_, rfl, h, by omega⟩
  | callPost f l =>
    refine ⟨nofun, fun _ => ?_⟩
    have h0 : ({ s with stack := s.stack.drop 1 } : TaintState).Good cap :=
      ⟨⟨fun f hf => h.values f (List.mem_of_mem_drop hf), fun f hf => h.locals f (List.mem_of_mem_drop hf), h.memory, h.globals, h.returned⟩, h.room⟩
    simp only [taintAdvice]
    split
    · rename_i r e
      have g := h0.push (some_untainted (e ▸ h.returned))
      have g1 := g.1.setReturn (r := none) nofun
      refine ⟨_, rfl, (g1.endBlock true).1, ?_⟩
      rw [(g1.endBlock true).2]
      dsimp only
      rw [g.2]
      simp [Tale.isReturn]; omega
    · refine ⟨_, rfl, (h0.endBlock true).1, ?_⟩
      rw [(h0.endBlock true).2]
      simp [Tale.isReturn]; omega

theorem taintArgs_good {cap : Nat} (xs : List Val) {s : TaintState} (h : s.Good cap) :
    (taintArgs xs s).2.Good cap ∧ some true ∉ (taintArgs xs s).1 ∧ (taintArgs xs s).2.stack.length = s.stack.length := by
  induction xs generalizing s with
  | nil => exact ⟨h, by simp [taintArgs], rfl⟩
  | cons x xs ih =>
    have hp := h.pop
    obtain ⟨h1, h2, h3⟩ := ih hp.1
    refine ⟨h1, ?_, by rw [← hp.2.2]; exact h3⟩
    simp only [taintArgs, List.mem_cons, not_or]
    refine ⟨?_, h2⟩
    cases s.pop.1 <;> simp

theorem TaintState.Good.enter {cap : Nat} {s : TaintState} (h : s.Good cap) (xs : List Val) : (s.enter xs).Good cap ∧ (s.enter xs).stack.length = s.stack.length + 1 := by
  obtain ⟨h1, h2, h3⟩ := taintArgs_good xs h
  refine ⟨⟨⟨?_, ?_, h1.memory, h1.globals, h1.returned⟩, h1.room⟩, ?_⟩
  · simp only [TaintState.enter, List.mem_cons, forall_eq_or_imp]
    exact ⟨by simp, h1.values⟩
  · simp only [TaintState.enter, List.mem_cons, forall_eq_or_imp]
    exact ⟨h2, h1.locals⟩
  · simp only [TaintState.enter, List.length_cons, h3]

/-- A sequence of events. -/
theorem taint_hear {cap : Nat} (tales : List Tale) (ht : ∀ a, .adv a ∈ tales → a.Tame) {s : TaintState} (h : s.Good cap) :
    ((∃ t ∈ tales, t.TooFar cap) → (taint cap).hear tales s = none) ∧
    ((∀ t ∈ tales, ¬ t.TooFar cap) → ∃ s', (taint cap).hear tales s = some s' ∧ s'.Good cap ∧
      s.stack.length + tales.countP Tale.isEnter ≤ s'.stack.length + tales.countP Tale.isReturn) := by
  induction tales generalizing s with
  | nil => exact ⟨fun ⟨t, ht, _⟩ => (List.not_mem_nil ht).elim, fun _ => ⟨s, rfl, h, by simp⟩⟩
  | cons t ts ih =>
    have ih := fun {s'} => ih (s := s') (fun a ha => ht a (List.mem_cons_of_mem _ ha))
    have key : (t.TooFar cap → (taint cap).tell t s = none) ∧ (¬ t.TooFar cap → ∃ s', (taint cap).tell t s = some s' ∧ s'.Good cap ∧
        s.stack.length + (if t.isEnter then 1 else 0) ≤ s'.stack.length + if t.isReturn then 1 else 0) := by
      cases t with
      | adv a =>
        obtain ⟨h1, h2⟩ := taintAdvice_step h (ht a (List.mem_cons_self ..))
        refine ⟨fun hc => ?_, fun hc => ?_⟩
        · show (taintAdvice cap a s).bind _ = none
          rw [h1 hc]; rfl
        · obtain ⟨s', e, g, hl⟩ := h2 hc
          exact ⟨s', by show (taintAdvice cap a s).bind _ = _; rw [e]; rfl, g, hl⟩
      | enter i xs => exact ⟨nofun, fun _ => ⟨_, rfl, (h.enter xs).1, by rw [(h.enter xs).2]; simp [Tale.isEnter]⟩⟩
      | leave i xs ys => exact ⟨nofun, fun _ => ⟨s, rfl, h, by simp [Tale.isEnter]⟩⟩
    by_cases hf : t.TooFar cap
    · exact ⟨fun _ => by simp only [CallWatcher.hear, key.1 hf, Option.bind_none], fun hc => absurd hf (hc t (List.mem_cons_self ..))⟩
    · obtain ⟨s', e, g, hl⟩ := key.2 hf
      obtain ⟨k1, k2⟩ := ih g
      simp only [CallWatcher.hear, e, Option.bind_some]
      refine ⟨fun ⟨x, hx, hfx⟩ => ?_, fun hc => ?_⟩
      · rcases List.mem_cons.1 hx with rfl | hx
        · exact absurd hfx hf
        · exact k1 ⟨x, hx, hfx⟩
      · obtain ⟨s'', e', g', hl'⟩ := k2 fun x hx => hc x (List.mem_cons_of_mem _ hx)
        refine ⟨s'', e', g', ?_⟩
        rw [List.countP_cons, List.countP_cons]
        omega

theorem TaintState.init_good (cap : Nat) : TaintState.init.Good cap := ⟨⟨nofun, nofun, nofun, nofun, nofun⟩, Nat.zero_le _⟩

/-! ## The events of a program -/

/-- The hooks of local and global variables. -/
def Trap.variable : Trap → Bool
  | .localGetI32 | .localGetF32 | .localGetI64 | .localGetF64 | .localSetI32 | .localSetF32 | .localSetI64 | .localSetF64 | .localTeeI32 | .localTeeF32 | .localTeeI64 | .localTeeF64
  | .globalGetI32 | .globalGetF32 | .globalGetI64 | .globalGetF64 | .globalSetI32 | .globalSetF32 | .globalSetI64 | .globalSetF64 => true
  | _ => false

theorem stdEntry_is_loc {t args v i op l} (h : stdEntry t args = some (.loc v i op l)) : t.variable = true ∧ ∃ f g, args = [.num v, .i64 i, .i64 f, .i64 g] := by
  unfold stdEntry at h
  split at h
  all_goals (split at h <;> first | (cases h; done) | skip)
  all_goals first | (simp at h; done) | skip
  all_goals (cases h; exact ⟨rfl, _, _, rfl⟩)

theorem stdEntry_is_glob {t args v i op l} (h : stdEntry t args = some (.glob v i op l)) : t.variable = true ∧ ∃ f g, args = [.num v, .i64 i, .i64 f, .i64 g] := by
  unfold stdEntry at h
  split at h
  all_goals (split at h <;> first | (cases h; done) | skip)
  all_goals first | (simp at h; done) | skip
  all_goals (cases h; exact ⟨rfl, _, _, rfl⟩)

theorem events_variable {instr : LInstr} {t k info} (h : (t, k, info) ∈ instr.events) (ht : t.variable = true) :
    ∃ i, ((∃ op, instr = .loc op i) ∨ ∃ op, instr = .glob op i) ∧ k = 1 ∧ info = [nI64 i] := by
  cases instr
  case loc op i =>
    simp only [LInstr.events, List.mem_map, Prod.mk.injEq] at h
    obtain ⟨t', h1, rfl, rfl, rfl⟩ := h
    exact ⟨i, .inl ⟨op, rfl⟩, rfl, rfl⟩
  case glob op i =>
    simp only [LInstr.events, List.mem_map, Prod.mk.injEq] at h
    obtain ⟨t', h1, rfl, rfl, rfl⟩ := h
    exact ⟨i, .inr ⟨op, rfl⟩, rfl, rfl⟩
  all_goals exfalso
  case load op ma =>
    simp only [LInstr.events, List.mem_map, Option.mem_toList, Prod.mk.injEq] at h
    obtain ⟨t', h1, rfl, rfl, rfl⟩ := h
    unfold loadTrap at h1
    split at h1 <;> first | (cases h1; cases ht) | cases h1
  case store op ma =>
    simp only [LInstr.events, List.mem_map, Option.mem_toList, Prod.mk.injEq] at h
    obtain ⟨t', h1, rfl, rfl, rfl⟩ := h
    unfold storeTrap at h1
    split at h1 <;> first | (cases h1; cases ht) | cases h1
  case const v =>
    simp only [LInstr.events, List.mem_map, Option.mem_toList, Prod.mk.injEq] at h
    obtain ⟨t', h1, rfl, rfl, rfl⟩ := h
    unfold constTrap at h1
    split at h1 <;> first | (cases h1; cases ht) | cases h1
  case unary op =>
    simp only [LInstr.events, List.mem_map, Option.mem_toList, Prod.mk.injEq] at h
    obtain ⟨t', h1, rfl, rfl, rfl⟩ := h
    unfold unaryTrap at h1
    split at h1 <;> first | (cases h1; cases ht) | cases h1
  case binary op =>
    simp only [LInstr.events, List.mem_map, Option.mem_toList, Prod.mk.injEq] at h
    obtain ⟨t', h1, rfl, rfl, rfl⟩ := h
    unfold binaryTrap at h1
    split at h1 <;> first | (cases h1; cases ht) | cases h1
  case brTable ls d =>
    simp only [LInstr.events, List.mem_map, Prod.mk.injEq] at h
    obtain ⟨t', h1, rfl, rfl, rfl⟩ := h
    cases ht
  all_goals simp only [LInstr.events, List.mem_cons, Prod.mk.injEq, List.not_mem_nil, or_false] at h
  all_goals first
    | (obtain ⟨rfl, _⟩ := h; cases ht; done)
    | (rcases h with ⟨rfl, _⟩ | ⟨rfl, _⟩ <;> cases ht; done)
    | (rcases h with ⟨rfl, _⟩ | ⟨rfl, _⟩ | ⟨rfl, _⟩ | ⟨rfl, _⟩ <;> cases ht; done)

/-- A variable an analysis is told of is one of an instruction of the program. -/
theorem raised_variable {m : Module} (hm : SmallIndices m) {targets : List Nat} {t args} (h : RaisedBy m targets t args) (ht : t.variable = true) {v : Val} {x f g : BitVec 64}
    (e : args = [.num v, .i64 x, .i64 f, .i64 g]) : x.toNat < 2 ^ 32 - 1 := by
  obtain ⟨f', hf, fn, c, i, instr, h1, h2, h3, k, info, ops, h4, h5, rfl⟩ := h
  obtain ⟨j, hj, rfl, rfl⟩ := events_variable h4 ht
  have hl : ops.length = 1 := by have := congrArg List.length e; simp at this; omega
  match ops, hl with
  | [w], _ =>
    simp only [nI64, List.cons_append, List.nil_append, List.cons.injEq, RVal.i64, RVal.num.injEq, Val.i64.injEq] at e
    obtain ⟨_, rfl, _⟩ := e
    have hb := hm fn (List.mem_of_getElem? h1) c h2
    have : j < 2 ^ 32 - 1 := by
      rcases hj with ⟨op, rfl⟩ | ⟨op, rfl⟩
      · exact hb.1 op j (List.mem_of_getElem? h3)
      · exact hb.2 op j (List.mem_of_getElem? h3)
    rw [BitVec.toNat_ofNat, Nat.mod_eq_of_lt (by omega)]
    exact this

theorem raised_tame {iface : Interface} {m : Module} (hm : SmallIndices m) {targets : List Nat}
    (hoff : ∀ i ∈ targets, ∀ f c, m.functions[i]? = some f → f.code = .present c → OnlyCode (OffsetsAre iface fun o => o.toNat < 2 ^ 31) c.body)
    {t args a} (h : RaisedBy m targets t args) (ht : (iface.trap t).isSome) (he : stdEntry t args = some a) : a.Tame := by
  cases a with
  | loc v i op l =>
    obtain ⟨h1, f, g, h2⟩ := stdEntry_is_loc he
    exact raised_variable hm h h1 h2
  | glob v i op l =>
    obtain ⟨h1, f, g, h2⟩ := stdEntry_is_glob he
    exact raised_variable hm h h1 h2
  | load x o op l =>
    obtain ⟨ht', f', g', code, e1, e2, e3⟩ := stdEntry_is_load he
    obtain ⟨f, hf, fn, c, i, instr, h1, h2, h3, k, info, ops, h4, h5, rfl⟩ := h
    have hta : t.accesses = true := by rcases ht' with rfl | rfl | rfl | rfl <;> rfl
    rcases events_access h4 hta with ⟨op', ma, rfl, hs, rfl, rfl⟩ | ⟨op', ma, rfl, hs, rfl, rfl⟩
    · have hl : ops.length = 1 := by have := congrArg List.length e1; simp at this; omega
      match ops, hl with
      | [v], _ =>
        simp only [List.cons_append, List.nil_append, List.cons.injEq, RVal.i32, RVal.i64, RVal.num.injEq, Val.i64.injEq, Val.i32.injEq] at e1
        obtain ⟨rfl, rfl, rfl, _⟩ := e1
        have := hoff f hf fn c h1 h2 (.load op' ma) (List.mem_of_getElem? h3) t _ _ (by simp only [delegation, hs, Option.map_some]; rfl) ht
        simp only [Advice.Tame, BitVec.toNat_setWidth]
        omega
    · exfalso
      revert hs
      rcases ht' with rfl | rfl | rfl | rfl <;> cases op' <;> decide
  | store x v o op l =>
    obtain ⟨ht', f', g', code, e1, e2, e3⟩ := stdEntry_is_store he
    obtain ⟨f, hf, fn, c, i, instr, h1, h2, h3, k, info, ops, h4, h5, rfl⟩ := h
    have hta : t.accesses = true := by rcases ht' with rfl | rfl | rfl | rfl <;> rfl
    rcases events_access h4 hta with ⟨op', ma, rfl, hs, rfl, rfl⟩ | ⟨op', ma, rfl, hs, rfl, rfl⟩
    · exfalso
      revert hs
      rcases ht' with rfl | rfl | rfl | rfl <;> cases op' <;> decide
    · have hl : ops.length = 2 := by have := congrArg List.length e1; simp at this; omega
      match ops, hl with
      | [v, w], _ =>
        simp only [List.cons_append, List.nil_append, List.cons.injEq, RVal.i32, RVal.i64, RVal.num.injEq, Val.i64.injEq, Val.i32.injEq] at e1
        obtain ⟨rfl, _, rfl, rfl, _⟩ := e1
        have := hoff f hf fn c h1 h2 (.store op' ma) (List.mem_of_getElem? h3) t _ _ (by simp only [delegation, hs, Option.map_some]; rfl) ht
        simp only [Advice.Tame, BitVec.toNat_setWidth]
        omega
  | _ => trivial

theorem Interface.Tells.mem {iface : Interface} {st : Story} {tales : List Tale} (h : iface.Tells st tales) {a} (ha : .adv a ∈ tales) :
    ∃ t args, (t, args) ∈ st.instrs ∧ (iface.trap t).isSome ∧ stdEntry t args = some a := by
  have : some (Tale.adv a) ∈ tales.map some := List.mem_map_of_mem ha
  rw [← h] at this
  obtain ⟨n, h1, h2⟩ := List.mem_map.1 this
  obtain ⟨h1, h3⟩ := List.mem_filter.1 h1
  cases n with
  | instr t args =>
    simp only [Note.tale, Option.map_eq_some_iff, Tale.adv.injEq] at h2
    obtain ⟨a', h2, rfl⟩ := h2
    exact ⟨t, args, List.mem_filterMap.2 ⟨_, h1, rfl⟩, h3, h2⟩
  | enter i xs => simp [Note.tale] at h2
  | leave i xs ys => simp [Note.tale, Option.bind_eq_some_iff] at h2

/-! ## C78 -/

/-- **C78.** Running a program under `taint`. Let the original program end normally, `tales` being what the analysis is told (instructions reached, functions entered and left). If none of its loads
and stores has an address of 2^31 or more or reaches beyond the memory `taint` can allocate, the instrumented program ends with the same results and state; otherwise it traps.
Conversely, if the instrumented program ends normally, so does the original, and none of its accesses does — or the original traps (C19, C76). In each case the analysis has marked
nothing as tainted: no value, variable, or byte of memory. And it keeps a frame on its stack for every function that was entered other than by a direct call. -/
theorem C78_taint {C iface ts m r ge cb} (hP : CallWatchable C iface ts m r ge cb) (hidx : SmallIndices m)
    (hoff : ∀ i ∈ bodyTargets m ts, ∀ f c, m.functions[i]? = some f → f.code = .present c → OnlyCode (OffsetsAre iface fun o => o.toNat < 2 ^ 31) c.body) :
    ∃ base : Nat, (∃ f, r.module.functions[base]? = some f ∧ f.exports = [cb.name]) ∧
      ∀ (W : Type) (K : LibLink) (N : Num) (T : List Table) (X : List (RefType × List (Option Nat))) (B cap : Nat) (I : Imports W) (IL : Imports (W × Log)) (G : Imports (W × Story)) (H : Imports (World W TaintState)),
        CallWatching iface ts m r ge K base T X B N (taint cap) G H →
        ImportsAgree m (fun (p : W × Log) w => p.1 = w) IL I → ImportsBeside m IL G → LeavesLog m IL → LeavesLog m G → PassesCuts m G →
        ∀ (f : Nat) (ty : FuncType) (args : List RVal) (s : Store W) (l : Lib),
          m.ctx.ftype f = some ty → ValsOK m.ctx args ty.inputs → StoreOK m.ctx s →
          l.Ok → l.mem.pages < 65536 → SegmentsIntact m r (s.extend T X (s.world, TaintState.init, l.store)) →
        ∀ (L d : Nat), l.free + d * B ≤ l.mem.limit * 65536 → l.free + d * B ≤ 65535 * 65536 →
          let told := toldCall C m (bodyTargets m ts) (applyTargets m ts) G N L d f args (s.withAnalysis [])
          let original := callF N (machineOf I m.functions) L d f args s
          let instrumented := fun D => callF N (machineOf H r.module.functions) L D f args (s.extend T X (s.world, TaintState.init, l.store))
          (∀ vs (s1 : Store W), original = .ok vs s1 → ∃ (st : Story) (tales : List Tale), told = .ok vs (s1.withAnalysis st) ∧ iface.Tells st tales ∧
            ((∀ t ∈ tales, ¬ t.TooFar cap) → ∃ (a1 : TaintState) (l1 : Lib), instrumented (5 * d + 2) = .ok vs (s1.extend T X (s1.world, a1, l1.store)) ∧ a1.Untainted ∧
              tales.countP Tale.isEnter ≤ a1.stack.length + tales.countP Tale.isReturn) ∧
            ((∃ t ∈ tales, t.TooFar cap) → ∃ s', instrumented (5 * d + 2) = .trap s')) ∧
          (∀ vs s1', instrumented d = .ok vs s1' →
            (∃ (s1 : Store W) (st : Story) (tales : List Tale) (a1 : TaintState) (l1 : Lib), original = .ok vs s1 ∧ told = .ok vs (s1.withAnalysis st) ∧ iface.Tells st tales ∧ (∀ t ∈ tales, ¬ t.TooFar cap) ∧
              s1' = s1.extend T X (s1.world, a1, l1.store) ∧ a1.Untainted) ∨
            ∃ s1, original = .trap s1) := by
  obtain ⟨base, hb, h⟩ := C76_panics_exactly hP hoff
  refine ⟨base, hb, ?_⟩
  intro W K N T X B cap I IL G H hW hI hG hIL hLG hPG f ty args s l hf hargs hok ok hpg hseg L d hc1 hc2 told original instrumented
  obtain ⟨g1, g2⟩ := h W TaintState K N T X B (taint cap) G H (C76_rust_analysis_qualifies hP hW) hLG hPG f ty args s .init l hf hargs hok ok hpg hseg L d hc1 hc2
  obtain ⟨st, k1, k2, k3⟩ := C76_story_is_of_the_program (iface := iface) (ts := ts) hP.small hP.instruments hP.valid hP.annotated (N := N) hI hG hf hargs hok L d
  change told = original.withAnalysis st at k1
  change _ = original.withAnalysis st.instrs at k2
  have tame : ∀ vs s1, original = .ok vs s1 → ∀ tales, iface.Tells st tales → ∀ a, .adv a ∈ tales → a.Tame := by
    intro vs s1 ho tales ht a ha
    rw [ho] at k2
    obtain ⟨t, as, h1, h2, h3⟩ := ht.mem ha
    exact raised_tame hidx hoff (C65_events_are_of_instructions hIL s1 st.instrs (.inl ⟨vs, k2⟩) t as h1) h2 h3
  refine ⟨fun vs s1 ho => ?_, fun vs s1' hi => ?_⟩
  · obtain ⟨tales, ht⟩ := k3 iface
    have tm := tame vs s1 ho tales ht
    rw [ho] at k1
    obtain ⟨j1, j2⟩ := taint_hear tales tm (TaintState.init_good cap)
    obtain ⟨i1, i2⟩ := g1 vs s1 st tales k1 ht
    refine ⟨st, tales, k1, ht, fun hc => ?_, fun hc => i2 (j1 hc)⟩
    obtain ⟨a1, e, hg, hl⟩ := j2 hc
    obtain ⟨l1, e1, _⟩ := i1 a1 e
    refine ⟨a1, l1, e1, hg.toUntainted, ?_⟩
    simpa [TaintState.init] using hl
  · rcases g2 vs s1' hi with ⟨s1, st', tales, a1, l1, e1, ht, hh, rfl, _⟩ | ⟨s1, e1⟩
    · change told = _ at e1
      rw [k1] at e1
      have ho : original = .ok vs s1 ∧ st = st' := by
        cases hr : original <;> rw [hr] at e1 <;> simp only [Res.withAnalysis, Res.ok.injEq, reduceCtorEq] at e1
        obtain ⟨rfl, e⟩ := e1
        obtain ⟨rfl, rfl⟩ := withAnalysis_inj e
        exact ⟨rfl, rfl⟩
      obtain ⟨ho, rfl⟩ := ho
      obtain ⟨j1, j2⟩ := taint_hear tales (tame vs s1 ho tales ht) (TaintState.init_good cap)
      have hc : ∀ t ∈ tales, ¬ t.TooFar cap := fun t hm hf => by rw [j1 ⟨t, hm, hf⟩] at hh; cases hh
      obtain ⟨a2, e2, hg, _⟩ := j2 hc
      rw [hh] at e2
      cases e2
      exact .inl ⟨s1, st, tales, a1, l1, ho, by rw [k1, ho]; rfl, ht, hc, rfl, hg.toUntainted⟩
    · change told = _ at e1
      rw [k1] at e1
      cases hr : original <;> rw [hr] at e1 <;> simp only [Res.withAnalysis, reduceCtorEq] at e1
      exact .inr ⟨_, rfl⟩

/-- The advice as the analysis has it does what `taint` says. -/
theorem taint_records {K : LibLink} (hK : K.Good) (cap i : Nat) {t : FuncType} (hr : t.RefFree) (hn : t.slots < 8192) (p : Nat) (f : WasmFunction) :
    Records (W := W) t p (·.args t p) (taintBefore K f (handle t p) (handle t p)) ((taint cap).enter i) ∧
    Records (W := W) t p (·.both t p) (taintAfter f (handle t p) (handle t p)) (fun v => (taint cap).leave i v.1 v.2) := by
  have h1 : (handle t p).resc.toNat = t.results.length := by
    simp only [handle, BitVec.toNat_ofNat]
    simp only [FuncType.slots] at hn
    omega
  have h2 : (handle t p).argc.toNat = t.inputs.length := by
    simp only [handle, BitVec.toNat_ofNat]
    simp only [FuncType.slots] at hn
    omega
  unfold taintBefore taintAfter
  rw [h1, h2]
  exact ⟨Records.ofArgs hK hr hn (g := fun xs => updateState (TaintState.enter xs)) fun xs s => rfl, fun l s _ _ _ _ => rfl⟩

theorem exTaint_watching (cap base : Nat) : CallWatching exIfaceApply none exModule exResumed interfaceGenericApply.1 exResumeLink base [exToolTable] [] 36 exNum (taint cap) (exImports.beside Story)
    (exTeller (taint cap) (taintBefore exResumeLink) taintAfter base) :=
  exTeller_watching _ _ _ base fun i hi f hr hn j p => taint_records (exResumer_resuming base).good cap i hr hn p _

theorem exModule_indices : SmallIndices exModule := by
  intro f hf c hc
  simp only [exModule, List.mem_cons, List.not_mem_nil, or_false] at hf
  rcases hf with rfl | rfl | rfl | rfl <;> cases hc
  all_goals refine ⟨fun op i h => ?_, fun op i h => ?_⟩
  all_goals simp only [List.mem_cons, reduceCtorEq, false_or, or_false, List.not_mem_nil, LInstr.loc.injEq, LInstr.glob.injEq] at h
  all_goals omega

-- C78: `main(0, 5)` under `taint` returns what it returns otherwise; nothing is tainted, and the frame of `main` itself is still there.
example : ∃ (base : Nat) (l1 : Lib) (a1 : TaintState), callF exNum (machineOf (exTeller (taint 1000) (taintBefore exResumeLink) taintAfter base) exResumed.module.functions) 10 52 1 [.i32 0, .i32 5]
      (exStore.extend [exToolTable] [] ([], TaintState.init, exLib.store)) =
    .ok [.i32 49] (Store.extend { exStore with world := [RVal.i32 7] } [exToolTable] [] ([RVal.i32 7], a1, l1.store)) ∧ a1.Untainted ∧ 1 ≤ a1.stack.length := by
  obtain ⟨base, _, h⟩ := C78_taint exWatchable exModule_indices (exOffsets fun o => o.toNat < 2 ^ 31)
  obtain ⟨st, hst, ht⟩ := exTold_run
  have hrun : callF exNum (machineOf exImports exModule.functions) 10 10 1 [.i32 0, .i32 5] exStore = .ok [.i32 49] { exStore with world := [RVal.i32 7] } := exModule_runs
  obtain ⟨st', tales, h1, h2, h3, _⟩ := (h _ _ _ _ _ _ 1000 _ _ _ _ (exTaint_watching 1000 base) exImports_beside.1 exImports_beside.2 (.beside _) (.beside _) (.beside _) 1 _ [.i32 0, .i32 5] exStore exLib rfl
    (ValsOK.nil.cons rfl (by simp [RVal.OK]) |>.cons rfl (by simp [RVal.OK])) exStore_ok exLib_ok (by decide) (exResumed_intact _ rfl _) 10 10 (by decide) (by decide)).1 _ _ hrun
  have : st' = st := by rw [h1] at hst; simpa [Store.withAnalysis] using hst
  subst this
  obtain rfl := tells_unique h2 ht
  obtain ⟨a1, l1, e, g, hl⟩ := h3 (by simp [exTales, Tale.TooFar, Advice.TooFar])
  exact ⟨base, l1, a1, e, g, by
    have e : exTales.countP Tale.isEnter = 3 ∧ exTales.countP Tale.isReturn = 2 := by decide
    omega⟩
-- C78: an address of 2^31, legal in a program with a memory of more than 2 GiB, is too far; so is one beyond what can be allocated.
example : (Tale.adv (.load 0x80000000 0 .i32Load (.new 0 0))).TooFar (2 ^ 31 - 1) ∧ (taint (2 ^ 31 - 1)).hear [.enter 0 [], .adv (.load 0x80000000 0 .i32Load (.new 0 0))] .init = none := by
  refine ⟨.inl (by decide), by decide +kernel⟩

end Wastrum
