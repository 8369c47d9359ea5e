import Verif.Judge
import Verif.SafeHeap
import Verif.MemWatchThms
import Verif.ExHeap
/-!
# What `safe-heap` stops (C70)
-/

set_option linter.unusedSimpArgs false
set_option linter.unusedVariables false

namespace Wastrum

variable {W A : Type}

/-! ## Specification -/

/-- Number of bytes of a value. -/
def ValType.bytes : ValType → Nat
  | .i32 | .f32 => 4
  | .i64 | .f64 => 8
  | .ref _ => 0

/-- When `safe-heap` lets an access of a value of `bytes` bytes pass, in a memory of `pages` pages: the index (without the offset) is a multiple of `bytes`; and if the index is below 2^31, the whole
value lies in memory. (From 2^31 on the index counts as negative: then the value must not end at 2^32 exactly, nor beyond 2^32 plus the size of the memory.) -/
def SafeAccess (index : BitVec 32) (offset bytes pages : Nat) : Prop :=
  index.toNat % bytes = 0 ∧ (index.toNat < 2 ^ 31 → index.toNat + offset + bytes ≤ pages * 65536) ∧
    (2 ^ 31 ≤ index.toNat → index.toNat + offset + bytes ≠ 2 ^ 32 ∧ index.toNat + offset + bytes ≤ 2 ^ 32 + pages * 65536)

instance (index : BitVec 32) (offset bytes pages : Nat) : Decidable (SafeAccess index offset bytes pages) := by unfold SafeAccess; infer_instance

/-- An advice is told of a safe access, or of something else. -/
def Advice.Safe (s : Store W) : Advice → Prop
  | .load i o op _ => SafeAccess i o.toNat op.ty.bytes s.pages
  | .store i _ o op _ => SafeAccess i o.toNat op.ty.bytes s.pages
  | _ => True

instance (s : Store W) (a : Advice) : Decidable (a.Safe s) := by unfold Advice.Safe; split <;> infer_instance

/-- The rule that loads and stores that the analysis is told of must be safe. -/
def safeRule (iface : Interface) : Rule W := fun t args s =>
  if (iface.trap t).isSome then
    match stdEntry t args with
    | some a => if a.Safe s then some s.world else none
    | none => some s.world
  else some s.world

/-! ## The checks -/

theorem strictAdd_eq {a b : BitVec 64} (h : -(2 ^ 63) ≤ a.toInt + b.toInt ∧ a.toInt + b.toInt < 2 ^ 63) : strictAdd a b = some (a + b) ∧ (a + b).toInt = a.toInt + b.toInt := by
  refine ⟨if_pos h, ?_⟩
  rw [BitVec.toInt_add, Int.bmod_def]
  split <;> omega

theorem signExtend_toInt (x : BitVec 32) : (x.signExtend 64).toInt = if x.toNat < 2 ^ 31 then (x.toNat : Int) else x.toNat - 2 ^ 32 := by
  rw [BitVec.toInt_signExtend_of_le (by decide), BitVec.toInt_eq_toNat_cond]
  split <;> split <;> omega

theorem offset_toInt (x : BitVec 32) : (x.setWidth 64).toInt = x.toNat := by
  have := x.isLt
  rw [BitVec.toInt_eq_toNat_of_lt, BitVec.toNat_setWidth]
  · rw [Nat.mod_eq_of_lt (by omega)]
  · rw [BitVec.toNat_setWidth, Nat.mod_eq_of_lt (by omega)]; omega

/-- What the first lines of `bounds_check` compute. -/
theorem last_byte (i off : BitVec 32) {b : BitVec 64} (hb : b = 4 ∨ b = 8) :
    ∃ last, (strictAdd (i.signExtend 64) b).bind (strictAdd · (off.setWidth 64)) = some last ∧
      last.toInt = (if i.toNat < 2 ^ 31 then (i.toNat : Int) else i.toNat - 2 ^ 32) + b.toNat + off.toNat := by
  have h1 := signExtend_toInt i
  have h2 := offset_toInt off
  have h3 := i.isLt
  have h4 := off.isLt
  have h5 : b.toInt = b.toNat ∧ b.toNat ≤ 8 := by rcases hb with rfl | rfl <;> decide
  obtain ⟨e1, e2⟩ := strictAdd_eq (a := i.signExtend 64) (b := b) (by rw [h1, h5.1]; split <;> omega)
  obtain ⟨e3, e4⟩ := strictAdd_eq (a := i.signExtend 64 + b) (b := off.setWidth 64) (by rw [e2, h1, h2, h5.1]; split <;> omega)
  exact ⟨_, by rw [e1]; exact e3, by rw [e4, e2, h1, h2, h5.1]⟩

theorem aligned_iff (i : BitVec 32) {b : BitVec 64} (hb : b = 4 ∨ b = 8) : alignmentCheck (i.signExtend 64) b = true ↔ i.toNat % b.toNat = 0 := by
  have hi := i.isLt
  have key : ∀ k : Nat, k ≤ 3 → ((i.signExtend 64 &&& BitVec.ofNat 64 (2 ^ k - 1)) = 0 ↔ i.toNat % 2 ^ k = 0) := by
    intro k hk
    rw [BitVec.toNat_eq]
    have hlt : 2 ^ k ≤ 2 ^ 3 := Nat.pow_le_pow_right (by decide) hk
    rw [BitVec.toNat_and, BitVec.toNat_ofNat, Nat.mod_eq_of_lt (by omega), Nat.and_two_pow_sub_one_eq_mod, BitVec.toNat_signExtend]
    have e : (i.setWidth 64).toNat = i.toNat := by rw [BitVec.toNat_setWidth, Nat.mod_eq_of_lt (by omega)]
    rw [e]
    have h0 : (0 : BitVec 64).toNat = 0 := rfl
    rw [h0]
    have : k = 0 ∨ k = 1 ∨ k = 2 ∨ k = 3 := by omega
    rcases this with rfl | rfl | rfl | rfl <;> split <;> omega
  unfold alignmentCheck
  rw [beq_iff_eq]
  rcases hb with rfl | rfl
  · exact key 2 (by decide)
  · exact key 3 (by decide)

/-- What `base_memory_size` does when called. -/
def SizeCall (base : String → Option Nat) (mo : Bool) (call : Nat → List RVal → Store W → Res W) : Prop :=
  ∀ s y, s.mems[0]? = some y → (mo = true ∧ baseMemorySize base call 0 s = .fuel) ∨ baseMemorySize base call 0 s = .ok [.num (.i32 (BitVec.ofNat 32 y.pages))] s

/-- `bounds_check`. -/
theorem boundsCheck_eq {base : String → Option Nat} {mo call} (hcall : SizeCall base mo call) {s : Store W} {y : Mem} (hy : s.mems[0]? = some y) (hp : y.pages ≤ 65536)
    (i off : BitVec 32) {b : BitVec 64} (hb : b = 4 ∨ b = 8) :
    (mo = true ∧ boundsCheck base call (i.signExtend 64) b (off.setWidth 64) s = .fuel) ∨
    boundsCheck base call (i.signExtend 64) b (off.setWidth 64) s =
      if (i.toNat < 2 ^ 31 → i.toNat + off.toNat + b.toNat ≤ y.pages * 65536) ∧
        (2 ^ 31 ≤ i.toNat → i.toNat + off.toNat + b.toNat ≠ 2 ^ 32 ∧ i.toNat + off.toNat + b.toNat ≤ 2 ^ 32 + y.pages * 65536) then .ok [] s else .trap s := by
  obtain ⟨last, e1, e2⟩ := last_byte i off hb
  have hb0 : 4 ≤ b.toNat := by rcases hb with rfl | rfl <;> decide
  have hpg : ((BitVec.ofNat 32 y.pages).signExtend 64 * 65536).toInt = y.pages * 65536 := by
    have h1 : ((BitVec.ofNat 32 y.pages).signExtend 64).toInt = y.pages := by
      rw [signExtend_toInt, BitVec.toNat_ofNat, Nat.mod_eq_of_lt (by omega), if_pos (by omega)]
    have h2 : (65536 : BitVec 64).toInt = 65536 := by decide
    rw [BitVec.toInt_mul, h1, h2, Int.bmod_def]
    split <;> omega
  have h0 : last = 0 ↔ last.toInt = 0 := by
    constructor
    · rintro rfl; rfl
    · intro h; exact BitVec.toInt_inj.1 h
  unfold boundsCheck
  rw [e1]
  dsimp only
  by_cases hz : last = 0
  · right
    rw [if_pos hz, if_neg]
    rintro ⟨h1, h2⟩
    rw [h0, e2] at hz
    split at hz
    · omega
    · exact (h2 (by omega)).1 (by omega)
  · rw [if_neg hz]
    rcases hcall s y hy with ⟨hmo, h⟩ | h
    · rw [h]; exact .inl ⟨hmo, rfl⟩
    · rw [h]
      right
      dsimp only
      rw [hpg, e2]
      rw [h0, e2] at hz
      by_cases hc : (if i.toNat < 2 ^ 31 then (i.toNat : Int) else i.toNat - 2 ^ 32) + b.toNat + off.toNat ≤ y.pages * 65536
      · rw [if_pos hc, if_pos]
        constructor
        · intro h; rw [if_pos h] at hc; omega
        · intro h; rw [if_neg (by omega)] at hc hz; omega
      · rw [if_neg hc, if_neg]
        rintro ⟨h1, h2⟩
        split at hc
        · have := h1 (by assumption); omega
        · have := h2 (by omega); omega

theorem LoadOp.valueSize (op : LoadOp) : (op.targetValueSize = 4 ∨ op.targetValueSize = 8) ∧ op.targetValueSize.toNat = op.ty.bytes := by
  cases op <;> decide

theorem StoreOp.valueSize (op : StoreOp) : (op.targetValueSize = 4 ∨ op.targetValueSize = 8) ∧ op.targetValueSize.toNat = op.ty.bytes := by
  cases op <;> decide

theorem size_call {C iface ts m r} (hs : SmallModule m) (h : Instruments C iface ts m r) (hn : r.module.exportNames.Nodup) (hm : m.memories ≠ []) (N : Num)
    (H : Imports W) (L d : Nat) (mo : Bool) (hd : mo = true ∨ 0 < d) : SizeCall r.module.exported mo (callF N (machineOf H r.module.functions) L d) := by
  intro s y hy
  obtain ⟨_, k, ⟨f, hf, hx, _⟩, h2⟩ := C20_grow_and_size hs h hm
  unfold baseMemorySize callBase
  rw [Module.exported_eq hn hf (by rw [hx]; simp)]
  dsimp only
  cases d with
  | zero =>
    rcases hd with hd | hd
    · exact .inl ⟨hd, rfl⟩
    · omega
  | succ d =>
    refine .inr ((h2 W (envAt N (machineOf H r.module.functions) L d) 0 s N H L d).trans ?_)
    simp only [execInstr, step, List.reverse_nil, hy]
    rfl

/-- What the advice of `safe-heap` does: it stops unsafe accesses, and forwards the others. -/
theorem safe_hook {m : Module} {N : Num} {base : String → Option Nat} {mo : Bool} {t : Trap} {b k info} (ht : t.accesses = true) (hd : delegation b = some (t, k, info))
    {call} (hcall : SizeCall base mo call) {ops loc : List RVal} {s : Store W} (hk : ops.length = k) (hl : loc.length = 2)
    (hty : (ops ++ info ++ loc).map RVal.type = t.args) (hbd : ∀ x ∈ s.mems, x.Bounded) (hmem : s.mems ≠ []) :
    ∃ adv, stdEntry t (ops ++ info ++ loc) = some adv ∧
      ((mo = true ∧ stdHook (safeHeapBody base) t call (ops ++ info ++ loc) s = .fuel) ∨
        stdHook (safeHeapBody base) t call (ops ++ info ++ loc) s =
          if adv.Safe s then stdHook (forwardBody N base) t call (ops ++ info ++ loc) s else .trap s) := by
  obtain ⟨y, hy⟩ : ∃ y, s.mems[0]? = some y := by
    cases h : s.mems with
    | nil => exact absurd h hmem
    | cons y l => exact ⟨y, rfl⟩
  have hpages : s.pages = y.pages := by simp [Store.pages, hy]
  have hp := (hbd y (List.mem_of_getElem? hy)).1
  obtain ⟨f, i, rfl⟩ : ∃ f i, loc = [f, i] := by
    match loc, hl with
    | [f, i], _ => exact ⟨f, i, rfl⟩
  rcases access_delegated hd ht with ⟨op, ma, rfl⟩ | ⟨op, ma, rfl⟩
  · simp only [delegation, Option.map_eq_some_iff, Prod.mk.injEq] at hd
    obtain ⟨t, hd, rfl, rfl, rfl⟩ := hd
    obtain ⟨v, rfl⟩ : ∃ v, ops = [v] := by match ops, hk with | [v], _ => exact ⟨v, rfl⟩
    rw [(loadTrap_args hd).1] at hty
    simp only [List.cons_append, List.nil_append, List.map_cons, List.map_nil, List.cons.injEq, and_true] at hty
    obtain ⟨hv, _, _, hf, hi⟩ := hty
    obtain ⟨f, rfl⟩ := RVal.of_i64 hf
    obtain ⟨i, rfl⟩ := RVal.of_i64 hi
    obtain ⟨x, rfl⟩ := RVal.of_i32 hv
    have he : stdEntry t [.i32 x, .i64 (ma.offset.setWidth 64), .i32 op.serialize, .i64 f, .i64 i] = some (.load x (ma.offset.setWidth 64) op (.new f i)) := by
      rw [stdEntry_load hd, (C17_load_codes _ op).2 rfl]; rfl
    refine ⟨_, he, ?_⟩
    have ho : (ma.offset.setWidth 64).toNat = ma.offset.toNat := by rw [BitVec.toNat_setWidth]; have := ma.offset.isLt; omega
    have hsafe : (Advice.load x (ma.offset.setWidth 64) op (.new f i)).Safe s ↔ alignmentCheck (x.signExtend 64) op.targetValueSize = true ∧
        ((x.toNat < 2 ^ 31 → x.toNat + ma.offset.toNat + op.targetValueSize.toNat ≤ y.pages * 65536) ∧
        (2 ^ 31 ≤ x.toNat → x.toNat + ma.offset.toNat + op.targetValueSize.toNat ≠ 2 ^ 32 ∧ x.toNat + ma.offset.toNat + op.targetValueSize.toNat ≤ 2 ^ 32 + y.pages * 65536)) := by
      rw [aligned_iff x op.valueSize.1, op.valueSize.2]
      simp only [Advice.Safe, SafeAccess, ho, hpages]
    simp only [stdHook, List.cons_append, List.nil_append]
    change (_ ∧ (match stdEntry t [.i32 x, .i64 (ma.offset.setWidth 64), .i32 op.serialize, .i64 f, .i64 i] with | none => Res.trap s | some a => _) = _) ∨
      (match stdEntry t [.i32 x, .i64 (ma.offset.setWidth 64), .i32 op.serialize, .i64 f, .i64 i] with | none => Res.trap s | some a => _) =
       if _ then (match stdEntry t [.i32 x, .i64 (ma.offset.setWidth 64), .i32 op.serialize, .i64 f, .i64 i] with | none => Res.trap s | some a => _) else _
    rw [he]
    simp only [safeHeapBody, safeLoad, forwardBody]
    rcases boundsCheck_eq hcall hy hp x ma.offset op.valueSize.1 with ⟨hmo, h⟩ | h
    · rw [h]; exact .inl ⟨hmo, rfl⟩
    · rw [h]
      right
      by_cases h1 : (x.toNat < 2 ^ 31 → x.toNat + ma.offset.toNat + op.targetValueSize.toNat ≤ y.pages * 65536) ∧
          (2 ^ 31 ≤ x.toNat → x.toNat + ma.offset.toNat + op.targetValueSize.toNat ≠ 2 ^ 32 ∧ x.toNat + ma.offset.toNat + op.targetValueSize.toNat ≤ 2 ^ 32 + y.pages * 65536)
      · rw [if_pos h1]
        dsimp only
        by_cases h2 : alignmentCheck (x.signExtend 64) op.targetValueSize = true
        · rw [if_pos h2, if_pos (hsafe.2 ⟨h2, h1⟩)]
        · rw [if_neg h2, if_neg fun h => h2 (hsafe.1 h).1]
      · rw [if_neg h1, if_neg fun h => h1 (hsafe.1 h).2]
  · simp only [delegation, Option.map_eq_some_iff, Prod.mk.injEq] at hd
    obtain ⟨t, hd, rfl, rfl, rfl⟩ := hd
    obtain ⟨v, w, rfl⟩ : ∃ v w, ops = [v, w] := by match ops, hk with | [v, w], _ => exact ⟨v, w, rfl⟩
    rw [(storeTrap_args hd).1] at hty
    simp only [List.cons_append, List.nil_append, List.map_cons, List.map_nil, List.cons.injEq, and_true] at hty
    obtain ⟨hv, hw, _, _, hf, hi⟩ := hty
    obtain ⟨f, rfl⟩ := RVal.of_i64 hf
    obtain ⟨i, rfl⟩ := RVal.of_i64 hi
    obtain ⟨x, rfl⟩ := RVal.of_i32 hv
    obtain ⟨w, rfl, hwn⟩ := RVal.type_num hw op.ty_num
    have he : stdEntry t [.i32 x, .num w, .i64 (ma.offset.setWidth 64), .i32 op.serialize, .i64 f, .i64 i] = some (.store x w (ma.offset.setWidth 64) op (.new f i)) := by
      rw [stdEntry_store hd hwn, (C17_store_codes _ op).2 rfl]; rfl
    refine ⟨_, he, ?_⟩
    have ho : (ma.offset.setWidth 64).toNat = ma.offset.toNat := by rw [BitVec.toNat_setWidth]; have := ma.offset.isLt; omega
    have hsafe : (Advice.store x w (ma.offset.setWidth 64) op (.new f i)).Safe s ↔ alignmentCheck (x.signExtend 64) op.targetValueSize = true ∧
        ((x.toNat < 2 ^ 31 → x.toNat + ma.offset.toNat + op.targetValueSize.toNat ≤ y.pages * 65536) ∧
        (2 ^ 31 ≤ x.toNat → x.toNat + ma.offset.toNat + op.targetValueSize.toNat ≠ 2 ^ 32 ∧ x.toNat + ma.offset.toNat + op.targetValueSize.toNat ≤ 2 ^ 32 + y.pages * 65536)) := by
      rw [aligned_iff x op.valueSize.1, op.valueSize.2]
      simp only [Advice.Safe, SafeAccess, ho, hpages]
    simp only [stdHook, List.cons_append, List.nil_append]
    change (_ ∧ (match stdEntry t [.i32 x, .num w, .i64 (ma.offset.setWidth 64), .i32 op.serialize, .i64 f, .i64 i] with | none => Res.trap s | some a => _) = _) ∨
      (match stdEntry t [.i32 x, .num w, .i64 (ma.offset.setWidth 64), .i32 op.serialize, .i64 f, .i64 i] with | none => Res.trap s | some a => _) =
       if _ then (match stdEntry t [.i32 x, .num w, .i64 (ma.offset.setWidth 64), .i32 op.serialize, .i64 f, .i64 i] with | none => Res.trap s | some a => _) else _
    rw [he]
    simp only [safeHeapBody, safeStore, forwardBody]
    rcases boundsCheck_eq hcall hy hp x ma.offset op.valueSize.1 with ⟨hmo, h⟩ | h
    · rw [h]; exact .inl ⟨hmo, rfl⟩
    · rw [h]
      right
      by_cases h1 : (x.toNat < 2 ^ 31 → x.toNat + ma.offset.toNat + op.targetValueSize.toNat ≤ y.pages * 65536) ∧
          (2 ^ 31 ≤ x.toNat → x.toNat + ma.offset.toNat + op.targetValueSize.toNat ≠ 2 ^ 32 ∧ x.toNat + ma.offset.toNat + op.targetValueSize.toNat ≤ 2 ^ 32 + y.pages * 65536)
      · rw [if_pos h1]
        dsimp only
        by_cases h2 : alignmentCheck (x.signExtend 64) op.targetValueSize = true
        · rw [if_pos h2, if_pos (hsafe.2 ⟨h2, h1⟩)]
        · rw [if_neg h2, if_neg fun h => h2 (hsafe.1 h).1]
      · rw [if_neg h1, if_neg fun h => h1 (hsafe.1 h).2]

/-- A program instrumented for `safe-heap` on the Rust library, linked with it: the hypotheses of the theorems. -/
structure SafeHeaped (C : Checker) (iface : Interface) (ts : Option (List Nat)) (m : Module) (r : Instrumented) (H : Imports W) (H' : Imports (W × A)) : Prop where
  small : SmallModule m
  documented : iface.Documented
  noApply : iface.generic = none
  onlyAccesses : ∀ t, (iface.trap t).isSome → t.accesses = true
  instruments : Instruments C iface ts m r
  valid : ValidModule m
  annotated : ∀ i ∈ bodyTargets m ts, ∀ f, m.functions[i]? = some f → WellAnnotated m f (bodyOf C m i)
  reserved : ∀ name ∈ iface.toolExports, name ∉ m.exportNames
  linked : LinkedTo iface (safeHeapBody r.module.exported) H'
  imports : ImportsAgree m (fun w (p : W × A) => w = p.1) H H'

theorem access_observes {t : Trap} (h : t.accesses = true) : ¬ t.Observes := by
  intro ho
  have := Trap.not_performs ho
  cases t <;> simp [Trap.accesses] at h <;> simp [Trap.performs] at this

theorem safe_hooks {C iface ts m r} {H : Imports W} {H' : Imports (W × A)} (hW : SafeHeaped C iface ts m r H H') {N : Num} {exact fl fr : Bool} {k : Nat} (hk : fr = true ∨ 1 ≤ k) {L d : Nat}
    {targets : List Nat} {σ' : Sel} {E : Env W} (hE : E.num = N)
    (hcalls : ∀ d', d + k = d' + 1 → m.memories ≠ [] →
      BaseCalls N r.module.exported (!m.memories.isEmpty) fr (callF N (underAnalysis C m targets H' σ' (r.module.functions.drop m.functions.length)) L d') ∧
      SizeCall r.module.exported fr (callF N (underAnalysis C m targets H' σ' (r.module.functions.drop m.functions.length)) L d')) :
    (agreeing m.ctx (fun w (p : W × A) => w = p.1) fl fr (!exact)).Judges false m.ctx (OffsetsAre iface (fun o => o.toNat < 2 ^ 31 ∧ (exact = true → o = 0)))
      (hookSel iface m.functions.length) (safeRule iface) E
      (envAt N (underAnalysis C m targets H' σ' (r.module.functions.drop m.functions.length)) L (d + k)) := by
  have hm1 : m.memories.length ≤ 1 := by
    obtain ⟨ord, ord', ho, ho', h⟩ := hW.instruments
    exact ((instrument_ok_iff ho ho' hW.small).1 ⟨r, h⟩).1
  have hH : ∀ t e, iface.trap t = some e → H' "WASTRUMENTATION_ANALYSIS" e.name = stdHook (safeHeapBody r.module.exported) t := by
    intro t e he
    have hnm := hW.linked t (by rw [he]; rfl)
    rw [C49_library_exports_what_is_imported] at hnm
    rw [hW.documented t e he]
    exact hnm
  refine ⟨?_, ?_, ?_⟩
  · intro t hσ args s s' hS
    have ht := hookSel_none_iff.1 hσ
    exact .inr ⟨s.world, by simp [safeRule, ht], hS⟩
  · intro t i hσ ho
    obtain ⟨e, he, _⟩ := hook_call (W' := W × A) hW.small hW.instruments hσ
    exact absurd ho (access_observes (hW.onlyAccesses t (by rw [he]; rfl)))
  · intro b t j info i hd hσ hB hm ops loc s s' hops hloc hty hS
    obtain ⟨e, he, hcall⟩ := hook_call (W' := W × A) hW.small hW.instruments hσ
    have hacc := hW.onlyAccesses t (by rw [he]; rfl)
    simp only [envAt]
    cases hdk : d + k with
    | zero => rcases hk with hk | hk
              · exact .fuelR hk
              · omega
    | succ d' =>
      rw [hcall, hH t e he]
      have hS' := hS
      simp only [agreeing, SameState.iff] at hS'
      obtain ⟨h1, h2, h4, h5, h6, h7, h8⟩ := hS'
      have hne : m.memories ≠ [] := by
        have : 0 < m.ctx.mems := by rcases access_delegated hd hacc with ⟨op, ma, rfl⟩ | ⟨op, ma, rfl⟩ <;> exact hm
        intro h0
        simp [Module.ctx, h0] at this
      have hmems : s'.mems ≠ [] := by
        rw [h5]
        intro h0
        have := h1.mems
        rw [h0] at this
        apply hne
        exact List.length_eq_zero_iff.1 (by simpa [Module.ctx] using this.symm)
      obtain ⟨hc1, hc2⟩ := hcalls d' hdk hne
      have hbd : ∀ x ∈ s'.mems, x.Bounded := by rw [h5]; exact h1.pages
      obtain ⟨adv, hadv, hsafe⟩ := safe_hook (m := m) (N := N) hacc hd hc2 hops hloc hty hbd hmems
      have hrule : safeRule iface t (ops ++ info ++ loc) s = if adv.Safe s then some s.world else none := by
        simp only [safeRule, he, Option.isSome_some, if_true, hadv]
      have hsame : adv.Safe s ↔ adv.Safe s' := by
        have : s.pages = s'.pages := by simp only [Store.pages, h5]
        unfold Advice.Safe
        rw [this]
      rw [hrule]
      rcases hsafe with ⟨hmo, hx⟩ | hx
      · rw [hx]; exact .fuelR hmo
      rw [hx]
      by_cases hs : adv.Safe s
      · rw [if_pos hs, if_pos (hsame.1 hs)]
        dsimp only
        have e1 : Store.withAnalysis ⟨s'.globals, s'.mems, s'.tables, s'.datas, s'.elems, s'.world.1⟩ s'.world.2 = s' := rfl
        rw [execInstr_execute E hd, hE]
        have := execute_sim (Γ := m.ctx) (N := N) (s := s)
          (s' := ⟨s'.globals, s'.mems, s'.tables, s'.datas, s'.elems, s'.world.1⟩) hd rfl hm hops hloc hty
          (SameState.iff.2 ⟨h1, ⟨rfl, rfl⟩, h4, h5, h6, h7, h8⟩)
        have hex := execute_withAnalysis (N := N) hd ops ⟨s'.globals, s'.mems, s'.tables, s'.datas, s'.elems, s'.world.1⟩ s'.world.2
        rw [e1] at hex
        rcases forward_performed hm1 (by rw [he]; rfl) hd ⟨hB, hm⟩ hc1 hops hloc hty (s := s') hbd with ⟨g1, s1, g2⟩ | ⟨g1, g2⟩ | g1
        · rw [hex] at g2
          generalize execute N b ops s = o at this ⊢
          cases hx : execute N b ops ⟨s'.globals, s'.mems, s'.tables, s'.datas, s'.elems, s'.world.1⟩ with
          | trap s2 =>
            rw [hx] at this
            cases this with
            | trap hS => exact .trapL (by rw [g1]; rfl)
            | fuelL h => cases h
            | trapL h => cases h
            | trapT h => cases h
            | trapR h => cases h
          | _ => rw [hx] at g2; cases g2
        · rw [g2]; exact .fuelR g1
        · rw [g1, hex]
          generalize execute N b ops s = o at this ⊢
          generalize execute N b ops _ = o' at this ⊢
          have lift : ∀ {s1 : Store W} {s1' : Store W}, SameState m.ctx [] [] (fun w w' => w = s.world ∧ w' = s'.world.1) s1 s1' →
              SameState m.ctx [] [] (fun w (p : W × A) => w = p.1) s1 (s1'.withAnalysis s'.world.2) := by
            intro s1 s1' hS
            rw [SameState.iff] at hS ⊢
            obtain ⟨g1, ⟨g2, g3⟩, g4⟩ := hS
            refine ⟨g1, ?_, g4⟩
            show _ = s1'.world
            rw [g2, g3, h2]
          cases this with
          | ok hv hS => exact .ok hv (lift hS)
          | trap hS => exact .trap (lift hS)
          | fuel => exact .fuel
          | fuelL h => cases h
          | fuelR h => cases h
          | trapL h => cases h
          | trapT h => cases h
          | trapR h => cases h
      · rw [if_neg hs, if_neg (fun h => hs (hsame.2 h))]
        exact .trap hS

/-- The original under the rule and the program under `safe-heap` stay in step. -/
theorem safe_agrees {C iface ts m r} {H : Imports W} {H' : Imports (W × A)} (hW : SafeHeaped C iface ts m r H H') {exact : Bool}
    (hoff : ∀ i ∈ bodyTargets m ts, ∀ f c, m.functions[i]? = some f → f.code = .present c →
      OnlyCode (OffsetsAre iface (fun o => o.toNat < 2 ^ 31 ∧ (exact = true → o = 0))) c.body)
    {N : Num} {fl fr : Bool} {k : Nat} (h1 : fl = true ∨ k = 0) (h2 : fr = true ∨ 2 ≤ k) (L d : Nat) :
    CallsAgree (agreeing m.ctx (fun w (p : W × A) => w = p.1) fl fr (!exact)) m.ctx (callF N (judged false C m (bodyTargets m ts) H (safeRule iface)) L d)
      (callF N (machineOf H' r.module.functions) L (d + k)) := by
  have hvr := C15_instrumented_module_valid hW.small hW.documented.standard (by intro ge cb h; rw [hW.noApply] at h; cases h) hW.instruments hW.valid hW.annotated hW.reserved
  refine judged_agrees hW.small hW.documented.standard hW.noApply hW.instruments hW.valid hW.annotated hoff
    (R := agreeing m.ctx (fun w (p : W × A) => w = p.1) fl fr (!exact)) (Q := fun w (p : W × A) => w = p.1) rfl
    (k := k) h1 (fun f hf ns name hc => hW.imports f hf ns name hc fl fr _) (fun d => safe_hooks hW (h2.imp id (by omega)) rfl ?_) d
  intro d' hd' hne
  have e : callF N (underAnalysis C m (bodyTargets m ts) H' (hookSel iface m.functions.length) (r.module.functions.drop m.functions.length)) L d' =
      callF N (machineOf H' r.module.functions) L d' := by
    funext f args s; exact (C09_instrumented_is_interposed hW.small hW.documented.standard hW.noApply hW.instruments N H' L d' f args s).symm
  rw [e]
  exact ⟨base_calls hW.small hW.instruments hvr.exports N H' L d' fr (h2.imp id (by omega)), size_call hW.small hW.instruments hvr.exports hne N H' L d' fr (h2.imp id (by omega))⟩

/-- Under a rule that leaves the world as it is, a program does what it does without, or traps. -/
theorem judged_or_trap {C : Checker} {m : Module} {targets : List Nat} (hr : ∀ i ∈ targets, ∃ b, raiseTarget C m i = .ok b) (hv : ValidModule m)
    (hB : ∀ i ∈ targets, ∀ f, m.functions[i]? = some f → WellAnnotated m f (bodyOf C m i)) {N : Num} {H : Imports W} (hI : ImportsAgree m Eq H H)
    {u : Rule W} (hu : ∀ t args s w, u t args s = some w → w = s.world) (L d : Nat) :
    CallsAgree (agreeing m.ctx Eq false false true) m.ctx (callF N (judged false C m targets H u) L d) (callF N (machineOf H m.functions) L d) := by
  refine calls_agree (k := 0) (P := fun E E' => E.num = N) (.inr rfl) (fun _ => rfl) ?_ d
  intro f ty hf
  simp only [Module.ctx, Option.map_eq_some_iff] at hf
  obtain ⟨g, hg, rfl⟩ := hf
  have hm := List.mem_of_getElem? hg
  cases hc : g.code with
  | imported ns name =>
    exact ⟨.host (H ns name), .host (H ns name), by simp only [judged, hg, Option.map_some, hc],
      by simp only [machineOf, hg, Option.map_some, implOf, hc], .host (hI g hm ns name hc _ _ _)⟩
  | present c =>
    refine ⟨.code c.locals fun E => if f ∈ targets then gdenL (judging false E u) E.loopFuel (bodyOf C m f) else denFlat E c.body,
      .code c.locals fun E => denFlat E c.body,
      by simp only [judged, hg, Option.map_some, hc], by simp only [machineOf, hg, Option.map_some, implOf, hc], .code ?_⟩
    intro E E' hE _ cfg cfg' hcc
    by_cases hi : f ∈ targets
    · rw [if_pos hi]
      obtain ⟨b, hb⟩ := hr f hi
      have e : bodyOf C m f = b := by simp [bodyOf, hb]
      obtain ⟨f', c', hf', hc', hr⟩ := raiseTarget_present hb
      rw [hg] at hf'; cases hf'
      rw [hc] at hc'; cases hc'
      have hcode : denFlat E' c.body cfg' = gdenL (plain E') E'.loopFuel (bodyOf C m f) cfg' := by
        rw [← C02_lowerTyped_raiseFunction _ _ _ _ _ hr, denFlat_lowerTyped, e, ← (gden_plain E').2]
      rw [hcode, hE.loopFuel]
      refine (sim (Γ₀ := m.ctx.body g.type c.locals) (B := fun _ => True) ?_ ?_).2 _ (fun _ _ => trivial) _ ⟨_, rfl⟩ _ _ (hB f hi g hg c hc) _ _ hcc
      · intro Γ' hΓ mt b a e c c' _ hb hc
        have hmm := (Ctx.SameModule.body m.ctx g.type _).sameBut hΓ
        simp only [judging, plain]
        have key : ∀ w, w = c.store.world → ({ c with store := { c.store with world := w } } : Cfg W) = c := by rintro w rfl; rfl
        cases hd : delegation b with
        | none => exact step_sim (T := []) (X := []) (Q := Eq) (SameState.congr hmm) (hE.congr hmm) hb hc
        | some p =>
          obtain ⟨t, k, info⟩ := p
          dsimp only
          cases hx : u t (shown mt k info c) c.store with
          | none => exact .trapL rfl
          | some w =>
            dsimp only
            rw [key w (hu _ _ _ _ hx)]
            exact step_sim (T := []) (X := []) (Q := Eq) (SameState.congr hmm) (hE.congr hmm) hb hc
      · intro Γ' hΓ mt t ins info a c c' hq hc
        simp only [judging, plain]
        cases hx : u t (shown mt ins.length info c) c.store with
        | none => exact .trapL rfl
        | some w =>
          dsimp only
          rw [hu _ _ _ _ hx]
          exact .norm hc
    · rw [if_neg hi]
      exact plain_body_agrees (T := []) (X := []) (Q := Eq) rfl hE (hv.functions g hm c hc) hcc

theorem execute_not_fuel {N : Num} {b t k info} (hd : delegation b = some (t, k, info)) (ops : List RVal) (s : Store W) : execute N b ops s ≠ .fuel := by
  cases b <;> try (simp [delegation] at hd; done)
  all_goals simp only [execute, execInstr, step]
  case unary op =>
    rcases ops.reverse with _ | ⟨v | _, st⟩ <;> try simp
    by_cases hv : v.type = op.sig.1
    · simp only [hv, if_true]; cases N.unary op v <;> simp
    · simp only [hv, if_false]; simp
  case binary op =>
    rcases ops.reverse with _ | ⟨v | _, _ | ⟨w | _, st⟩⟩ <;> try simp
    by_cases hv : w.type = op.sig.1 ∧ v.type = op.sig.1
    · simp only [hv, and_self, if_true]; cases N.binary op w v <;> simp
    · simp only [hv, if_false]; simp
  case load op ma =>
    rcases ops.reverse with _ | ⟨v | _, st⟩ <;> try simp
    cases v <;> try simp
    cases s.mems[0]? with
    | none => simp
    | some y => dsimp only; cases y.load op _ <;> simp
  case store op ma =>
    rcases ops.reverse with _ | ⟨v | _, _ | ⟨w | _, st⟩⟩ <;> try simp
    cases w <;> try simp
    by_cases hv : v.type = op.ty
    · simp only [hv, if_true]
      cases s.mems[0]? with
      | none => simp
      | some y => dsimp only; cases y.store op _ v <;> simp
    · simp only [hv, if_false]; simp
  case memoryGrow i =>
    rcases ops.reverse with _ | ⟨v | _, st⟩ <;> try simp
    cases v <;> try simp
    cases s.mems[i]? with
    | none => simp
    | some y => dsimp only; cases y.grow _ <;> simp

/-- If every access that passes `u` and succeeds also passes `u'`, programs that end normally under `u` do so under `u'`. -/
theorem judged_mono {C : Checker} {m : Module} {targets : List Nat} (hv : ValidModule m) (hr : ∀ i ∈ targets, ∃ b, raiseTarget C m i = .ok b)
    (hB : ∀ i ∈ targets, ∀ f, m.functions[i]? = some f → WellAnnotated m f (bodyOf C m i)) {N : Num} {H : Imports W} (hI : ImportsAgree m Eq H H)
    {B : Basic → Prop} (hO : ∀ i ∈ targets, ∀ f c, m.functions[i]? = some f → f.code = .present c → OnlyCode B c.body)
    {u u' : Rule W} (hu : ∀ t args s w, u t args s = some w → w = s.world)
    (hask : ∀ t args s w, t.performs = false → u t args s = some w → u' t args s = some s.world)
    (hperf : ∀ b t k info, B b → delegation b = some (t, k, info) → ∀ ops loc s w vs s1, ops.length = k → loc.length = 2 → u t (ops ++ info ++ loc) s = some w →
      execute N b ops s = .ok vs s1 → u' t (ops ++ info ++ loc) s = some s.world) (L d : Nat) :
    CallsAgree (agreeing m.ctx Eq false false true) m.ctx (callF N (judged false C m targets H u) L d) (callF N (judged false C m targets H u') L d) := by
  refine calls_agree (k := 0) (P := fun E E' => E.num = N) (.inr rfl) (fun _ => rfl) ?_ d
  intro f ty hf
  simp only [Module.ctx, Option.map_eq_some_iff] at hf
  obtain ⟨g, hg, rfl⟩ := hf
  have hm := List.mem_of_getElem? hg
  cases hc : g.code with
  | imported ns name =>
    exact ⟨.host (H ns name), .host (H ns name), by simp only [judged, hg, Option.map_some, hc],
      by simp only [judged, hg, Option.map_some, hc], .host (hI g hm ns name hc _ _ _)⟩
  | present c =>
    refine ⟨.code c.locals fun E => if f ∈ targets then gdenL (judging false E u) E.loopFuel (bodyOf C m f) else denFlat E c.body,
      .code c.locals fun E => if f ∈ targets then gdenL (judging false E u') E.loopFuel (bodyOf C m f) else denFlat E c.body,
      by simp only [judged, hg, Option.map_some, hc], by simp only [judged, hg, Option.map_some, hc], .code ?_⟩
    intro E E' hE hN cfg cfg' hcc
    by_cases hi : f ∈ targets
    · rw [if_pos hi, if_pos hi, hE.loopFuel]
      have hlow : OnlyCode B (TI.lowerL (bodyOf C m f)) := by
        refine (hO f hi g c hg hc).mono ?_
        intro i him
        obtain ⟨b, hb⟩ := hr f hi
        have e : bodyOf C m f = b := by simp [bodyOf, hb]
        obtain ⟨f', c', hf', hc', hr⟩ := raiseTarget_present hb
        rw [hg] at hf'; cases hf'
        rw [hc] at hc'; cases hc'
        rw [e] at him
        have := C02_lowerTyped_raiseFunction _ _ _ _ _ hr
        rw [← this]
        exact List.mem_append_left _ him
      refine (sim (Γ₀ := m.ctx.body g.type c.locals) (B := B) ?_ ?_).2 _ hlow _ ⟨_, rfl⟩ _ _ (hB f hi g hg c hc) _ _ hcc
      · intro Γ' hΓ mt b a e c c' hBb hb hc
        have hmm := (Ctx.SameModule.body m.ctx g.type _).sameBut hΓ
        have hst : c' = c := by
          have h := hc.store
          simp only [agreeing, SameState.iff] at h
          obtain ⟨h1, h2, h3, h4, h5, h6, h7⟩ := h
          obtain ⟨a1, a2, ⟨b1, b2, b3, b4, b5, b6⟩⟩ := c
          obtain ⟨a1', a2', ⟨b1', b2', b3', b4', b5', b6'⟩⟩ := c'
          have := hc.stack
          have := hc.locals
          simp_all
        subst hst
        simp only [judging]
        have key : ∀ w, w = c'.store.world → ({ c' with store := { c'.store with world := w } } : Cfg W) = c' := by rintro w rfl; rfl
        have hstep := step_sim (T := []) (X := []) (Q := Eq) (SameState.congr hmm) (hE.congr hmm) hb hc
        cases hd : delegation b with
        | none => exact hstep
        | some p =>
          obtain ⟨t, k, info⟩ := p
          dsimp only
          cases hx : u t (shown mt k info c') c'.store with
          | none => exact .trapL rfl
          | some w =>
            dsimp only
            rw [key w (hu _ _ _ _ hx)]
            obtain ⟨ins, r, rfl, e2, rfl, _, hfr⟩ := step_frame E (c := c') hd hb hc.stackOK
            have hsp := hc.stackOK.split
            simp only [List.length_reverse] at hsp
            rw [execInstr_execute E hd, hN] at hfr
            cases hex : execute N b (c'.stack.take ins.length).reverse c'.store with
            | trap s1 => rw [hfr, hex]; exact .trapL rfl
            | ok vs s1 =>
              have := hperf b t _ info hBb hd (c'.stack.take ins.length).reverse [nI64 mt.fidx, nI64 mt.iidx] c'.store w vs s1 (by simpa using hsp.1.reverse.length) rfl hx hex
              have e3 : u' t (shown mt ins.length info c') c'.store = some c'.store.world := this
              rw [e3]
              exact hstep
            | stuck =>
              rw [hfr, hex] at hstep
              dsimp only at hstep
              generalize step E' b c' = o at hstep
              rcases hstep with - | - | - | - | - | - | h | - | - | h <;> cases h
            | fuel => exact absurd hex (execute_not_fuel hd _ _)
      · intro Γ' hΓ mt t ins info a c c' hq hc
        simp only [judging]
        have hst : c' = c := by
          have h := hc.store
          simp only [agreeing, SameState.iff] at h
          obtain ⟨h1, h2, h3, h4, h5, h6, h7⟩ := h
          obtain ⟨a1, a2, ⟨b1, b2, b3, b4, b5, b6⟩⟩ := c
          obtain ⟨a1', a2', ⟨b1', b2', b3', b4', b5', b6'⟩⟩ := c'
          have := hc.stack
          have := hc.locals
          simp_all
        subst hst
        cases hx : u t (shown mt ins.length info c') c'.store with
        | none => exact .trapL rfl
        | some w =>
          dsimp only
          rw [hu _ _ _ _ hx, hask t _ _ w (Trap.not_performs hq.observes) hx]
          exact .norm hc
    · rw [if_neg hi, if_neg hi]
      exact plain_body_agrees (T := []) (X := []) (Q := Eq) rfl hE (hv.functions g hm c hc) hcc

/-! ## C70 -/

/-- **C70.** `safe-heap`, if every load and store that goes through it has static offset 0: the instrumented program does what the original does when each of these accesses is checked
first (`SafeAccess`) and traps if it is not safe — results, traps, final state and termination. -/
theorem C70_safe_heap_checks_accesses {C iface ts m r} {H : Imports W} {H' : Imports (W × A)} (hW : SafeHeaped C iface ts m r H H')
    (hoff : ∀ i ∈ bodyTargets m ts, ∀ f c, m.functions[i]? = some f → f.code = .present c → OnlyCode (OffsetsAre iface fun o => o = 0) c.body)
    {N : Num} {f : Nat} {ty : FuncType} {args : List RVal} {s : Store W} (hf : m.ctx.ftype f = some ty) (hargs : ValsOK m.ctx args ty.inputs)
    (hok : StoreOK m.ctx s) (a : A) (L d : Nat) :
    (∀ vs s1, callF N (judged false C m (bodyTargets m ts) H (safeRule iface)) L d f args s = .ok vs s1 →
      ∃ a1, callF N (machineOf H' r.module.functions) L (d + 2) f args (s.withAnalysis a) = .ok vs (s1.withAnalysis a1)) ∧
    (∀ s1, callF N (judged false C m (bodyTargets m ts) H (safeRule iface)) L d f args s = .trap s1 →
      ∃ a1, callF N (machineOf H' r.module.functions) L (d + 2) f args (s.withAnalysis a) = .trap (s1.withAnalysis a1)) ∧
    (∀ vs s1', callF N (machineOf H' r.module.functions) L d f args (s.withAnalysis a) = .ok vs s1' →
      ∃ s1 a1, callF N (judged false C m (bodyTargets m ts) H (safeRule iface)) L d f args s = .ok vs s1 ∧ s1' = s1.withAnalysis a1) ∧
    (∀ s1', callF N (machineOf H' r.module.functions) L d f args (s.withAnalysis a) = .trap s1' →
      ∃ s1 a1, callF N (judged false C m (bodyTargets m ts) H (safeRule iface)) L d f args s = .trap s1 ∧ s1' = s1.withAnalysis a1) ∧
    callF N (machineOf H' r.module.functions) L d f args (s.withAnalysis a) ≠ .stuck := by
  have hoff' : ∀ i ∈ bodyTargets m ts, ∀ f c, m.functions[i]? = some f → f.code = .present c →
      OnlyCode (OffsetsAre iface (fun o => o.toNat < 2 ^ 31 ∧ (true = true → o = 0))) c.body := by
    intro i hi f c hf hc b hb t k info hd ht
    have := hoff i hi f c hf hc b hb t k info hd ht
    cases b <;> first | trivial | (simp only at this ⊢; rw [this]; exact ⟨by decide, fun _ => rfl⟩)
  have hS : SameState m.ctx [] [] (fun v (p : W × A) => v = p.1) s (s.withAnalysis a) := SameState.iff.2 ⟨hok, rfl, rfl, rfl, rfl, rfl, rfl⟩
  have k1 := (safe_agrees hW hoff' (N := N) (fl := true) (fr := false) (k := 2) (.inl rfl) (.inr (Nat.le_refl _)) L d).ok hf hargs hS rfl (fun _ _ h => h) (fun _ h => h)
  have k2 := (safe_agrees hW hoff' (N := N) (fl := false) (fr := true) (k := 0) (.inr rfl) (.inl rfl) L d).ok hf hargs hS rfl (fun _ _ h => h) (fun _ h => h)
  simp only [agreeing, Bool.false_eq_true, and_false, false_or, Nat.add_zero] at k1 k2
  generalize callF N (judged false C m (bodyTargets m ts) H (safeRule iface)) L d f args s = o at k1 k2 ⊢
  generalize callF N (machineOf H' r.module.functions) L (d + 2) f args (s.withAnalysis a) = o1 at k1 ⊢
  generalize callF N (machineOf H' r.module.functions) L d f args (s.withAnalysis a) = o0 at k2 ⊢
  refine ⟨?_, ?_, ?_, ?_, ?_⟩
  · rintro vs s1 rfl
    rcases k1 with ⟨h, _⟩ | ⟨_, _, _, h, rfl, hs⟩ | ⟨_, _, h, _⟩ <;> cases h
    exact ⟨_, by rw [← hs.program fun _ _ h => h]⟩
  · rintro s1 rfl
    rcases k1 with ⟨h, _⟩ | ⟨_, _, _, h, _⟩ | ⟨_, _, h, rfl, hs⟩ <;> cases h
    exact ⟨_, by rw [← hs.program fun _ _ h => h]⟩
  · rintro vs s1' rfl
    rcases k2 with ⟨_, h⟩ | h | ⟨_, _, _, rfl, h, hs⟩ | ⟨_, _, _, h, _⟩ <;> first | (cases h; done) | (cases h.1; done) | skip
    cases h
    exact ⟨_, _, rfl, hs.program fun _ _ h => h⟩
  · rintro s1' rfl
    rcases k2 with ⟨_, h⟩ | h | ⟨_, _, _, _, h, _⟩ | ⟨_, _, rfl, h, hs⟩ <;> first | (cases h; done) | (cases h.1; done) | skip
    cases h
    exact ⟨_, _, rfl, hs.program fun _ _ h => h⟩
  · rintro rfl
    rcases k2 with ⟨_, h⟩ | h | ⟨_, _, _, _, h, _⟩ | ⟨_, _, _, h, _⟩ <;> first | (cases h; done) | (cases h.1; done)

/-- **C70, offsets below 2^31.** Whenever the original with its accesses checked ends normally, so does the instrumented program, with the same results and state. When the instrumented program
ends normally, the checked original does so with the same results and state, or traps (the analysis adds index and offset modulo 2^32: C19). -/
theorem C70_safe_heap_offsets {C iface ts m r} {H : Imports W} {H' : Imports (W × A)} (hW : SafeHeaped C iface ts m r H H')
    (hoff : ∀ i ∈ bodyTargets m ts, ∀ f c, m.functions[i]? = some f → f.code = .present c → OnlyCode (OffsetsAre iface fun o => o.toNat < 2 ^ 31) c.body)
    {N : Num} {f : Nat} {ty : FuncType} {args : List RVal} {s : Store W} (hf : m.ctx.ftype f = some ty) (hargs : ValsOK m.ctx args ty.inputs)
    (hok : StoreOK m.ctx s) (a : A) (L d : Nat) :
    (∀ vs s1, callF N (judged false C m (bodyTargets m ts) H (safeRule iface)) L d f args s = .ok vs s1 →
      ∃ a1, callF N (machineOf H' r.module.functions) L (d + 2) f args (s.withAnalysis a) = .ok vs (s1.withAnalysis a1)) ∧
    (∀ vs s1', callF N (machineOf H' r.module.functions) L d f args (s.withAnalysis a) = .ok vs s1' →
      (∃ s1 a1, callF N (judged false C m (bodyTargets m ts) H (safeRule iface)) L d f args s = .ok vs s1 ∧ s1' = s1.withAnalysis a1) ∨
      ∃ s1, callF N (judged false C m (bodyTargets m ts) H (safeRule iface)) L d f args s = .trap s1) := by
  have hoff' : ∀ i ∈ bodyTargets m ts, ∀ f c, m.functions[i]? = some f → f.code = .present c →
      OnlyCode (OffsetsAre iface (fun o => o.toNat < 2 ^ 31 ∧ (false = true → o = 0))) c.body := by
    intro i hi f c hf hc b hb t k info hd ht
    have := hoff i hi f c hf hc b hb t k info hd ht
    cases b <;> first | trivial | exact ⟨this, fun h => by cases h⟩
  have hS : SameState m.ctx [] [] (fun v (p : W × A) => v = p.1) s (s.withAnalysis a) := SameState.iff.2 ⟨hok, rfl, rfl, rfl, rfl, rfl, rfl⟩
  have k1 := safe_agrees hW hoff' (N := N) (fl := true) (fr := false) (k := 2) (.inl rfl) (.inr (Nat.le_refl _)) L d f ty args s _ hf hargs hS
  have k2 := safe_agrees hW hoff' (N := N) (fl := false) (fr := true) (k := 0) (.inr rfl) (.inl rfl) L d f ty args s _ hf hargs hS
  simp only [Nat.add_zero] at k2
  generalize callF N (judged false C m (bodyTargets m ts) H (safeRule iface)) L d f args s = o at k1 k2 ⊢
  generalize callF N (machineOf H' r.module.functions) L (d + 2) f args (s.withAnalysis a) = o1 at k1 ⊢
  generalize callF N (machineOf H' r.module.functions) L d f args (s.withAnalysis a) = o0 at k2 ⊢
  constructor
  · rintro vs s1 rfl
    cases k1 with
    | ok hv hs =>
      simp only [agreeing] at hs
      exact ⟨_, by rw [← hs.program fun _ _ h => h]⟩
    | fuelR h => cases h
    | trapR h => cases h
  · rintro vs s1' rfl
    cases k2 with
    | ok hv hs =>
      simp only [agreeing] at hs
      exact .inl ⟨_, _, rfl, hs.program fun _ _ h => h⟩
    | fuelL h => cases h
    | trapL h => exact .inr ⟨_, rfl⟩

theorem SameState.eq {Γ : Ctx} {s s' : Store W} (h : SameState Γ [] [] Eq s s') : s' = s := by
  obtain ⟨_, h2, h4, h5, h6, h7, h8⟩ := SameState.iff.1 h
  obtain ⟨_, _, _, _, _, _⟩ := s
  obtain ⟨_, _, _, _, _, _⟩ := s'
  simp_all

theorem safeRule_world (iface : Interface) {t args} {s : Store W} {w} (h : safeRule iface t args s = some w) : w = s.world := by
  unfold safeRule at h
  split at h
  · split at h
    · split at h
      · exact (Option.some.inj h).symm
      · cases h
    · exact (Option.some.inj h).symm
  · exact (Option.some.inj h).symm

/-- **C70.** With its accesses checked, the original does what it does without checks, or traps. (So no result is ever changed by `safe-heap`.) -/
theorem C70_checked_original {C ts m} (hr : ∀ i ∈ bodyTargets m ts, ∃ b, raiseTarget C m i = .ok b) (hv : ValidModule m)
    (hB : ∀ i ∈ bodyTargets m ts, ∀ f, m.functions[i]? = some f → WellAnnotated m f (bodyOf C m i)) {N : Num} {H : Imports W} (hI : ImportsAgree m Eq H H) (iface : Interface)
    {f : Nat} {ty : FuncType} {args : List RVal} {s : Store W} (hf : m.ctx.ftype f = some ty) (hargs : ValsOK m.ctx args ty.inputs) (hok : StoreOK m.ctx s) (L d : Nat) :
    callF N (judged false C m (bodyTargets m ts) H (safeRule iface)) L d f args s = callF N (machineOf H m.functions) L d f args s ∨
    ∃ s1, callF N (judged false C m (bodyTargets m ts) H (safeRule iface)) L d f args s = .trap s1 := by
  have := judged_or_trap hr hv hB (u := safeRule iface) (N := N) hI (fun _ _ _ _ h => safeRule_world iface h) L d f ty args s s hf hargs (SameState.iff.2 ⟨hok, rfl, rfl, rfl, rfl, rfl, rfl⟩)
  generalize callF N (judged false C m (bodyTargets m ts) H (safeRule iface)) L d f args s = o at this ⊢
  generalize callF N (machineOf H m.functions) L d f args s = o' at this ⊢
  cases this with
  | ok hv hs => simp only [agreeing] at hs; rw [hs.eq]; exact .inl rfl
  | trap hs => exact .inr ⟨_, rfl⟩
  | fuel => exact .inl rfl
  | fuelL h => cases h
  | fuelR h => cases h
  | trapL h => exact .inr ⟨_, rfl⟩
  | trapT h => cases h
  | trapR h => cases h

/-- The instruction is no load or store, or one of a whole value. -/
def Basic.FullWidth : Basic → Prop
  | .load op _ => op.width = op.ty.bytes
  | .store op _ => op.width = op.ty.bytes
  | _ => True

/-- The index is below 2^31 and a multiple of the size of the value. -/
def Advice.Aligned : Advice → Prop
  | .load i _ op _ => i.toNat < 2 ^ 31 ∧ i.toNat % op.ty.bytes = 0
  | .store i _ _ op _ => i.toNat < 2 ^ 31 ∧ i.toNat % op.ty.bytes = 0
  | _ => True

instance (a : Advice) : Decidable a.Aligned := by unfold Advice.Aligned; split <;> infer_instance

/-- The rule that loads and stores that the analysis is told of must be aligned. -/
def alignedRule (iface : Interface) : Rule W := fun t args s =>
  if (iface.trap t).isSome then
    match stdEntry t args with
    | some a => if a.Aligned then some s.world else none
    | none => some s.world
  else some s.world

theorem alignedRule_world (iface : Interface) {t args} {s : Store W} {w} (h : alignedRule iface t args s = some w) : w = s.world := by
  unfold alignedRule at h
  split at h
  · split at h
    · split at h
      · exact (Option.some.inj h).symm
      · cases h
    · exact (Option.some.inj h).symm
  · exact (Option.some.inj h).symm

/-- **C70.** For programs that load and store whole values only (no `load8`, `store16`, ...), with offsets below 2^31: `safe-heap` lets a run pass if all its indices are multiples of the size of the
value and below 2^31. That is: if the original ends normally under the rule that traps otherwise, so does the instrumented program, with the same results and state. -/
theorem C70_aligned_runs_pass {C iface ts m r} {H : Imports W} {H' : Imports (W × A)} (hW : SafeHeaped C iface ts m r H H') (hI : ImportsAgree m Eq H H)
    (hoff : ∀ i ∈ bodyTargets m ts, ∀ f c, m.functions[i]? = some f → f.code = .present c → OnlyCode (OffsetsAre iface fun o => o.toNat < 2 ^ 31) c.body)
    (hfull : ∀ i ∈ bodyTargets m ts, ∀ f c, m.functions[i]? = some f → f.code = .present c → OnlyCode Basic.FullWidth c.body)
    {N : Num} {f : Nat} {ty : FuncType} {args : List RVal} {s : Store W} (hf : m.ctx.ftype f = some ty) (hargs : ValsOK m.ctx args ty.inputs)
    (hok : StoreOK m.ctx s) (a : A) (L d : Nat) {vs s1}
    (hrun : callF N (judged false C m (bodyTargets m ts) H (alignedRule iface)) L d f args s = .ok vs s1) :
    callF N (machineOf H m.functions) L d f args s = .ok vs s1 ∧
    ∃ a1, callF N (machineOf H' r.module.functions) L (d + 2) f args (s.withAnalysis a) = .ok vs (s1.withAnalysis a1) := by
  have hr := instruments_raises hW.small hW.instruments
  have key : callF N (judged false C m (bodyTargets m ts) H (safeRule iface)) L d f args s = .ok vs s1 := by
    have := judged_mono (u := alignedRule iface) (u' := safeRule iface) (N := N) hW.valid hr hW.annotated hI hfull (fun _ _ _ _ h => alignedRule_world iface h) ?_ ?_ L d
      f ty args s s hf hargs (SameState.iff.2 ⟨hok, rfl, rfl, rfl, rfl, rfl, rfl⟩)
    · rw [hrun] at this
      generalize callF N (judged false C m (bodyTargets m ts) H (safeRule iface)) L d f args s = o at this ⊢
      cases this with
      | ok hv hs => simp only [agreeing] at hs; rw [hs.eq]
      | fuelR h => cases h
      | trapR h => cases h
    · intro t args s w ht h
      have hacc : t.accesses = false := by cases t <;> first | rfl | cases ht
      unfold safeRule
      split
      · cases he : stdEntry t args with
        | none => rfl
        | some adv =>
          dsimp only
          rw [if_pos]
          cases adv
          case load => rcases (stdEntry_is_load he).1 with rfl | rfl | rfl | rfl <;> cases hacc
          case store => rcases (stdEntry_is_store he).1 with rfl | rfl | rfl | rfl <;> cases hacc
          all_goals trivial
      · rfl
    · intro b t k info hBb hd ops loc s w vs s1 hk hl hu hx
      unfold safeRule
      by_cases ht : (iface.trap t).isSome = true
      · rw [if_pos ht]
        unfold alignedRule at hu
        rw [if_pos ht] at hu
        cases he : stdEntry t (ops ++ info ++ loc) with
        | none => rfl
        | some adv =>
          rw [he] at hu
          dsimp only at hu ⊢
          by_cases ha : adv.Aligned
          · rw [if_pos]
            have hin := performed_in_memory hd hk hx he
            have hsize : (∀ i o op l, adv = .load i o op l → op.width = op.ty.bytes) ∧ (∀ i v o op l, adv = .store i v o op l → op.width = op.ty.bytes) := by
              constructor
              · rintro i o op l rfl
                obtain ⟨ht', f, g, c, e1, e2, e3⟩ := stdEntry_is_load he
                have hacc : t.accesses = true := by rcases ht' with rfl | rfl | rfl | rfl <;> rfl
                rcases access_delegated hd hacc with ⟨op', ma, rfl⟩ | ⟨op', ma, rfl⟩
                · simp only [delegation, Option.map_eq_some_iff, Prod.mk.injEq] at hd
                  obtain ⟨t, hd, rfl, rfl, rfl⟩ := hd
                  obtain ⟨v, rfl⟩ : ∃ v, ops = [v] := by match ops, hk with | [v], _ => exact ⟨v, rfl⟩
                  simp only [List.cons_append, List.nil_append, List.cons.injEq, RVal.i32, RVal.i64, RVal.num.injEq, Val.i64.injEq, Val.i32.injEq] at e1
                  obtain ⟨rfl, rfl, rfl, _⟩ := e1
                  have : op' = op := Option.some.inj (((C17_load_codes _ _).2 rfl).symm.trans e2)
                  subst this
                  exact hBb
                · exfalso
                  simp only [delegation, Option.map_eq_some_iff, Prod.mk.injEq] at hd
                  obtain ⟨t, hd, rfl, rfl, rfl⟩ := hd
                  revert hd; rcases ht' with rfl | rfl | rfl | rfl <;> cases op' <;> decide
              · rintro i w o op l rfl
                obtain ⟨ht', f, g, c, e1, e2, e3⟩ := stdEntry_is_store he
                have hacc : t.accesses = true := by rcases ht' with rfl | rfl | rfl | rfl <;> rfl
                rcases access_delegated hd hacc with ⟨op', ma, rfl⟩ | ⟨op', ma, rfl⟩
                · exfalso
                  simp only [delegation, Option.map_eq_some_iff, Prod.mk.injEq] at hd
                  obtain ⟨t, hd, rfl, rfl, rfl⟩ := hd
                  revert hd; rcases ht' with rfl | rfl | rfl | rfl <;> cases op' <;> decide
                · simp only [delegation, Option.map_eq_some_iff, Prod.mk.injEq] at hd
                  obtain ⟨t, hd, rfl, rfl, rfl⟩ := hd
                  obtain ⟨v, v', rfl⟩ : ∃ v w, ops = [v, w] := by match ops, hk with | [v, w], _ => exact ⟨v, w, rfl⟩
                  simp only [List.cons_append, List.nil_append, List.cons.injEq, RVal.i32, RVal.i64, RVal.num.injEq, Val.i64.injEq, Val.i32.injEq] at e1
                  obtain ⟨rfl, rfl, rfl, rfl, _⟩ := e1
                  have : op' = op := Option.some.inj (((C17_store_codes _ _).2 rfl).symm.trans e2)
                  subst this
                  exact hBb
            cases adv
            case load i o op l =>
              have := hsize.1 i o op l rfl
              simp only [Advice.Within, this] at hin
              exact ⟨ha.2, fun _ => hin, fun h => absurd ha.1 (by omega)⟩
            case store i v o op l =>
              have := hsize.2 i v o op l rfl
              simp only [Advice.Within, this] at hin
              exact ⟨ha.2, fun _ => hin, fun h => absurd ha.1 (by omega)⟩
            all_goals trivial
          · rw [if_neg ha] at hu; cases hu
      · rw [if_neg ht]
  refine ⟨?_, (C70_safe_heap_offsets hW hoff hf hargs hok a L d).1 _ _ key⟩
  rcases C70_checked_original hr hW.valid hW.annotated hI iface hf hargs hok (N := N) L d with h | ⟨s2, h⟩
  · rw [← h, key]
  · rw [key] at h; cases h

/-! ## Examples, and what the analysis misses -/

def okResults : Res Unit → Option (List RVal)
  | .ok vs _ => some vs
  | _ => none

def isTrap : Res Unit → Bool
  | .trap _ => true
  | _ => false

theorem okResults_eq {o : Res Unit} {vs} (h : okResults o = some vs) : ∃ s, o = .ok vs s := by
  cases o <;> simp [okResults] at h
  exact ⟨_, by rw [h]⟩

theorem isTrap_eq {o : Res Unit} (h : isTrap o = true) : ∃ s, o = .trap s := by
  cases o <;> simp [isTrap] at h
  exact ⟨_, rfl⟩

theorem exHeap_safeHeaped {st : StoreOp} {op : LoadOp} (hst : st.ty = .i32) (hop : op.ty = .i32) {r} (hr : Instruments exTypedChecker exMemIface none (exHeap st op) r) :
    SafeHeaped (A := Unit) exTypedChecker exMemIface none (exHeap st op) r (fun _ _ _ _ _ => .stuck) (exMemImports (safeHeapBody r.module.exported)) where
  small := exHeap_small
  documented := exMemIface_documented
  noApply := rfl
  onlyAccesses := fun t h => by rcases exMemIface_hooks h with rfl | rfl <;> rfl
  instruments := hr
  valid := exHeap_valid hst hop
  annotated := exHeap_annotated hst hop
  reserved := by
    rw [show (exHeap st op).exportNames = ["main"] from rfl]
    decide +kernel
  linked := exMem_linked _
  imports := fun f hf ns name hc => (exHeap_noImports hf hc).elim

/-- `main(p)` of the example with the analysis. -/
def exHeapRun (r : Instrumented) (p : BitVec 32) : Res (Unit × Unit) :=
  callF exNum (machineOf (exMemImports (safeHeapBody r.module.exported)) r.module.functions) 10 12 0 [.i32 p] (exMemStore.withAnalysis ())

/-- `main(p)` of the original. -/
def exHeapOriginal (st : StoreOp) (op : LoadOp) (p : BitVec 32) : Res Unit :=
  callF exNum (machineOf (fun _ _ _ _ _ => .stuck) (exHeap st op).functions) 10 10 0 [.i32 p] exMemStore

/-- `main(p)` of the original, its accesses checked. -/
def exHeapChecked (st : StoreOp) (op : LoadOp) (p : BitVec 32) : Res Unit :=
  callF exNum (judged false exTypedChecker (exHeap st op) (bodyTargets (exHeap st op) none) (fun _ _ _ _ _ => .stuck) (safeRule exMemIface)) 10 10 0 [.i32 p] exMemStore

/-- With the analysis, `main(p)` of the example returns what the checked original returns, and traps if it traps. -/
theorem exHeap_run {st : StoreOp} {op : LoadOp} (hst : st.ty = .i32) (hop : op.ty = .i32) {r} (hr : Instruments exTypedChecker exMemIface none (exHeap st op) r) (p : BitVec 32) :
    (∀ vs, okResults (exHeapChecked st op p) = some vs → ∃ s1, exHeapRun r p = .ok vs s1) ∧ (isTrap (exHeapChecked st op p) = true → ∃ s1, exHeapRun r p = .trap s1) := by
  have := C70_safe_heap_checks_accesses (exHeap_safeHeaped hst hop hr) exHeap_offsets (N := exNum) (f := 0) (ty := ⟨[.i32], [.i32]⟩) (args := [.i32 p]) (s := exMemStore) rfl
    (ValsOK.nil.cons rfl (by simp [RVal.OK])) exHeapStore_ok () 10 10
  constructor
  · intro vs h
    obtain ⟨s1, h⟩ := okResults_eq h
    obtain ⟨a1, h⟩ := this.1 _ _ h
    exact ⟨_, h⟩
  · intro h
    obtain ⟨s1, h⟩ := isTrap_eq h
    obtain ⟨a1, h⟩ := this.2.1 _ h
    exact ⟨_, h⟩

-- `main(8)` returns 7 with the analysis; `main(65536)` is stopped, as it is without the analysis.
example : ∃ r, Instruments exTypedChecker exMemIface none (exHeap .i32Store .i32Load) r ∧ (∃ s1, exHeapRun r 8 = .ok [.i32 7] s1) ∧ (∃ s1, exHeapRun r 65536 = .trap s1) ∧
    isTrap (exHeapOriginal .i32Store .i32Load 65536) = true := by
  obtain ⟨r, hr⟩ := exHeap_instruments (st := .i32Store) (op := .i32Load)
  exact ⟨r, hr, (exHeap_run rfl rfl hr 8).1 _ (by decide +kernel), (exHeap_run rfl rfl hr 65536).2 (by decide +kernel), by decide +kernel⟩

-- The rule of `C70_aligned_runs_pass` allows `main(8)`.
example : ∃ r, Instruments exTypedChecker exMemIface none (exHeap .i32Store .i32Load) r ∧ ∃ s1, exHeapRun r 8 = .ok [.i32 7] s1 := by
  obtain ⟨r, hr⟩ := exHeap_instruments (st := .i32Store) (op := .i32Load)
  obtain ⟨s1, h⟩ := okResults_eq (vs := [.i32 7]) (o := callF exNum (judged false exTypedChecker (exHeap .i32Store .i32Load) (bodyTargets (exHeap .i32Store .i32Load) none) (fun _ _ _ _ _ => .stuck)
    (alignedRule exMemIface)) 10 10 0 [.i32 8] exMemStore) (by decide +kernel)
  obtain ⟨_, a1, h⟩ := C70_aligned_runs_pass (exHeap_safeHeaped rfl rfl hr) (fun f hf ns name hc => (exHeap_noImports hf hc).elim)
    (fun i hi f c hf hc b hb t k info hd ht => by
      have := exHeap_offsets i hi f c hf hc b hb t k info hd ht
      cases b <;> first | trivial | (simp only at this ⊢; rw [this]; decide))
    (by
      rw [exHeap_targets]
      intro i hi f c hf hc b hb
      simp only [List.mem_cons, List.not_mem_nil, or_false] at hi
      subst hi
      cases hf; cases hc
      cases b <;> first | trivial | skip
      all_goals simp [Basic.toL] at hb; obtain ⟨rfl, rfl⟩ := hb; rfl)
    (f := 0) (ty := ⟨[.i32], [.i32]⟩) rfl (ValsOK.nil.cons rfl (by simp [RVal.OK])) exHeapStore_ok () 10 10 h
  exact ⟨r, hr, _, h⟩

-- `C70_safe_heap_offsets` applies to the program of `ExMem.lean`, with offsets 3 and 2.
example : ∃ r, Instruments exTypedChecker exMemIface none exMem r ∧ ∃ s1, callF exNum (machineOf (exMemImports (safeHeapBody r.module.exported)) r.module.functions) 10 12 0 [.i32 8]
    (exMemStore.withAnalysis ()) = .ok [.i32 1280] s1 := by
  obtain ⟨r, hr⟩ := exMem_instruments
  obtain ⟨s1, h⟩ := okResults_eq (vs := [.i32 1280]) (o := callF exNum (judged false exTypedChecker exMem (bodyTargets exMem none) (fun _ _ _ _ _ => .stuck)
    (safeRule exMemIface)) 10 10 0 [.i32 8] exMemStore) (by decide +kernel)
  have hW : SafeHeaped (A := Unit) exTypedChecker exMemIface none exMem r (fun _ _ _ _ _ => .stuck) (exMemImports (safeHeapBody r.module.exported)) :=
    ⟨exMem_small, exMemIface_documented, rfl, fun t h => by rcases exMemIface_hooks h with rfl | rfl <;> rfl, hr, exMem_valid, exMem_annotated, by decide +kernel, exMem_linked _,
      fun f hf ns name hc => (exMem_noImports hf hc).elim⟩
  obtain ⟨a1, h⟩ := (C70_safe_heap_offsets hW exMem_offsets (f := 0) (ty := ⟨[.i32], [.i32]⟩) rfl (ValsOK.nil.cons rfl (by simp [RVal.OK])) exMemStore_ok () 10 10).1 _ _ h
  exact ⟨r, hr, _, h⟩

/-- **C70, negatively: `safe-heap` stops programs that do nothing wrong.** A program writes one byte at 65535, the last of its memory, and reads it; alone it ends normally and returns what it wrote,
with the analysis it is stopped (the analysis asks for room for the four bytes of the value, and for an index divisible by 4). -/
theorem C70_false_alarms : ∃ r, Instruments exTypedChecker exMemIface none (exHeap .i32Store8 .i32Load8U) r ∧ okResults (exHeapOriginal .i32Store8 .i32Load8U 65535) = some [.i32 7] ∧
    ∃ s1, exHeapRun r 65535 = .trap s1 := by
  obtain ⟨r, hr⟩ := exHeap_instruments (st := .i32Store8) (op := .i32Load8U)
  exact ⟨r, hr, by decide +kernel, (exHeap_run rfl rfl hr 65535).2 (by decide +kernel)⟩

/-- **C70, negatively: the null pointer is not detected.** A program reads and writes at index 0; with the analysis it ends normally. -/
theorem C70_null_passes : ∃ r, Instruments exTypedChecker exMemIface none (exHeap .i32Store .i32Load) r ∧ ∃ s1, exHeapRun r 0 = .ok [.i32 7] s1 := by
  obtain ⟨r, hr⟩ := exHeap_instruments (st := .i32Store) (op := .i32Load)
  exact ⟨r, hr, (exHeap_run rfl rfl hr 0).1 _ (by decide +kernel)⟩

end Wastrum
