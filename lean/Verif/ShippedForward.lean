import Verif.StdlibThms
/-!
# The shipped forwarding analysis is transparent (C48)
-/

set_option linter.unusedSimpArgs false
set_option linter.unusedVariables false

namespace Wastrum

variable {W A : Type}

/-! ## Specification -/

/-- The function of a module exported under a name (how the imports of the analysis are resolved). -/
def Module.exported (m : Module) (name : String) : Option Nat := m.functions.findIdx? fun f => f.exports.contains name

/-- The analysis' imported hooks are the functions exported by an analysis written with the library, its advice having
the given bodies. -/
def LinkedTo (iface : Interface) (body : Advice → (Nat → List RVal → Store W → Res W) → Store W → Res W) (H : Imports W) : Prop :=
  ∀ t, (iface.trap t).isSome → H "WASTRUMENTATION_ANALYSIS" (stdSig t).1 = stdHook body t

/-- The analysis' interface lists its hooks under the documented names and types. -/
def Interface.Documented (iface : Interface) : Prop := ∀ t e, iface.trap t = some e → e = t.export

/-- Static offsets of loads and stores that go through the analysis satisfy `ok`. -/
def OffsetsAre (iface : Interface) (ok : BitVec 32 → Prop) (b : Basic) : Prop :=
  ∀ t k info, delegation b = some (t, k, info) → (iface.trap t).isSome →
    match b with
    | .load _ ma | .store _ ma => ok ma.offset
    | _ => True

/-! ## Lemmas -/

theorem nodup_flatMap {α β : Type} {f : α → List β} {l : List α} {i j : Nat} {x y : α} {b : β} (hn : (l.flatMap f).Nodup)
    (hx : l[i]? = some x) (hy : l[j]? = some y) (hbx : b ∈ f x) (hby : b ∈ f y) : i = j := by
  induction l generalizing i j with
  | nil => cases hx
  | cons a l ih =>
    simp only [List.flatMap_cons, List.nodup_append] at hn
    obtain ⟨_, h2, h3⟩ := hn
    cases i with
    | zero =>
      cases hx
      cases j with
      | zero => rfl
      | succ j =>
        exact absurd rfl (h3 _ hbx _ (List.mem_flatMap.2 ⟨y, List.mem_of_getElem? (by simpa using hy), hby⟩))
    | succ i =>
      cases j with
      | zero => cases hy; exact absurd rfl (h3 _ hby _ (List.mem_flatMap.2 ⟨x, List.mem_of_getElem? (by simpa using hx), hbx⟩))
      | succ j => exact congrArg (· + 1) (ih (i := i) (j := j) h2 (by simpa using hx) (by simpa using hy))

theorem Module.exported_eq {m : Module} (hn : m.exportNames.Nodup) {k : Nat} {f : Func} {name : String} (hf : m.functions[k]? = some f)
    (hx : name ∈ f.exports) : m.exported name = some k := by
  have hn' : (m.functions.flatMap (·.exports)).Nodup := by
    unfold Module.exportNames at hn
    exact (List.nodup_append.1 (List.nodup_append.1 (List.nodup_append.1 hn).1).1).1
  unfold Module.exported
  cases h : m.functions.findIdx? fun f => f.exports.contains name with
  | none =>
    have := List.findIdx?_eq_none_iff.1 h f (List.mem_of_getElem? hf)
    simp [hx] at this
  | some j =>
    obtain ⟨hj, h1, _⟩ := List.findIdx?_eq_some_iff_getElem.1 h
    have := nodup_flatMap hn' (List.getElem?_eq_getElem hj) hf (by simpa using h1) hx
    rw [this]

/-- What the base functions do when called (with `mo`, the bound on the call depth may be reached). -/
structure BaseCalls (N : Num) (base : String → Option Nat) (hasMem : Bool) (mo : Bool) (call : Nat → List RVal → Store W → Res W) : Prop where
  load : hasMem = true → ∀ op a off s, (mo = true ∧ callBase base call (LoadOp.baseName op) [.i32 a, .i32 off] s = .fuel) ∨
    callBase base call op.baseName [.i32 a, .i32 off] s = execute N (.load op ⟨0, op.alignExp⟩) [.i32 (a + off)] s
  store : hasMem = true → ∀ op a v off s, (mo = true ∧ callBase base call (StoreOp.baseName op) [.i32 a, .num v, .i32 off] s = .fuel) ∨
    callBase base call op.baseName [.i32 a, .num v, .i32 off] s = execute N (.store op ⟨0, op.alignExp⟩) [.i32 (a + off), .num v] s
  grow : hasMem = true → ∀ n i s, (mo = true ∧ callBase base call "instrumented_memory_grow" [.i32 n, .i32 i] s = .fuel) ∨
    callBase base call "instrumented_memory_grow" [.i32 n, .i32 i] s = execute N (.memoryGrow 0) [.i32 n] s

theorem base_calls {C iface ts m r} (hs : SmallModule m) (h : Instruments C iface ts m r) (hn : r.module.exportNames.Nodup) (N : Num)
    (H : Imports W) (L d : Nat) (mo : Bool) (hd : mo = true ∨ 0 < d) :
    BaseCalls N r.module.exported (!m.memories.isEmpty) mo (callF N (machineOf H r.module.functions) L d) := by
  have key : ∀ name ty k args s res, ExportedAs r name ty k → Returns r k args s res →
      (mo = true ∧ callBase r.module.exported (callF N (machineOf H r.module.functions) L d) name args s = .fuel) ∨
      callBase r.module.exported (callF N (machineOf H r.module.functions) L d) name args s = res := by
    intro name ty k args s res hk hr
    obtain ⟨f, hf, hx, _⟩ := hk
    unfold callBase
    rw [Module.exported_eq hn hf (by rw [hx]; simp)]
    dsimp only
    cases d with
    | zero =>
      rcases hd with hd | hd
      · exact .inl ⟨hd, rfl⟩
      · omega
    | succ d => exact .inr (hr N H L d)
  refine ⟨fun hm => ?_, fun hm => ?_, fun hm => ?_⟩ <;> have hm : m.memories ≠ [] := by simpa using hm
  · intro op a off s
    obtain ⟨k, h1, h2⟩ := baseLoad_exact hs h hm op
    exact key _ _ _ _ _ _ h1 (h2 W _ a off s)
  · intro op a v off s
    obtain ⟨k, h1, h2⟩ := baseStore_exact hs h hm op
    exact key _ _ _ _ _ _ h1 (h2 W _ a off v s)
  · intro n i s
    obtain ⟨⟨k, h1, h2⟩, _⟩ := C20_grow_and_size hs h hm
    exact key _ _ _ _ _ _ h1 (h2 W _ n i s)

theorem stdHook_ok {body : Advice → (Nat → List RVal → Store W → Res W) → Store W → Res W} {t args a call s} (h : stdEntry t args = some a)
    (hr : ∀ vs s1, body a call s = .ok vs s1 → vs.map RVal.type = t.results) : stdHook body t call args s = body a call s := by
  unfold stdHook
  rw [h]
  dsimp only
  cases hb : body a call s with
  | ok vs s1 => simp only [C49_library_exports_what_is_imported, hr vs s1 hb, if_true]
  | _ => rfl

/-- The observing hooks of the forwarding analysis return what they are shown. -/
theorem forward_shown {N : Num} {base : String → Option Nat} {t : Trap} (ht : t.performs = false) (call) (args : List RVal) (s : Store W)
    (h : args.map RVal.type = t.args) : stdHook (forwardBody N base) t call args s = .ok (args.take t.results.length) s := by
  have vals : ∀ v : RVal, (∀ r, v.type ≠ .ref r) → ∃ x, v = .num x := by
    intro v hv
    cases v with
    | num x => exact ⟨x, rfl⟩
    | ref r a => exact absurd rfl (hv r)
  cases t <;> first | (cases ht; done) | skip
  all_goals
    simp only [Trap.args] at h
    repeat
      replace h := map_type_cons h
      obtain ⟨v, _, rfl, hv, h⟩ := h
      obtain ⟨v, rfl⟩ := vals v (by rw [hv]; intro r; simp)
      cases v <;> first | (cases hv; done) | skip
    cases map_type_nil h
    rfl

theorem Trap.not_performs {t : Trap} (h : t.Observes) : t.performs = false := by
  cases t <;> first
    | rfl
    | exact absurd rfl (h (.unary .i32Eqz) _ _)
    | exact absurd rfl (h (.unary .i64Eqz) _ _)
    | exact absurd rfl (h (.unary .i64Clz) _ _)
    | exact absurd rfl (h (.unary .f32Abs) _ _)
    | exact absurd rfl (h (.unary .f64Abs) _ _)
    | exact absurd rfl (h (.unary .i32TruncF32S) _ _)
    | exact absurd rfl (h (.unary .i32TruncF64S) _ _)
    | exact absurd rfl (h (.unary .i64ExtendI32S) _ _)
    | exact absurd rfl (h (.unary .i64TruncF32S) _ _)
    | exact absurd rfl (h (.unary .i64TruncF64S) _ _)
    | exact absurd rfl (h (.unary .f32ConvertI32S) _ _)
    | exact absurd rfl (h (.unary .f32ConvertI64S) _ _)
    | exact absurd rfl (h (.unary .f32DemoteF64) _ _)
    | exact absurd rfl (h (.unary .f64ConvertI32S) _ _)
    | exact absurd rfl (h (.unary .f64ConvertI64S) _ _)
    | exact absurd rfl (h (.unary .f64PromoteF32) _ _)
    | exact absurd rfl (h (.unary .i32Clz) _ _)
    | exact absurd rfl (h (.binary .i32Add) _ _)
    | exact absurd rfl (h (.binary .i64Eq) _ _)
    | exact absurd rfl (h (.binary .f32Eq) _ _)
    | exact absurd rfl (h (.binary .f64Eq) _ _)
    | exact absurd rfl (h (.binary .i64Add) _ _)
    | exact absurd rfl (h (.binary .f32Add) _ _)
    | exact absurd rfl (h (.binary .f64Add) _ _)
    | exact absurd rfl (h (.load .i32Load ⟨0, 0⟩) _ _)
    | exact absurd rfl (h (.load .i64Load ⟨0, 0⟩) _ _)
    | exact absurd rfl (h (.load .f32Load ⟨0, 0⟩) _ _)
    | exact absurd rfl (h (.load .f64Load ⟨0, 0⟩) _ _)
    | exact absurd rfl (h (.store .i32Store ⟨0, 0⟩) _ _)
    | exact absurd rfl (h (.store .i64Store ⟨0, 0⟩) _ _)
    | exact absurd rfl (h (.store .f32Store ⟨0, 0⟩) _ _)
    | exact absurd rfl (h (.store .f64Store ⟨0, 0⟩) _ _)
    | exact absurd rfl (h (.memoryGrow 0) _ _)

theorem binary_forwarded {N : Num} {base : String → Option Nat} {op : BinaryOp} {t : Trap} (hd : binaryTrap op.sig = some t) {v w : Val}
    (hvn : v.type = op.sig.1) (hwn : w.type = op.sig.1) {f i : BitVec 64} {call} {s : Store W} :
    stdHook (forwardBody N base) t call [.num v, .num w, .i32 op.serialize, .i64 f, .i64 i] s = execute N (.binary op) [.num v, .num w] s := by
  have he : stdEntry t [.num v, .num w, .i32 op.serialize, .i64 f, .i64 i] = some (.binary op v w (.new f i)) := by
    rw [stdEntry_binary hd hvn hwn, (C17_binary_codes _ op).2 rfl]; rfl
  rw [stdHook_ok he]
  · simp only [forwardBody, op.apply_eq, hvn, hwn, and_self, if_true, execute, execInstr, step, List.reverse_cons, List.reverse_nil, List.nil_append,
      List.cons_append]
    cases N.binary op v w <;> rfl
  · intro vs s1
    simp only [forwardBody, op.apply_eq, hvn, hwn, and_self, if_true]
    cases hu : N.binary op v w with
    | none => intro h; cases h
    | some x =>
      intro h; cases h
      rw [(binaryTrap_args hd).2, ← N.binary_type op v w x hu]; rfl

/-- The forwarding analysis performs the operations it is handed. -/
theorem forward_performed {m : Module} (hm1 : m.memories.length ≤ 1) {N : Num} {base : String → Option Nat} {iface : Interface} {exact : Bool} {mo : Bool} {t : Trap}
    (ht : (iface.trap t).isSome) {b k info} (hd : delegation b = some (t, k, info))
    (hB : OffsetsAre iface (fun o => o.toNat < 2 ^ 31 ∧ (exact = true → o = 0)) b ∧ m.ctx.HasMem b) {call} (hcall : BaseCalls N base (!m.memories.isEmpty) mo call)
    {ops loc : List RVal} {s : Store W} (hk : ops.length = k) (hl : loc.length = 2) (hty : (ops ++ info ++ loc).map RVal.type = t.args)
    (hbd : ∀ x ∈ s.mems, x.Bounded) :
    (exact = false ∧ ∃ s1, execute N b ops s = .trap s1) ∨ (mo = true ∧ stdHook (forwardBody N base) t call (ops ++ info ++ loc) s = .fuel) ∨
      stdHook (forwardBody N base) t call (ops ++ info ++ loc) s = execute N b ops s := by
  obtain ⟨f, i, rfl⟩ : ∃ f i, loc = [f, i] := by
    match loc, hl with
    | [f, i], _ => exact ⟨f, i, rfl⟩
  obtain ⟨hB, hmem⟩ := hB
  replace hB := hB t k info hd ht
  cases b <;> try (simp [delegation] at hd; done)
  case unary op =>
    simp only [delegation, Option.map_eq_some_iff, Prod.mk.injEq] at hd
    obtain ⟨t, hd, rfl, rfl, rfl⟩ := hd
    obtain ⟨v, rfl⟩ : ∃ v, ops = [v] := by match ops, hk with | [v], _ => exact ⟨v, rfl⟩
    rw [(unaryTrap_args hd).1] at hty
    simp only [List.cons_append, List.nil_append, List.map_cons, List.map_nil, List.cons.injEq, and_true] at hty
    obtain ⟨hv, _, hf, hi⟩ := hty
    obtain ⟨f, rfl⟩ := RVal.of_i64 hf
    obtain ⟨i, rfl⟩ := RVal.of_i64 hi
    obtain ⟨v, rfl, hvn⟩ := RVal.type_num hv op.sig_num
    have he : stdEntry t [.num v, .i32 op.serialize, .i64 f, .i64 i] = some (.unary op v (.new f i)) := by
      rw [stdEntry_unary hd hvn, (C17_unary_codes _ op).2 rfl]; rfl
    refine .inr (.inr ?_)
    simp only [List.cons_append, List.nil_append]
    rw [stdHook_ok he]
    · simp only [forwardBody, op.apply_eq, hvn, if_true, execute, execInstr, step, List.reverse_cons, List.reverse_nil, List.nil_append]
      cases N.unary op v <;> rfl
    · intro vs s1
      simp only [forwardBody, op.apply_eq, hvn, if_true]
      cases hu : N.unary op v with
      | none => intro h; cases h
      | some w =>
        intro h; cases h
        rw [(unaryTrap_args hd).2, ← N.unary_type op v w hu]; rfl
  case binary op =>
    simp only [delegation, Option.map_eq_some_iff, Prod.mk.injEq] at hd
    obtain ⟨t, hd, rfl, rfl, rfl⟩ := hd
    obtain ⟨v, w, rfl⟩ : ∃ v w, ops = [v, w] := by match ops, hk with | [v, w], _ => exact ⟨v, w, rfl⟩
    rw [(binaryTrap_args hd).1] at hty
    simp only [List.cons_append, List.nil_append, List.map_cons, List.map_nil, List.cons.injEq, and_true] at hty
    obtain ⟨hv, hw, _, hf, hi⟩ := hty
    obtain ⟨f, rfl⟩ := RVal.of_i64 hf
    obtain ⟨i, rfl⟩ := RVal.of_i64 hi
    obtain ⟨v, rfl, hvn⟩ := RVal.type_num hv op.sig_num
    obtain ⟨w, rfl, hwn⟩ := RVal.type_num hw op.sig_num
    refine .inr (.inr ?_)
    simp only [List.cons_append, List.nil_append]
    exact binary_forwarded hd hvn hwn
  case load op ma =>
    simp only [delegation, Option.map_eq_some_iff, Prod.mk.injEq] at hd
    obtain ⟨t, hd, rfl, rfl, rfl⟩ := hd
    obtain ⟨v, rfl⟩ : ∃ v, ops = [v] := by match ops, hk with | [v], _ => exact ⟨v, rfl⟩
    rw [(loadTrap_args hd).1] at hty
    simp only [List.cons_append, List.nil_append, List.map_cons, List.map_nil, List.cons.injEq, and_true] at hty
    obtain ⟨hv, _, _, hf, hi⟩ := hty
    obtain ⟨f, rfl⟩ := RVal.of_i64 hf
    obtain ⟨i, rfl⟩ := RVal.of_i64 hi
    obtain ⟨x, rfl⟩ := RVal.of_i32 hv
    have hne : (!m.memories.isEmpty) = true := by
      have : 0 < m.ctx.mems := hmem
      cases h : m.memories with
      | nil => simp [Module.ctx, h] at this
      | cons => rfl
    have he : stdEntry t [.i32 x, .i64 (ma.offset.setWidth 64), .i32 op.serialize, .i64 f, .i64 i] = some (.load x (ma.offset.setWidth 64) op (.new f i)) := by
      rw [stdEntry_load hd, (C17_load_codes _ op).2 rfl]; rfl
    have hb : forwardBody N base (.load x (ma.offset.setWidth 64) op (.new f i)) call s = callBase base call op.baseName [.i32 x, .i32 ma.offset] s := by
      simp only [forwardBody, LoadOp.perform, i64ToI32_small hB.1, op.callee_eq]
    have hst : ∀ {res : Res W}, callBase base call op.baseName [.i32 x, .i32 ma.offset] s = res → (∀ vs s1, res = .ok vs s1 → vs.map RVal.type = t.results) →
        stdHook (forwardBody N base) t call ([.num (.i32 x)] ++ [.i64 (ma.offset.setWidth 64), .i32 op.serialize] ++ [.num (.i64 f), .num (.i64 i)]) s = res := by
      intro res h1 h2
      simp only [List.cons_append, List.nil_append]
      rw [stdHook_ok he, hb, h1]
      rw [hb, h1]; exact h2
    rcases hcall.load hne op x ma.offset s with ⟨h1, h2⟩ | h1
    · exact .inr (.inl ⟨h1, hst h2 (by intro _ _ h; cases h)⟩)
    · rw [show execute N (.load op ⟨0, op.alignExp⟩) [.i32 (x + ma.offset)] s = _ from execInstr_load _ _ _ _ _] at h1
      rw [show execute N (.load op ma) [.num (.i32 x)] s = _ from execInstr_load _ _ _ _ _]
      have hm0 : ∀ x ∈ s.mems[0]?, x.pages ≤ 65536 := fun x hx => (hbd x (List.mem_of_getElem? hx)).1
      cases h0 : s.mems[0]? with
      | none => rw [h0] at h1; exact .inr (.inr (hst h1 (by intro _ _ h; cases h)))
      | some y =>
        rw [h0] at h1
        have hy := hm0 y h0
        dsimp only at h1 ⊢
        have e0 : (x + ma.offset).toNat + (0 : BitVec 32).toNat = (x + ma.offset).toNat := rfl
        rw [e0] at h1
        have typed : ∀ ea vs s1, (match y.load op ea with | some v => Res.ok [.num v] s | none => .trap s) = .ok vs s1 → vs.map RVal.type = t.results := by
          intro ea vs s1 h
          cases hv : y.load op ea with
          | none => rw [hv] at h; cases h
          | some v =>
            rw [hv] at h; cases h
            rw [(loadTrap_args hd).2]
            simp only [Mem.load] at hv
            split at hv <;> cases hv
            exact congrArg (· :: []) (LoadOp.decode_type _ _)
        by_cases hw : x.toNat + ma.offset.toNat < 2 ^ 32
        · rw [add_nowrap hw] at h1
          exact .inr (.inr (hst h1 (typed _)))
        · cases exact with
          | true => rw [hB.2 rfl] at hw; have := x.isLt; simp at hw; omega
          | false =>
            refine .inl ⟨rfl, s, ?_⟩
            have : ¬ (x.toNat + ma.offset.toNat + op.width ≤ y.size) := by
              simp only [Mem.size]
              cases op <;> simp only [LoadOp.width] <;> omega
            simp [Mem.load, this]
  case store op ma =>
    simp only [delegation, Option.map_eq_some_iff, Prod.mk.injEq] at hd
    obtain ⟨t, hd, rfl, rfl, rfl⟩ := hd
    obtain ⟨a, v, rfl⟩ : ∃ v w, ops = [v, w] := by match ops, hk with | [v, w], _ => exact ⟨v, w, rfl⟩
    rw [(storeTrap_args hd).1] at hty
    simp only [List.cons_append, List.nil_append, List.map_cons, List.map_nil, List.cons.injEq, and_true] at hty
    obtain ⟨ha, hv, _, _, hf, hi⟩ := hty
    obtain ⟨f, rfl⟩ := RVal.of_i64 hf
    obtain ⟨i, rfl⟩ := RVal.of_i64 hi
    obtain ⟨x, rfl⟩ := RVal.of_i32 ha
    obtain ⟨v, rfl, hvn⟩ := RVal.type_num hv op.ty_num
    have hne : (!m.memories.isEmpty) = true := by
      have : 0 < m.ctx.mems := hmem
      cases h : m.memories with
      | nil => simp [Module.ctx, h] at this
      | cons => rfl
    have he : stdEntry t [.i32 x, .num v, .i64 (ma.offset.setWidth 64), .i32 op.serialize, .i64 f, .i64 i] = some (.store x v (ma.offset.setWidth 64) op (.new f i)) := by
      rw [stdEntry_store hd hvn, (C17_store_codes _ op).2 rfl]; rfl
    have hb : forwardBody N base (.store x v (ma.offset.setWidth 64) op (.new f i)) call s = callBase base call op.baseName [.i32 x, .num v, .i32 ma.offset] s := by
      simp only [forwardBody, StoreOp.perform, i64ToI32_small hB.1, op.callee_eq, hvn, if_true]
    have hst : ∀ {res : Res W}, callBase base call op.baseName [.i32 x, .num v, .i32 ma.offset] s = res → (∀ vs s1, res = .ok vs s1 → vs.map RVal.type = t.results) →
        stdHook (forwardBody N base) t call ([.num (.i32 x), .num v] ++ [.i64 (ma.offset.setWidth 64), .i32 op.serialize] ++ [.num (.i64 f), .num (.i64 i)]) s = res := by
      intro res h1 h2
      simp only [List.cons_append, List.nil_append]
      rw [stdHook_ok he, hb, h1]
      rw [hb, h1]; exact h2
    rcases hcall.store hne op x v ma.offset s with ⟨h1, h2⟩ | h1
    · exact .inr (.inl ⟨h1, hst h2 (by intro _ _ h; cases h)⟩)
    · rw [show execute N (.store op ⟨0, op.alignExp⟩) [.i32 (x + ma.offset), .num v] s = _ from execInstr_store _ _ _ _ _ _, if_pos hvn] at h1
      rw [show execute N (.store op ma) [.num (.i32 x), .num v] s = _ from execInstr_store _ _ _ _ _ _, if_pos hvn]
      have hm0 : ∀ x ∈ s.mems[0]?, x.pages ≤ 65536 := fun x hx => (hbd x (List.mem_of_getElem? hx)).1
      cases h0 : s.mems[0]? with
      | none => rw [h0] at h1; exact .inr (.inr (hst h1 (by intro _ _ h; cases h)))
      | some y =>
        rw [h0] at h1
        have hy := hm0 y h0
        dsimp only at h1 ⊢
        have e0 : (x + ma.offset).toNat + (0 : BitVec 32).toNat = (x + ma.offset).toNat := rfl
        rw [e0] at h1
        have typed : ∀ ea vs s1, (match y.store op ea v with | some m' => Res.ok [] (s.setMem 0 m') | none => .trap s) = .ok vs s1 → vs.map RVal.type = t.results := by
          intro ea vs s1 h
          cases hv : y.store op ea v with
          | none => rw [hv] at h; cases h
          | some v =>
            rw [hv] at h; cases h
            rw [(storeTrap_args hd).2]; rfl
        by_cases hw : x.toNat + ma.offset.toNat < 2 ^ 32
        · rw [add_nowrap hw] at h1
          exact .inr (.inr (hst h1 (typed _)))
        · cases exact with
          | true => rw [hB.2 rfl] at hw; have := x.isLt; simp at hw; omega
          | false =>
            refine .inl ⟨rfl, s, ?_⟩
            have : ¬ (x.toNat + ma.offset.toNat + op.width ≤ y.size) := by
              simp only [Mem.size]
              cases op <;> simp only [StoreOp.width] <;> omega
            simp [Mem.store, this]
  case memoryGrow j =>
    simp only [delegation, Option.some.injEq, Prod.mk.injEq] at hd
    obtain ⟨rfl, rfl, rfl⟩ := hd
    obtain ⟨v, rfl⟩ : ∃ v, ops = [v] := by match ops, hk with | [v], _ => exact ⟨v, rfl⟩
    simp only [Trap.args, List.cons_append, List.nil_append, List.map_cons, List.map_nil, List.cons.injEq, and_true] at hty
    obtain ⟨hv, _, hf, hi⟩ := hty
    obtain ⟨f, rfl⟩ := RVal.of_i64 hf
    obtain ⟨i, rfl⟩ := RVal.of_i64 hi
    obtain ⟨x, rfl⟩ := RVal.of_i32 hv
    have hj : j < m.memories.length := by have : j < m.ctx.mems := hmem; simpa [Module.ctx] using this
    obtain rfl : j = 0 := by omega
    have hne : (!m.memories.isEmpty) = true := by
      cases h : m.memories with
      | nil => simp [h] at hj
      | cons => rfl
    have hst : ∀ {res : Res W}, callBase base call "instrumented_memory_grow" [.i32 x, .i32 0] s = res → (∀ vs s1, res = .ok vs s1 → vs.map RVal.type = [.i32]) →
        stdHook (forwardBody N base) .memoryGrow call ([.num (.i32 x)] ++ [nI64 0] ++ [.num (.i64 f), .num (.i64 i)]) s = res := by
      intro res h1 h2
      have hb : forwardBody N base (.memoryGrow (.i32 x) 0 (.new f i)) call s = res := h1
      simp only [List.cons_append, List.nil_append]
      rw [stdHook_ok (show stdEntry .memoryGrow _ = some (.memoryGrow (.i32 x) 0 (.new f i)) from rfl), hb]
      rw [hb]; exact h2
    rcases hcall.grow hne x 0 s with ⟨h1, h2⟩ | h1
    · exact .inr (.inl ⟨h1, hst h2 (by intro _ _ h; cases h)⟩)
    · refine .inr (.inr (hst h1 ?_))
      intro vs s1
      simp only [execute, execInstr, step, List.reverse_cons, List.reverse_nil, List.nil_append]
      cases s.mems[0]? with
      | none => intro h; cases h
      | some y =>
        dsimp only
        cases y.grow x.toNat <;> (intro h; cases h; rfl)

theorem Interface.Documented.standard {iface : Interface} (h : iface.Documented) : iface.Standard := by
  intro t e he; rw [h t e he]; exact ⟨rfl, rfl⟩

theorem execute_withAnalysis {N : Num} {b t k info} (hd : delegation b = some (t, k, info)) (ops : List RVal) (s : Store W) (a : A) :
    execute N b ops (s.withAnalysis a) = (execute N b ops s).withAnalysis a := by
  have hm : ∀ i : Nat, (s.withAnalysis a).mems[i]? = s.mems[i]? := fun _ => rfl
  cases b <;> try (simp [delegation] at hd; done)
  all_goals simp only [execute, execInstr, step, hm]
  case unary op =>
    rcases ops.reverse with _ | ⟨v | _, st⟩ <;> try rfl
    dsimp only
    by_cases hv : v.type = op.sig.1
    · simp only [hv, if_true]; cases N.unary op v <;> rfl
    · simp only [hv, if_false]; rfl
  case binary op =>
    rcases ops.reverse with _ | ⟨v | _, _ | ⟨w | _, st⟩⟩ <;> try rfl
    dsimp only
    by_cases hv : w.type = op.sig.1 ∧ v.type = op.sig.1
    · simp only [hv, and_self, if_true]; cases N.binary op w v <;> rfl
    · simp only [hv, if_false]; rfl
  case load op ma =>
    rcases ops.reverse with _ | ⟨v | _, st⟩ <;> try rfl
    cases v <;> try rfl
    dsimp only
    cases s.mems[0]? with
    | none => rfl
    | some y => dsimp only; cases y.load op _ <;> rfl
  case store op ma =>
    rcases ops.reverse with _ | ⟨v | _, _ | ⟨w | _, st⟩⟩ <;> try rfl
    cases w <;> try rfl
    dsimp only
    by_cases hv : v.type = op.ty
    · simp only [hv, if_true]
      cases s.mems[0]? with
      | none => rfl
      | some y => dsimp only; cases y.store op _ v <;> rfl
    · simp only [hv, if_false]; rfl
  case memoryGrow i =>
    rcases ops.reverse with _ | ⟨v | _, st⟩ <;> try rfl
    cases v <;> try rfl
    dsimp only
    cases s.mems[i]? with
    | none => rfl
    | some y => dsimp only; cases y.grow _ <;> rfl

theorem shipped_forwards {m : Module} (hm1 : m.memories.length ≤ 1) {N : Num} {base : String → Option Nat} {iface : Interface} (hst : iface.Documented)
    {exact mo : Bool} {H : Imports (W × A)} (hL : LinkedTo iface (forwardBody N base) H) :
    ForwardsFor N iface (fun _ _ a a' => a' = a) (BaseCalls N base (!m.memories.isEmpty) mo)
      (fun b => OffsetsAre iface (fun o => o.toNat < 2 ^ 31 ∧ (exact = true → o = 0)) b ∧ m.ctx.HasMem b) (!exact) mo H := by
  have hH : ∀ t e, iface.trap t = some e → H "WASTRUMENTATION_ANALYSIS" e.name = stdHook (forwardBody N base) t := by
    intro t e he
    have hnm := hL t (by rw [he]; rfl)
    rw [C49_library_exports_what_is_imported] at hnm
    rw [hst t e he]
    exact hnm
  refine ⟨?_, ?_⟩
  · intro t e he ho call args s a hty
    exact ⟨_, a, .refl _ _, rfl, by rw [hH t e he, forward_shown (Trap.not_performs ho) call args _ hty]⟩
  · intro t e he b k info hd hB call hcall ops loc s a hk hl hty hbd
    rw [hH t e he]
    have hex := execute_withAnalysis (N := N) hd ops s a
    rcases forward_performed hm1 (by rw [he]; rfl) hd hB hcall hk hl hty (s := s.withAnalysis a) hbd with ⟨h1, s1, h2⟩ | ⟨h1, h2⟩ | h1
    · refine .inl ⟨by simp [h1], ?_⟩
      rw [hex] at h2
      cases hx : execute N b ops s with
      | trap s2 => exact ⟨s2, rfl⟩
      | _ => rw [hx] at h2; cases h2
    · exact .inr (.inl ⟨h1, h2⟩)
    · exact .inr (.inr ⟨a, rfl, by rw [h1, hex]⟩)

/-- The program and its instrumented version under the shipped forwarding analysis stay in step. -/
theorem shipped_agrees {C iface ts m r} (hs : SmallModule m) (hst : iface.Documented) (hg : iface.generic = none)
    (h : Instruments C iface ts m r) (hv : ValidModule m)
    (hB : ∀ i ∈ bodyTargets m ts, ∀ f, m.functions[i]? = some f → WellAnnotated m f (bodyOf C m i))
    (hres : ∀ name ∈ iface.toolExports, name ∉ m.exportNames) {exact : Bool}
    (hoff : ∀ i ∈ bodyTargets m ts, ∀ f c, m.functions[i]? = some f → f.code = .present c →
      OnlyCode (OffsetsAre iface (fun o => o.toNat < 2 ^ 31 ∧ (exact = true → o = 0))) c.body)
    {N : Num} {H : Imports W} {H' : Imports (W × A)} (hL : LinkedTo iface (forwardBody N r.module.exported) H')
    (hI : ImportsAgree m (fun w (p : W × A) => w = p.1) H H') {fl fr : Bool} {k : Nat} (h1 : fl = true ∨ k = 0) (h2 : fr = true ∨ 2 ≤ k) (L d : Nat) :
    CallsAgree (agreeing m.ctx (fun v (p : W × A) => id v = p.1 ∧ True) fl fr (!exact)) m.ctx (callF N (machineOf H m.functions) L d)
      (callF N (machineOf H' r.module.functions) L (d + k)) := by
  have hm1 : m.memories.length ≤ 1 := by
    obtain ⟨ord, ord', ho, ho', h⟩ := h
    exact ((instrument_ok_iff ho ho' hs).1 ⟨r, h⟩).1
  have hQ : (fun w (p : W × A) => w = p.1) = (fun v (p : W × A) => id v = p.1 ∧ True) := by funext w p; simp
  rw [hQ] at hI
  have hvr := C15_instrumented_module_valid hs hst.standard (by intro ge cb h; rw [hg] at h; cases h) h hv hB hres
  have := traced_agrees (u := fun _ _ w => w) hs hst.standard hg h hv hB
    (B := OffsetsAre iface (fun o => o.toNat < 2 ^ 31 ∧ (exact = true → o = 0))) hoff
    (R := agreeing m.ctx (fun v (p : W × A) => id v = p.1 ∧ True) fl fr (!exact)) (Q := fun v (p : W × A) => id v = p.1 ∧ True) rfl
    (k := k) h1 (N := N) (L := L) (H := H) (H' := H') (fun f hf ns name hc => hI f hf ns name hc fl fr _)
    (fun d => forwarding_hooks hs h (shipped_forwards hm1 hst (exact := exact) (mo := fr) hL) (pw := id) (Z := fun _ _ => True) (u := fun _ _ w => w) (fun _ _ _ => rfl)
      (fun _ _ _ _ _ _ _ _ => trivial) (fun _ _ _ _ _ _ => trivial) (by simp) (h2.imp id (by omega)) rfl ?_) d
  · rwa [traced_nothing (instruments_raises hs h)] at this
  · intro d' hd'
    have e : callF N (underAnalysis C m (bodyTargets m ts) H' (hookSel iface m.functions.length) (r.module.functions.drop m.functions.length)) L d' =
        callF N (machineOf H' r.module.functions) L d' := by
      funext f args s; exact (C09_instrumented_is_interposed hs hst.standard hg h N H' L d' f args s).symm
    rw [e]
    exact base_calls hs h hvr.exports N H' L d' fr (h2.imp id (by omega))

/-! ## C48 -/

/-- **C48.** The shipped forwarding analysis (`tests/analyses/rust/forward`, on the Rust analysis library), linked with a program
it instruments, is transparent: results, traps, final state and termination are those of the original — provided every
load and store that goes through the analysis has static offset 0. (That holds in particular if the analysis uses no
load/store hooks.) The proviso is needed: the exported accessors add address and offset modulo 2^32 (C19), and the
library rejects offsets from 2^31 on (C21). -/
theorem C48_shipped_forwarding_transparent {C iface ts m r} (hs : SmallModule m) (hst : iface.Documented) (hg : iface.generic = none)
    (h : Instruments C iface ts m r) (hv : ValidModule m)
    (hB : ∀ i ∈ bodyTargets m ts, ∀ f, m.functions[i]? = some f → WellAnnotated m f (bodyOf C m i))
    (hres : ∀ name ∈ iface.toolExports, name ∉ m.exportNames)
    (hoff : ∀ i ∈ bodyTargets m ts, ∀ f c, m.functions[i]? = some f → f.code = .present c → OnlyCode (OffsetsAre iface fun o => o = 0) c.body)
    {N : Num} {H : Imports W} {H' : Imports (W × A)} (hL : LinkedTo iface (forwardBody N r.module.exported) H')
    (hI : ImportsAgree m (fun w (p : W × A) => w = p.1) H H')
    {f : Nat} {ty : FuncType} {args : List RVal} {s : Store W} (hf : m.ctx.ftype f = some ty) (hargs : ValsOK m.ctx args ty.inputs)
    (hok : StoreOK m.ctx s) (a : A) (L d : Nat) :
    (∀ vs s1, callF N (machineOf H m.functions) L d f args s = .ok vs s1 →
      ∃ a1, callF N (machineOf H' r.module.functions) L (d + 2) f args (s.withAnalysis a) = .ok vs (s1.withAnalysis a1)) ∧
    (∀ s1, callF N (machineOf H m.functions) L d f args s = .trap s1 →
      ∃ a1, callF N (machineOf H' r.module.functions) L (d + 2) f args (s.withAnalysis a) = .trap (s1.withAnalysis a1)) ∧
    (∀ vs s1', callF N (machineOf H' r.module.functions) L d f args (s.withAnalysis a) = .ok vs s1' →
      ∃ s1 a1, callF N (machineOf H m.functions) L d f args s = .ok vs s1 ∧ s1' = s1.withAnalysis a1) ∧
    (∀ s1', callF N (machineOf H' r.module.functions) L d f args (s.withAnalysis a) = .trap s1' →
      ∃ s1 a1, callF N (machineOf H m.functions) L d f args s = .trap s1 ∧ s1' = s1.withAnalysis a1) ∧
    callF N (machineOf H m.functions) L d f args s ≠ .stuck ∧ callF N (machineOf H' r.module.functions) L d f args (s.withAnalysis a) ≠ .stuck := by
  have hoff' : ∀ i ∈ bodyTargets m ts, ∀ f c, m.functions[i]? = some f → f.code = .present c →
      OnlyCode (OffsetsAre iface (fun o => o.toNat < 2 ^ 31 ∧ (true = true → o = 0))) c.body := by
    intro i hi f c hf hc b hb t k info hd ht
    have := hoff i hi f c hf hc b hb t k info hd ht
    cases b <;> first | trivial | (simp only at this ⊢; rw [this]; exact ⟨by decide, fun _ => rfl⟩)
  have hS : SameState m.ctx [] [] (fun v (p : W × A) => id v = p.1 ∧ True) s (s.withAnalysis a) :=
    SameState.iff.2 ⟨hok, ⟨rfl, trivial⟩, rfl, rfl, rfl, rfl, rfl⟩
  have k1 := (shipped_agrees hs hst hg h hv hB hres hoff' hL hI (fl := true) (fr := false) (k := 2) (.inl rfl) (.inr (Nat.le_refl _)) L d).ok hf hargs hS rfl (fun _ _ h => h) (fun _ h => h)
  have k2 := (shipped_agrees hs hst hg h hv hB hres hoff' hL hI (fl := false) (fr := true) (k := 0) (.inr rfl) (.inl rfl) L d).ok hf hargs hS rfl (fun _ _ h => h) (fun _ h => h)
  simp only [agreeing, Bool.false_eq_true, and_false, false_or, Nat.add_zero, and_true] at k1 k2
  generalize callF N (machineOf H m.functions) L d f args s = o at k1 k2 ⊢
  generalize callF N (machineOf H' r.module.functions) L (d + 2) f args (s.withAnalysis a) = o1 at k1 ⊢
  generalize callF N (machineOf H' r.module.functions) L d f args (s.withAnalysis a) = o0 at k2 ⊢
  refine ⟨?_, ?_, ?_, ?_, ?_, ?_⟩
  · rintro vs s1 rfl
    rcases k1 with ⟨h, _⟩ | ⟨_, _, _, h, rfl, hs⟩ | ⟨_, _, h, _⟩ <;> cases h
    exact ⟨_, by rw [← hs.program fun _ _ h => h]⟩
  · rintro s1 rfl
    rcases k1 with ⟨h, _⟩ | ⟨_, _, _, h, _⟩ | ⟨_, _, h, rfl, hs⟩ <;> cases h
    exact ⟨_, by rw [← hs.program fun _ _ h => h]⟩
  · rintro vs s1' rfl
    rcases k2 with ⟨_, h⟩ | h | ⟨_, _, _, rfl, h, hs⟩ | ⟨_, _, _, h, _⟩ <;> cases h
    exact ⟨_, _, rfl, hs.program fun _ _ h => h⟩
  · rintro s1' rfl
    rcases k2 with ⟨_, h⟩ | h | ⟨_, _, _, _, h, _⟩ | ⟨_, _, rfl, h, hs⟩ <;> cases h
    exact ⟨_, _, rfl, hs.program fun _ _ h => h⟩
  · rintro rfl
    rcases k1 with ⟨h, _⟩ | ⟨_, _, _, h, _⟩ | ⟨_, _, h, _⟩ <;> cases h
  · rintro rfl
    rcases k2 with ⟨_, h⟩ | h | ⟨_, _, _, _, h, _⟩ | ⟨_, _, _, h, _⟩ <;> cases h

/-- **C48, with load/store hooks and offsets below 2^31.** Whenever the original program ends normally, so does the instrumented
one under the shipped forwarding analysis, with the same results and state; and when the instrumented program ends
normally, the original either ends normally with the same results and state, or traps. (It may trap where the instrumented
one does not, when an address plus offset exceeds 2^32: C19.) -/
theorem C48_shipped_forwarding_preserves_results {C iface ts m r} (hs : SmallModule m) (hst : iface.Documented) (hg : iface.generic = none)
    (h : Instruments C iface ts m r) (hv : ValidModule m)
    (hB : ∀ i ∈ bodyTargets m ts, ∀ f, m.functions[i]? = some f → WellAnnotated m f (bodyOf C m i))
    (hres : ∀ name ∈ iface.toolExports, name ∉ m.exportNames)
    (hoff : ∀ i ∈ bodyTargets m ts, ∀ f c, m.functions[i]? = some f → f.code = .present c → OnlyCode (OffsetsAre iface fun o => o.toNat < 2 ^ 31) c.body)
    {N : Num} {H : Imports W} {H' : Imports (W × A)} (hL : LinkedTo iface (forwardBody N r.module.exported) H')
    (hI : ImportsAgree m (fun w (p : W × A) => w = p.1) H H')
    {f : Nat} {ty : FuncType} {args : List RVal} {s : Store W} (hf : m.ctx.ftype f = some ty) (hargs : ValsOK m.ctx args ty.inputs)
    (hok : StoreOK m.ctx s) (a : A) (L d : Nat) :
    (∀ vs s1, callF N (machineOf H m.functions) L d f args s = .ok vs s1 →
      ∃ a1, callF N (machineOf H' r.module.functions) L (d + 2) f args (s.withAnalysis a) = .ok vs (s1.withAnalysis a1)) ∧
    (∀ vs s1', callF N (machineOf H' r.module.functions) L d f args (s.withAnalysis a) = .ok vs s1' →
      (∃ s1 a1, callF N (machineOf H m.functions) L d f args s = .ok vs s1 ∧ s1' = s1.withAnalysis a1) ∨
      ∃ s1, callF N (machineOf H m.functions) L d f args s = .trap s1) := by
  have hoff' : ∀ i ∈ bodyTargets m ts, ∀ f c, m.functions[i]? = some f → f.code = .present c →
      OnlyCode (OffsetsAre iface (fun o => o.toNat < 2 ^ 31 ∧ (false = true → o = 0))) c.body := by
    intro i hi f c hf hc b hb t k info hd ht
    have := hoff i hi f c hf hc b hb t k info hd ht
    cases b <;> first | trivial | exact ⟨this, fun h => by cases h⟩
  have hS : SameState m.ctx [] [] (fun v (p : W × A) => id v = p.1 ∧ True) s (s.withAnalysis a) :=
    SameState.iff.2 ⟨hok, ⟨rfl, trivial⟩, rfl, rfl, rfl, rfl, rfl⟩
  have k1 := shipped_agrees hs hst hg h hv hB hres hoff' hL hI (fl := true) (fr := false) (k := 2) (.inl rfl) (.inr (Nat.le_refl _)) L d f ty args s _ hf hargs hS
  have k2 := shipped_agrees hs hst hg h hv hB hres hoff' hL hI (fl := false) (fr := true) (k := 0) (.inr rfl) (.inl rfl) L d f ty args s _ hf hargs hS
  simp only [Nat.add_zero] at k2
  generalize callF N (machineOf H m.functions) L d f args s = o at k1 k2 ⊢
  generalize callF N (machineOf H' r.module.functions) L (d + 2) f args (s.withAnalysis a) = o1 at k1 ⊢
  generalize callF N (machineOf H' r.module.functions) L d f args (s.withAnalysis a) = o0 at k2 ⊢
  constructor
  · rintro vs s1 rfl
    cases k1 with
    | ok hv hs =>
      simp only [agreeing] at hs
      exact ⟨_, by rw [← hs.program fun _ _ h => h.1]⟩
    | fuelR h => cases h
    | trapR h => cases h
  · rintro vs s1' rfl
    cases k2 with
    | ok hv hs =>
      simp only [agreeing] at hs
      exact .inl ⟨_, _, rfl, hs.program fun _ _ h => h.1⟩
    | fuelL h => cases h
    | trapL h => exact .inr ⟨_, rfl⟩

/-! ## The theorems at work (C10, C46, C11, C48) -/

/-- Some arithmetic: addition, multiplication and test for zero on `i32`; all other operators trap. -/
def exNum : Num where
  unary op v := match op, v with
    | .i32Eqz, .i32 x => some (.i32 (if x = 0 then 1 else 0))
    | _, _ => none
  binary op v w := match op, v, w with
    | .i32Add, .i32 x, .i32 y => some (.i32 (x + y))
    | .i32Mul, .i32 x, .i32 y => some (.i32 (x * y))
    | _, _, _ => none
  unary_type := by intro op v w h; split at h <;> cases h; rfl
  binary_type := by intro op v v' w h; split at h <;> cases h <;> rfl
  i32Eqz _ := rfl
  i32Add _ _ := rfl

/-- The embedder's `print` appends to what has been printed. -/
def exImports : Imports (List RVal) := fun _ _ _ args s => .ok [] { s with world := s.world ++ args }

/-- The forwarding analysis on the library, linked with the example program beside `exImports`; with `record`, each call is
appended to a log first. `base` are the accessors it may call. -/
def exAnalysis (base : String → Option Nat) (record : Bool) : Imports (List RVal × Log) := fun ns name call args s =>
  if ns = "WASTRUMENTATION_ANALYSIS" then
    match [Trap.ifThenElseTrap, .preTrapCall, .postTrapCall, .binaryI32I32ToI32].find? fun t => t.exportName == name with
    | some t => stdHook (forwardBody exNum base) t call args (if record then { s with world := (s.world.1, s.world.2 ++ [(t, args)]) } else s)
    | none => .stuck
  else exImports.beside Log ns name call args s

/-- A state of the example program: one page of memory, a table of two empty elements, nothing printed. -/
def exStore : Store (List RVal) := ⟨[], [⟨1, 65536, fun _ => 0⟩], [⟨.funcRef, [none, none], 2⟩], [], [], []⟩

theorem exIface_documented : exIface.Documented := by
  intro t e h
  simp only [exIface] at h
  split at h
  · exact (Option.some.inj h).symm
  · cases h

theorem exAnalysis_hook (base record) {t : Trap} (h : (exIface.trap t).isSome) :
    exAnalysis base record "WASTRUMENTATION_ANALYSIS" t.exportName = fun call args s =>
      stdHook (forwardBody exNum base) t call args (if record then { s with world := (s.world.1, s.world.2 ++ [(t, args)]) } else s) := by
  have : t = .ifThenElseTrap ∨ t = .preTrapCall ∨ t = .postTrapCall ∨ t = .binaryI32I32ToI32 := by
    simp only [exIface] at h
    split at h
    · assumption
    · cases h
  funext call args s
  simp only [exAnalysis, if_true]
  have e : List.find? (fun u => u.exportName == t.exportName) [Trap.ifThenElseTrap, .preTrapCall, .postTrapCall, .binaryI32I32ToI32] = some t := by
    rcases this with rfl | rfl | rfl | rfl <;> decide +kernel
  rw [e]

theorem exAnalysis_linked (base) : LinkedTo exIface (forwardBody exNum base) (exAnalysis base false) := by
  intro t h
  rw [C49_library_exports_what_is_imported]
  exact exAnalysis_hook base false h

theorem exImports_agree (base record) : ImportsAgree exModule (fun w (p : List RVal × Log) => w = p.1) exImports (exAnalysis base record) := by
  refine .plain fun f hf ns name hc => ?_
  simp only [exModule, List.mem_cons, List.not_mem_nil, or_false] at hf
  rcases hf with rfl | rfl | rfl | rfl <;> cases hc
  refine ⟨⟨fun _ _ => rfl, fun call args s ha hs => .inl ⟨_, _, rfl, .nil, hs.world rfl rfl rfl rfl rfl⟩⟩, ?_⟩
  funext call args s
  rfl

theorem exStore_ok : StoreOK exModule.ctx exStore where
  globals := .nil
  mems := rfl
  tables := rfl
  tableElems := by
    intro t ht _ f hf
    simp only [exStore, List.mem_cons, List.not_mem_nil, or_false] at ht
    subst ht
    simp at hf
  datas := rfl
  elems := rfl
  elemElems := by intro e he; cases he
  pages := by
    intro x hx
    simp only [exStore, List.mem_cons, List.not_mem_nil, or_false] at hx
    subst hx
    exact ⟨by decide, by decide⟩

/-- The analysis of the example forwards (and, with `record`, records). -/
theorem exAnalysis_forwards (base) (record : Bool) : Forwards (W := List RVal) exNum exIface
    (fun t args log log' => log' = if record then log ++ [(t, args)] else log) (exAnalysis base record) := by
  have key : ∀ (t : Trap) (args : List RVal) (s : Store (List RVal)) (log : Log), (if record = true then
      { s.withAnalysis log with world := ((s.withAnalysis log).world.1, (s.withAnalysis log).world.2 ++ [(t, args)]) } else s.withAnalysis log) =
      s.withAnalysis (if record then log ++ [(t, args)] else log) := by
    intro t args s log; cases record <;> rfl
  refine ⟨?_, ?_⟩
  · intro t e he ho call args s log hty
    refine ⟨_, _, .refl _ _, rfl, ?_⟩
    rw [exIface_documented t e he, show (Trap.export t).name = t.exportName from rfl, exAnalysis_hook base record (by rw [he]; rfl)]
    dsimp only
    rw [key, forward_shown (Trap.not_performs ho) call args _ hty]
  · intro t e he b k info hd call ops loc s log hk hl hty
    refine ⟨_, rfl, ?_⟩
    rw [exIface_documented t e he, show (Trap.export t).name = t.exportName from rfl, exAnalysis_hook base record (by rw [he]; rfl)]
    dsimp only
    rw [key, ← execute_withAnalysis hd]
    have hb : ∃ op, b = .binary op := by
      have : t = .ifThenElseTrap ∨ t = .preTrapCall ∨ t = .postTrapCall ∨ t = .binaryI32I32ToI32 := by
        simp only [exIface] at he
        split at he
        · assumption
        · cases he
      cases b <;> try (simp [delegation] at hd; done)
      case binary op => exact ⟨op, rfl⟩
      case unary op =>
        simp only [delegation, Option.map_eq_some_iff, Prod.mk.injEq] at hd
        obtain ⟨t, hd, rfl, rfl, rfl⟩ := hd
        rcases this with rfl | rfl | rfl | rfl <;> cases op <;> simp [unaryTrap, UnaryOp.sig] at hd
      case load op ma =>
        simp only [delegation, Option.map_eq_some_iff, Prod.mk.injEq] at hd
        obtain ⟨t, hd, rfl, rfl, rfl⟩ := hd
        rcases this with rfl | rfl | rfl | rfl <;> cases op <;> simp [loadTrap, LoadOp.ty] at hd
      case store op ma =>
        simp only [delegation, Option.map_eq_some_iff, Prod.mk.injEq] at hd
        obtain ⟨t, hd, rfl, rfl, rfl⟩ := hd
        rcases this with rfl | rfl | rfl | rfl <;> cases op <;> simp [storeTrap, StoreOp.ty] at hd
      case memoryGrow i =>
        simp only [delegation, Option.some.injEq, Prod.mk.injEq] at hd
        obtain ⟨rfl, _⟩ := hd
        simp at this
    obtain ⟨op, rfl⟩ := hb
    simp only [delegation, Option.map_eq_some_iff, Prod.mk.injEq] at hd
    obtain ⟨t, hd, rfl, rfl, rfl⟩ := hd
    obtain ⟨f, i, rfl⟩ : ∃ f i, loc = [f, i] := by
      match loc, hl with
      | [f, i], _ => exact ⟨f, i, rfl⟩
    obtain ⟨v, w, rfl⟩ : ∃ v w, ops = [v, w] := by match ops, hk with | [v, w], _ => exact ⟨v, w, rfl⟩
    rw [(binaryTrap_args hd).1] at hty
    simp only [List.cons_append, List.nil_append, List.map_cons, List.map_nil, List.cons.injEq, and_true] at hty
    obtain ⟨hv, hw, _, hf, hi⟩ := hty
    obtain ⟨f, rfl⟩ := RVal.of_i64 hf
    obtain ⟨i, rfl⟩ := RVal.of_i64 hi
    obtain ⟨v, rfl, hvn⟩ := RVal.type_num hv op.sig_num
    obtain ⟨w, rfl, hwn⟩ := RVal.type_num hw op.sig_num
    simp only [List.cons_append, List.nil_append]
    exact binary_forwarded hd hvn hwn

/-- The program of the examples is instrumented, and `main(0, 5)` prints 7 and returns 49. -/
theorem exModule_runs : callF exNum (machineOf exImports exModule.functions) 10 10 1 [.i32 0, .i32 5] exStore =
    .ok [.i32 49] { exStore with world := [.i32 7] } := by rfl

-- C10, C46: all hypotheses hold of the example; the instrumented program returns 49 and prints 7 as well.
example : ∃ r, Instruments exTypedChecker exIface none exModule r ∧ ∃ log,
    callF exNum (machineOf (exAnalysis r.module.exported false) r.module.functions) 10 11 1 [.i32 0, .i32 5] (exStore.withAnalysis []) =
      .ok [.i32 49] (Store.withAnalysis { exStore with world := [.i32 7] } log) := by
  obtain ⟨r, hr⟩ := instruments_of_ok (C := exTypedChecker) (iface := exIface) (ts := none) (m := exModule) (by decide) exModule_small exModule_raises_typed
  refine ⟨r, hr, ?_⟩
  exact (C10_forwarding_analysis_transparent exModule_small exIface_documented.standard rfl hr exModule_valid exModule_annotated
    (exAnalysis_forwards r.module.exported false) (exImports_agree _ _) (f := 1) rfl (ValsOK.nil.cons rfl (by simp [RVal.OK]) |>.cons rfl (by simp [RVal.OK]))
    exStore_ok [] 10 10).1 _ _ exModule_runs

-- C48: the analysis is the library's forwarding analysis, linked with the instrumented module; no load or store is handed to it.
example : ∃ r, Instruments exTypedChecker exIface none exModule r ∧ ∃ log,
    callF exNum (machineOf (exAnalysis r.module.exported false) r.module.functions) 10 12 1 [.i32 0, .i32 5] (exStore.withAnalysis []) =
      .ok [.i32 49] (Store.withAnalysis { exStore with world := [.i32 7] } log) := by
  obtain ⟨r, hr⟩ := instruments_of_ok (C := exTypedChecker) (iface := exIface) (ts := none) (m := exModule) (by decide) exModule_small exModule_raises_typed
  refine ⟨r, hr, ?_⟩
  refine (C48_shipped_forwarding_transparent exModule_small exIface_documented rfl hr exModule_valid exModule_annotated (by decide +kernel) ?_
    (exAnalysis_linked r.module.exported) (exImports_agree _ _) (f := 1) rfl (ValsOK.nil.cons rfl (by simp [RVal.OK]) |>.cons rfl (by simp [RVal.OK]))
    exStore_ok [] 10 10).1 _ _ exModule_runs
  intro i hi f c hf hc b hb t k info hd ht
  cases b <;> first | trivial | skip
  all_goals exfalso; simp only [delegation, Option.map_eq_some_iff, Prod.mk.injEq] at hd
  all_goals obtain ⟨t, hd, rfl, rfl, rfl⟩ := hd
  all_goals rename_i op _; cases op <;> simp [loadTrap, storeTrap, LoadOp.ty, StoreOp.ty] at hd <;> subst hd <;> simp [exIface] at ht

/-- What the recording analysis is told when `main(0, 5)` runs: the condition 0, the call of function 2, therein the call of
`print`, its return and the multiplication of 7 by 7, and the return of function 2. -/
def exLog : Log := [
  (.ifThenElseTrap, [.i32 0, .i32 0, .i32 1, .i64 1, .i64 1]),
  (.preTrapCall, [.i32 2, .i64 1, .i64 5]),
  (.preTrapCall, [.i32 0, .i64 2, .i64 1]),
  (.postTrapCall, [.i32 0, .i64 2, .i64 1]),
  (.binaryI32I32ToI32, [.i32 7, .i32 7, .i32 0x23, .i64 2, .i64 4]),
  (.postTrapCall, [.i32 2, .i64 1, .i64 5])]

/-- The log in the end. -/
def logOf : Res (W × Log) → Log
  | .ok _ s => s.world.2
  | _ => []

/-- The original program running with its log. -/
def exTraced : Res (List RVal × Log) :=
  callF exNum (traced exTypedChecker exModule (bodyTargets exModule none) (exImports.beside Log) logEvent) 10 10 1 [.i32 0, .i32 5] (exStore.withAnalysis [])

theorem exTraced_log : exIface.observed (logOf exTraced) = exLog := by decide +kernel

theorem exModule_traced : ∃ log, callF exNum (traced exTypedChecker exModule (bodyTargets exModule none) (exImports.beside Log) logEvent) 10 10 1
    [.i32 0, .i32 5] (exStore.withAnalysis []) = .ok [.i32 49] (Store.withAnalysis { exStore with world := [.i32 7] } log) ∧
    exIface.observed log = exLog := by
  have h := C11_traced_program_is_the_program (N := exNum) (H := exImports) (T := exImports.beside Log) exModule_raises_typed exModule_valid exModule_annotated
    (fun f hf ns name hc fl fr tl call call' _ args s s' ha hS => by
      simp only [exModule, List.mem_cons, List.not_mem_nil, or_false] at hf
      rcases hf with rfl | rfl | rfl | rfl <;> cases hc
      simp only [agreeing, SameState.iff] at hS
      obtain ⟨h1, h2, h3, h4, h5, h6, h7⟩ := hS
      refine .ok .nil ?_
      simp only [agreeing, SameState.iff]
      exact ⟨h1.world rfl rfl rfl rfl rfl, by dsimp only [Store.withAnalysis]; rw [h2], h3, h4, h5, h6, h7⟩)
    (f := 1) (args := [.i32 0, .i32 5]) rfl (ValsOK.nil.cons rfl (by simp [RVal.OK]) |>.cons rfl (by simp [RVal.OK])) exStore_ok [] 10 10
  obtain ⟨log, h⟩ := h
  rw [exModule_runs] at h
  refine ⟨log, h, ?_⟩
  have e := exTraced_log
  unfold exTraced at e
  rw [h] at e
  exact e

-- C11: that is what the analysis has in its log in the end.
example : ∃ r, Instruments exTypedChecker exIface none exModule r ∧
    callF exNum (machineOf (exAnalysis r.module.exported true) r.module.functions) 10 11 1 [.i32 0, .i32 5] (exStore.withAnalysis []) =
      .ok [.i32 49] (Store.withAnalysis { exStore with world := [.i32 7] } exLog) := by
  obtain ⟨r, hr⟩ := instruments_of_ok (C := exTypedChecker) (iface := exIface) (ts := none) (m := exModule) (by decide) exModule_small exModule_raises_typed
  refine ⟨r, hr, ?_⟩
  obtain ⟨log, h, hl⟩ := exModule_traced
  have hI : ImportsAgree exModule (fun (p p' : List RVal × Log) => p.1 = p'.1 ∧ p'.2 = exIface.observed p.2) (exImports.beside Log)
      (exAnalysis r.module.exported true) := by
    intro f hf ns name hc fl fr tl call call' _ args s s' ha hS
    simp only [exModule, List.mem_cons, List.not_mem_nil, or_false] at hf
    rcases hf with rfl | rfl | rfl | rfl <;> cases hc
    simp only [agreeing, SameState.iff] at hS
    obtain ⟨h1, ⟨h2, h2'⟩, h3, h4, h5, h6, h7⟩ := hS
    refine .ok .nil ?_
    simp only [agreeing, SameState.iff]
    exact ⟨h1.world rfl rfl rfl rfl rfl, ⟨by dsimp only [Store.withAnalysis]; rw [h2], h2'⟩, h3, h4, h5, h6, h7⟩
  rw [← hl]
  exact (C11_recorded_log_is_the_trace exModule_small exIface_documented.standard rfl hr exModule_valid exModule_annotated
    (exAnalysis_forwards r.module.exported true) hI (f := 1) (s := exStore.withAnalysis []) rfl
    (ValsOK.nil.cons rfl (by simp [RVal.OK]) |>.cons rfl (by simp [RVal.OK])) (exStore_ok.world rfl rfl rfl rfl rfl) 10 10).1 _ _ h

end Wastrum
