/-
Execution of the functions of the stack library in AssemblyScript (C52).
-/
import Verif.FaceRust

set_option linter.unusedVariables false
set_option linter.unusedSimpArgs false
set_option linter.unusedSectionVars false

namespace Wastrum

/-! ## Calls of generated functions -/

/-- The names of the functions of `lib_boilerplate.ts` that are not exported. -/
def asPrimNames : List String :=
  ["wastrumentation_memory_load", "wastrumentation_memory_store", "load", "store", "load_type", "store_type", "stack_allocate_values", "stack_allocate_types",
    "stack_deallocate_values", "stack_deallocate_types"]

theorem asPrimNames_short : ∀ n ∈ asPrimNames, (tok n).length ≤ 3 := by decide +kernel

theorem generic_long (r a : Nat) (op : StackOp) : 3 < (tok (genericName r a op)).length := by
  rw [tok_genericName]
  split
  · simp
  · cases op <;> simp [StackOp.toks]

theorem asPrim_none {name : String} (h : name ∉ asPrimNames) (ts : List String) (args : List SVal) (s : AState) : asPrim name ts args s = none := by
  unfold asPrim
  split <;> first
    | rfl
    | exact absurd (by decide) h

section
variable {sigs : List FuncType}

/-- Functions, at most `d` deep. -/
abbrev asFn (sigs : List FuncType) (d : Nat) : SCall AState := srcCall asPrim (asLib sigs) d

theorem as_generic {t : FuncType} (ht : t ∈ sigs) {f : SFn} (hf : f ∈ asGeneric t.results.length t.inputs.length) (d : Nat) (ts : List String) (args : List SVal) (s : AState) :
    asFn sigs (d + 1) f.name ts args s = f.run (asFn sigs d) ts args s := by
  refine srcCall_fn (asPrim_none ?_ _ _ _) (asGen.nodup sigs) (asGen.mem_generic ht hf)
  intro hm
  have h1 := asPrimNames_short _ hm
  have h2 : f.name ∈ (asGeneric t.results.length t.inputs.length).map SFn.name := List.mem_map_of_mem hf
  rw [asGen.genericNames] at h2
  obtain ⟨op, _, e⟩ := List.mem_map.1 h2
  rw [← e] at h1
  have := generic_long t.results.length t.inputs.length op
  omega

theorem as_special {t : FuncType} (ht : t ∈ sigs) {f : SFn} (hf : f ∈ asSpecial t) (he : f.exported = true) (args : List Val) (s : AState) :
    asCall sigs f.name args s = f.run (asFn sigs 4) [] (args.map .num) s :=
  exportCall_fn (asGen.nodup sigs) (asGen.mem_special ht hf) he

theorem as_boiler {f : SFn} (hf : f ∈ asBoilerplate) (he : f.exported = true) (args : List Val) (s : AState) :
    asCall sigs f.name args s = f.run (asFn sigs 4) [] (args.map .num) s :=
  exportCall_fn (asGen.nodup sigs) (List.mem_append_left _ hf) he

/-! ## Membership -/

theorem asLoadGeneric_mem {t : FuncType} {side : Side} {i : Nat} (h : i < (t.side side).length) :
    asLoadGeneric t.results.length t.inputs.length side i ∈ asGeneric t.results.length t.inputs.length := by
  cases side <;> simp only [asGeneric, List.mem_append, List.mem_map, List.mem_range, FuncType.side] at h ⊢
  · exact .inl (.inl (.inr (.inr ⟨i, h, rfl⟩)))
  · exact .inl (.inl (.inr (.inl ⟨i, h, rfl⟩)))

theorem asStoreGeneric_mem {t : FuncType} {side : Side} {i : Nat} (h : i < (t.side side).length) :
    asStoreGeneric t.results.length t.inputs.length side i ∈ asGeneric t.results.length t.inputs.length := by
  cases side <;> simp only [asGeneric, List.mem_append, List.mem_map, List.mem_range, FuncType.side] at h ⊢
  · exact .inl (.inr (.inr ⟨i, h, rfl⟩))
  · exact .inl (.inr (.inl ⟨i, h, rfl⟩))

theorem asLoad_mem {t : FuncType} {side : Side} {i : Nat} {v : ValType} (h : (t.side side)[i]? = some v) : asLoad t side i v ∈ asSpecial t := by
  cases side <;> simp only [asSpecial, List.mem_append, FuncType.side] at h ⊢
  · exact .inl (.inl (.inr (.inr (mapIdx_mem (asLoad t .ret) h))))
  · exact .inl (.inl (.inr (.inl (mapIdx_mem (asLoad t .arg) h))))

theorem asStore_mem {t : FuncType} {side : Side} {i : Nat} {v : ValType} (h : (t.side side)[i]? = some v) : asStore t side i v ∈ asSpecial t := by
  cases side <;> simp only [asSpecial, List.mem_append, FuncType.side] at h ⊢
  · exact .inl (.inr (.inr (mapIdx_mem (asStore t .ret) h)))
  · exact .inl (.inr (.inl (mapIdx_mem (asStore t .arg) h)))

theorem asSlot_eq (t : FuncType) (side : Side) (i : Nat) : asSlot t.results.length side i = slotOf t side i := by cases side <;> rfl

/-! ## Type parameters -/

theorem slotParam_inj {x y : Side} {i j : Nat} (h : slotParam x i = slotParam y j) : x = y ∧ i = j := by
  have h := congrArg String.toList h
  cases x <;> cases y <;> simp only [slotParam, String.toList_append] at h
  · exact ⟨rfl, repr_toList_inj (List.append_cancel_left h)⟩
  · have := congrArg List.head? h; simp at this
  · have := congrArg List.head? h; simp at this
  · exact ⟨rfl, repr_toList_inj (List.append_cancel_left h)⟩

theorem lookup_zip_get : ∀ {ks : List String} {vs : List String} {i : Nat} {k v : String}, ks.Nodup → ks[i]? = some k → vs[i]? = some v → (ks.zip vs).lookup k = some v := by
  intro ks
  induction ks with
  | nil => intro vs i k v _ h; simp at h
  | cons k' ks ih =>
    intro vs i k v hn hk hv
    cases vs with
    | nil => simp at hv
    | cons v' vs =>
      simp only [List.nodup_cons] at hn
      cases i with
      | zero =>
        simp only [List.getElem?_cons_zero, Option.some.injEq] at hk hv
        subst hk; subst hv
        simp
      | succ i =>
        simp only [List.getElem?_cons_succ] at hk hv
        have hne : (k == k') = false := by
          rw [beq_eq_false_iff_ne]; rintro rfl
          exact hn.1 (List.mem_of_getElem? hk)
        simp only [List.zip_cons_cons, List.lookup_cons, hne]
        exact ih hn.2 hk hv

theorem asGenerics_eq (r a : Nat) : asGenerics r a = (List.range r).map (slotParam .ret) ++ (List.range a).map (slotParam .arg) := rfl

theorem asGenerics_nodup (r a : Nat) : (asGenerics r a).Nodup := by
  rw [asGenerics_eq, List.nodup_append]
  refine ⟨nodup_map_inj (fun _ _ h => (slotParam_inj h).2) List.nodup_range, nodup_map_inj (fun _ _ h => (slotParam_inj h).2) List.nodup_range, ?_⟩
  rintro b hb c hc rfl
  obtain ⟨i, _, rfl⟩ := List.mem_map.1 hb
  obtain ⟨j, _, e⟩ := List.mem_map.1 hc
  have := (slotParam_inj e).1
  cases this

theorem asGenerics_get (t : FuncType) {side : Side} {i : Nat} (h : i < (t.side side).length) :
    (asGenerics t.results.length t.inputs.length)[slotOf t side i]? = some (slotParam side i) := by
  rw [asGenerics_eq]
  cases side with
  | ret =>
    simp only [FuncType.side] at h
    rw [slotOf, List.getElem?_append_left (by simpa using h)]
    simp [h]
  | arg =>
    simp only [FuncType.side] at h
    rw [slotOf, List.getElem?_append_right (by simp)]
    simp [h]

theorem asTypes_get {t : FuncType} {side : Side} {i : Nat} {v : ValType} (h : (t.side side)[i]? = some v) : (asTypes t)[slotOf t side i]? = some v.asStr := by
  have hlt := (List.getElem?_eq_some_iff.1 h).1
  simp only [asTypes, List.getElem?_map]
  cases side with
  | ret =>
    simp only [FuncType.side] at h hlt
    rw [slotOf, List.getElem?_append_left hlt, h]; rfl
  | arg =>
    simp only [FuncType.side] at h hlt
    rw [slotOf, List.getElem?_append_right (by simp), Nat.add_sub_cancel_left, h]; rfl

theorem subst_slot {t : FuncType} {side : Side} {i : Nat} {v : ValType} (h : (t.side side)[i]? = some v) :
    substTy ((asGenerics t.results.length t.inputs.length).zip (asTypes t)) (slotParam side i) = v.asStr := by
  rw [substTy, lookup_zip_get (asGenerics_nodup _ _) (asGenerics_get t (List.getElem?_eq_some_iff.1 h).1) (asTypes_get h)]; rfl

theorem map_lookup_zip : ∀ (ks vs : List String), ks.Nodup → ks.length = vs.length → ks.map (substTy (ks.zip vs)) = vs := by
  intro ks vs hn hl
  apply List.ext_getElem?
  intro i
  rw [List.getElem?_map]
  by_cases hi : i < ks.length
  · have hk : ks[i]? = some ks[i] := List.getElem?_eq_getElem hi
    have hv : vs[i]? = some (vs[i]'(by omega)) := List.getElem?_eq_getElem (by omega)
    rw [hk, hv, Option.map_some, substTy, lookup_zip_get hn hk hv]; rfl
  · rw [List.getElem?_eq_none (by omega), List.getElem?_eq_none (by omega)]; rfl

theorem asTypes_length (t : FuncType) : (asTypes t).length = (asGenerics t.results.length t.inputs.length).length := by simp [asTypes, asGenerics]

/-! ## Memory -/

theorem addr8 {p : BitVec 32} {k : Nat} (h : p.toNat + 8 * k < 2 ^ 32) : (p + BitVec.ofNat 32 k * 8).toNat = p.toNat + 8 * k := by
  rw [BitVec.toNat_add, BitVec.toNat_mul, ofNat_toNat32 (by omega), show (8 : BitVec 32).toNat = 8 from rfl]
  omega

theorem addr4 {p : BitVec 32} {k : Nat} (h : p.toNat + 4 * k < 2 ^ 32) : (p + BitVec.ofNat 32 k * 4).toNat = p.toNat + 4 * k := by
  rw [BitVec.toNat_add, BitVec.toNat_mul, ofNat_toNat32 (by omega), show (4 : BitVec 32).toNat = 4 from rfl]
  omega

theorem asLoadAt_eq {v : ValType} (hv : ∀ r, v ≠ .ref r) {a : BitVec 32} {s : AState} (h : a.toNat + 8 ≤ s.mem.size) :
    asLoadAt v.asStr a s = .ok (.num (v.ofBits (s.mem.word a.toNat 8))) s := by
  cases v with
  | ref r => exact absurd rfl (hv r)
  | i32 => simp only [ValType.asStr, asLoadAt, ValType.ofBits, ofNat_word8]; rw [if_pos (by omega)]
  | f32 => simp only [ValType.asStr, asLoadAt, ValType.ofBits, ofNat_word8]; rw [if_pos (by omega)]
  | i64 => simp only [ValType.asStr, asLoadAt, ValType.ofBits]; rw [if_pos (by omega)]
  | f64 => simp only [ValType.asStr, asLoadAt, ValType.ofBits]; rw [if_pos (by omega)]

theorem asStoreAt_eq {v : Val} {a : BitVec 32} {s : AState} (h : a.toNat + 8 ≤ s.mem.size) :
    asStoreAt v.type.asStr a (.num v) s = .ok .unit ⟨s.free, s.total, s.mem.put a.toNat v.width v.bits⟩ := by
  cases v <;> simp only [Val.type, ValType.asStr, asStoreAt, Val.width, Val.bits] <;> rw [if_pos (by omega)]

/-! ## Loads and stores -/

theorem as_load {t : FuncType} (ht : t ∈ sigs) {side : Side} {i : Nat} {v : ValType} (hi : (t.side side)[i]? = some v) (hv : ∀ r, v ≠ .ref r) {p : BitVec 32}
    {s : AState} (hm : s.mem.size ≤ 2 ^ 32) (h : p.toNat + 8 * slotOf t side i + 8 ≤ s.mem.size) :
    asCall sigs (loadName t side i) [.i32 p] s = .ok (.num (v.ofBits (s.mem.word (p.toNat + 8 * slotOf t side i) 8))) s := by
  have hlt := (List.getElem?_eq_some_iff.1 hi).1
  have h1 : asFn sigs 4 ("load_" ++ side.asStr ++ i.repr ++ "_" ++ countName t.results.length t.inputs.length) (asTypes t) [.num (.i32 p)] s =
      .ok (.num (v.ofBits (s.mem.word (p.toNat + 8 * slotOf t side i) 8))) s := by
    rw [show ("load_" ++ side.asStr ++ i.repr ++ "_" ++ countName t.results.length t.inputs.length) =
      (asLoadGeneric t.results.length t.inputs.length side i).name from rfl, as_generic ht (asLoadGeneric_mem hlt), SFn.run,
      if_pos ⟨asTypes_length t, rfl⟩]
    simp only [asLoadGeneric, List.map_cons, List.map_nil, List.zip_cons_cons, List.zip_nil_left,
      runStmts, SExpr.eval, evalAtoms, SAtom.eval, List.lookup_cons, BEq.rfl, asSlot_eq, subst_slot hi]
    rw [asFn, srcCall_prim rfl, asLoadAt_eq hv (by rw [addr8 (by omega)]; exact h), addr8 (by omega)]
  rw [show loadName t side i = (asLoad t side i v).name from rfl, as_special ht (asLoad_mem hi) rfl]
  have hid : (asTypes t).map (substTy []) = asTypes t := by
    rw [show substTy [] = id from funext fun x => rfl, List.map_id]
  simp only [SFn.run, asLoad, List.length_nil, List.length_cons, List.map_cons, List.map_nil, List.zip_cons_cons, List.zip_nil_left, and_self, if_true,
    runStmts, SExpr.eval, evalAtoms, SAtom.eval, List.lookup_cons, BEq.rfl, hid, h1]

theorem map_subst_nil (l : List String) : l.map (substTy []) = l := by
  rw [show substTy [] = id from funext fun x => rfl, List.map_id]

/-- A generic store. -/
theorem as_store_generic {t : FuncType} (ht : t ∈ sigs) {side : Side} {i : Nat} {v : Val} (hi : (t.side side)[i]? = some v.type) {p : BitVec 32} (d : Nat)
    {s : AState} (hm : s.mem.size ≤ 2 ^ 32) (h : p.toNat + 8 * slotOf t side i + 8 ≤ s.mem.size) :
    asFn sigs (d + 2) ("store_" ++ side.asStr ++ i.repr ++ "_" ++ countName t.results.length t.inputs.length) (asTypes t) [.num (.i32 p), .num v] s =
      .ok .unit ⟨s.free, s.total, s.mem.put (p.toNat + 8 * slotOf t side i) v.width v.bits⟩ := by
  have hlt := (List.getElem?_eq_some_iff.1 hi).1
  rw [show ("store_" ++ side.asStr ++ i.repr ++ "_" ++ countName t.results.length t.inputs.length) =
    (asStoreGeneric t.results.length t.inputs.length side i).name from rfl, as_generic ht (asStoreGeneric_mem hlt), SFn.run,
    if_pos ⟨asTypes_length t, rfl⟩]
  have hvar : ("stack_ptr" == asValueVar side i) = false ∧ (asValueVar side i == "stack_ptr") = false := by
    have : asValueVar side i ≠ "stack_ptr" := by
      cases side <;> intro e <;> have := congrArg (fun s => s.toList.head?) e <;> simp [asValueVar] at this
    exact ⟨by rw [beq_eq_false_iff_ne]; exact this.symm, by rw [beq_eq_false_iff_ne]; exact this⟩
  simp only [asStoreGeneric, List.map_cons, List.map_nil, List.zip_cons_cons, List.zip_nil_left,
    runStmts, SExpr.eval, evalAtoms, SAtom.eval, List.lookup_cons, BEq.rfl, asSlot_eq, subst_slot hi, hvar.1, hvar.2]
  rw [asFn, srcCall_prim rfl, asStoreAt_eq (by rw [addr8 (by omega)]; exact h), addr8 (by omega)]

theorem as_store {t : FuncType} (ht : t ∈ sigs) {side : Side} {i : Nat} {v : Val} (hi : (t.side side)[i]? = some v.type) {p : BitVec 32}
    {s : AState} (hm : s.mem.size ≤ 2 ^ 32) (h : p.toNat + 8 * slotOf t side i + 8 ≤ s.mem.size) :
    asCall sigs (storeName t side i) [.i32 p, v] s = .ok .unit ⟨s.free, s.total, s.mem.put (p.toNat + 8 * slotOf t side i) v.width v.bits⟩ := by
  have hvar' : (asVar i == "stack_ptr") = false := argVar_ne (by decide) i
  rw [show storeName t side i = (asStore t side i v.type).name from rfl, as_special ht (asStore_mem hi) rfl]
  simp only [SFn.run, asStore, List.length_nil, List.length_cons, List.map_cons, List.map_nil, List.zip_cons_cons, List.zip_nil_left, and_self, if_true,
    runStmts, SExpr.eval, evalAtoms, SAtom.eval, List.lookup_cons, BEq.rfl, hvar', map_subst_nil, as_store_generic ht hi 2 hm h]

theorem eval_vars {env : List (String × SVal)} {vs : List Val} (h : ∀ i v, vs[i]? = some v → env.lookup (asVar i) = some (.num v)) :
    evalAtoms env ((vs.map Val.type).mapIdx fun i _ => .var (asVar i)) = some (vs.map .num) := by
  refine evalAtoms_of (by simp) fun i a ha => ?_
  simp only [List.getElem?_mapIdx, List.getElem?_map, Option.map_map, Option.map_eq_some_iff, Function.comp_apply] at ha
  obtain ⟨v, hv, rfl⟩ := ha
  exact ⟨.num v, by simp [hv], by simp only [SAtom.eval, h i v hv]⟩

theorem names_range' {f : Nat → String} (n : Nat) : ((List.range n).map fun i => (asVar i, f i)).map Prod.fst = (List.range' 0 n).map argVar := by
  rw [List.map_map, List.range_eq_range']; rfl

theorem as_storeRets {t : FuncType} (ht : t ∈ sigs) {vs : List Val} (hvs : vs.map Val.type = t.results) {p : BitVec 32} {s : AState} (hm : s.mem.size ≤ 2 ^ 32)
    (hin : p.toNat + 8 * t.slots ≤ s.mem.size) :
    ∃ m', asCall sigs (storeRetsName t) (.i32 p :: vs) s = .ok .unit ⟨s.free, s.total, m'⟩ ∧ Wrote s.mem m' p.toNat vs := by
  have hl := mapTypes hvs
  simp only [FuncType.slots] at hin
  have h1 : ∃ m', asFn sigs 4 ("store_rets_" ++ countName t.results.length t.inputs.length) (asTypes t) (.num (.i32 p) :: vs.map .num) s =
      .ok .unit ⟨s.free, s.total, m'⟩ ∧ Wrote s.mem m' p.toNat vs := by
    rw [show ("store_rets_" ++ countName t.results.length t.inputs.length) = (asStoreRetsGeneric t.results.length t.inputs.length).name from rfl,
      as_generic ht (by simp [asGeneric])]
    have hrun := runStmts_stages (call := asFn sigs 3) (tenv := (asGenerics t.results.length t.inputs.length).zip (asTypes t))
      (env := ("stack_ptr", .num (.i32 p)) :: ((List.range' 0 t.results.length).map argVar).zip (vs.map .num))
      (fun i s' => s'.free = s.free ∧ s'.total = s.total ∧ Wrote s.mem s'.mem p.toNat (vs.take i))
      ((List.range t.results.length).map fun n => .call ("store_ret" ++ n.repr ++ "_" ++ countName t.results.length t.inputs.length)
        (asGenerics t.results.length t.inputs.length) [.var "stack_ptr", .var (asVar n)])
      0 s (fun i e s' he hP => ?_) ⟨rfl, rfl, by simpa using Wrote.nil s.mem p.toNat⟩
    · obtain ⟨s', e, hh, hh', hw⟩ := hrun
      refine ⟨s'.mem, ?_, by simpa [List.take_of_length_le (Nat.le_of_eq hl)] using hw⟩
      rw [SFn.run, if_pos ⟨asTypes_length t, by simp [asStoreRetsGeneric, hl]⟩]
      simp only [asStoreRetsGeneric, List.map_cons, names_range', List.zip_cons_cons]
      rw [map_run, e, ← hh, ← hh']
    · simp only [List.getElem?_map, Option.map_eq_some_iff] at he
      obtain ⟨n, hn, rfl⟩ := he
      obtain ⟨rfl, hi⟩ := range_get hn
      rw [Nat.zero_add] at hP ⊢
      obtain ⟨hh, hh', hw⟩ := hP
      have hv : vs[n]? = some vs[n] := List.getElem?_eq_getElem (by omega)
      have hty : (t.side .ret)[n]? = some vs[n].type := by
        show t.results[n]? = _
        rw [← hvs, List.getElem?_map, hv]; rfl
      refine ⟨.unit, ⟨s'.free, s'.total, s'.mem.put (p.toNat + 8 * n) vs[n].width vs[n].bits⟩, ?_, hh, hh', ?_⟩
      rotate_left
      · dsimp only
        rw [take_succ_of_get hv]
        refine hw.snoc ?_
        rw [List.length_take, Nat.min_eq_left (by omega)]
        exact Wrote.one _ _ vs[n]
      · have hx : (asVar n == "stack_ptr") = false := argVar_ne (by decide) n
        simp only [SExpr.eval, evalAtoms, SAtom.eval, List.lookup_cons, BEq.rfl, hx]
        rw [show asVar n = argVar n from rfl, lookup_args' (x := .num vs[n]) (by simp [hl]) (by simp [hv])]
        dsimp only
        rw [map_lookup_zip _ _ (asGenerics_nodup _ _) (asTypes_length t).symm]
        rw [show ("store_ret" ++ n.repr ++ "_" ++ countName t.results.length t.inputs.length) =
          ("store_" ++ Side.ret.asStr ++ n.repr ++ "_" ++ countName t.results.length t.inputs.length) from by
          simp only [Side.asStr]; rw [show "store_" ++ "ret" = "store_ret" from rfl]]
        rw [as_store_generic ht hty 1 (by rw [hw.size]; exact hm) (by rw [hw.size]; simp only [slotOf]; omega)]
        rfl
  obtain ⟨m', e, hw⟩ := h1
  refine ⟨m', ?_, hw⟩
  rw [show storeRetsName t = (asStoreRets t).name from rfl, as_special ht (by simp [asSpecial]) rfl, SFn.run,
    if_pos ⟨rfl, by simp [asStoreRets, hl]⟩]
  have hnm : (t.results.mapIdx fun i v => (asVar i, v.asStr)).map Prod.fst = (List.range' 0 t.results.length).map argVar := names_mapIdx t.results
  simp only [asStoreRets, List.map_cons, hnm, List.zip_cons_cons, runStmts, SExpr.eval, evalAtoms, SAtom.eval, List.lookup_cons, BEq.rfl, List.zip_nil_left, map_subst_nil]
  have hev := eval_vars (vs := vs) (env := ("stack_ptr", SVal.num (Val.i32 p)) :: ((List.range' 0 t.results.length).map argVar).zip (vs.map .num)) (fun i v hv => by
    have hx : (asVar i == "stack_ptr") = false := argVar_ne (by decide) i
    rw [List.lookup_cons, hx]
    exact lookup_args' (x := .num v) (by simp [hl]) (by simp [hv]))
  rw [hvs] at hev
  rw [hev]
  simp only [e]

/-! ## Allocation -/

/-- Invariant of the library's state: `base` pages were there at first and are not counted; the memory
can grow to `limit` pages. -/
structure AState.Ok (s : AState) (base limit : Nat) : Prop where
  some : 1 ≤ base
  total : s.total.toNat + base = s.mem.pages
  free : s.free.toNat ≤ s.total.toNat * 65536
  pages : s.mem.pages ≤ s.mem.limit
  lim : s.mem.limit = limit ∧ limit ≤ 65536

theorem AState.Ok.size {s : AState} {base limit : Nat} (ok : s.Ok base limit) : s.free.toNat ≤ s.mem.size :=
  Nat.le_trans ok.free (Nat.mul_le_mul_right 65536 (by rw [← ok.total]; exact Nat.le_add_right _ _))

theorem AState.Ok.size' {s : AState} {base limit : Nat} (ok : s.Ok base limit) : s.mem.size ≤ 2 ^ 32 :=
  Nat.le_trans (Nat.mul_le_mul_right 65536 (Nat.le_trans ok.pages (Nat.le_trans (Nat.le_of_eq ok.lim.1) ok.lim.2))) (by decide)

/-- Growing until the bytes counted suffice. -/
theorem asGrow_spec {base : Nat} (hb : 1 ≤ base) (after : BitVec 32) : ∀ (n : Nat) (s : AState), s.total.toNat + base = s.mem.pages → s.mem.pages + n = s.mem.limit →
    s.mem.limit ≤ 65536 →
    (after.toNat ≤ (s.total.toNat + n) * 65536 → ∃ total' m', asGrow after n s = .ok () ⟨s.free, total', m'⟩ ∧ total'.toNat + base = m'.pages ∧ Grows s.mem m' ∧
      m'.pages ≤ m'.limit ∧ after.toNat ≤ total'.toNat * 65536) ∧
    ((s.total.toNat + n) * 65536 < after.toNat → ∃ s', asGrow after n s = .trap s') := by
  intro n
  induction n with
  | zero =>
    intro s ht hp hl
    have hmul : (s.total * 65536).toNat = s.total.toNat * 65536 := by
      rw [BitVec.toNat_mul, show (65536 : BitVec 32).toNat = 65536 from rfl]; omega
    rw [asGrow]
    by_cases h : s.total * 65536 < after
    · rw [if_pos h]
      rw [BitVec.lt_def, hmul] at h
      exact ⟨fun h' => by omega, fun _ => ⟨_, rfl⟩⟩
    · rw [if_neg h]
      rw [BitVec.lt_def, hmul] at h
      exact ⟨fun _ => ⟨s.total, s.mem, rfl, ht, .refl _, by omega, by omega⟩, fun h' => by omega⟩
  | succ n ih =>
    intro s ht hp hl
    have hmul : (s.total * 65536).toNat = s.total.toNat * 65536 := by
      rw [BitVec.toNat_mul, show (65536 : BitVec 32).toNat = 65536 from rfl]; omega
    rw [asGrow]
    by_cases h : s.total * 65536 < after
    · rw [if_pos h]
      rw [BitVec.lt_def, hmul] at h
      have htot : (s.total + 1).toNat = s.total.toNat + 1 := by
        rw [BitVec.toNat_add, show (1 : BitVec 32).toNat = 1 from rfl]; omega
      obtain ⟨h1, h2⟩ := ih ⟨s.free, s.total + 1, s.mem.grown⟩ (by rw [htot]; show _ = s.mem.pages + 1; omega) (by show s.mem.pages + 1 + n = s.mem.limit; omega) hl
      dsimp only at h1 h2
      rw [htot, Nat.add_assoc, Nat.add_comm 1 n] at h1 h2
      refine ⟨fun h' => ?_, fun h' => h2 h'⟩
      obtain ⟨t', m', e, g1, g2, g3, g4⟩ := h1 h'
      exact ⟨t', m', e, g1, Grows.trans (Mem.grown_grows _) g2, g3, g4⟩
    · rw [if_neg h]
      rw [BitVec.lt_def, hmul] at h
      refine ⟨fun _ => ⟨s.total, s.mem, rfl, ht, .refl _, by omega, Nat.not_lt.1 h⟩, fun h' => ?_⟩
      exact absurd (Nat.lt_of_le_of_lt (Nat.mul_le_mul_right 65536 (Nat.le_add_right _ _)) h') h

/-- Whether `n` bytes are not to be had: with them the bytes in use exceed what the pages counted, and those the memory can still grow by, provide. -/
def asFull (n _align : Nat) (s : AState) : Prop := (s.total.toNat + (s.mem.limit - s.mem.pages)) * 65536 < s.free.toNat + n

theorem asStackAllocate_ok {base limit : Nat} {s : AState} (ok : s.Ok base limit) {n : BitVec 32} (hn : n.toNat < 65536) (hf : ¬ asFull n.toNat 8 s) :
    ∃ s', asStackAllocate n s = .ok (.num (.i32 s.free)) s' ∧ s'.Ok base limit ∧ s'.free.toNat = s.free.toNat + n.toNat ∧ Grows s.mem s'.mem := by
  obtain ⟨h1, h2, h3, h4, h5⟩ := ok
  have hadd : (s.free + n).toNat = s.free.toNat + n.toNat := by rw [BitVec.toNat_add]; omega
  rw [asFull] at hf
  obtain ⟨t', m', e, g1, g2, g3, g4⟩ := (asGrow_spec h1 (s.free + n) (s.mem.limit - s.mem.pages) s h2 (by omega) (by omega)).1 (by omega)
  refine ⟨⟨s.free + n, t', m'⟩, by simp only [asStackAllocate, e], ⟨h1, g1, g4, g3, by rw [g2.limit]; exact h5⟩, hadd, g2⟩

theorem asStackAllocate_trap {base limit : Nat} {s : AState} (ok : s.Ok base limit) {n : BitVec 32} (hn : n.toNat < 65536) (hf : asFull n.toNat 8 s) :
    ∃ s', asStackAllocate n s = .trap s' := by
  obtain ⟨h1, h2, h3, h4, h5⟩ := ok
  have hadd : (s.free + n).toNat = s.free.toNat + n.toNat := by rw [BitVec.toNat_add]; omega
  rw [asFull] at hf
  obtain ⟨s', e⟩ := (asGrow_spec h1 (s.free + n) (s.mem.limit - s.mem.pages) s h2 (by omega) (by omega)).2 (by omega)
  exact ⟨s', by simp only [asStackAllocate, e]⟩

theorem mul8 {k : Nat} (h : k < 8192) : (BitVec.ofNat 32 k * 8).toNat = 8 * k := by
  rw [BitVec.toNat_mul, ofNat_toNat32 (by omega), show (8 : BitVec 32).toNat = 8 from rfl]
  omega

theorem mul4 {k : Nat} (h : k < 8192) : (BitVec.ofNat 32 k * 4).toNat = 4 * k := by
  rw [BitVec.toNat_mul, ofNat_toNat32 (by omega), show (4 : BitVec 32).toNat = 4 from rfl]
  omega

/-- The specialised allocation of values ends as the generic one does. -/
theorem as_allocate_eq {t : FuncType} (ht : t ∈ sigs) {args : List Val} (hargs : args.map Val.type = t.inputs) (s : AState) :
    asCall sigs (allocateValuesName t) args s = asFn sigs 4 ("allocate_" ++ countName t.results.length t.inputs.length) (asTypes t) (args.map .num) s := by
  have hl := mapTypes hargs
  rw [show allocateValuesName t = (asAllocate t).name from rfl, as_special ht (by simp [asSpecial]) rfl, SFn.run,
    if_pos ⟨rfl, by simp [asAllocate, hl]⟩]
  have hnm : (t.inputs.mapIdx fun i v => (asVar i, v.asStr)).map Prod.fst = (List.range' 0 t.inputs.length).map argVar := names_mapIdx t.inputs
  have hev := eval_vars (vs := args) (env := ((List.range' 0 t.inputs.length).map argVar).zip (args.map .num)) (fun i v hv =>
    lookup_args' (x := .num v) (by simp [hl]) (by simp [hv]))
  rw [hargs] at hev
  simp only [asAllocate, hnm, runStmts, SExpr.eval, hev, List.zip_nil_left, map_subst_nil]

theorem as_allocate {base limit : Nat} {t : FuncType} (ht : t ∈ sigs) {args : List Val} (hargs : args.map Val.type = t.inputs) (hb : t.slots < 8192) {s : AState} (ok : s.Ok base limit)
    (hf : ¬ asFull (8 * t.slots) 8 s) :
    ∃ s', asCall sigs (allocateValuesName t) args s = .ok (.num (.i32 s.free)) s' ∧ s'.Ok base limit ∧ s'.free.toNat = s.free.toNat + 8 * t.slots ∧
      ∃ m', Grows s.mem m' ∧ Wrote m' s'.mem (s.free.toNat + 8 * t.results.length) args := by
  have hl := mapTypes hargs
  obtain ⟨s1, e1, ok1, hf1, g⟩ := asStackAllocate_ok ok (n := BitVec.ofNat 32 t.slots * 8) (by rw [mul8 hb]; omega) (by rw [mul8 hb]; exact hf)
  rw [mul8 hb] at hf1
  have hsz := ok1.size
  have hsz' := ok1.size'
  simp only [FuncType.slots] at e1 hf1
  rw [as_allocate_eq ht hargs, show ("allocate_" ++ countName t.results.length t.inputs.length) = (asAllocateGeneric t.results.length t.inputs.length).name from rfl,
    as_generic ht (by simp [asGeneric])]
  have hrun := runStmts_stages (call := asFn sigs 3) (tenv := (asGenerics t.results.length t.inputs.length).zip (asTypes t))
    (env := ("stack_begin", .num (.i32 s.free)) :: ((List.range' 0 t.inputs.length).map argVar).zip (args.map .num))
    (fun i s' => s'.free = s1.free ∧ s'.total = s1.total ∧ Wrote s1.mem s'.mem (s.free.toNat + 8 * t.results.length) (args.take i))
    ((List.range t.inputs.length).map fun n => .call "wastrumentation_memory_store" ["T" ++ n.repr] [.var "stack_begin", .var (asVar n), .int (asSlot t.results.length .arg n)])
    0 s1 (fun i e s' he hP => ?_) ⟨rfl, rfl, by simpa using Wrote.nil s1.mem _⟩
  · obtain ⟨s', e, hh, hh', hw⟩ := hrun
    rw [List.length_map, List.length_range, Nat.zero_add, List.take_of_length_le (Nat.le_of_eq hl)] at hw
    refine ⟨s', ?_, ⟨ok1.some, ?_, ?_, ?_, ?_⟩, ?_, s1.mem, g, hw⟩
    · rw [SFn.run, if_pos ⟨asTypes_length t, by simp [asAllocateGeneric, hl]⟩]
      have hprim : asFn sigs 3 "stack_allocate_values" [] [.num (.i32 (BitVec.ofNat 32 (t.results.length + t.inputs.length)))] s = .ok (.num (.i32 s.free)) s1 := by
        rw [asFn, srcCall_prim rfl, e1]
      simp only [asAllocateGeneric, names_range', runStmts, SExpr.eval, evalAtoms, SAtom.eval, List.map_nil, hprim]
      rw [map_run, e]
      simp only [List.lookup_cons, BEq.rfl]
    · rw [hh', hw.pages]; exact ok1.total
    · rw [hh, hh']; exact ok1.free
    · rw [hw.pages, hw.limit]; exact ok1.pages
    · rw [hw.limit]; exact ok1.lim
    · rw [hh, hf1]; rfl
  · simp only [List.getElem?_map, Option.map_eq_some_iff] at he
    obtain ⟨n, hn', rfl⟩ := he
    obtain ⟨rfl, hi⟩ := range_get hn'
    rw [Nat.zero_add] at hP ⊢
    obtain ⟨hh, hh', hw⟩ := hP
    have hv : args[n]? = some args[n] := List.getElem?_eq_getElem (by omega)
    have hty : (t.side .arg)[n]? = some args[n].type := by
      show t.inputs[n]? = _
      rw [← hargs, List.getElem?_map, hv]; rfl
    refine ⟨.unit, ⟨s'.free, s'.total, s'.mem.put (s.free.toNat + 8 * (t.results.length + n)) args[n].width args[n].bits⟩, ?_, hh, hh', ?_⟩
    · have hx : (asVar n == "stack_begin") = false := argVar_ne (by decide) n
      simp only [SExpr.eval, evalAtoms, SAtom.eval, List.lookup_cons, BEq.rfl, hx, List.map_cons, List.map_nil]
      rw [show asVar n = argVar n from rfl, lookup_args' (x := .num args[n]) (by simp [hl]) (by simp [hv])]
      dsimp only
      rw [show ("T" ++ n.repr) = slotParam .arg n from rfl, subst_slot hty, show asSlot t.results.length Side.arg n = t.results.length + n from rfl]
      rw [asFn, srcCall_prim rfl, asStoreAt_eq (by rw [addr8 (by omega), hw.size]; omega), addr8 (by omega)]
    · dsimp only
      rw [take_succ_of_get hv]
      refine hw.snoc ?_
      rw [List.length_take, Nat.min_eq_left (by omega), show s.free.toNat + 8 * (t.results.length + n) = s.free.toNat + 8 * t.results.length + 8 * n by omega]
      exact Wrote.one _ _ args[n]

theorem as_allocate_trap {base limit : Nat} {t : FuncType} (ht : t ∈ sigs) {args : List Val} (hargs : args.map Val.type = t.inputs) (hb : t.slots < 8192) {s : AState} (ok : s.Ok base limit)
    (hf : asFull (8 * t.slots) 8 s) : ∃ s', asCall sigs (allocateValuesName t) args s = .trap s' := by
  have hl := mapTypes hargs
  obtain ⟨s1, e1⟩ := asStackAllocate_trap ok (n := BitVec.ofNat 32 t.slots * 8) (by rw [mul8 hb]; omega) (by rw [mul8 hb]; exact hf)
  simp only [FuncType.slots] at e1
  refine ⟨s1, ?_⟩
  rw [as_allocate_eq ht hargs, show ("allocate_" ++ countName t.results.length t.inputs.length) = (asAllocateGeneric t.results.length t.inputs.length).name from rfl,
    as_generic ht (by simp [asGeneric])]
  rw [SFn.run, if_pos ⟨asTypes_length t, by simp [asAllocateGeneric, hl]⟩]
  have hprim : asFn sigs 3 "stack_allocate_values" [] [.num (.i32 (BitVec.ofNat 32 (t.results.length + t.inputs.length)))] s = .trap s1 := by
    rw [asFn, srcCall_prim rfl, e1]
  simp only [asAllocateGeneric, names_range', runStmts, SExpr.eval, evalAtoms, SAtom.eval, List.map_nil, hprim]

theorem as_storeType {d : Nat} {p : BitVec 32} {k c : Nat} {s : AState} (hm : s.mem.size ≤ 2 ^ 32) (h : p.toNat + 4 * k + 4 ≤ s.mem.size) (hc : c < 2 ^ 32) :
    asFn sigs (d + 2) "wastrumentation_stack_store_type" [] [.num (.i32 p), .num (.i32 (BitVec.ofNat 32 k)), .num (.i32 (BitVec.ofNat 32 c))] s =
      .ok .unit ⟨s.free, s.total, s.mem.put (p.toNat + 4 * k) 4 c⟩ := by
  rw [show "wastrumentation_stack_store_type" = asStoreType.name from rfl, asFn,
    srcCall_fn (fs := asLib sigs) (f := asStoreType) (asPrim_none (by decide) _ _ _) (asGen.nodup sigs) (show asStoreType ∈ asLib sigs from List.mem_append_left _ (by simp [asBoilerplate]))]
  have hx : ("offset" == "ptr") = false ∧ ("ty" == "ptr") = false ∧ ("ty" == "offset") = false := by decide
  simp only [SFn.run, asStoreType, List.length_nil, List.length_cons, List.map_cons, List.map_nil, List.zip_cons_cons, List.zip_nil_left, and_self, if_true,
    runStmts, SExpr.eval, evalAtoms, SAtom.eval, List.lookup_cons, BEq.rfl, hx.1, hx.2.1, hx.2.2]
  rw [srcCall_prim rfl]
  simp only [asStoreAt]
  rw [addr4 (by omega), if_pos h, ofNat_toNat32 hc]

theorem as_allocate_types {base limit : Nat} {t : FuncType} (ht : t ∈ sigs) (hb : t.slots < 8192) {s : AState} (ok : s.Ok base limit) (hf : ¬ asFull (4 * t.slots) 4 s) :
    ∃ s', asCall sigs (allocateTypesName t) [] s = .ok (.num (.i32 s.free)) s' ∧ s'.Ok base limit ∧ s'.free.toNat = s.free.toNat + 4 * t.slots ∧
      ∃ m', Grows s.mem m' ∧ s'.mem = m'.puts s.free.toNat 4 (typeCodes t) := by
  have hlen : (t.results ++ t.inputs).length = t.slots := by simp [FuncType.slots]
  obtain ⟨s1, e1, ok1, hf1, g⟩ := asStackAllocate_ok ok (n := BitVec.ofNat 32 t.slots * 4) (by rw [mul4 hb]; omega) (by rw [mul4 hb]; exact hf)
  rw [mul4 hb] at hf1
  have hsz := ok1.size
  have hsz' := ok1.size'
  have h1 : asFn sigs 4 ("allocate_signature_types_buffer_" ++ countName t.results.length t.inputs.length) [] [] s = .ok (.num (.i32 s.free)) s1 := by
    rw [show ("allocate_signature_types_buffer_" ++ countName t.results.length t.inputs.length) = (asAllocateTypesGeneric t.results.length t.inputs.length).name from rfl,
      as_generic ht (by simp [asGeneric])]
    have hprim : asFn sigs 3 "stack_allocate_types" [] [.num (.i32 (BitVec.ofNat 32 (t.results.length + t.inputs.length)))] s = .ok (.num (.i32 s.free)) s1 := by
      rw [asFn, srcCall_prim rfl]; exact e1
    rw [SFn.run, if_pos ⟨rfl, rfl⟩]
    simp only [asAllocateTypesGeneric, List.map_nil, List.zip_nil_left, runStmts, SExpr.eval, evalAtoms, SAtom.eval, hprim, List.lookup_cons, BEq.rfl]
  rw [show allocateTypesName t = (asAllocateTypes t).name from rfl, as_special ht (by simp [asSpecial]) rfl, SFn.run,
    if_pos ⟨rfl, rfl⟩]
  have hrun := runStmts_stages (call := asFn sigs 4) (tenv := []) (env := [("types_buffer", .num (.i32 s.free))])
    (fun i s' => s' = ⟨s1.free, s1.total, s1.mem.puts s.free.toNat 4 ((typeCodes t).take i)⟩)
    ((t.results ++ t.inputs).mapIdx fun i v => .call "wastrumentation_stack_store_type" [] [.var "types_buffer", .int i, .int v.runtimeEnumValue])
    0 s1 (fun i e s' he hP => ?_) (by simp [Mem.puts])
  · obtain ⟨s', e, rfl⟩ := hrun
    refine ⟨⟨s1.free, s1.total, s1.mem.puts s.free.toNat 4 (typeCodes t)⟩, ?_, ⟨ok1.some, ?_, ok1.free, ?_, ?_⟩, hf1, s1.mem, g, rfl⟩
    · simp only [asAllocateTypes, List.map_nil, List.zip_nil_left, runStmts, SExpr.eval, evalAtoms, h1]
      rw [show (List.mapIdx (fun i v => SStmt.run (.call "wastrumentation_stack_store_type" [] [.var "types_buffer", .int i, .int v.runtimeEnumValue]))
          (t.results ++ t.inputs)) = ((t.results ++ t.inputs).mapIdx fun i v => .call "wastrumentation_stack_store_type" [] [.var "types_buffer", .int i, .int v.runtimeEnumValue]).map .run from
          (map_mapIdx' _ _ _).symm]
      rw [e]
      simp only [SAtom.eval, List.lookup_cons, BEq.rfl]
      rw [List.take_of_length_le (by simp [typeCodes])]
    · dsimp only; rw [(Mem.puts_pages _ _ _ _).1]; exact ok1.total
    · dsimp only; rw [(Mem.puts_pages _ _ _ _).1, (Mem.puts_pages _ _ _ _).2]; exact ok1.pages
    · dsimp only; rw [(Mem.puts_pages _ _ _ _).2]; exact ok1.lim
  · simp only [List.getElem?_mapIdx, Option.map_eq_some_iff] at he
    obtain ⟨v, hv, rfl⟩ := he
    have hi := (List.getElem?_eq_some_iff.1 hv).1
    rw [hlen] at hi
    rw [Nat.zero_add] at hP ⊢
    subst hP
    refine ⟨.unit, _, ?_, rfl⟩
    simp only [SExpr.eval, evalAtoms, SAtom.eval, List.lookup_cons, BEq.rfl, List.map_nil]
    have hv4 := runtimeEnumValue_le v
    rw [as_storeType (d := 2) (by rw [Mem.puts_size]; exact hsz') (by rw [Mem.puts_size]; omega) (by omega)]
    have htake : (typeCodes t).take (i + 1) = (typeCodes t).take i ++ [v.runtimeEnumValue] := by
      rw [List.take_add_one, show (typeCodes t)[i]? = some v.runtimeEnumValue by simp only [typeCodes, List.getElem?_map, hv, Option.map_some]]; rfl
    rw [htake, Mem.puts_append, List.length_take, Nat.min_eq_left (by simp only [typeCodes, List.length_map, hlen]; omega)]
    rfl

theorem as_allocate_types_trap {base limit : Nat} {t : FuncType} (ht : t ∈ sigs) (hb : t.slots < 8192) {s : AState} (ok : s.Ok base limit) (hf : asFull (4 * t.slots) 4 s) :
    ∃ s', asCall sigs (allocateTypesName t) [] s = .trap s' := by
  obtain ⟨s1, e1⟩ := asStackAllocate_trap ok (n := BitVec.ofNat 32 t.slots * 4) (by rw [mul4 hb]; omega) (by rw [mul4 hb]; exact hf)
  refine ⟨s1, ?_⟩
  have h1 : asFn sigs 4 ("allocate_signature_types_buffer_" ++ countName t.results.length t.inputs.length) [] [] s = .trap s1 := by
    rw [show ("allocate_signature_types_buffer_" ++ countName t.results.length t.inputs.length) = (asAllocateTypesGeneric t.results.length t.inputs.length).name from rfl,
      as_generic ht (by simp [asGeneric])]
    have hprim : asFn sigs 3 "stack_allocate_types" [] [.num (.i32 (BitVec.ofNat 32 (t.results.length + t.inputs.length)))] s = .trap s1 := by
      rw [asFn, srcCall_prim rfl]; exact e1
    rw [SFn.run, if_pos ⟨rfl, rfl⟩]
    simp only [asAllocateTypesGeneric, List.map_nil, List.zip_nil_left, runStmts, SExpr.eval, evalAtoms, SAtom.eval, hprim]
  rw [show allocateTypesName t = (asAllocateTypes t).name from rfl, as_special ht (by simp [asSpecial]) rfl, SFn.run,
    if_pos ⟨rfl, rfl⟩]
  simp only [asAllocateTypes, List.map_nil, List.zip_nil_left, runStmts, SExpr.eval, evalAtoms, h1]

/-! ## Release -/

theorem as_free_values {t : FuncType} (ht : t ∈ sigs) (s : AState) (p : BitVec 32) :
    asCall sigs (freeValuesName t) [.i32 p] s = .ok .unit ⟨s.free - BitVec.ofNat 32 t.slots * 8, s.total, s.mem⟩ := by
  have h1 : asFn sigs 4 ("free_values_" ++ countName t.results.length t.inputs.length) (asTypes t) [.num (.i32 p)] s =
      .ok .unit ⟨s.free - BitVec.ofNat 32 t.slots * 8, s.total, s.mem⟩ := by
    rw [show ("free_values_" ++ countName t.results.length t.inputs.length) = (asFreeValuesGeneric t.results.length t.inputs.length).name from rfl,
      as_generic ht (by simp [asGeneric]), SFn.run, if_pos ⟨asTypes_length t, rfl⟩]
    simp only [asFreeValuesGeneric, List.map_cons, List.map_nil, List.zip_cons_cons, List.zip_nil_left,
      runStmts, SExpr.eval, evalAtoms, SAtom.eval, List.lookup_cons, BEq.rfl]
    rw [asFn, srcCall_prim rfl]; rfl
  rw [show freeValuesName t = (asFreeValues t).name from rfl, as_special ht (by simp [asSpecial]) rfl]
  simp only [SFn.run, asFreeValues, List.length_nil, List.length_cons, List.map_cons, List.map_nil, List.zip_cons_cons, List.zip_nil_left, and_self, if_true,
    runStmts, SExpr.eval, evalAtoms, SAtom.eval, List.lookup_cons, BEq.rfl, map_subst_nil, h1]

theorem as_free_types {t : FuncType} (ht : t ∈ sigs) (s : AState) (p : BitVec 32) :
    asCall sigs (freeTypesName t) [.i32 p] s = .ok .unit ⟨s.free - BitVec.ofNat 32 t.slots * 4, s.total, s.mem⟩ := by
  have h1 : asFn sigs 4 ("free_types_" ++ countName t.results.length t.inputs.length) [] [.num (.i32 p)] s =
      .ok .unit ⟨s.free - BitVec.ofNat 32 t.slots * 4, s.total, s.mem⟩ := by
    rw [show ("free_types_" ++ countName t.results.length t.inputs.length) = (asFreeTypesGeneric t.results.length t.inputs.length).name from rfl,
      as_generic ht (by simp [asGeneric]), SFn.run, if_pos ⟨rfl, rfl⟩]
    simp only [asFreeTypesGeneric, List.map_cons, List.map_nil, List.zip_cons_cons, List.zip_nil_left,
      runStmts, SExpr.eval, evalAtoms, SAtom.eval, List.lookup_cons, BEq.rfl]
    rw [asFn, srcCall_prim rfl]; rfl
  rw [show freeTypesName t = (asFreeTypes t).name from rfl, as_special ht (by simp [asSpecial]) rfl]
  simp only [SFn.run, asFreeTypes, List.length_nil, List.length_cons, List.map_cons, List.map_nil, List.zip_cons_cons, List.zip_nil_left, and_self, if_true,
    runStmts, SExpr.eval, evalAtoms, SAtom.eval, List.lookup_cons, BEq.rfl, map_subst_nil, h1]

/-! ## The accessors of analyses -/

theorem as_peek {v : ValType} (hv : ∀ r, v ≠ .ref r) {p : BitVec 32} {k : Nat} {s : AState} (hm : s.mem.size ≤ 2 ^ 32) (h : p.toNat + 8 * k + 8 ≤ s.mem.size) :
    asCall sigs (typedName v) [.i32 p, .i32 (BitVec.ofNat 32 k)] s = .ok (.num (v.ofBits (s.mem.word (p.toNat + 8 * k) 8))) s := by
  have : ∀ ty : String, ty ∈ ["i32", "f32", "i64", "f64"] → v.asStr = ty →
      asCall sigs (asTypedLoad ty).name [.i32 p, .i32 (BitVec.ofNat 32 k)] s = .ok (.num (v.ofBits (s.mem.word (p.toNat + 8 * k) 8))) s := by
    intro ty hty e
    have hmem : asTypedLoad ty ∈ asBoilerplate := by
      simp only [asBoilerplate, List.mem_append, List.mem_cons, List.cons_append]
      exact .inr (.inr (.inl (List.mem_map_of_mem hty)))
    rw [as_boiler hmem rfl]
    have hx : ("offset" == "ptr") = false := by decide
    simp only [SFn.run, asTypedLoad, List.length_nil, List.length_cons, List.map_cons, List.map_nil, List.zip_cons_cons, List.zip_nil_left, and_self, if_true,
      runStmts, SExpr.eval, evalAtoms, SAtom.eval, List.lookup_cons, BEq.rfl, hx]
    rw [show substTy [] ty = ty from rfl, asFn, srcCall_prim rfl, ← e, asLoadAt_eq hv (by rw [addr8 (by omega)]; exact h), addr8 (by omega)]
  cases v with
  | ref r => exact absurd rfl (hv r)
  | i32 => exact this "i32" (by simp) rfl
  | f32 => exact this "f32" (by simp) rfl
  | i64 => exact this "i64" (by simp) rfl
  | f64 => exact this "f64" (by simp) rfl

theorem as_poke (v : Val) {p : BitVec 32} {k : Nat} {s : AState} (hm : s.mem.size ≤ 2 ^ 32) (h : p.toNat + 8 * k + 8 ≤ s.mem.size) :
    asCall sigs (typedStoreName v.type) [.i32 p, v, .i32 (BitVec.ofNat 32 k)] s = .ok .unit ⟨s.free, s.total, s.mem.put (p.toNat + 8 * k) v.width v.bits⟩ := by
  have : ∀ ty : String, ty ∈ ["i32", "f32", "i64", "f64"] → v.type.asStr = ty →
      asCall sigs (asTypedStore ty).name [.i32 p, v, .i32 (BitVec.ofNat 32 k)] s = .ok .unit ⟨s.free, s.total, s.mem.put (p.toNat + 8 * k) v.width v.bits⟩ := by
    intro ty hty e
    have hmem : asTypedStore ty ∈ asBoilerplate := by
      simp only [asBoilerplate, List.mem_append, List.mem_cons, List.cons_append]
      exact .inr (.inr (.inr (List.mem_map_of_mem hty)))
    rw [as_boiler hmem rfl]
    have hx : ("value" == "ptr") = false ∧ ("offset" == "ptr") = false ∧ ("offset" == "value") = false := by decide
    simp only [SFn.run, asTypedStore, List.length_nil, List.length_cons, List.map_cons, List.map_nil, List.zip_cons_cons, List.zip_nil_left, and_self, if_true,
      runStmts, SExpr.eval, evalAtoms, SAtom.eval, List.lookup_cons, BEq.rfl, hx.1, hx.2.1, hx.2.2]
    rw [show substTy [] ty = ty from rfl, asFn, srcCall_prim rfl, ← e, asStoreAt_eq (by rw [addr8 (by omega)]; exact h), addr8 (by omega)]
  cases v with
  | i32 => exact this "i32" (by simp) rfl
  | f32 => exact this "f32" (by simp) rfl
  | i64 => exact this "i64" (by simp) rfl
  | f64 => exact this "f64" (by simp) rfl

theorem as_loadType {p : BitVec 32} {k : Nat} {s : AState} (hm : s.mem.size ≤ 2 ^ 32) (h : p.toNat + 4 * k + 4 ≤ s.mem.size) :
    asCall sigs "wastrumentation_stack_load_type" [.i32 p, .i32 (BitVec.ofNat 32 k)] s =
      .ok (.num (.i32 (BitVec.ofNat 32 (s.mem.word (p.toNat + 4 * k) 4)))) s := by
  rw [show "wastrumentation_stack_load_type" = asLoadType.name from rfl, as_boiler (by simp [asBoilerplate]) rfl]
  have hx : ("offset" == "ptr") = false := by decide
  simp only [SFn.run, asLoadType, List.length_nil, List.length_cons, List.map_cons, List.map_nil, List.zip_cons_cons, List.zip_nil_left, and_self, if_true,
    runStmts, SExpr.eval, evalAtoms, SAtom.eval, List.lookup_cons, BEq.rfl, hx]
  rw [asFn, srcCall_prim rfl]
  simp only [asLoadAt]
  rw [addr4 (by omega), if_pos h]

end

end Wastrum
