/-
The generated Rust and AssemblyScript libraries compile, and provide what instrumented programs import (C53).
-/
import Verif.FaceThms

set_option linter.unusedVariables false
set_option linter.unusedSimpArgs false

namespace Wastrum

/-! ## Checks -/

theorem fitAll_of {ctx : List (String × String)} : ∀ {ts : List String} {as : List SAtom}, ts.length = as.length →
    (∀ (i : Nat) (t : String) (a : SAtom), ts[i]? = some t → as[i]? = some a → a.fits ctx t = true) → fitAll ctx ts as = true := by
  intro ts
  induction ts with
  | nil => intro as h _; cases as with
    | nil => rfl
    | cons => simp at h
  | cons t ts ih =>
    intro as h hf
    cases as with
    | nil => simp at h
    | cons a as =>
      simp only [fitAll, hf 0 t a rfl rfl, Bool.true_and]
      exact ih (by simpa using h) fun i t' a' h1 h2 => hf (i + 1) t' a' (by simpa using h1) (by simpa using h2)

theorem checkStmts_runs {known : String → Bool} {sigs : String → Option SSig} {ctx : List (String × String)} : ∀ (es : List SExpr),
    (∀ e ∈ es, e.checks known sigs ctx none = true) → checkStmts known sigs (es.map .run) ctx = some ctx := by
  intro es
  induction es with
  | nil => intro _; rfl
  | cons e es ih =>
    intro h
    simp only [List.map_cons, checkStmts, h e List.mem_cons_self, if_true]
    exact ih fun e' he => h e' (List.mem_cons_of_mem _ he)

theorem lookup_get : ∀ {l : List (String × String)} {i : Nat} {k v : String}, (l.map Prod.fst).Nodup → l[i]? = some (k, v) → l.lookup k = some v := by
  intro l
  induction l with
  | nil => intro i k v _ h; simp at h
  | cons p l ih =>
    intro i k v hn h
    obtain ⟨k', v'⟩ := p
    simp only [List.map_cons, List.nodup_cons] at hn
    cases i with
    | zero =>
      simp only [List.getElem?_cons_zero, Option.some.injEq, Prod.mk.injEq] at h
      obtain ⟨rfl, rfl⟩ := h
      simp
    | succ i =>
      simp only [List.getElem?_cons_succ] at h
      have hne : (k == k') = false := by
        rw [beq_eq_false_iff_ne]; rintro rfl
        exact hn.1 (List.mem_map.2 ⟨_, List.mem_of_getElem? h, rfl⟩)
      simp only [List.lookup_cons, hne]
      exact ih hn.2 h

theorem args_nodup (n : Nat) : ((List.range' 0 n).map argVar).Nodup := nodup_map_inj (fun _ _ h => argVar_inj h) List.nodup_range'

theorem lookup_typed {l : List ValType} {i : Nat} {v : ValType} (h : l[i]? = some v) :
    (l.mapIdx fun i v => (argVar i, v.asStr)).lookup (argVar i) = some v.asStr :=
  lookup_get (i := i) (by rw [names_mapIdx]; exact args_nodup _) (by simp [h])

theorem lookup_ranged {n i : Nat} (h : i < n) (ty : Nat → String) :
    ((List.range n).map fun i => (argVar i, ty i)).lookup (argVar i) = some (ty i) :=
  lookup_get (i := i) (by rw [List.map_map]; exact nodup_map_inj (fun _ _ h => argVar_inj h) List.nodup_range) (by simp [h])

theorem scope_fn {prims : String → Option SSig} {fs : List SFn} {f : SFn} (hp : prims f.name = none) (hn : (fs.map SFn.name).Nodup) (hf : f ∈ fs) :
    scope prims fs f.name = some f.sig := by
  simp only [scope, hp]
  rw [find_of_nodup hn hf _ (by simp) (fun g h => by simpa using h)]
  rfl

theorem scope_prim {prims : String → Option SSig} {fs : List SFn} {n : String} {g : SSig} (h : prims n = some g) : scope prims fs n = some g := by
  simp only [scope, h]

theorem nameFor_head (op : StackOp) (t : FuncType) :
    (tok (op.nameFor t)).head? ∈ [some "allocate".toList, some "load".toList, some "store".toList, some "free".toList] := by
  rw [nameFor_eq, tok_generateName, tok_str]
  cases op <;> simp [StackOp.toks]

theorem nameFor_long (op : StackOp) (t : FuncType) : 2 < (tok (op.nameFor t)).length := by
  rw [nameFor_eq, tok_generateName, tok_str]
  cases op <;> simp [StackOp.toks] <;> omega

/-! ## Rust -/

theorem rustPrimSigs_none {n : String} (h : n ∉ rustPrimNames) : rustPrimSigs n = none := by
  unfold rustPrimSigs
  split <;> first
    | rfl
    | exact absurd (by decide) h

theorem rust_notPrim {sigs : List FuncType} {f : SFn} (hf : f ∈ rustLib sigs) : rustPrimSigs f.name = none := by
  rcases rustGen.mem_inv hf with h | ⟨t, ht, h⟩ | ⟨t, ht, h⟩
  · clear hf; revert f; decide +kernel
  · refine rustPrimSigs_none fun hm => ?_
    have h1 := rustPrimNames_head _ hm
    have h2 : f.name ∈ (rustGeneric t.results.length t.inputs.length).map SFn.name := List.mem_map_of_mem h
    rw [rustGen.genericNames] at h2
    obtain ⟨op, _, e⟩ := List.mem_map.1 h2
    rw [← e] at h1
    exact h1 (generic_head _ _ op)
  · refine rustPrimSigs_none fun hm => ?_
    have h1 := rustPrimNames_head _ hm
    have h2 : f.name ∈ (rustSpecial t).map SFn.name := List.mem_map_of_mem h
    rw [rustGen.specialNames] at h2
    obtain ⟨op, _, e⟩ := List.mem_map.1 h2
    rw [← e] at h1
    exact h1 (nameFor_head op t)

section
variable {sigs : List FuncType}

/-- The functions in scope in the Rust library. -/
abbrev rustScope (sigs : List FuncType) : String → Option SSig := scope rustPrimSigs (rustLib sigs)

theorem rustScope_generic {t : FuncType} (ht : t ∈ sigs) {f : SFn} (hf : f ∈ rustGeneric t.results.length t.inputs.length) :
    rustScope sigs f.name = some f.sig :=
  scope_fn (rust_notPrim (rustGen.mem_generic ht hf)) (rustGen.nodup sigs) (rustGen.mem_generic ht hf)

theorem substTy_nil (x : String) : substTy [] x = x := rfl

theorem map_substTy_nil (l : List String) : l.map (substTy []) = l := by
  induction l with
  | nil => rfl
  | cons x l ih => simp only [List.map_cons, substTy_nil, ih]

theorem rustGeneric_checks {t : FuncType} (ht : t ∈ sigs) {f : SFn} (hf : f ∈ rustGeneric t.results.length t.inputs.length) :
    f.checks rustTypes (rustScope sigs) = true := by
  have h1 : rustScope sigs "wastrumentation_memory_load" = some ⟨[], ["usize", "usize"], "WasmValue"⟩ := scope_prim rfl
  have h2 : rustScope sigs "wastrumentation_memory_store" = some ⟨[], ["usize", "WasmValue", "usize"], "()"⟩ := scope_prim rfl
  have h3 : rustScope sigs "stack_allocate_types" = some ⟨[], ["usize"], "usize"⟩ := scope_prim rfl
  have h4 : rustScope sigs "stack_deallocate_types" = some ⟨[], ["usize", "usize"], "()"⟩ := scope_prim rfl
  have h5 : rustScope sigs "stack_allocate_values" = some ⟨[], ["usize"], "usize"⟩ := scope_prim rfl
  have h6 : rustScope sigs "stack_deallocate_values" = some ⟨[], ["usize", "usize"], "()"⟩ := scope_prim rfl
  have hret : ∀ n, n < t.results.length → rustScope sigs ("store_ret" ++ n.repr ++ "_" ++ countName t.results.length t.inputs.length) =
      some ⟨[], ["usize", "WasmValue"], "()"⟩ := by
    intro n hn
    exact rustScope_generic ht (rustStoreGeneric_mem (side := .ret) hn)
  have hv : ∀ side n, valueVar side n ≠ "stack_ptr" := by
    intro side n e
    have e := congrArg (fun s => s.toList.head?) e
    cases side <;> simp [valueVar] at e
  have hload : ∀ side n, (rustLoadGeneric t.results.length t.inputs.length side n).checks rustTypes (rustScope sigs) = true := by
    intro side n
    simp [rustLoadGeneric, SFn.checks, checkStmts, SExpr.checks, h1, fitAll, SAtom.fits, substTy, rustTypes]
  have hstore : ∀ side n, (rustStoreGeneric t.results.length t.inputs.length side n).checks rustTypes (rustScope sigs) = true := by
    intro side n
    have e : (valueVar side n == "stack_ptr") = false := by rw [beq_eq_false_iff_ne]; exact hv side n
    simp [rustStoreGeneric, SFn.checks, checkStmts, SExpr.checks, h2, fitAll, SAtom.fits, substTy, rustTypes, (hv side n).symm, List.lookup_cons, e]
  simp only [rustGeneric, List.mem_append, List.mem_map, List.mem_cons, List.not_mem_nil, or_false] at hf
  rcases hf with ((rfl | ⟨n, -, rfl⟩ | ⟨n, -, rfl⟩) | ⟨n, -, rfl⟩ | ⟨n, -, rfl⟩) | rfl | rfl | rfl | rfl
  · simp only [rustAllocateGeneric]
    split
    · simp [SFn.checks, checkStmts, SExpr.checks, SAtom.fits, rustTypes]
    · rw [map_run]
      simp only [SFn.checks, checkStmts, SExpr.checks, h5, List.map_cons, List.map_nil, substTy_nil, fitAll, SAtom.fits, List.zip_nil_left]
      rw [checkStmts_runs]
      · simp [rustTypes, List.all_map, List.lookup_cons, Function.comp_def]
        exact nodup_map_inj (fun _ _ h => argVar_inj h) List.nodup_range
      · intro e he
        obtain ⟨n, hn, rfl⟩ := List.mem_map.1 he
        have hn := List.mem_range.1 hn
        simp only [SExpr.checks, h2, List.map_cons, List.map_nil, substTy_nil, fitAll, SAtom.fits, List.zip_nil_left, List.lookup_cons,
          argVar_ne (x := "frame_ptr") (by decide) n]
        rw [lookup_ranged hn fun _ => "WasmValue"]
        simp
  · exact hload _ _
  · exact hload _ _
  · exact hstore _ _
  · exact hstore _ _
  · simp only [rustFreeValuesGeneric]
    split <;> simp [SFn.checks, checkStmts, SExpr.checks, h6, fitAll, SAtom.fits, substTy, rustTypes]
  · by_cases h0 : t.results.length = 0
    · simp [rustStoreRetsGeneric, h0, SFn.checks, checkStmts, rustTypes]
    · simp only [rustStoreRetsGeneric, if_neg h0, SFn.checks, map_run]
      rw [checkStmts_runs]
      · simp [rustTypes, List.all_map, Function.comp_def]
        refine ⟨fun n _ => ?_, nodup_map_inj (fun _ _ h => argVar_inj h) List.nodup_range⟩
        have := argVar_ne (x := "stack_ptr") (by decide) n
        simpa using this
      · intro e he
        obtain ⟨n, hn, rfl⟩ := List.mem_map.1 he
        have hn := List.mem_range.1 hn
        simp only [SExpr.checks, hret n hn, List.map_cons, List.map_nil, substTy_nil, fitAll, SAtom.fits, List.zip_nil_left, List.lookup_cons,
          argVar_ne (x := "stack_ptr") (by decide) n]
        rw [lookup_ranged hn fun _ => "WasmValue"]
        simp
  · simp [rustAllocateTypesGeneric, SFn.checks, checkStmts, SExpr.checks, h3, fitAll, SAtom.fits, substTy, rustTypes]
  · simp [rustFreeTypesGeneric, SFn.checks, checkStmts, SExpr.checks, h4, fitAll, SAtom.fits, substTy, rustTypes]

theorem rustTypes_of {v : ValType} (h : ∀ r, v ≠ .ref r) : rustTypes v.asStr = true := by
  cases v <;> first | rfl | exact absurd rfl (h _)

theorem constructor_of {v : ValType} (h : ∀ r, v ≠ .ref r) : constructorParam (rustConstructor v) = some v.asStr := by
  cases v <;> first | rfl | exact absurd rfl (h _)

theorem accessor_of {v : ValType} (h : ∀ r, v ≠ .ref r) : fieldType (rustAccessor v) = some v.asStr := by
  cases v <;> first | rfl | exact absurd rfl (h _)

/-- Constructors applied to parameters fit parameters of type `WasmValue`. -/
theorem constructors_fit {ctx : List (String × String)} {l : List ValType} (hr : ∀ v ∈ l, ∀ r, v ≠ .ref r)
    (hc : ∀ i v, l[i]? = some v → ctx.lookup (argVar i) = some v.asStr) :
    fitAll ctx ((List.range l.length).map fun _ => "WasmValue") (l.mapIdx fun i v => .new (rustConstructor v) (argVar i)) = true := by
  refine fitAll_of (by simp) fun i ty a h1 h2 => ?_
  simp only [List.getElem?_mapIdx, Option.map_eq_some_iff] at h2
  obtain ⟨v, hv, rfl⟩ := h2
  obtain ⟨n, _, rfl⟩ := List.mem_map.1 (List.mem_of_getElem? h1)
  have hv' := hr v (List.mem_of_getElem? hv)
  simp [SAtom.fits, constructor_of hv', hc i v hv]

theorem typed_nodup (l : List ValType) : ((l.mapIdx fun i v => (argVar i, v.asStr)).map Prod.fst).Nodup := by
  rw [names_mapIdx]; exact args_nodup _

theorem typed_known {known : String → Bool} {l : List ValType} (h : ∀ v ∈ l, known v.asStr = true) :
    (l.mapIdx fun i v => (argVar i, v.asStr)).all (fun p => known p.2) = true := by
  rw [List.all_eq_true]
  intro p hp
  obtain ⟨i, hi, rfl⟩ := List.mem_mapIdx.1 hp
  exact h _ (List.getElem_mem hi)

theorem typed_ne {x : String} (hx : x.toList.head? ≠ some 'a') (l : List ValType) : x ∉ (l.mapIdx fun i v => (argVar i, v.asStr)).map Prod.fst := by
  rw [names_mapIdx]
  intro h
  obtain ⟨n, _, e⟩ := List.mem_map.1 h
  have := argVar_ne hx n
  rw [e] at this
  simp at this

theorem rustSpecial_checks {t : FuncType} (ht : t ∈ sigs) (hr : t.RefFree) {f : SFn} (hf : f ∈ rustSpecial t) : f.checks rustTypes (rustScope sigs) = true := by
  have hin : ∀ v ∈ t.inputs, ∀ r, v ≠ .ref r := fun v h r => hr v (by simp [h]) r
  have hout : ∀ v ∈ t.results, ∀ r, v ≠ .ref r := fun v h r => hr v (by simp [h]) r
  have g1 : rustScope sigs ("allocate_" ++ countName t.results.length t.inputs.length) =
      some ⟨[], (List.range t.inputs.length).map (fun _ => "WasmValue"), "usize"⟩ := by
    have := rustScope_generic ht (f := rustAllocateGeneric t.results.length t.inputs.length) (by simp [rustGeneric])
    simp only [rustAllocateGeneric] at this
    by_cases h0 : t.results.length + t.inputs.length = 0
    · rw [if_pos h0] at this
      rw [this, show t.inputs.length = 0 by omega]; rfl
    · rw [if_neg h0] at this
      rw [this]; simp [SFn.sig, Function.comp_def]
  have g2 : ∀ side i, i < (t.side side).length → rustScope sigs ("load_" ++ side.asStr ++ i.repr ++ "_" ++ countName t.results.length t.inputs.length) =
      some ⟨[], ["usize"], "WasmValue"⟩ := fun side i h => rustScope_generic ht (rustLoadGeneric_mem h)
  have g3 : ∀ side i, i < (t.side side).length → rustScope sigs ("store_" ++ side.asStr ++ i.repr ++ "_" ++ countName t.results.length t.inputs.length) =
      some ⟨[], ["usize", "WasmValue"], "()"⟩ := fun side i h => rustScope_generic ht (rustStoreGeneric_mem h)
  have g4 : rustScope sigs ("free_values_" ++ countName t.results.length t.inputs.length) = some ⟨[], ["usize"], "()"⟩ := by
    have := rustScope_generic ht (f := rustFreeValuesGeneric t.results.length t.inputs.length) (by simp [rustGeneric])
    simp only [rustFreeValuesGeneric] at this
    by_cases h0 : t.results.length + t.inputs.length = 0
    · rw [if_pos h0] at this; exact this
    · rw [if_neg h0] at this; exact this
  have g5 : rustScope sigs ("store_rets_" ++ countName t.results.length t.inputs.length) =
      some ⟨[], "usize" :: (List.range t.results.length).map (fun _ => "WasmValue"), "()"⟩ := by
    have := rustScope_generic ht (f := rustStoreRetsGeneric t.results.length t.inputs.length) (by simp [rustGeneric])
    simp only [rustStoreRetsGeneric] at this
    rw [this]; simp [SFn.sig, Function.comp_def]
  have g6 : rustScope sigs ("allocate_signature_types_buffer_" ++ countName t.results.length t.inputs.length) = some ⟨[], [], "usize"⟩ :=
    rustScope_generic ht (f := rustAllocateTypesGeneric t.results.length t.inputs.length) (by simp [rustGeneric])
  have g7 : rustScope sigs ("free_types_" ++ countName t.results.length t.inputs.length) = some ⟨[], ["usize"], "()"⟩ :=
    rustScope_generic ht (f := rustFreeTypesGeneric t.results.length t.inputs.length) (by simp [rustGeneric])
  have g8 : rustScope sigs "wastrumentation_stack_store_type" = some ⟨[], ["usize", "usize", "RuntimeType"], "()"⟩ := scope_prim rfl
  have hmem : ∀ side i v, (t.side side)[i]? = some v → i < (t.side side).length ∧ ∀ r, v ≠ .ref r := by
    intro side i v h
    refine ⟨(List.getElem?_eq_some_iff.1 h).1, ?_⟩
    have := List.mem_of_getElem? h
    cases side
    · exact hout v this
    · exact hin v this
  have hload : ∀ side i v, (t.side side)[i]? = some v → (rustLoad t side i v).checks rustTypes (rustScope sigs) = true := by
    intro side i v h
    obtain ⟨hi, hv⟩ := hmem side i v h
    simp [rustLoad, SFn.checks, checkStmts, SExpr.checks, g2 side i hi, fitAll, SAtom.fits, substTy, rustTypes_of hv, accessor_of hv]
    rfl
  have hstore : ∀ side i v, (t.side side)[i]? = some v → (rustStore t side i v).checks rustTypes (rustScope sigs) = true := by
    intro side i v h
    obtain ⟨hi, hv⟩ := hmem side i v h
    have e := argVar_ne (x := "stack_ptr") (by decide) i
    have e' : "stack_ptr" ≠ argVar i := fun h => by rw [← h] at e; simp at e
    simp [rustStore, SFn.checks, checkStmts, SExpr.checks, g3 side i hi, fitAll, SAtom.fits, substTy, rustTypes_of hv, constructor_of hv, List.lookup_cons, e, e']
    rfl
  simp only [rustSpecial, List.mem_append, List.mem_mapIdx, List.mem_cons, List.not_mem_nil, or_false] at hf
  rcases hf with ((rfl | ⟨n, hn, rfl⟩ | ⟨n, hn, rfl⟩) | ⟨n, hn, rfl⟩ | ⟨n, hn, rfl⟩) | rfl | rfl | rfl | rfl
  · simp only [rustAllocate, SFn.checks, checkStmts, SExpr.checks, g1, List.zip_nil_left, map_substTy_nil]
    rw [constructors_fit hin fun i v h => lookup_typed h]
    simp only [List.contains_nil, Bool.or_false, typed_known fun v h => rustTypes_of (hin v h), typed_nodup, decide_true]
    rfl
  · exact hload .arg n _ (List.getElem?_eq_getElem hn)
  · exact hload .ret n _ (List.getElem?_eq_getElem hn)
  · exact hstore .arg n _ (List.getElem?_eq_getElem hn)
  · exact hstore .ret n _ (List.getElem?_eq_getElem hn)
  · simp [rustFreeValues, SFn.checks, checkStmts, SExpr.checks, g4, fitAll, SAtom.fits, substTy, rustTypes]
  · have e : fitAll (("stack_ptr", "usize") :: t.results.mapIdx fun i v => (argVar i, v.asStr)) ((List.range t.results.length).map fun _ => "WasmValue")
        (t.results.mapIdx fun i v => .new (rustConstructor v) (argVar i)) = true := by
      refine constructors_fit hout fun i v h => ?_
      simp only [List.lookup_cons, argVar_ne (x := "stack_ptr") (by decide) i]
      exact lookup_typed h
    simp only [rustStoreRets, SFn.checks, checkStmts, SExpr.checks, g5, List.zip_nil_left, List.map_cons, substTy_nil, map_substTy_nil, fitAll, e, SAtom.fits]
    simp only [List.contains_nil, Bool.or_false, List.all_cons, typed_known fun v h => rustTypes_of (hout v h), List.nodup_cons, typed_nodup,
      typed_ne (x := "stack_ptr") (by decide)]
    simp [rustTypes]
  · have hall : ∀ e ∈ (t.results ++ t.inputs).mapIdx (fun i (v : ValType) =>
        SExpr.call "wastrumentation_stack_store_type" [] [.var "types_buffer", .int i, .variant v.runtimeEnumVariant]),
        e.checks rustTypes (rustScope sigs) [("types_buffer", "usize")] none = true := by
      intro e he
      obtain ⟨i, hi, rfl⟩ := List.mem_mapIdx.1 he
      simp [SExpr.checks, g8, fitAll, SAtom.fits, substTy, variantValue_eq]
    have em : (t.results ++ t.inputs).mapIdx (fun i (v : ValType) =>
        SStmt.run (.call "wastrumentation_stack_store_type" [] [.var "types_buffer", .int i, .variant v.runtimeEnumVariant])) =
      ((t.results ++ t.inputs).mapIdx (fun i (v : ValType) =>
        SExpr.call "wastrumentation_stack_store_type" [] [.var "types_buffer", .int i, .variant v.runtimeEnumVariant])).map .run := by
      rw [map_mapIdx']
    simp only [rustAllocateTypes, SFn.checks, em, checkStmts, SExpr.checks, g6, List.zip_nil_left, List.map_nil, fitAll, substTy_nil]
    simp only [List.contains_nil, Bool.or_false]
    rw [checkStmts_runs _ hall]
    simp [SAtom.fits, rustTypes]
  · simp [rustFreeTypes, SFn.checks, checkStmts, SExpr.checks, g7, fitAll, SAtom.fits, substTy, rustTypes]

theorem rustBoilerplate_checks {f : SFn} (hf : f ∈ rustBoilerplate) : f.checks rustTypes (rustScope sigs) = true := by
  have h1 : rustScope sigs "wastrumentation_memory_load" = some ⟨[], ["usize", "usize"], "WasmValue"⟩ := scope_prim rfl
  have h2 : rustScope sigs "wastrumentation_memory_store" = some ⟨[], ["usize", "WasmValue", "usize"], "()"⟩ := scope_prim rfl
  have h3 : rustScope sigs "*ptr.add(offset)" = some ⟨[], ["usize", "usize"], "i32"⟩ := scope_prim rfl
  simp only [rustBoilerplate, List.map_cons, List.map_nil, List.cons_append, List.nil_append, List.mem_cons, List.not_mem_nil, or_false] at hf
  rcases hf with rfl | rfl | rfl | rfl | rfl | rfl | rfl | rfl | rfl <;>
    simp [rustLoadType, rustTypedLoad, rustTypedStore, SFn.checks, checkStmts, SExpr.checks, h1, h2, h3, fitAll, SAtom.fits, substTy, rustTypes, fieldType,
      constructorParam, List.lookup_cons]

end

/-- A reference type somewhere in a signature. -/
theorem not_refFree {t : FuncType} (h : ¬ t.RefFree) : ∃ (side : Side) (i : Nat) (r : RefType), (t.side side)[i]? = some (ValType.ref r) := by
  simp only [FuncType.RefFree, Classical.not_forall, Classical.not_not] at h
  obtain ⟨v, hv, r, rfl⟩ := h
  rcases List.mem_append.1 hv with hv | hv
  · obtain ⟨i, hi⟩ := List.getElem?_of_mem hv
    exact ⟨.arg, i, r, hi⟩
  · obtain ⟨i, hi⟩ := List.getElem?_of_mem hv
    exact ⟨.ret, i, r, hi⟩

/-- **C53.** The Rust source generated for a set of signatures compiles exactly if none of them has a reference type. -/
theorem C53_rust_compiles_iff (sigs : List FuncType) : compiles rustTypes rustPrimSigs (rustLib sigs) ↔ ∀ t ∈ sigs, t.RefFree := by
  constructor
  · rintro ⟨_, _, h⟩ t ht
    refine Classical.byContradiction fun hr => ?_
    obtain ⟨side, i, r, hi⟩ := not_refFree hr
    have h := h _ (rustGen.mem_special ht (rustLoad_mem hi))
    have hk : rustTypes (ValType.ref r).asStr = false := by cases r <;> rfl
    have hu : ((ValType.ref r).asStr == "()") = false := by cases r <;> rfl
    simp [SFn.checks, rustLoad, hk] at h
    rw [h.1.2] at hu
    simp at hu
  · intro hr
    refine ⟨rustGen.nodup sigs, fun f hf => rust_notPrim hf, fun f hf => ?_⟩
    rcases rustGen.mem_inv hf with h | ⟨t, ht, h⟩ | ⟨t, ht, h⟩
    · exact rustBoilerplate_checks h
    · exact rustGeneric_checks ht h
    · exact rustSpecial_checks ht (hr t ht) h

/-! ## AssemblyScript -/

theorem asPrimSigs_none {n : String} (h : n ∉ asPrimNames) : asPrimSigs n = none := by
  unfold asPrimSigs
  split <;> first
    | rfl
    | exact absurd (by decide) h

theorem asPrimNames_head : ∀ n ∈ asPrimNames,
    (tok n).head? ∉ [some "allocate".toList, some "load".toList, some "store".toList, some "free".toList] ∨ (tok n).length ≤ 2 := by
  decide +kernel

theorem as_notPrim {sigs : List FuncType} {f : SFn} (hf : f ∈ asLib sigs) : asPrimSigs f.name = none := by
  rcases asGen.mem_inv hf with h | ⟨t, ht, h⟩ | ⟨t, ht, h⟩
  · clear hf; revert f; decide +kernel
  · refine asPrimSigs_none fun hm => ?_
    have h1 := asPrimNames_short _ hm
    have h2 : f.name ∈ (asGeneric t.results.length t.inputs.length).map SFn.name := List.mem_map_of_mem h
    rw [asGen.genericNames] at h2
    obtain ⟨op, _, e⟩ := List.mem_map.1 h2
    rw [← e] at h1
    have := generic_long t.results.length t.inputs.length op
    omega
  · refine asPrimSigs_none fun hm => ?_
    have h1 := asPrimNames_head _ hm
    have h2 : f.name ∈ (asSpecial t).map SFn.name := List.mem_map_of_mem h
    rw [asGen.specialNames] at h2
    obtain ⟨op, _, e⟩ := List.mem_map.1 h2
    rw [← e] at h1
    rcases h1 with h1 | h1
    · exact h1 (nameFor_head op t)
    · have := nameFor_long op t
      omega

section
variable {sigs : List FuncType}

/-- The functions in scope in the AssemblyScript library. -/
abbrev asScope (sigs : List FuncType) : String → Option SSig := scope asPrimSigs (asLib sigs)

theorem asScope_generic {t : FuncType} (ht : t ∈ sigs) {f : SFn} (hf : f ∈ asGeneric t.results.length t.inputs.length) :
    asScope sigs f.name = some f.sig :=
  scope_fn (as_notPrim (asGen.mem_generic ht hf)) (asGen.nodup sigs) (asGen.mem_generic ht hf)

theorem asScope_boiler {f : SFn} (hf : f ∈ asBoilerplate) : asScope sigs f.name = some f.sig :=
  scope_fn (as_notPrim (sigs := sigs) (List.mem_append_left _ hf)) (asGen.nodup sigs) (List.mem_append_left _ hf)

theorem slotParam_mem {r a : Nat} {side : Side} {n : Nat} (h : n < (match side with | .ret => r | .arg => a)) : slotParam side n ∈ asGenerics r a := by
  rw [asGenerics_eq, List.mem_append]
  cases side
  · exact .inl (List.mem_map.2 ⟨n, List.mem_range.2 h, rfl⟩)
  · exact .inr (List.mem_map.2 ⟨n, List.mem_range.2 h, rfl⟩)

theorem asGenerics_length (r a : Nat) : (asGenerics r a).length = r + a := by simp [asGenerics]

/-- `usize` is no type parameter. -/
theorem subst_usize (r a : Nat) (ts : List String) : substTy ((asGenerics r a).zip ts) "usize" = "usize" := by
  have : ((asGenerics r a).zip ts).lookup "usize" = none := by
    rw [List.lookup_eq_none_iff]
    intro p hp
    have := (List.of_mem_zip hp).1
    rw [bne_iff_ne]
    intro e
    rw [← e, asGenerics_eq, List.mem_append] at this
    rcases this with h | h <;> obtain ⟨n, _, e⟩ := List.mem_map.1 h <;>
      · have e := congrArg (fun s => s.toList.head?) e
        simp [slotParam] at e
  rw [substTy, this]; rfl

theorem subst_unit (r a : Nat) (ts : List String) : substTy ((asGenerics r a).zip ts) "()" = "()" := by
  have : ((asGenerics r a).zip ts).lookup "()" = none := by
    rw [List.lookup_eq_none_iff]
    intro p hp
    have := (List.of_mem_zip hp).1
    rw [bne_iff_ne]
    intro e
    rw [← e, asGenerics_eq, List.mem_append] at this
    rcases this with h | h <;> obtain ⟨n, _, e⟩ := List.mem_map.1 h <;>
      · have e := congrArg (fun s => s.toList.head?) e
        simp [slotParam] at e
  rw [substTy, this]; rfl

/-- Substituting type parameters for themselves changes nothing. -/
theorem subst_self {r a : Nat} {x : String} (h : x ∈ asGenerics r a) : substTy ((asGenerics r a).zip (asGenerics r a)) x = x := by
  obtain ⟨i, hi⟩ := List.getElem?_of_mem h
  rw [substTy, lookup_zip_get (asGenerics_nodup _ _) hi hi]; rfl

theorem asGeneric_checks {t : FuncType} (ht : t ∈ sigs) {f : SFn} (hf : f ∈ asGeneric t.results.length t.inputs.length) :
    f.checks asTypesKnown (asScope sigs) = true := by
  have h1 : asScope sigs "wastrumentation_memory_load" = some ⟨["T"], ["usize", "usize"], "T"⟩ := scope_prim rfl
  have h2 : asScope sigs "wastrumentation_memory_store" = some ⟨["T"], ["usize", "T", "usize"], "()"⟩ := scope_prim rfl
  have h3 : asScope sigs "stack_allocate_types" = some ⟨[], ["usize"], "usize"⟩ := scope_prim rfl
  have h4 : asScope sigs "stack_deallocate_types" = some ⟨[], ["usize", "usize"], "()"⟩ := scope_prim rfl
  have h5 : asScope sigs "stack_allocate_values" = some ⟨[], ["usize"], "usize"⟩ := scope_prim rfl
  have h6 : asScope sigs "stack_deallocate_values" = some ⟨[], ["usize", "usize"], "()"⟩ := scope_prim rfl
  have hret : ∀ n, n < t.results.length → asScope sigs ("store_ret" ++ n.repr ++ "_" ++ countName t.results.length t.inputs.length) =
      some ⟨asGenerics t.results.length t.inputs.length, ["usize", slotParam .ret n], "()"⟩ := by
    intro n hn
    exact asScope_generic ht (asStoreGeneric_mem (side := .ret) hn)
  have hv : ∀ side n, asValueVar side n ≠ "stack_ptr" := by
    intro side n e
    have e := congrArg (fun s => s.toList.head?) e
    cases side <;> simp [asValueVar] at e
  have hTu : ∀ x, substTy [("T", x)] "usize" = "usize" := fun x => rfl
  have hTT : ∀ x, substTy [("T", x)] "T" = x := fun x => rfl
  have hload : ∀ side n, n < (t.side side).length → (asLoadGeneric t.results.length t.inputs.length side n).checks asTypesKnown (asScope sigs) = true := by
    intro side n hn
    have hm : slotParam side n ∈ asGenerics t.results.length t.inputs.length := slotParam_mem (by cases side <;> exact hn)
    simp [asLoadGeneric, SFn.checks, checkStmts, SExpr.checks, h1, fitAll, SAtom.fits, hTu, hTT, asTypesKnown, hm]
  have hstore : ∀ side n, n < (t.side side).length → (asStoreGeneric t.results.length t.inputs.length side n).checks asTypesKnown (asScope sigs) = true := by
    intro side n hn
    have hm : slotParam side n ∈ asGenerics t.results.length t.inputs.length := slotParam_mem (by cases side <;> exact hn)
    have e : (asValueVar side n == "stack_ptr") = false := by rw [beq_eq_false_iff_ne]; exact hv side n
    simp [asStoreGeneric, SFn.checks, checkStmts, SExpr.checks, h2, fitAll, SAtom.fits, hTu, hTT, asTypesKnown, hm, (hv side n).symm, List.lookup_cons, e]
  simp only [asGeneric, List.mem_append, List.mem_map, List.mem_cons, List.not_mem_nil, or_false] at hf
  rcases hf with ((rfl | ⟨n, hn, rfl⟩ | ⟨n, hn, rfl⟩) | ⟨n, hn, rfl⟩ | ⟨n, hn, rfl⟩) | rfl | rfl | rfl | rfl
  · simp only [asAllocateGeneric, map_run]
    simp only [SFn.checks, checkStmts, SExpr.checks, h5, List.map_cons, List.map_nil, substTy_nil, fitAll, SAtom.fits, List.zip_nil_left]
    rw [checkStmts_runs]
    · simp [asTypesKnown, List.all_map, List.lookup_cons, Function.comp_def]
      refine ⟨fun n hn => .inr (slotParam_mem (side := .arg) hn), nodup_map_inj (fun _ _ h => argVar_inj h) List.nodup_range⟩
    · intro e he
      obtain ⟨n, hn, rfl⟩ := List.mem_map.1 he
      have hn := List.mem_range.1 hn
      have hm : slotParam .arg n ∈ asGenerics t.results.length t.inputs.length := slotParam_mem hn
      simp only [SExpr.checks, h2, List.map_cons, List.map_nil, hTu, hTT, fitAll, SAtom.fits, List.zip_cons_cons, List.zip_nil_left, List.lookup_cons,
        argVar_ne (x := "stack_begin") (by decide) n, show asVar n = argVar n from rfl]
      have hl := lookup_ranged hn (slotParam .arg)
      simp only [show ∀ n, slotParam .arg n = "T" ++ n.repr from fun _ => rfl] at hl hm
      simp [hl, hm, show asVar = argVar from rfl]
  · exact hload .arg n (List.mem_range.1 hn)
  · exact hload .ret n (List.mem_range.1 hn)
  · exact hstore .arg n (List.mem_range.1 hn)
  · exact hstore .ret n (List.mem_range.1 hn)
  · simp [asFreeValuesGeneric, SFn.checks, checkStmts, SExpr.checks, h6, fitAll, SAtom.fits, substTy, asTypesKnown]
  · simp only [asStoreRetsGeneric, SFn.checks, map_run]
    rw [checkStmts_runs]
    · simp [asTypesKnown, List.all_map, Function.comp_def]
      refine ⟨fun n hn => .inr (slotParam_mem (side := .ret) hn), fun n _ => ?_, nodup_map_inj (fun _ _ h => argVar_inj h) List.nodup_range⟩
      have := argVar_ne (x := "stack_ptr") (by decide) n
      simpa [show asVar = argVar from rfl] using this
    · intro e he
      obtain ⟨n, hn, rfl⟩ := List.mem_map.1 he
      have hn := List.mem_range.1 hn
      have hm : slotParam .ret n ∈ asGenerics t.results.length t.inputs.length := slotParam_mem hn
      simp only [SExpr.checks, hret n hn, List.map_cons, List.map_nil, subst_usize, subst_self hm, fitAll, SAtom.fits, List.lookup_cons,
        argVar_ne (x := "stack_ptr") (by decide) n, show asVar n = argVar n from rfl]
      have hl := lookup_ranged hn (slotParam .ret)
      simp only [show ∀ n, slotParam .ret n = "R" ++ n.repr from fun _ => rfl] at hl ⊢
      simp [hl, show asVar = argVar from rfl]
      exact fun x hx => .inr hx
  · simp [asAllocateTypesGeneric, SFn.checks, checkStmts, SExpr.checks, h3, fitAll, SAtom.fits, substTy, asTypesKnown]
  · simp [asFreeTypesGeneric, SFn.checks, checkStmts, SExpr.checks, h4, fitAll, SAtom.fits, substTy, asTypesKnown]

theorem asTypesKnown_of {v : ValType} (h : ∀ r, v ≠ .ref r) : asTypesKnown v.asStr = true := by
  cases v <;> first | rfl | exact absurd rfl (h _)

/-- Parameters passed on fit parameters of their own types. -/
theorem vars_fit {ctx : List (String × String)} {l : List ValType} (hc : ∀ i v, l[i]? = some v → ctx.lookup (argVar i) = some v.asStr) :
    fitAll ctx (l.map ValType.asStr) (l.mapIdx fun i _ => .var (argVar i)) = true := by
  refine fitAll_of (by simp) fun i ty a h1 h2 => ?_
  simp only [List.getElem?_mapIdx, List.getElem?_map, Option.map_eq_some_iff] at h1 h2
  obtain ⟨v, hv, rfl⟩ := h1
  obtain ⟨w, hw, rfl⟩ := h2
  simp [SAtom.fits, hc i v hv]

theorem subst_params (t : FuncType) (side : Side) :
    ((List.range (t.side side).length).map (slotParam side)).map (substTy ((asGenerics t.results.length t.inputs.length).zip (asTypes t))) =
      (t.side side).map ValType.asStr := by
  apply List.ext_getElem?
  intro i
  simp only [List.getElem?_map]
  by_cases h : i < (t.side side).length
  · simp only [List.getElem?_range h, List.getElem?_eq_getElem h, Option.map_some]
    rw [subst_slot (List.getElem?_eq_getElem h)]
  · simp [h]

theorem subst_inputs (t : FuncType) :
    ((List.range t.inputs.length).map (slotParam .arg)).map (substTy ((asGenerics t.results.length t.inputs.length).zip (asTypes t))) =
      t.inputs.map ValType.asStr := subst_params t .arg

theorem subst_results (t : FuncType) :
    ((List.range t.results.length).map (slotParam .ret)).map (substTy ((asGenerics t.results.length t.inputs.length).zip (asTypes t))) =
      t.results.map ValType.asStr := subst_params t .ret

theorem asSpecial_checks {t : FuncType} (ht : t ∈ sigs) (hr : t.RefFree) {f : SFn} (hf : f ∈ asSpecial t) : f.checks asTypesKnown (asScope sigs) = true := by
  have hin : ∀ v ∈ t.inputs, ∀ r, v ≠ .ref r := fun v h r => hr v (by simp [h]) r
  have hout : ∀ v ∈ t.results, ∀ r, v ≠ .ref r := fun v h r => hr v (by simp [h]) r
  have hknown : (asTypes t).all (fun x => asTypesKnown x) = true := by
    rw [List.all_eq_true]
    intro x hx
    simp only [asTypes, List.mem_map, List.mem_append] at hx
    obtain ⟨v, hv, rfl⟩ := hx
    rcases hv with hv | hv
    · exact asTypesKnown_of (hout v hv)
    · exact asTypesKnown_of (hin v hv)
  have hlen : ((asTypes t).length == (asGenerics t.results.length t.inputs.length).length) = true := by simp [asTypes, asGenerics]
  have g1 : asScope sigs ("allocate_" ++ countName t.results.length t.inputs.length) =
      some ⟨asGenerics t.results.length t.inputs.length, (List.range t.inputs.length).map (slotParam .arg), "usize"⟩ := by
    have := asScope_generic ht (f := asAllocateGeneric t.results.length t.inputs.length) (by simp [asGeneric])
    simp only [asAllocateGeneric] at this
    rw [this]; simp [SFn.sig, Function.comp_def, FuncType.side, slotParam]
  have g2 : ∀ side i, i < (t.side side).length → asScope sigs ("load_" ++ side.asStr ++ i.repr ++ "_" ++ countName t.results.length t.inputs.length) =
      some ⟨asGenerics t.results.length t.inputs.length, ["usize"], slotParam side i⟩ := fun side i h => asScope_generic ht (asLoadGeneric_mem h)
  have g3 : ∀ side i, i < (t.side side).length → asScope sigs ("store_" ++ side.asStr ++ i.repr ++ "_" ++ countName t.results.length t.inputs.length) =
      some ⟨asGenerics t.results.length t.inputs.length, ["usize", slotParam side i], "()"⟩ := fun side i h => asScope_generic ht (asStoreGeneric_mem h)
  have g4 : asScope sigs ("free_values_" ++ countName t.results.length t.inputs.length) =
      some ⟨asGenerics t.results.length t.inputs.length, ["usize"], "()"⟩ :=
    asScope_generic ht (f := asFreeValuesGeneric t.results.length t.inputs.length) (by simp [asGeneric])
  have g5 : asScope sigs ("store_rets_" ++ countName t.results.length t.inputs.length) =
      some ⟨asGenerics t.results.length t.inputs.length, "usize" :: (List.range t.results.length).map (slotParam .ret), "()"⟩ := by
    have := asScope_generic ht (f := asStoreRetsGeneric t.results.length t.inputs.length) (by simp [asGeneric])
    simp only [asStoreRetsGeneric] at this
    rw [this]; simp [SFn.sig, Function.comp_def, FuncType.side, slotParam]
  have g6 : asScope sigs ("allocate_signature_types_buffer_" ++ countName t.results.length t.inputs.length) = some ⟨[], [], "usize"⟩ :=
    asScope_generic ht (f := asAllocateTypesGeneric t.results.length t.inputs.length) (by simp [asGeneric])
  have g7 : asScope sigs ("free_types_" ++ countName t.results.length t.inputs.length) = some ⟨[], ["usize"], "()"⟩ :=
    asScope_generic ht (f := asFreeTypesGeneric t.results.length t.inputs.length) (by simp [asGeneric])
  have g8 : asScope sigs "wastrumentation_stack_store_type" = some ⟨[], ["usize", "usize", "i32"], "()"⟩ :=
    asScope_boiler (f := asStoreType) (by simp [asBoilerplate])
  have hmem : ∀ side i v, (t.side side)[i]? = some v → i < (t.side side).length ∧ ∀ r, v ≠ .ref r := by
    intro side i v h
    refine ⟨(List.getElem?_eq_some_iff.1 h).1, ?_⟩
    have := List.mem_of_getElem? h
    cases side
    · exact hout v this
    · exact hin v this
  have hload : ∀ side i v, (t.side side)[i]? = some v → (asLoad t side i v).checks asTypesKnown (asScope sigs) = true := by
    intro side i v h
    obtain ⟨hi, hv⟩ := hmem side i v h
    simp only [asLoad, SFn.checks, checkStmts, SExpr.checks, g2 side i hi, List.map_cons, List.map_nil, subst_usize, subst_slot h, fitAll, SAtom.fits,
      List.contains_nil, Bool.or_false, hlen, hknown, asTypesKnown_of hv]
    simp [asTypesKnown]
  have hstore : ∀ side i v, (t.side side)[i]? = some v → (asStore t side i v).checks asTypesKnown (asScope sigs) = true := by
    intro side i v h
    obtain ⟨hi, hv⟩ := hmem side i v h
    have e : (asVar i == "stack_ptr") = false := argVar_ne (x := "stack_ptr") (by decide) i
    have e' : "stack_ptr" ≠ asVar i := fun h => by rw [← h] at e; simp at e
    simp only [asStore, SFn.checks, checkStmts, SExpr.checks, g3 side i hi, List.map_cons, List.map_nil, subst_usize, subst_slot h, fitAll, SAtom.fits,
      List.contains_nil, Bool.or_false, hlen, hknown, List.all_cons, asTypesKnown_of hv, List.lookup_cons, e]
    simp [asTypesKnown, e']
  simp only [asSpecial, List.mem_append, List.mem_mapIdx, List.mem_cons, List.not_mem_nil, or_false] at hf
  rcases hf with ((rfl | ⟨n, hn, rfl⟩ | ⟨n, hn, rfl⟩) | ⟨n, hn, rfl⟩ | ⟨n, hn, rfl⟩) | rfl | rfl | rfl | rfl
  · simp only [asAllocate, SFn.checks, checkStmts, SExpr.checks, g1, subst_inputs, subst_usize, List.contains_nil, Bool.or_false, hlen, hknown,
      show ∀ n, asVar n = argVar n from fun _ => rfl, FuncType.side]
    rw [vars_fit fun i v h => lookup_typed h]
    simp only [typed_known fun v h => asTypesKnown_of (hin v h), typed_nodup, decide_true]
    rfl
  · exact hload .arg n _ (List.getElem?_eq_getElem hn)
  · exact hload .ret n _ (List.getElem?_eq_getElem hn)
  · exact hstore .arg n _ (List.getElem?_eq_getElem hn)
  · exact hstore .ret n _ (List.getElem?_eq_getElem hn)
  · simp only [asFreeValues, SFn.checks, checkStmts, SExpr.checks, g4, List.map_cons, List.map_nil, subst_usize, fitAll, SAtom.fits, List.contains_nil,
      Bool.or_false, hlen, hknown]
    simp [asTypesKnown]
  · have e : fitAll (("stack_ptr", "usize") :: t.results.mapIdx fun i v => (argVar i, v.asStr)) (t.results.map ValType.asStr)
        (t.results.mapIdx fun i _ => .var (argVar i)) = true := by
      refine vars_fit fun i v h => ?_
      simp only [List.lookup_cons, argVar_ne (x := "stack_ptr") (by decide) i]
      exact lookup_typed h
    simp only [asStoreRets, SFn.checks, checkStmts, SExpr.checks, g5, List.map_cons, subst_results, subst_usize, fitAll, SAtom.fits, List.contains_nil,
      Bool.or_false, hlen, hknown, show ∀ n, asVar n = argVar n from fun _ => rfl, FuncType.side, e]
    simp only [List.all_cons, typed_known fun v h => asTypesKnown_of (hout v h), List.nodup_cons, typed_nodup, typed_ne (x := "stack_ptr") (by decide)]
    simp [asTypesKnown]
  · have hall : ∀ e ∈ (t.results ++ t.inputs).mapIdx (fun i (v : ValType) =>
        SExpr.call "wastrumentation_stack_store_type" [] [.var "types_buffer", .int i, .int v.runtimeEnumValue]),
        e.checks asTypesKnown (asScope sigs) [("types_buffer", "usize")] none = true := by
      intro e he
      obtain ⟨i, hi, rfl⟩ := List.mem_mapIdx.1 he
      simp [SExpr.checks, g8, fitAll, SAtom.fits, substTy]
    have em : (t.results ++ t.inputs).mapIdx (fun i (v : ValType) =>
        SStmt.run (.call "wastrumentation_stack_store_type" [] [.var "types_buffer", .int i, .int v.runtimeEnumValue])) =
      ((t.results ++ t.inputs).mapIdx (fun i (v : ValType) =>
        SExpr.call "wastrumentation_stack_store_type" [] [.var "types_buffer", .int i, .int v.runtimeEnumValue])).map .run := by
      rw [map_mapIdx']
    simp only [asAllocateTypes, SFn.checks, em, checkStmts, SExpr.checks, g6, List.zip_nil_left, List.map_nil, fitAll, substTy_nil]
    simp only [List.contains_nil, Bool.or_false]
    rw [checkStmts_runs _ hall]
    simp [SAtom.fits, asTypesKnown]
  · simp [asFreeTypes, SFn.checks, checkStmts, SExpr.checks, g7, fitAll, SAtom.fits, substTy, asTypesKnown]

theorem asBoilerplate_checks {f : SFn} (hf : f ∈ asBoilerplate) : f.checks asTypesKnown (asScope sigs) = true := by
  have h1 : asScope sigs "load" = some ⟨["T"], ["usize", "usize"], "T"⟩ := scope_prim rfl
  have h2 : asScope sigs "store" = some ⟨["T"], ["usize", "T", "usize"], "()"⟩ := scope_prim rfl
  have h3 : asScope sigs "load_type" = some ⟨[], ["usize", "usize"], "i32"⟩ := scope_prim rfl
  have h4 : asScope sigs "store_type" = some ⟨[], ["usize", "usize", "i32"], "()"⟩ := scope_prim rfl
  simp only [asBoilerplate, List.map_cons, List.map_nil, List.cons_append, List.nil_append, List.mem_cons, List.not_mem_nil, or_false] at hf
  rcases hf with rfl | rfl | rfl | rfl | rfl | rfl | rfl | rfl | rfl | rfl <;>
    simp [asLoadType, asStoreType, asTypedLoad, asTypedStore, SFn.checks, checkStmts, SExpr.checks, h1, h2, h3, h4, fitAll, SAtom.fits, substTy, asTypesKnown,
      List.lookup_cons]

end

/-- **C53.** The AssemblyScript source generated for a set of signatures compiles exactly if none of them has a reference type. -/
theorem C53_assemblyscript_compiles_iff (sigs : List FuncType) : compiles asTypesKnown asPrimSigs (asLib sigs) ↔ ∀ t ∈ sigs, t.RefFree := by
  constructor
  · rintro ⟨_, _, h⟩ t ht
    refine Classical.byContradiction fun hr => ?_
    obtain ⟨side, i, r, hi⟩ := not_refFree hr
    have h := h _ (asGen.mem_special ht (asLoad_mem hi))
    have hk : asTypesKnown (ValType.ref r).asStr = false := by cases r <;> rfl
    have hu : ((ValType.ref r).asStr == "()") = false := by cases r <;> rfl
    simp [SFn.checks, asLoad, hk] at h
    rw [h.1.2] at hu
    simp at hu
  · intro hr
    refine ⟨asGen.nodup sigs, fun f hf => as_notPrim hf, fun f hf => ?_⟩
    rcases asGen.mem_inv hf with h | ⟨t, ht, h⟩ | ⟨t, ht, h⟩
    · exact asBoilerplate_checks h
    · exact asGeneric_checks ht h
    · exact asSpecial_checks ht (hr t ht) h

/-! ## Exports -/

/-- A program provides an import: one of its functions is exported under the name of the import and with its type, and no other function has this name. -/
def Provides (fs : List SFn) (name : String) (type : FuncType) : Prop :=
  ∃ g ∈ fs, g.exported = true ∧ g.name = name ∧ g.wasmType = some type ∧ (fs.map SFn.name).count name = 1

theorem mapM_types : ∀ {ps : List (String × String)} {l : List ValType}, ps.length = l.length →
    (∀ (i : Nat) (p : String × String) (v : ValType), ps[i]? = some p → l[i]? = some v → wasmTypeOf p.2 = some v) →
    ps.mapM (fun p => wasmTypeOf p.2) = some l := by
  intro ps
  induction ps with
  | nil => intro l h _; cases l with
    | nil => rfl
    | cons => simp at h
  | cons p ps ih =>
    intro l h he
    cases l with
    | nil => simp at h
    | cons v l =>
      have h1 := ih (l := l) (by simpa using h) fun i p' v' a b => he (i + 1) p' v' (by simpa using a) (by simpa using b)
      simp [List.mapM_cons, he 0 p v rfl rfl, h1]

theorem wasmTypeOf_asStr {v : ValType} (h : ∀ r, v ≠ .ref r) : wasmTypeOf v.asStr = some v := by
  cases v <;> first | rfl | exact absurd rfl (h _)

theorem mapM_typed {l : List ValType} (h : ∀ v ∈ l, ∀ r, v ≠ .ref r) :
    (l.mapIdx fun i v => (argVar i, v.asStr)).mapM (fun p => wasmTypeOf p.2) = some l := by
  refine mapM_types (by simp) fun i p v h1 h2 => ?_
  simp only [List.getElem?_mapIdx, h2, Option.map_some, Option.some.injEq] at h1
  subst h1
  exact wasmTypeOf_asStr (h v (List.mem_of_getElem? h2))

theorem asStr_ne_unit (v : ValType) : v.asStr ≠ "()" := by cases v with
  | ref r => cases r <;> decide
  | _ => decide

/-- The functions behind the imports for a signature, in either language. -/
theorem import_exported {t : FuncType} (hr : t.RefFree) {f : Func} (hf : f ∈ stackImports t) :
    ∃ name, f.code = .imported stackModule name ∧
      (∃ g ∈ rustSpecial t, g.exported = true ∧ g.name = name ∧ g.wasmType = some f.type) ∧
      ∃ g ∈ asSpecial t, g.exported = true ∧ g.name = name ∧ g.wasmType = some f.type := by
  have hin : ∀ v ∈ t.inputs, ∀ r, v ≠ .ref r := fun v h r => hr v (by simp [h]) r
  have hout : ∀ v ∈ t.results, ∀ r, v ≠ .ref r := fun v h r => hr v (by simp [h]) r
  have i1 := mapM_typed hin
  have i2 := mapM_typed hout
  have hu : wasmTypeOf "usize" = some .i32 := rfl
  have w : ∀ {v : ValType}, (∀ r, v ≠ .ref r) → wasmTypeOf v.asStr = some v := wasmTypeOf_asStr
  have e1 : ("usize" = "()") = False := by simp
  have hg : ∀ {l : List ValType} {n : Nat} (hn : n < l.length), (∀ v ∈ l, ∀ r, v ≠ .ref r) → ∀ r, l[n] ≠ .ref r := fun hn h => h _ (List.getElem_mem hn)
  simp only [stackImports, List.mem_append, List.mem_cons, List.not_mem_nil, or_false, List.mem_mapIdx] at hf
  rcases hf with (((((rfl | rfl | rfl | rfl) | ⟨i, hi, rfl⟩) | ⟨i, hi, rfl⟩) | ⟨i, hi, rfl⟩) | ⟨i, hi, rfl⟩) | rfl
  · refine ⟨_, rfl, ⟨rustAllocate t, by simp [rustSpecial], rfl, rfl, ?_⟩, asAllocate t, by simp [asSpecial], rfl, rfl, ?_⟩ <;>
      simp only [SFn.wasmType, rustAllocate, asAllocate, show ∀ n, asVar n = argVar n from fun _ => rfl, i1, hu, e1, if_false] <;> rfl
  · exact ⟨_, rfl, ⟨rustFreeValues t, by simp [rustSpecial], rfl, rfl, rfl⟩, asFreeValues t, by simp [asSpecial], rfl, rfl, rfl⟩
  · exact ⟨_, rfl, ⟨rustAllocateTypes t, by simp [rustSpecial], rfl, rfl, rfl⟩, asAllocateTypes t, by simp [asSpecial], rfl, rfl, rfl⟩
  · exact ⟨_, rfl, ⟨rustFreeTypes t, by simp [rustSpecial], rfl, rfl, rfl⟩, asFreeTypes t, by simp [asSpecial], rfl, rfl, rfl⟩
  · refine ⟨_, rfl, ⟨_, rustLoad_mem (side := .arg) (List.getElem?_eq_getElem hi), rfl, rfl, ?_⟩, _, asLoad_mem (side := .arg) (List.getElem?_eq_getElem hi), rfl, rfl, ?_⟩ <;>
      simp [SFn.wasmType, rustLoad, asLoad, hu, asStr_ne_unit, w (hg hi hin), FuncType.side, stackImport]
  · refine ⟨_, rfl, ⟨_, rustLoad_mem (side := .ret) (List.getElem?_eq_getElem hi), rfl, rfl, ?_⟩, _, asLoad_mem (side := .ret) (List.getElem?_eq_getElem hi), rfl, rfl, ?_⟩ <;>
      simp [SFn.wasmType, rustLoad, asLoad, hu, asStr_ne_unit, w (hg hi hout), FuncType.side, stackImport]
  · refine ⟨_, rfl, ⟨_, rustStore_mem (side := .arg) (List.getElem?_eq_getElem hi), rfl, rfl, ?_⟩, _, asStore_mem (side := .arg) (List.getElem?_eq_getElem hi), rfl, rfl, ?_⟩ <;>
      simp [SFn.wasmType, rustStore, asStore, hu, w (hg hi hin), FuncType.side, stackImport]
  · refine ⟨_, rfl, ⟨_, rustStore_mem (side := .ret) (List.getElem?_eq_getElem hi), rfl, rfl, ?_⟩, _, asStore_mem (side := .ret) (List.getElem?_eq_getElem hi), rfl, rfl, ?_⟩ <;>
      simp [SFn.wasmType, rustStore, asStore, hu, w (hg hi hout), FuncType.side, stackImport]
  · refine ⟨_, rfl, ⟨rustStoreRets t, by simp [rustSpecial], rfl, rfl, ?_⟩, asStoreRets t, by simp [asSpecial], rfl, rfl, ?_⟩ <;>
      simp [SFn.wasmType, rustStoreRets, asStoreRets, show ∀ n, asVar n = argVar n from fun _ => rfl, i2, hu, stackImport, List.mapM_cons]

/-- The signatures instrumentation reports have no reference types. -/
theorem library_refFree {C iface ts m r} (hs : SmallModule m) (h : Instruments C iface ts m r) {sigs : List FuncType} (hl : r.librarySignatures = some sigs) :
    ∀ t ∈ sigs, t.RefFree := by
  obtain ⟨ord, ord', ho, ho', h⟩ := h
  obtain ⟨_, _, fs, base, hd, hn, hg⟩ := instrument_desc ho ho' hs h
  intro t ht
  cases hgen : iface.generic with
  | none => rw [(hn hgen).1] at hl; cases hl
  | some p =>
    obtain ⟨m2, sigs', hooks, copy, ha, hsg, e⟩ := hg p.1 p.2 hgen
    rw [hsg] at hl; cases hl
    obtain ⟨i, hi, f', hf', rfl⟩ := (ha.sigs_iff t).1 ht
    obtain ⟨f0, hf0, hu, _⟩ := mem_applyTargets.1 ((ho' _).mem_iff.1 hi)
    have h1 := hd.own i (List.getElem?_eq_some_iff.1 hf0).1
    simp only at hf'
    rw [hf', hf0, Option.map_some, Option.some.injEq] at h1
    have hty : f'.type = f0.type := by
      rw [h1]; split
      · rw [withBody_type]
      · rfl
    rw [hty]
    exact usesReferenceTypes_false.1 hu

/-- **C53.** The libraries generated in Rust and in AssemblyScript for the signatures that instrumentation reports compile. -/
theorem C53_reported_signatures_compile {C iface ts m r} (hs : SmallModule m) (h : Instruments C iface ts m r) (sigs : List FuncType)
    (hl : r.librarySignatures = some sigs) :
    compiles rustTypes rustPrimSigs (rustLib sigs) ∧ compiles asTypesKnown asPrimSigs (asLib sigs) :=
  ⟨(C53_rust_compiles_iff sigs).2 (library_refFree hs h hl), (C53_assemblyscript_compiles_iff sigs).2 (library_refFree hs h hl)⟩

/-- **C53.** Every function that an instrumented module imports from the stack library is exported, with the same type, by exactly one function of the
library generated in Rust, and by exactly one of that generated in AssemblyScript. (The program itself must not use the library's namespace.) -/
theorem C53_libraries_provide_every_import {C iface ts m r} (hs : SmallModule m) (h : Instruments C iface ts m r)
    (hns : ∀ f ∈ m.functions, ∀ name, f.code ≠ .imported "wastrumentation_stack" name)
    (f : Func) (name : String) (hf : f ∈ r.module.functions) (hc : f.code = .imported "wastrumentation_stack" name) :
    ∃ sigs, r.librarySignatures = some sigs ∧ Provides (rustLib sigs) name f.type ∧ Provides (asLib sigs) name f.type := by
  obtain ⟨sigs, t, h1, h2, h3, h4⟩ := stack_imports hs h hns hf hc
  obtain ⟨n, e1, ⟨g, a1, a2, a3, a4⟩, g', b1, b2, b3, b4⟩ := import_exported h3 h4
  have : n = name := by
    rw [hc] at e1
    simp only [FuncCode.imported.injEq] at e1
    exact e1.2.symm
  subst this
  refine ⟨sigs, h1, ⟨g, rustGen.mem_special h2 a1, a2, a3, a4, count_one (rustGen.nodup sigs) ?_⟩, g', asGen.mem_special h2 b1, b2, b3, b4, count_one (asGen.nodup sigs) ?_⟩
  · exact List.mem_map.2 ⟨g, rustGen.mem_special h2 a1, a3⟩
  · exact List.mem_map.2 ⟨g', asGen.mem_special h2 b1, b3⟩

-- the libraries for the three signatures of the example have 63 and 64 functions, of which 36 and 37 are exported
example : ((rustLib faceSigs).length, ((rustLib faceSigs).filter SFn.exported).length) = (63, 36) ∧
    ((asLib faceSigs).length, ((asLib faceSigs).filter SFn.exported).length) = (64, 37) := by decide +kernel

-- all 27 imports of the example program, for three signatures, are provided by both
example : (match instrument exChecker id id exIfaceApply none exModule with
    | .ok r => r.librarySignatures.map fun sigs => (r.module.functions.filterMap fun f => match f.code with
        | .imported ns n => if ns == "wastrumentation_stack" then some (n, f.type) else none
        | _ => none).map fun (n, ty) =>
          ((rustLib sigs).countP fun g => g.exported && g.name == n && g.wasmType == some ty, (asLib sigs).countP fun g => g.exported && g.name == n && g.wasmType == some ty)
    | .error _ => none) = some (List.replicate 27 (1, 1)) := by decide +kernel

-- a signature with a reference is refused by both
example : ¬ compiles rustTypes rustPrimSigs (rustLib [⟨[.ref .funcRef], []⟩]) ∧ ¬ compiles asTypesKnown asPrimSigs (asLib [⟨[.ref .funcRef], []⟩]) := by
  rw [C53_rust_compiles_iff, C53_assemblyscript_compiles_iff]
  simp [FuncType.RefFree]

end Wastrum
