/-
Names in the stack libraries generated as Rust and AssemblyScript source: every function is found under its name.
-/
import Verif.RustLib
import Verif.AsLib
import Verif.StackNames

set_option linter.unusedVariables false
set_option linter.unusedSimpArgs false
set_option linter.unusedSectionVars false

namespace Wastrum

/-- The operations both generators emit functions for, in order, generic and per signature. -/
def srcOps (r a : Nat) : List StackOp :=
  [.allocateValues] ++ ((List.range a).map (.load .arg) ++ (List.range r).map (.load .ret)) ++
    ((List.range a).map (.store .arg) ++ (List.range r).map (.store .ret)) ++ [.freeValues, .storeRets, .allocateTypes, .freeTypes]

/-- The name of a generic function. -/
def genericName (r a : Nat) (op : StackOp) : String :=
  if op = .allocateTypes then "allocate_signature_types_buffer_" ++ countName r a else idName r a op

theorem srcOps_nodup (r a : Nat) : (srcOps r a).Nodup := by
  refine List.Perm.nodup ?_ (libOps_nodup r a)
  simp only [libOps, srcOps, List.cons_append, List.nil_append, List.append_assoc]
  refine List.Perm.cons _ ?_
  repeat refine List.Perm.append_left _ ?_
  decide

theorem tok_genericName (r a : Nat) (op : StackOp) : tok (genericName r a op) =
    (if op = .allocateTypes then ["allocate".toList, "signature".toList, "types".toList, "buffer".toList] else op.toks) ++
      [tRet, r.repr.toList, tArg, a.repr.toList] := by
  simp only [genericName]
  split
  · have : "allocate_signature_types_buffer_" ++ countName r a = "allocate_signature_types_buffer" ++ "_" ++ countName r a := by
      rw [show "allocate_signature_types_buffer_" = "allocate_signature_types_buffer" ++ "_" from rfl]
    rw [this, tok_us, tok_countName]
    congr 1
  · exact tok_idName r a op

theorem toks_ne_signature (op : StackOp) (x y : List (List Char)) :
    op.toks ++ x ≠ "allocate".toList :: "signature".toList :: y ∨ op = .allocateValues := by
  cases op <;> simp [StackOp.toks]

theorem genericName_inj {r a r' a' : Nat} {op op' : StackOp} (h : genericName r a op = genericName r' a' op') : op = op' ∧ r = r' ∧ a = a' := by
  by_cases h1 : op = .allocateTypes <;> by_cases h2 : op' = .allocateTypes
  · have h := congrArg tok h
    rw [tok_genericName, tok_genericName, if_pos h1, if_pos h2] at h
    simp only [List.cons_append, List.nil_append, List.cons.injEq, true_and, and_true] at h
    exact ⟨h1.trans h2.symm, repr_toList_inj h.1, repr_toList_inj h.2⟩
  · have h := congrArg tok h
    rw [tok_genericName, tok_genericName, if_pos h1, if_neg h2] at h
    cases op' <;> simp [StackOp.toks] at h h2
  · have h := congrArg tok h
    rw [tok_genericName, tok_genericName, if_neg h1, if_pos h2] at h
    cases op <;> simp [StackOp.toks] at h h1
  · simp only [genericName, if_neg h1, if_neg h2] at h
    exact idName_inj h

theorem generic_ne_special (r a : Nat) (t : FuncType) (op op' : StackOp) : genericName r a op ≠ op'.nameFor t := by
  intro h
  have h := congrArg tok h
  rw [tok_genericName, nameFor_eq, tok_generateName, tok_str] at h
  by_cases h1 : op = .allocateTypes
  · rw [if_pos h1] at h
    cases op' <;> simp [StackOp.toks] at h
  · rw [if_neg h1] at h
    obtain ⟨rfl, h0⟩ := toks_inj h
    have hd := repr_digits r
    have h1 := congrArg List.head? h0
    simp only [List.head?_cons] at h1
    have hr : ∀ l, r.repr.toList = l → ∀ c ∈ l, c.isDigit = true := fun l e => e ▸ hd
    cases hres : t.results with
    | nil =>
      rw [hres] at h1
      simp only [List.flatMap_nil, List.nil_append, List.head?_cons, Option.some.injEq] at h1
      exact absurd (hr _ h1 'a' (by simp)) (by decide)
    | cons v l =>
      rw [hres] at h1
      cases v with
      | ref q =>
        cases q <;> simp only [ValType.nameToks, List.flatMap_cons, List.cons_append, List.head?_cons, Option.some.injEq] at h1 <;>
          exact absurd (hr _ h1 'r' (by decide)) (by decide)
      | _ => simp only [ValType.nameToks, List.flatMap_cons, List.cons_append, List.head?_cons, Option.some.injEq] at h1 <;> first
        | exact absurd (hr _ h1 'i' (by decide)) (by decide)
        | exact absurd (hr _ h1 'f' (by decide)) (by decide)

/-- A generator: fixed functions, generic functions, functions per signature, with the names of the tool. -/
structure SourceGen (boiler : List SFn) (generic : Nat → Nat → List SFn) (special : FuncType → List SFn) : Prop where
  genericNames : ∀ r a, (generic r a).map SFn.name = (srcOps r a).map (genericName r a)
  specialNames : ∀ t, (special t).map SFn.name = (srcOps t.results.length t.inputs.length).map fun op => op.nameFor t
  boilerNames : (boiler.map SFn.name).Nodup
  boiler_first : ∀ n ∈ boiler.map SFn.name, (tok n).head? = some "wastrumentation".toList

theorem sourceLoop_perm (generic : Nat → Nat → List SFn) (special : FuncType → List SFn) : ∀ (ts : List FuncType) (cs : List (Nat × Nat)) (ss : List FuncType),
    List.Perm (sourceLoop generic special cs ss ts)
      ((firsts counts cs ts).flatMap (fun t => generic t.results.length t.inputs.length) ++ (firsts id ss ts).flatMap special) := by
  intro ts
  induction ts with
  | nil => intro cs ss; simp [sourceLoop, firsts]
  | cons t ts ih =>
    intro cs ss
    have key : ∀ cs' ss', (∀ x, x ∈ cs' ↔ x ∈ counts t :: cs) → (∀ x, x ∈ ss' ↔ x ∈ t :: ss) →
        firsts counts cs' ts = firsts counts (counts t :: cs) ts ∧ firsts id ss' ts = firsts id (t :: ss) ts := by
      intro cs' ss' h1 h2
      exact ⟨firsts_congr _ _ _ _ h1, firsts_congr _ _ _ _ h2⟩
    simp only [sourceLoop, firsts]
    have ih := ih (counts t :: cs) (t :: ss)
    by_cases hc : counts t ∈ cs <;> by_cases hs : t ∈ ss
    · have k := key cs ss (fun x => by simp; rintro rfl; exact hc) (fun x => by simp; rintro rfl; exact hs)
      simp only [hc, hs, id, if_true, List.nil_append]
      rw [k.1, k.2]; exact ih
    · have k := key cs (t :: ss) (fun x => by simp; rintro rfl; exact hc) (fun x => Iff.rfl)
      simp only [hc, hs, id, if_true, if_false, List.nil_append, List.flatMap_cons]
      rw [k.1]
      exact (List.Perm.append_left _ ih).trans (by
        rw [← List.append_assoc, ← List.append_assoc]
        exact List.Perm.append_right _ List.perm_append_comm)
    · have k := key (counts t :: cs) ss (fun x => Iff.rfl) (fun x => by simp; rintro rfl; exact hs)
      simp only [hc, hs, id, if_true, if_false, List.append_nil, List.flatMap_cons, List.append_assoc]
      rw [k.2]
      exact List.Perm.append_left _ ih
    · simp only [hc, hs, id, if_false, List.flatMap_cons, List.append_assoc]
      refine List.Perm.append_left _ ?_
      exact (List.Perm.append_left _ ih).trans (by
        rw [← List.append_assoc, ← List.append_assoc]
        exact List.Perm.append_right _ List.perm_append_comm)
where
  firsts_congr {α κ : Type} [DecidableEq κ] (key : α → κ) : ∀ (xs : List α) (s s' : List κ), (∀ x, x ∈ s ↔ x ∈ s') → firsts key s xs = firsts key s' xs := by
    intro xs
    induction xs with
    | nil => intro s s' _; rfl
    | cons x xs ih =>
      intro s s' h
      simp only [firsts, h]
      split
      · exact ih _ _ h
      · rw [ih (key x :: s) (key x :: s') (fun y => by simp [h])]

namespace SourceGen
variable {boiler : List SFn} {generic : Nat → Nat → List SFn} {special : FuncType → List SFn} (G : SourceGen boiler generic special)
include G

theorem op_head (op : StackOp) (t : FuncType) (r a : Nat) :
    (tok (op.nameFor t)).head? ≠ some "wastrumentation".toList ∧ (tok (genericName r a op)).head? ≠ some "wastrumentation".toList := by
  rw [nameFor_eq, tok_generateName, tok_str, tok_genericName]
  constructor
  · cases op <;> simp [StackOp.toks]
  · split
    · simp
    · cases op <;> simp [StackOp.toks]

theorem nodup (sigs : List FuncType) : ((boiler ++ sourceLoop generic special [] [] sigs).map SFn.name).Nodup := by
  rw [List.map_append, List.nodup_append]
  have hp := (sourceLoop_perm generic special sigs [] []).map SFn.name
  have e : List.map SFn.name ((firsts counts [] sigs).flatMap (fun t => generic t.results.length t.inputs.length) ++ (firsts id [] sigs).flatMap special) =
      (firsts counts [] sigs).flatMap (fun t => (srcOps t.results.length t.inputs.length).map (genericName t.results.length t.inputs.length)) ++
      (firsts id [] sigs).flatMap (fun t => (srcOps t.results.length t.inputs.length).map fun op => op.nameFor t) := by
    rw [List.map_append, List.map_flatMap, List.map_flatMap]
    simp only [G.genericNames, G.specialNames]
  rw [e] at hp
  refine ⟨G.boilerNames, hp.symm.nodup ?_, ?_⟩
  · rw [List.nodup_append]
    refine ⟨flatMap_nodup (key := counts) (fun t => ?_) (fun t t' b h h' => ?_) (firsts_nodup counts sigs []),
      flatMap_nodup (key := id) (fun t => ?_) (fun t t' b h h' => ?_) (firsts_nodup id sigs []), ?_⟩
    · exact nodup_map_inj (fun _ _ h => (genericName_inj h).1) (srcOps_nodup _ _)
    · obtain ⟨op, _, rfl⟩ := List.mem_map.1 h
      obtain ⟨op', _, e⟩ := List.mem_map.1 h'
      have := (genericName_inj e).2
      simp [counts, this]
    · exact nodup_map_inj (fun _ _ h => (C31_names_never_clash _ _ _ _ h).1) (srcOps_nodup _ _)
    · obtain ⟨op, _, rfl⟩ := List.mem_map.1 h
      obtain ⟨op', _, e⟩ := List.mem_map.1 h'
      exact (C31_names_never_clash _ _ _ _ e).2.symm
    · rintro b hb c hc rfl
      obtain ⟨t, _, hb⟩ := List.mem_flatMap.1 hb
      obtain ⟨op, _, rfl⟩ := List.mem_map.1 hb
      obtain ⟨t', _, hc⟩ := List.mem_flatMap.1 hc
      obtain ⟨op', _, e⟩ := List.mem_map.1 hc
      exact generic_ne_special _ _ _ _ _ e.symm
  · rintro b hb c hc rfl
    have h1 := G.boiler_first b hb
    have hc := hp.mem_iff.1 hc
    rcases List.mem_append.1 hc with hc | hc
    · obtain ⟨t, _, hc⟩ := List.mem_flatMap.1 hc
      obtain ⟨op, _, rfl⟩ := List.mem_map.1 hc
      exact (G.op_head op t _ _).2 h1
    · obtain ⟨t, _, hc⟩ := List.mem_flatMap.1 hc
      obtain ⟨op, _, rfl⟩ := List.mem_map.1 hc
      exact (G.op_head op t 0 0).1 h1

theorem mem_generic {sigs : List FuncType} {t : FuncType} (ht : t ∈ sigs) {f : SFn} (hf : f ∈ generic t.results.length t.inputs.length) :
    f ∈ boiler ++ sourceLoop generic special [] [] sigs := by
  rw [List.mem_append, (sourceLoop_perm generic special sigs [] []).mem_iff, List.mem_append]
  refine .inr (.inl ?_)
  rcases firsts_mem counts sigs [] t ht with h | ⟨y, hy, e⟩
  · simp at h
  · refine List.mem_flatMap.2 ⟨y, hy, ?_⟩
    simp only [counts, Prod.mk.injEq] at e
    rw [e.1, e.2]; exact hf

theorem mem_special {sigs : List FuncType} {t : FuncType} (ht : t ∈ sigs) {f : SFn} (hf : f ∈ special t) :
    f ∈ boiler ++ sourceLoop generic special [] [] sigs := by
  rw [List.mem_append, (sourceLoop_perm generic special sigs [] []).mem_iff, List.mem_append]
  refine .inr (.inr ?_)
  rcases firsts_mem id sigs [] t ht with h | ⟨y, hy, e⟩
  · simp at h
  · simp only [id] at e; subst e
    exact List.mem_flatMap.2 ⟨y, hy, hf⟩

theorem mem_inv {sigs : List FuncType} {f : SFn} (hf : f ∈ boiler ++ sourceLoop generic special [] [] sigs) :
    f ∈ boiler ∨ (∃ t ∈ sigs, f ∈ generic t.results.length t.inputs.length) ∨ ∃ t ∈ sigs, f ∈ special t := by
  rw [List.mem_append, (sourceLoop_perm generic special sigs [] []).mem_iff, List.mem_append] at hf
  rcases hf with h | h | h
  · exact .inl h
  · obtain ⟨t, ht, h⟩ := List.mem_flatMap.1 h
    exact .inr (.inl ⟨t, (firsts_sub _ _ _ _ ht).1, h⟩)
  · obtain ⟨t, ht, h⟩ := List.mem_flatMap.1 h
    exact .inr (.inr ⟨t, (firsts_sub _ _ _ _ ht).1, h⟩)

end SourceGen

theorem find_of_nodup {fs : List SFn} (h : (fs.map SFn.name).Nodup) {f : SFn} (hf : f ∈ fs) (p : SFn → Bool) (hp : p f = true)
    (hn : ∀ g, p g = true → g.name = f.name) : fs.find? p = some f := by
  induction fs with
  | nil => cases hf
  | cons g fs ih =>
    simp only [List.map_cons, List.nodup_cons] at h
    cases hf with
    | head => simp [hp]
    | tail _ hf =>
      have : p g = false := by
        cases hg : p g with
        | false => rfl
        | true => exact absurd (List.mem_map.2 ⟨f, hf, (hn g hg).symm⟩) h.1
      simp only [List.find?_cons, this]
      exact ih h.2 hf

/-! ## The two generators -/

theorem map_mapIdx' {α β γ : Type} (l : List α) (f : Nat → α → β) (g : β → γ) : (l.mapIdx f).map g = l.mapIdx fun i x => g (f i x) := by
  apply List.ext_getElem?
  intro i
  simp only [List.getElem?_map, List.getElem?_mapIdx, Option.map_map, Function.comp_def]

theorem rustGen : SourceGen rustBoilerplate rustGeneric rustSpecial where
  genericNames r a := by
    have h1 : ∀ s n, (rustLoadGeneric r a s n).name = genericName r a (.load s n) := fun s n => by
      simp only [rustLoadGeneric, genericName, idName, StackOp.str, reduceCtorEq, if_false]
      rw [show "load_" = "load" ++ "_" from rfl]; simp only [String.append_assoc]
    have h2 : ∀ s n, (rustStoreGeneric r a s n).name = genericName r a (.store s n) := fun s n => by
      simp only [rustStoreGeneric, genericName, idName, StackOp.str, reduceCtorEq, if_false]
      rw [show "store_" = "store" ++ "_" from rfl]; simp only [String.append_assoc]
    have h3 : (rustAllocateGeneric r a).name = genericName r a .allocateValues := by
      simp only [rustAllocateGeneric]; split <;> rfl
    have h4 : (rustFreeValuesGeneric r a).name = genericName r a .freeValues := by
      simp only [rustFreeValuesGeneric]; split <;> rfl
    have h5 : (rustStoreRetsGeneric r a).name = genericName r a .storeRets := rfl
    have h6 : (rustAllocateTypesGeneric r a).name = genericName r a .allocateTypes := rfl
    have h7 : (rustFreeTypesGeneric r a).name = genericName r a .freeTypes := rfl
    simp only [rustGeneric, srcOps, List.map_append, List.map_map, List.map_cons, List.map_nil, h3, h4, h5, h6, h7, Function.comp_def, h1, h2]
  specialNames t := by
    have h1 : ∀ s i v, (rustLoad t s i v).name = (StackOp.load s i).nameFor t := fun _ _ _ => rfl
    have h2 : ∀ s i v, (rustStore t s i v).name = (StackOp.store s i).nameFor t := fun _ _ _ => rfl
    simp only [rustSpecial, srcOps, List.map_append, List.map_map, List.map_cons, List.map_nil, map_mapIdx', Function.comp_def, h1, h2, mapIdx_const]
    rfl
  boilerNames := by decide +kernel
  boiler_first := by decide +kernel

theorem asGen : SourceGen asBoilerplate asGeneric asSpecial where
  genericNames r a := by
    have h1 : ∀ s n, (asLoadGeneric r a s n).name = genericName r a (.load s n) := fun s n => by
      simp only [asLoadGeneric, genericName, idName, StackOp.str, reduceCtorEq, if_false]
      rw [show "load_" = "load" ++ "_" from rfl]; simp only [String.append_assoc]
    have h2 : ∀ s n, (asStoreGeneric r a s n).name = genericName r a (.store s n) := fun s n => by
      simp only [asStoreGeneric, genericName, idName, StackOp.str, reduceCtorEq, if_false]
      rw [show "store_" = "store" ++ "_" from rfl]; simp only [String.append_assoc]
    have h3 : (asAllocateGeneric r a).name = genericName r a .allocateValues := rfl
    have h4 : (asFreeValuesGeneric r a).name = genericName r a .freeValues := rfl
    have h5 : (asStoreRetsGeneric r a).name = genericName r a .storeRets := rfl
    have h6 : (asAllocateTypesGeneric r a).name = genericName r a .allocateTypes := rfl
    have h7 : (asFreeTypesGeneric r a).name = genericName r a .freeTypes := rfl
    simp only [asGeneric, srcOps, List.map_append, List.map_map, List.map_cons, List.map_nil, h3, h4, h5, h6, h7, Function.comp_def, h1, h2]
  specialNames t := by
    have h1 : ∀ s i v, (asLoad t s i v).name = (StackOp.load s i).nameFor t := fun _ _ _ => rfl
    have h2 : ∀ s i v, (asStore t s i v).name = (StackOp.store s i).nameFor t := fun _ _ _ => rfl
    simp only [asSpecial, srcOps, List.map_append, List.map_map, List.map_cons, List.map_nil, map_mapIdx', Function.comp_def, h1, h2, mapIdx_const]
    rfl
  boilerNames := by decide +kernel
  boiler_first := by decide +kernel

end Wastrum
