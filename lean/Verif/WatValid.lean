import Verif.SrcThms
import Verif.ValidityThms
/-!
# The generated WebAssembly stack library is valid (C75)

Whether the text the generator writes is a valid module is not decided by the tool: `wat` and the engine refuse it later if it
is not. The rules are those of `Typing.lean`; identifiers and exports must be distinct (text format and core specification).
-/

namespace Wastrum

/-! ## Specification -/

/-- What the code of the library may refer to: the functions; the globals of GEN 541-548, of which the first two are mutable; one
memory (GEN 540). -/
def libCtx (fs : List WatFunc) : Ctx where
  ftype i := fs[i]?.map (·.type)
  globals := [(.i32, true), (.i32, true), (.i32, false), (.i32, false), (.i32, false), (.i32, false)]
  tables := []
  mems := 1
  datas := 0
  elems := []
  locals := []
  labels := []
  ret := []

/-- The identifiers of the type declarations, without `$`: GEN 75-77, 118-125. -/
def typeIds (sigs : List FuncType) : List String := forNew id (fun t => ["type_" ++ mangledName t]) [] sigs

/-- The text is a valid module: identifiers of types and functions and names of exports are distinct, and every function body
has its type, calls being to the function of that identifier. -/
structure ValidText (types : List String) (fs : List WatFunc) : Prop where
  types : types.Nodup
  ids : (fs.filterMap (·.id)).Nodup
  exports : (fs.flatMap (·.exps)).Nodup
  bodies : ∀ f ∈ fs, HTyL ((libCtx fs).body f.type f.locals) (resolveL (idIndex fs) f.body) [] f.results.reverse

/-! ## Typing the generated code -/

section
variable {Γ : Ctx} {ix : String → Nat} {l : List WI} {a c : List ValType}

theorem ty_lget {i t} (h : Γ.locals[i]? = some t) (hl : HTyL Γ (resolveL ix l) (t :: a) c) : HTyL Γ (resolveL ix (lget i :: l)) a c :=
  .cons (.basic ⟨t, h, a, rfl, rfl⟩) hl
theorem ty_lset {i t} (h : Γ.locals[i]? = some t) (hl : HTyL Γ (resolveL ix l) a c) : HTyL Γ (resolveL ix (lset i :: l)) (t :: a) c :=
  .cons (.basic ⟨t, h, a, rfl, rfl⟩) hl
theorem ty_i32c {n} (hl : HTyL Γ (resolveL ix l) (.i32 :: a) c) : HTyL Γ (resolveL ix (i32c n :: l)) a c :=
  .cons (.basic ⟨a, rfl, rfl⟩) hl
theorem ty_gget {i t m} (h : Γ.globals[i]? = some (t, m)) (hl : HTyL Γ (resolveL ix l) (t :: a) c) : HTyL Γ (resolveL ix (gget i :: l)) a c :=
  .cons (.basic ⟨t, m, h, a, rfl, rfl⟩) hl
theorem ty_gset {i t} (h : Γ.globals[i]? = some (t, true)) (hl : HTyL Γ (resolveL ix l) a c) : HTyL Γ (resolveL ix (gset i :: l)) (t :: a) c :=
  .cons (.basic ⟨t, h, a, rfl, rfl⟩) hl
theorem ty_bin {op t u} (h : op.sig = (t, u)) (hl : HTyL Γ (resolveL ix l) (u :: a) c) : HTyL Γ (resolveL ix (bin op :: l)) (t :: t :: a) c :=
  .cons (.basic ⟨a, by rw [h]; rfl, by rw [h]; rfl⟩) hl
theorem ty_un {op t u} (h : op.sig = (t, u)) (hl : HTyL Γ (resolveL ix l) (u :: a) c) : HTyL Γ (resolveL ix (un op :: l)) (t :: a) c :=
  .cons (.basic ⟨a, by rw [h]; rfl, by rw [h]; rfl⟩) hl
theorem ty_call {n} {ty : FuncType} {st : List ValType} (h : Γ.ftype (ix n) = some ty) (e : st = ty.inputs.reverse ++ a)
    (hl : HTyL Γ (resolveL ix l) (ty.results.reverse ++ a) c) : HTyL Γ (resolveL ix (.call n :: l)) st c :=
  .cons (.basic ⟨ty, h, a, e, rfl⟩) hl
theorem ty_nil : HTyL Γ (resolveL ix []) a a := .nil
theorem ty_append {l' : List WI} {b} (h : HTyL Γ (resolveL ix l) a b) (h' : HTyL Γ (resolveL ix l') b c) : HTyL Γ (resolveL ix (l ++ l')) a c := by
  rw [resolveL_append]; exact h.append h'
theorem ty_load {op o t} (hm : 0 < Γ.mems) (h : op.ty = t) (hl : HTyL Γ (resolveL ix l) (t :: a) c) : HTyL Γ (resolveL ix (.ins (.load op o) :: l)) (.i32 :: a) c :=
  .cons (.basic ⟨hm, a, rfl, by rw [h]; rfl⟩) hl
theorem ty_store {op o t} (hm : 0 < Γ.mems) (h : op.ty = t) (hl : HTyL Γ (resolveL ix l) a c) : HTyL Γ (resolveL ix (.ins (.store op o) :: l)) (t :: .i32 :: a) c :=
  .cons (.basic ⟨hm, a, by rw [h]; rfl, rfl⟩) hl
end

section
variable {sigs : List FuncType}

/-- The context of a body of the library. -/
abbrev bodyCtx (sigs : List FuncType) (f : WatFunc) : Ctx := (libCtx (generateLib sigs)).body f.type f.locals

/-- The body of a library function has its type. -/
def BodyOk (sigs : List FuncType) (f : WatFunc) : Prop :=
  HTyL (bodyCtx sigs f) (resolveL (idIndex (generateLib sigs)) f.body) [] f.results.reverse

theorem ftype_lib {g : WatFunc} {n : String} (hg : g ∈ generateLib sigs) (hn : g.id = some n) :
    (libCtx (generateLib sigs)).ftype (idIndex (generateLib sigs) n) = some g.type := by
  simp only [libCtx, id_at hg hn, Option.map_some]

theorem callee {g : WatFunc} (n : String) (hg : g ∈ boilerplate) (hn : g.id = some n) :
    (libCtx (generateLib sigs)).ftype (idIndex (generateLib sigs) n) = some g.type := ftype_lib (boilerplate_mem hg) hn

theorem boilerplate_ok : ∀ f ∈ boilerplate, BodyOk sigs f := by
  have h1 := callee (sigs := sigs) (g := wGrowMemory) "grow_memory" (by simp [boilerplate]) rfl
  have h2 := callee (sigs := sigs) (g := wTotalUsed) "total_used_memory_in_bytes" (by simp [boilerplate]) rfl
  have h3 := callee (sigs := sigs) (g := wStackAllocate) "stack_allocate" (by simp [boilerplate]) rfl
  have h4 := callee (sigs := sigs) (g := wStackDeallocate) "stack_deallocate" (by simp [boilerplate]) rfl
  have h5 := callee (sigs := sigs) (g := wMemoryLoad) "wastrumentation_memory_load" (by simp [boilerplate]) rfl
  have h6 := callee (sigs := sigs) (g := wMemoryStore) "wastrumentation_memory_store" (by simp [boilerplate]) rfl
  have mem0 : 0 < (libCtx (generateLib sigs)).mems := Nat.one_pos
  intro f hf
  simp only [boilerplate, wLoads, wStores, List.cons_append, List.nil_append, List.mem_cons, List.not_mem_nil, or_false] at hf
  rcases hf with rfl | rfl | rfl | rfl | rfl | rfl | rfl | rfl | rfl | rfl | rfl | rfl | rfl | rfl | rfl | rfl | rfl | rfl | rfl | rfl <;> unfold BodyOk
  · refine ty_gget (t := .i32) rfl (.cons (.basic ⟨Nat.one_pos, [], rfl, rfl⟩) (.cons (.basic ⟨[.i32], rfl, rfl⟩) (ty_bin rfl (.cons (b := []) ?_ .nil))))
    exact HTyI.ifElse (t := ⟨[], []⟩) (r := []) (.cons (b := []) (.basic trivial) .nil)
      (ty_gget rfl (ty_gget rfl (ty_bin rfl (ty_gset rfl ty_nil))))
  · exact ty_gget rfl (ty_gget rfl (ty_bin rfl ty_nil))
  · refine ty_gget rfl (ty_lset rfl (ty_gget rfl (ty_lget rfl (ty_bin rfl (ty_lset rfl (.cons (b := []) ?_ (ty_lget rfl (ty_gset rfl (ty_lget rfl ty_nil)))))))))
    refine HTyI.loop (t := ⟨[], []⟩) (r := []) (ty_lget rfl (ty_call h2 rfl (ty_bin rfl (.cons (b := []) ?_ .nil))))
    exact HTyI.ifThen (t := ⟨[], []⟩) (r := []) rfl (ty_call (a := []) h1 rfl (.cons (b := []) (.basic ⟨[], rfl, [], rfl⟩) .nil))
  · exact ty_gget rfl (ty_lget rfl (ty_bin rfl (ty_gset rfl ty_nil)))
  · exact ty_lget rfl (ty_gget rfl (ty_bin rfl (ty_call (a := []) h3 rfl ty_nil)))
  · exact ty_lget rfl (ty_lget rfl (ty_gget rfl (ty_bin rfl (ty_call (a := []) h4 rfl ty_nil))))
  · exact ty_lget rfl (ty_gget rfl (ty_bin rfl (ty_call (a := []) h3 rfl ty_nil)))
  · exact ty_lget rfl (ty_lget rfl (ty_gget rfl (ty_bin rfl (ty_call (a := []) h4 rfl ty_nil))))
  · exact ty_lget rfl (ty_lget rfl (ty_gget rfl (ty_bin rfl (ty_bin rfl (ty_load mem0 rfl ty_nil)))))
  · exact ty_lget rfl (ty_lget rfl (ty_gget rfl (ty_bin rfl (ty_bin rfl (ty_lget rfl (ty_store mem0 rfl ty_nil))))))
  · exact ty_lget rfl (ty_lget rfl (ty_gget rfl (ty_bin rfl (ty_bin rfl (ty_load mem0 rfl ty_nil)))))
  · exact ty_lget rfl (ty_lget rfl (ty_gget rfl (ty_bin rfl (ty_bin rfl (ty_lget rfl (ty_store mem0 rfl ty_nil))))))
  · exact ty_lget rfl (ty_lget rfl (ty_call (a := []) h5 rfl (ty_un rfl ty_nil)))
  · exact ty_lget rfl (ty_lget rfl (ty_call (a := []) h5 rfl (ty_un rfl (ty_un rfl ty_nil))))
  · exact ty_lget rfl (ty_lget rfl (ty_call (a := []) h5 rfl ty_nil))
  · exact ty_lget rfl (ty_lget rfl (ty_call (a := []) h5 rfl (ty_un rfl ty_nil)))
  · exact ty_lget rfl (ty_lget rfl (ty_un rfl (ty_lget rfl (ty_call (a := []) h6 rfl ty_nil))))
  · exact ty_lget rfl (ty_lget rfl (ty_un rfl (ty_un rfl (ty_lget rfl (ty_call (a := []) h6 rfl ty_nil)))))
  · exact ty_lget rfl (ty_lget rfl (ty_lget rfl (ty_call (a := []) h6 rfl ty_nil)))
  · exact ty_lget rfl (ty_lget rfl (ty_un rfl (ty_lget rfl (ty_call (a := []) h6 rfl ty_nil))))

/-- Code that leaves the stack as it is, repeated. -/
theorem ty_flatten {Γ : Ctx} {ix : String → Nat} {ls : List (List WI)} {a : List ValType} (h : ∀ l ∈ ls, HTyL Γ (resolveL ix l) a a) :
    HTyL Γ (resolveL ix ls.flatten) a a := by
  induction ls with
  | nil => exact .nil
  | cons l ls ih =>
    rw [List.flatten_cons]
    exact ty_append (h l (by simp)) (ih fun l hl => h l (by simp [hl]))

theorem generic_ok (r n : Nat) : ∀ f ∈ genericFunctions r n, BodyOk sigs f := by
  have h3 := callee (sigs := sigs) (g := wAllocateValues) "stack_allocate_values" (by simp [boilerplate]) rfl
  have h4 := callee (sigs := sigs) (g := wDeallocateValues) "stack_deallocate_values" (by simp [boilerplate]) rfl
  have h5 := callee (sigs := sigs) (g := wMemoryLoad) "wastrumentation_memory_load" (by simp [boilerplate]) rfl
  have h6 := callee (sigs := sigs) (g := wMemoryStore) "wastrumentation_memory_store" (by simp [boilerplate]) rfl
  intro f hf
  simp only [genericFunctions, genericLoadStore, List.cons_append, List.mem_cons, List.mem_append, List.mem_map, List.append_assoc,
    List.not_mem_nil, or_false] at hf
  rcases hf with rfl | ⟨_, _, rfl⟩ | ⟨_, _, rfl⟩ | ⟨_, _, rfl⟩ | ⟨_, _, rfl⟩ | rfl <;> unfold BodyOk
  · unfold genericAllocate
    split
    · exact ty_i32c ty_nil
    · have hn : (List.replicate n ValType.i64 ++ [ValType.i32])[n]? = some .i32 := by simp
      refine ty_append (b := []) (ty_append (b := []) (ty_i32c (ty_call (a := []) h3 rfl (ty_lset hn ty_nil))) ?_) (ty_lget hn ty_nil)
      rw [List.flatMap_def]
      refine ty_flatten fun l hl => ?_
      obtain ⟨i, hi, rfl⟩ := List.mem_map.1 hl
      rw [List.mem_range] at hi
      have hi' : (List.replicate n ValType.i64 ++ [ValType.i32])[i]? = some .i64 := by
        rw [List.getElem?_append_left (by simpa using hi)]; simp [hi]
      exact ty_lget hn (ty_lget hi' (ty_i32c (ty_call (a := []) h6 rfl ty_nil)))
  · exact ty_lget rfl (ty_i32c (ty_call (a := []) h5 rfl ty_nil))
  · exact ty_lget rfl (ty_i32c (ty_call (a := []) h5 rfl ty_nil))
  · exact ty_lget rfl (ty_lget rfl (ty_i32c (ty_call (a := []) h6 rfl ty_nil)))
  · exact ty_lget rfl (ty_lget rfl (ty_i32c (ty_call (a := []) h6 rfl ty_nil)))
  · unfold genericFree
    split
    · exact ty_nil
    · exact ty_lget rfl (ty_i32c (ty_call (a := []) h4 rfl ty_nil))

theorem ty_toI64 {Γ : Ctx} {ix : String → Nat} {v : ValType} (hv : ∀ r, v ≠ .ref r) {a : List ValType} :
    HTyL Γ (resolveL ix (watToI64 v)) (v :: a) (.i64 :: a) := by
  cases v with
  | i32 => exact ty_un rfl ty_nil
  | f32 => exact ty_un rfl (ty_un rfl ty_nil)
  | i64 => exact ty_nil
  | f64 => exact ty_un rfl ty_nil
  | ref r => exact absurd rfl (hv r)

theorem ty_fromI64 {Γ : Ctx} {ix : String → Nat} {v : ValType} (hv : ∀ r, v ≠ .ref r) {a : List ValType} :
    HTyL Γ (resolveL ix (watFromI64 v)) (.i64 :: a) (v :: a) := by
  cases v with
  | i32 => exact ty_un rfl ty_nil
  | f32 => exact ty_un rfl (ty_un rfl ty_nil)
  | i64 => exact ty_nil
  | f64 => exact ty_un rfl ty_nil
  | ref r => exact absurd rfl (hv r)

/-- Pushing all parameters, converted. -/
theorem ty_pushes {Γ : Ctx} {ix : String → Nat} : ∀ (vs : List ValType) (k : Nat) (a : List ValType), (∀ v ∈ vs, ∀ r, v ≠ .ref r) →
    (∀ i (h : i < vs.length), Γ.locals[k + i]? = some vs[i]) →
    HTyL Γ (resolveL ix (vs.mapIdx fun i v => lget (k + i) :: watToI64 v).flatten) a (List.replicate vs.length .i64 ++ a)
  | [], _, _, _, _ => .nil
  | v :: vs, k, a, hv, hl => by
    rw [List.mapIdx_cons, List.flatten_cons]
    refine ty_append (ty_lget (hl 0 (by simp)) (ty_toI64 (hv v (by simp)))) ?_
    have := ty_pushes (ix := ix) vs (k + 1) (.i64 :: a) (fun w hw => hv w (by simp [hw])) fun i h => by
      have := hl (i + 1) (by simpa using h)
      simpa [Nat.add_assoc, Nat.add_comm 1 i] using this
    rw [List.length_cons, List.replicate_succ']
    simpa [Nat.add_assoc, Nat.add_comm 1] using this

theorem side_index {t : FuncType} (hr : t.RefFree) {v : ValType} (side : Side) (h : v ∈ t.side side) : ∀ r, v ≠ .ref r := by
  cases side
  · exact hr v (List.mem_append_right _ h)
  · exact hr v (List.mem_append_left _ h)

theorem special_ok {t : FuncType} (ht : t ∈ sigs) (hr : t.RefFree) : ∀ f ∈ specialFunctions t, BodyOk sigs f := by
  have h3 := callee (sigs := sigs) (g := wAllocateTypes) "stack_allocate_types" (by simp [boilerplate]) rfl
  have h4 := callee (sigs := sigs) (g := wDeallocateTypes) "stack_deallocate_types" (by simp [boilerplate]) rfl
  have h7 := callee (sigs := sigs) (g := wStoreType) "wastrumentation_stack_store_type" (by simp [boilerplate]) rfl
  have hl : ∀ side i, i < (t.side side).length → (libCtx (generateLib sigs)).ftype (idIndex (generateLib sigs)
      ("load_" ++ side.asStr ++ i.repr ++ "_" ++ countName t.results.length t.inputs.length)) = some ⟨[.i32], [.i64]⟩ :=
    fun side i hi => ftype_lib (generic_mem ht (genericLoad_mem side hi)) rfl
  have hs : ∀ side i, i < (t.side side).length → (libCtx (generateLib sigs)).ftype (idIndex (generateLib sigs)
      ("store_" ++ side.asStr ++ i.repr ++ "_" ++ countName t.results.length t.inputs.length)) = some ⟨[.i32, .i64], []⟩ :=
    fun side i hi => ftype_lib (generic_mem ht (genericStore_mem side hi)) rfl
  have load : ∀ side i (hi : i < (t.side side).length), BodyOk sigs (specialLoad t side i (t.side side)[i]) := fun side i hi =>
    ty_append (ty_lget rfl (ty_call (a := []) (hl side i hi) rfl ty_nil)) (ty_fromI64 (side_index hr side (List.getElem_mem _)))
  have store : ∀ side i (hi : i < (t.side side).length), BodyOk sigs (specialStore t side i (t.side side)[i]) := fun side i hi =>
    ty_append (ty_append (ty_lget rfl (ty_lget rfl ty_nil)) (ty_toI64 (side_index hr side (List.getElem_mem _)))) (ty_call (a := []) (hs side i hi) rfl ty_nil)
  intro f hf
  simp only [specialFunctions, List.cons_append, List.mem_cons, List.mem_append, List.append_assoc, List.not_mem_nil, or_false, false_or, List.mem_mapIdx] at hf
  rcases hf with rfl | ⟨i, hi, rfl⟩ | ⟨i, hi, rfl⟩ | ⟨i, hi, rfl⟩ | ⟨i, hi, rfl⟩ | rfl | hf | rfl
  · refine ty_append (b := List.replicate t.inputs.length .i64) ?_ ?_
    · have := ty_pushes (Γ := bodyCtx sigs (specialAllocate t)) (ix := idIndex (generateLib sigs)) t.inputs 0 [] (fun v hv => side_index hr .arg hv) (fun i h => by
        simp [bodyCtx, Ctx.body, specialAllocate, WatFunc.type])
      simpa using this
    · have hg : (genericAllocate t.results.length t.inputs.length).type = ⟨List.replicate t.inputs.length .i64, [.i32]⟩ := by
        unfold genericAllocate
        split
        · rename_i h0
          have : t.inputs.length = 0 := by omega
          rw [this]; rfl
        · rfl
      have hc := ftype_lib (n := "allocate_" ++ countName t.results.length t.inputs.length) (generic_mem ht genericAllocate_mem) (by unfold genericAllocate; split <;> rfl)
      rw [hg] at hc
      have := ty_call (Γ := bodyCtx sigs (specialAllocate t)) (l := []) (a := []) hc rfl ty_nil
      simp only [List.reverse_replicate, List.append_nil] at this
      exact this
  · exact load .arg i hi
  · exact load .ret i hi
  · exact store .arg i hi
  · exact store .ret i hi
  · refine ty_flatten fun l hl => ?_
    obtain ⟨i, hi, rfl⟩ := List.mem_mapIdx.1 hl
    refine ty_append (ty_append (ty_lget rfl (ty_lget (t := t.results[i]) ?_ ty_nil)) (ty_toI64 (side_index hr .ret (List.getElem_mem _)))) (ty_call (a := []) (hs .ret i hi) rfl ty_nil)
    simp [bodyCtx, Ctx.body, specialStoreRets, WatFunc.type]
  · simp only [specialTypes] at hf
    split at hf
    all_goals
      simp only [List.mem_cons, List.not_mem_nil, or_false] at hf
      rcases hf with rfl | rfl
    · refine ty_append (b := []) (ty_append (b := []) (ty_i32c (ty_call (a := []) h3 rfl (ty_lset rfl ty_nil))) ?_) (ty_lget rfl ty_nil)
      refine ty_append (b := []) (ty_flatten fun l hl => ?_) (ty_flatten fun l hl => ?_)
      all_goals
        obtain ⟨i, hi, rfl⟩ := List.mem_mapIdx.1 hl
        exact ty_lget rfl (ty_i32c (ty_i32c (ty_call (a := []) h7 rfl ty_nil)))
    · exact ty_lget rfl (ty_i32c (ty_call (a := []) h4 rfl ty_nil))
    · exact ty_i32c ty_nil
    · exact ty_nil
  · have hg : (genericFree t.results.length t.inputs.length).type = ⟨[.i32], []⟩ := by unfold genericFree; split <;> rfl
    have hc := ftype_lib (n := "free_values_" ++ countName t.results.length t.inputs.length) (generic_mem ht (g := genericFree t.results.length t.inputs.length) (by simp [genericFunctions])) (by unfold genericFree; split <;> rfl)
    rw [hg] at hc
    exact ty_lget rfl (ty_call (a := []) hc rfl ty_nil)

theorem typeIds_nodup (sigs : List FuncType) : (typeIds sigs).Nodup := by
  rw [typeIds, forNew_eq]
  refine flatMap_nodup (key := id) (fun _ => by simp) ?_ (firsts_nodup id sigs [])
  intro x y b hx hy
  simp only [List.mem_singleton] at hx hy
  subst hx
  have h : mangledName x = mangledName y := by
    have := congrArg String.toList hy
    exact String.toList_inj.1 (by simpa using this)
  have h' : exportName x .freeValues = exportName y .freeValues := by simp [exportName, h]
  exact (exportName_inj h').2

end

/-- **C75.** The library generated in WebAssembly text for a set of signatures is a valid module exactly if none of them has a
reference type. -/
theorem C75_library_is_valid_iff (sigs : List FuncType) : ValidText (typeIds sigs) (generateLib sigs) ↔ ∀ t ∈ sigs, t.RefFree := by
  constructor
  · intro h t ht
    refine Classical.byContradiction fun hr => ?_
    obtain ⟨side, i, r, hi⟩ := not_refFree hr
    obtain ⟨hlt, he⟩ := List.getElem?_eq_some_iff.1 hi
    have hm : specialLoad t side i (.ref r) ∈ specialFunctions t := by
      simp only [specialFunctions, List.cons_append, List.mem_cons, List.mem_append, List.append_assoc, List.mem_mapIdx]
      cases side
      · exact .inr (.inr (.inl ⟨i, hlt, by rw [← he]; rfl⟩))
      · exact .inr (.inl ⟨i, hlt, by rw [← he]; rfl⟩)
    have hb := h.bodies _ (special_mem ht hm)
    change HTyL _ [.basic _, .basic _, .basic (.unary .i32WrapI64)] [] [.ref r] at hb
    cases hb with | cons _ hb =>
    cases hb with | cons _ hb =>
    cases hb with | cons hb hn =>
    cases hn
    cases hb with | basic hb =>
    obtain ⟨x, _, e⟩ := hb
    cases e
  · intro hr
    refine ⟨typeIds_nodup sigs, generateLib_ids_nodup sigs, generateLib_exports_nodup sigs, fun f hf => ?_⟩
    simp only [generateLib, forNew_eq, List.mem_append, List.mem_flatMap] at hf
    rcases hf with (hf | ⟨t, ht, hf⟩) | ⟨t, ht, hf⟩
    · exact boilerplate_ok f hf
    · exact generic_ok _ _ f hf
    · have ht' := (firsts_sub id sigs [] t ht).1
      exact special_ok ht' (hr t ht') f hf

/-- **C75.** The WebAssembly library generated for the signatures that instrumentation reports is valid. -/
theorem C75_reported_library_is_valid {C iface ts m r} (hs : SmallModule m) (h : Instruments C iface ts m r) (sigs : List FuncType)
    (hl : r.librarySignatures = some sigs) : ValidText (typeIds sigs) (generateLib sigs) :=
  (C75_library_is_valid_iff sigs).2 (library_refFree hs h hl)

/-- Two signatures; and one with a function reference. -/
example : ValidText (typeIds [⟨[.i32, .f64], [.f32]⟩, ⟨[], []⟩]) (generateLib [⟨[.i32, .f64], [.f32]⟩, ⟨[], []⟩]) :=
  (C75_library_is_valid_iff _).2 (by simp only [FuncType.RefFree, List.mem_cons, List.not_mem_nil, or_false, List.mem_append]; rintro _ (rfl | rfl) v hv r rfl <;> simp at hv)
example : ¬ ValidText (typeIds [⟨[.ref .funcRef], []⟩]) (generateLib [⟨[.ref .funcRef], []⟩]) := fun h =>
  absurd ((C75_library_is_valid_iff _).1 h ⟨[.ref .funcRef], []⟩ (by simp)) (by simp [FuncType.RefFree])

/-- The rules reject something: a library in which the type of a stored value is wrong. -/
example : ¬ ValidText [] [⟨none, ["f"], [.f32], [.i32], [], [lget 0]⟩] := by
  intro h
  have hb := h.bodies _ (List.mem_singleton.2 rfl)
  change HTyL _ [.basic (.loc .get 0)] [] [.i32] at hb
  cases hb with | cons hb hn =>
  cases hn
  cases hb with | basic hb =>
  obtain ⟨t, e, x, _, e'⟩ := hb
  cases e
  cases e'

end Wastrum
