import Verif.TypingLemmas
import Verif.MemoryThms
/-!
# The instrumented module is valid (C15)
-/

set_option linter.unusedSimpArgs false
set_option linter.unusedVariables false

namespace Wastrum

theorem ValidBody.intro {Γ : Ctx} {ty : FuncType} {c : Code} {b : List HI} (hb : c.body = lower b)
    (h : HTyL (Γ.body ty c.locals) b [] ty.results.reverse) : ValidBody Γ ty c := ⟨b, by rw [hb, C01_raise_lower], h⟩

theorem ValidBody.mono {Γ Γ' : Ctx} (hl : Γ.Le Γ') {ty : FuncType} {c : Code} (h : ValidBody Γ ty c) : ValidBody Γ' ty c := by
  obtain ⟨b, h1, h2⟩ := h
  exact ⟨b, h1, h2.mono (hl.body _ _)⟩

theorem ValidFunc.mono {Γ Γ' : Ctx} (hl : Γ.Le Γ') {f : Func} (h : ValidFunc Γ f) : ValidFunc Γ' f := fun c hc => (h c hc).mono hl

theorem ValidElement.mono {Γ Γ' : Ctx} (hl : Γ.Le Γ') {e : Element} (h : ValidElement Γ e) : ValidElement Γ' e := by
  refine ⟨fun is his f hf => ?_, fun tbl off ho => hl.tables _ _ (h.2 tbl off ho)⟩
  obtain ⟨ty, hty⟩ := h.1 is his f hf
  exact ⟨ty, hl.ftype _ _ hty⟩

/-! ## Straight-line code -/

theorem lowerL_basics (bs : List Basic) : HI.lowerL (bs.map HI.basic) = bs.map Basic.toL := by
  induction bs with
  | nil => rfl
  | cons b bs ih => simp [HI.lowerL, HI.lower, ih]

theorem ValidBody.straight {Γ : Ctx} {ty : FuncType} {c : Code} {bs : List Basic} (hb : c.body = bs.map Basic.toL ++ [.fin])
    (h : HTyL (Γ.body ty c.locals) (bs.map HI.basic) [] ty.results.reverse) : ValidBody Γ ty c :=
  .intro (b := bs.map HI.basic) (by rw [hb, lower, lowerL_basics]) h

/-- Pushing consecutive locals. -/
theorem HTyL.gets {Γ : Ctx} : ∀ (ts pre post : List ValType) (a : List ValType), Γ.locals = pre ++ ts ++ post →
    HTyL Γ ((List.range' pre.length ts.length).map fun i => HI.basic (.loc .get i)) a (ts.reverse ++ a) := by
  intro ts
  induction ts with
  | nil => intro pre post a _; exact .nil
  | cons t ts ih =>
    intro pre post a h
    have := ih (pre ++ [t]) post (t :: a) (by simpa using h)
    simp only [List.length_append, List.length_cons, List.length_nil, Nat.zero_add] at this
    simp only [List.length_cons, List.range'_succ, List.map_cons, List.reverse_cons, List.append_assoc, List.singleton_append]
    refine .cons (.basic ⟨t, ?_, a, rfl, rfl⟩) this
    rw [h]; simp

/-- Loading values through per-slot functions. -/
theorem HTyL.loads {Γ : Ctx} {p : Nat} (hp : Γ.locals[p]? = some .i32) : ∀ (ls : List Nat) (ts : List ValType) (a : List ValType),
    ls.length = ts.length → (∀ (i : Nat) v k, ts[i]? = some v → ls[i]? = some k → Γ.ftype k = some ⟨[.i32], [v]⟩) →
    HTyL Γ ((ls.flatMap fun l => [Basic.loc .get p, .call l]).map HI.basic) a (ts.reverse ++ a) := by
  intro ls
  induction ls with
  | nil =>
    intro ts a hl _
    obtain rfl : ts = [] := by cases ts with
      | nil => rfl
      | cons t ts => simp at hl
    exact .nil
  | cons l ls ih =>
    intro ts a hl hk
    cases ts with
    | nil => simp at hl
    | cons t ts =>
      simp only [List.flatMap_cons, List.cons_append, List.nil_append, List.map_cons, List.reverse_cons, List.append_assoc,
        List.singleton_append]
      refine .cons (.basic ⟨_, hp, a, rfl, rfl⟩) (.cons (.basic ⟨_, hk 0 t l rfl rfl, a, rfl, rfl⟩) ?_)
      exact ih ts (t :: a) (by simpa using hl) fun i v k h1 h2 => hk (i + 1) v k (by simpa using h1) (by simpa using h2)

/-! ## The functions the tool adds -/

theorem valid_baseFunctions {Γ : Ctx} {noMem : Bool} (hm : noMem = false → 0 < Γ.mems) : ∀ f ∈ memoryFunctions noMem, ValidFunc Γ f := by
  intro f hf c hc
  simp only [memoryFunctions, List.mem_append, List.mem_map, List.mem_cons, List.not_mem_nil, or_false] at hf
  rcases hf with (⟨e, he, rfl⟩ | ⟨e, he, rfl⟩) | rfl | rfl
  · simp only [FuncCode.present.injEq] at hc; subst hc
    have ht : e.2.2 = e.2.1.ty ∧ (zeroVal e.2.2).type = e.2.2 := by
      have : ∀ e ∈ loadExports, e.2.2 = e.2.1.ty ∧ (zeroVal e.2.2).type = e.2.2 := by decide +kernel
      exact this e he
    cases noMem with
    | true =>
      refine .straight (bs := [.const (zeroVal e.2.2)]) rfl (.ofBasic ⟨[], rfl, ?_⟩)
      rw [ht.2]; rfl
    | false =>
      refine .straight (bs := [.loc .get 0, .loc .get 1, .binary .i32Add, .load e.2.1 (Memarg.default e.2.1.alignExp)]) rfl ?_
      refine .cons (.basic ⟨.i32, rfl, _, rfl, rfl⟩) (.cons (.basic ⟨.i32, rfl, _, rfl, rfl⟩) (.cons (.basic ⟨[], rfl, rfl⟩)
        (.ofBasic ⟨hm rfl, [], rfl, ?_⟩)))
      rw [← ht.1]; rfl
  · simp only [FuncCode.present.injEq] at hc; subst hc
    have ht : e.2.2 = e.2.1.ty := by
      have : ∀ e ∈ storeExports, e.2.2 = e.2.1.ty := by decide +kernel
      exact this e he
    cases noMem with
    | true => exact .straight (bs := []) rfl .nil
    | false =>
      refine .straight (bs := [.loc .get 0, .loc .get 2, .binary .i32Add, .loc .get 1, .store e.2.1 (Memarg.default e.2.1.alignExp)]) rfl ?_
      refine .cons (.basic ⟨.i32, rfl, _, rfl, rfl⟩) (.cons (.basic ⟨.i32, rfl, _, rfl, rfl⟩) (.cons (.basic ⟨[], rfl, rfl⟩)
        (.cons (.basic ⟨e.2.2, rfl, _, rfl, rfl⟩) (.ofBasic ⟨hm rfl, [], ?_, rfl⟩))))
      rw [← ht]; rfl
  · simp only [FuncCode.present.injEq] at hc; subst hc
    cases noMem with
    | true => exact .straight (bs := [.const (.i32 (-1))]) rfl (.ofBasic ⟨[], rfl, rfl⟩)
    | false =>
      refine .straight (bs := [.loc .get 0, .memoryGrow 0]) rfl ?_
      exact .cons (.basic ⟨.i32, rfl, _, rfl, rfl⟩) (.ofBasic ⟨hm rfl, [], rfl, rfl⟩)
  · simp only [FuncCode.present.injEq] at hc; subst hc
    cases noMem with
    | true => exact .straight (bs := [.const (.i32 0)]) rfl (.ofBasic ⟨[], rfl, rfl⟩)
    | false => exact .straight (bs := [.memorySize 0]) rfl (.ofBasic ⟨hm rfl, [], rfl, rfl⟩)

theorem type_helperNest (n : Nat) (ls : List Nat) (Γ : Ctx) (hloc : Γ.locals[0]? = some .i32) (hret : Γ.ret = [.i32, .i32])
    (hlab : ∀ l ≤ n, ls.length < l → Γ.labels[l - ls.length - 1]? = some []) : HTyL Γ (helperNest n ls) [] [] := by
  generalize hk : ls.length = k
  induction k generalizing ls Γ with
  | zero =>
    obtain rfl := List.length_eq_zero_iff.1 hk
    simp only [helperNest, List.foldl_nil]
    refine .one (.block (t := ⟨[], []⟩) (r := []) (.cons (.basic ⟨.i32, hloc, [], rfl, rfl⟩) (.ofBasic ?_)))
    intro l hl
    refine ⟨[], ?_, [], rfl⟩
    have hl : l ≤ n := by
      simp only [List.mem_cons, List.mem_range] at hl
      omega
    cases l with
    | zero => rfl
    | succ l => simpa [Ctx.label] using hlab (l + 1) hl (by simp)
  | succ k ih =>
    obtain ⟨ls, l, rfl⟩ : ∃ ls' l, ls = ls' ++ [l] := by
      rcases List.eq_nil_or_concat ls with rfl | ⟨ls', l, h⟩
      · simp at hk
      · exact ⟨ls', l, by simpa using h⟩
    have hk' : ls.length = k := by simpa using hk
    have : helperNest n (ls ++ [l]) =
        [.block ⟨[], []⟩ (helperNest n ls ++ [.basic (.loc .get 0), .basic (cI32 l), .basic .ret])] := by
      simp [helperNest]
    rw [this]
    refine .one (.block (t := ⟨[], []⟩) (r := []) (HTyL.append (ih ls (Γ.label []) hloc hret ?_ hk') ?_))
    · intro l' h1 h2
      by_cases he : l' = ls.length + 1
      · subst he
        rw [show ls.length + 1 - ls.length - 1 = 0 by omega]
        rfl
      · have := hlab l' h1 (by simp; omega)
        simp only [List.length_append, List.length_cons, List.length_nil, Nat.zero_add] at this
        obtain ⟨q, rfl⟩ : ∃ q, l' = ls.length + 1 + (q + 1) := ⟨l' - ls.length - 2, by omega⟩
        rw [show ls.length + 1 + (q + 1) - (ls.length + 1) - 1 = q by omega] at this
        rw [show ls.length + 1 + (q + 1) - ls.length - 1 = q + 1 by omega]
        simpa [Ctx.label] using this
    · refine .cons (.basic ⟨.i32, hloc, [], rfl, rfl⟩) (.cons (.basic ⟨_, rfl, rfl⟩) (.ofBasic ?_))
      exact ⟨[], by simp [Ctx.label, hret, cI32, Val.type]⟩

theorem valid_helper (Γ : Ctx) (p : List Nat × Nat) : ValidFunc Γ (helperFunc p) := by
  intro c hc
  simp only [helperFunc, FuncCode.present.injEq] at hc; subst hc
  obtain ⟨ls, d⟩ := p
  refine .intro (lower_helperHI ls d).symm ?_
  rcases ls with _ | ⟨l, _ | ⟨l', ls⟩⟩
  · exact .cons (.basic ⟨.i32, rfl, _, rfl, rfl⟩) (.ofBasic ⟨_, rfl, rfl⟩)
  · refine .cons (.basic ⟨.i32, rfl, _, rfl, rfl⟩) (.cons (.basic ⟨.i32, rfl, _, rfl, rfl⟩) (.cons (.basic ⟨_, rfl, rfl⟩)
      (.one (.ifElse (t := ⟨[], [.i32]⟩) (r := [.i32]) (.ofBasic ⟨_, rfl, rfl⟩) (.ofBasic ⟨_, rfl, rfl⟩)))))
  · refine HTyL.append (type_helperNest _ _ _ rfl rfl ?_) (.cons (.basic ⟨.i32, rfl, _, rfl, rfl⟩) (.ofBasic ⟨_, rfl, rfl⟩))
    intro l h1 h2
    exact absurd h2 (by omega)

theorem flatMap_toL (p : Nat) (ls : List Nat) : (ls.flatMap fun l => [Basic.loc .get p, .call l]).map Basic.toL =
    ls.flatMap fun l => [LInstr.loc .get p, .call l] := by
  induction ls with
  | nil => rfl
  | cons l ls ih => simp [ih, Basic.toL]

/-- Every linked stack function has its type. -/
theorem Linked.ftype {Γ : Ctx} {lo : Nat} {fs : List Func} (hΓ : ∀ (k : Nat) f, fs[k]? = some f → Γ.ftype k = some f.type)
    {k : Nat} {ty : FuncType} {name : String} (h : At lo fs k (stackImport ty name)) : Γ.ftype k = some ty := hΓ k _ h.2

theorem valid_trampoline {Γ : Ctx} {lo : Nat} {fs : List Func} (hΓ : ∀ (k : Nat) f, fs[k]? = some f → Γ.ftype k = some f.type)
    {f : Func} {h : StackHooks} (hl : Linked lo fs f.type h) {ga j i : Nat}
    (hga : Γ.ftype ga = some ⟨[.i32, .i32, .i32, .i32, .i32, .i32, .i32], []⟩) : ValidFunc Γ (trampolineFunc f h ga j i) := by
  intro c hc
  simp only [trampolineFunc, FuncCode.present.injEq] at hc; subst hc
  generalize BitVec.ofNat 32 j = tj
  generalize BitVec.ofNat 32 i = ti
  generalize BitVec.ofNat 32 f.type.inputs.length = ac
  generalize BitVec.ofNat 32 f.type.results.length = rc
  generalize codePresent f = cp
  let n := f.type.inputs.length
  refine .straight (bs := (List.range n).map (Basic.loc .get) ++
    [.call h.allocateValues, .loc .set n, .call h.allocateTypes, .loc .set (n + 1),
     .const (.i32 tj), .const (.i32 ti), .const (.i32 ac), .const (.i32 rc),
     .loc .get n, .loc .get (n + 1), .const (.i32 cp), .call ga] ++
    (h.retLoad.flatMap fun l => [.loc .get n, .call l]) ++
    [.loc .get n, .call h.freeValues, .loc .get (n + 1), .call h.freeTypes]) ?_ ?_
  · simp only [applyTrampoline, List.map_append, List.map_map, flatMap_toL, List.map_cons, List.map_nil, List.append_assoc, Basic.toL]
    rfl
  · dsimp only [trampolineFunc]
    generalize hG : Γ.body f.type [ValType.i32, ValType.i32] = G
    have hf : ∀ k ty, Γ.ftype k = some ty → G.ftype k = some ty := by intro k ty hk; rw [← hG]; exact hk
    have hloc : G.locals = f.type.inputs ++ [.i32, .i32] := by rw [← hG]; rfl
    have l0 : G.locals[n]? = some .i32 := by rw [hloc]; simp [n]
    have l1 : G.locals[n + 1]? = some .i32 := by rw [hloc]; simp [n]
    simp only [List.map_append]
    refine HTyL.append (HTyL.append (HTyL.append (b := f.type.inputs.reverse) ?_ (c := []) ?_) (c := f.type.results.reverse) ?_) ?_
    · have := HTyL.gets (Γ := G) f.type.inputs [] [.i32, .i32] [] (by simpa using hloc)
      simp only [List.length_nil, ← List.range_eq_range', List.append_nil] at this
      simpa [Function.comp_def] using this
    · refine .cons (.basic ⟨_, hf _ _ (Linked.ftype hΓ hl.allocateValues), [], by simp, rfl⟩)
        (.cons (.basic ⟨_, l0, [], rfl, rfl⟩)
        (.cons (.basic ⟨_, hf _ _ (Linked.ftype hΓ hl.allocateTypes), [], rfl, rfl⟩)
        (.cons (.basic ⟨_, l1, [], rfl, rfl⟩)
        (.cons (.basic ⟨_, rfl, rfl⟩) (.cons (.basic ⟨_, rfl, rfl⟩) (.cons (.basic ⟨_, rfl, rfl⟩) (.cons (.basic ⟨_, rfl, rfl⟩)
        (.cons (.basic ⟨_, l0, _, rfl, rfl⟩) (.cons (.basic ⟨_, l1, _, rfl, rfl⟩) (.cons (.basic ⟨_, rfl, rfl⟩)
        (.ofBasic ⟨_, hf _ _ hga, [], rfl, rfl⟩)))))))))))
    · have := HTyL.loads (Γ := G) l0 h.retLoad f.type.results [] hl.retLoadLen fun i v k h1 h2 =>
        hf _ _ (Linked.ftype hΓ (hl.retLoad i v k h1 h2))
      simpa using this
    · refine .cons (.basic ⟨_, l0, _, rfl, rfl⟩) (.cons (.basic ⟨_, hf _ _ (Linked.ftype hΓ hl.freeValues), _, rfl, rfl⟩)
        (.cons (.basic ⟨_, l1, _, rfl, rfl⟩) (.ofBasic ⟨_, hf _ _ (Linked.ftype hΓ hl.freeTypes), _, rfl, rfl⟩)))

theorem valid_applyFunc {Γ : Ctx} {lo : Nat} {fs : List Func} (hΓ : ∀ (k : Nat) f, fs[k]? = some f → Γ.ftype k = some f.type)
    {t : FuncType} {h : StackHooks} (hl : Linked lo fs t h) {un : Nat} (hun : Γ.ftype un = some t) : ValidFunc Γ (applyFunc h un) := by
  intro c hc
  simp only [applyFunc, FuncCode.present.injEq] at hc; subst hc
  refine .straight (bs := .loc .get 0 :: (h.argLoad.flatMap fun l => [.loc .get 0, .call l]) ++ [.call un, .call h.retStoreAll]) ?_ ?_
  · simp [baseApplyBody, flatMap_toL, Basic.toL]
  · dsimp only [applyFunc]
    generalize hG : Γ.body ⟨[.i32], []⟩ [ValType.i32] = G
    have hf : ∀ k ty, Γ.ftype k = some ty → G.ftype k = some ty := by intro k ty hk; rw [← hG]; exact hk
    have l0 : G.locals[0]? = some .i32 := by rw [← hG]; rfl
    simp only [List.map_append, List.map_cons, List.cons_append]
    refine .cons (.basic ⟨_, l0, [], rfl, rfl⟩) (HTyL.append (HTyL.loads (Γ := G) l0 h.argLoad t.inputs _ hl.argLoadLen fun i v k h1 h2 =>
        hf _ _ (Linked.ftype hΓ (hl.argLoad i v k h1 h2))) ?_)
    refine .cons (.basic ⟨t, hf _ _ hun, [.i32], by simp, rfl⟩) (.ofBasic ⟨_, hf _ _ (Linked.ftype hΓ hl.retStoreAll), [], by simp, rfl⟩)

theorem valid_callBase {Γ : Ctx} {cb : WasmImport} (ha : cb.args = [.i32, .i32]) (hr : cb.results = []) {tbl : Nat}
    (ht : Γ.tables[tbl]? = some .funcRef) : ValidFunc Γ (callBaseFunc cb tbl) := by
  intro c hc
  simp only [callBaseFunc, FuncCode.present.injEq] at hc; subst hc
  refine .straight (bs := [.loc .get 1, .loc .get 0, .callIndirect ⟨[.i32], []⟩ tbl]) rfl ?_
  dsimp only [callBaseFunc]
  rw [ha, hr]
  exact .cons (.basic ⟨.i32, rfl, _, rfl, rfl⟩) (.cons (.basic ⟨.i32, rfl, _, rfl, rfl⟩) (.ofBasic ⟨ht, [], rfl, rfl⟩))

/-! ## The whole module -/

/-- The names the tool itself exports from the instrumented module. -/
def Interface.toolExports (iface : Interface) : List String :=
  (match iface.generic with
    | none => []
    | some p => [p.2.name]) ++
  loadExports.map (·.1) ++ storeExports.map (·.1) ++ ["instrumented_memory_grow", "instrumented_memory_size"]

/-- The functions involved in intercepting applications have the signatures the tool documents. -/
def Interface.StandardApply (iface : Interface) : Prop := ∀ ge cb, iface.generic = some (ge, cb) →
  ge.args = [.i32, .i32, .i32, .i32, .i32, .i32, .i32] ∧ ge.results = [] ∧ cb.args = [.i32, .i32] ∧ cb.results = [] ∧
  cb.name ∉ loadExports.map (·.1) ++ storeExports.map (·.1) ++ ["instrumented_memory_grow", "instrumented_memory_size"]

theorem BodiesDesc.cases {C iface targets m fs base} (hd : BodiesDesc C iface targets m fs base) {k : Nat} {f : Func} (hf : fs[k]? = some f) :
    (∃ g, m.functions[k]? = some g ∧ f = if k ∈ targets then
      g.withBody (lowerTyped (expandL (hookSel iface m.functions.length) (base k) (bodyOf C m k))) else g) ∨
    (m.functions.length ≤ k ∧ ∃ e, f = hookImport e) ∨ (m.functions.length ≤ k ∧ ∃ p, f = helperFunc p) := by
  by_cases hk : k < m.functions.length
  · left
    obtain ⟨g, hg⟩ : ∃ g, m.functions[k]? = some g := ⟨_, List.getElem?_eq_getElem hk⟩
    have h1 := hd.own k hk
    rw [hg, hf, Option.map_some] at h1
    exact ⟨g, hg, Option.some.inj h1⟩
  · right
    have h1 := drop_get (j := k - m.functions.length) hd.added
    rw [show m.functions.length + (k - m.functions.length) = k by omega, hf] at h1
    have h2 := List.mem_of_getElem? h1.symm
    rcases List.mem_append.1 h2 with h2 | h2
    · left
      obtain ⟨t, _, ht⟩ := List.mem_filterMap.1 h2
      obtain ⟨e, _, rfl⟩ := Option.map_eq_some_iff.1 ht
      exact ⟨by omega, e, rfl⟩
    · right
      obtain ⟨i, _, hi⟩ := List.mem_flatMap.1 h2
      exact ⟨by omega, helpersFor_present hi⟩

theorem bodyOf_typed_valid {C iface targets m fs base} (hd : BodiesDesc C iface targets m fs base) (hst : iface.Standard) {Γ : Ctx}
    (hle : m.ctx.Le Γ) (hΓ : ∀ (k : Nat) f, m.functions.length ≤ k → fs[k]? = some f → Γ.ftype k = some f.type)
    (hv : ∀ f ∈ m.functions, ValidFunc m.ctx f)
    (hB : ∀ i ∈ targets, ∀ f, m.functions[i]? = some f → WellAnnotated m f (bodyOf C m i)) : ∀ f ∈ fs, ValidFunc Γ f := by
  intro f hf
  obtain ⟨k, hk⟩ := List.getElem?_of_mem hf
  rcases hd.cases hk with ⟨g, hg, rfl⟩ | ⟨_, e, rfl⟩ | ⟨_, p, rfl⟩
  · by_cases hkt : k ∈ targets
    · simp only [hkt, if_true]
      intro c hc
      cases hgc : g.code with
      | imported ns nm => simp [Func.withBody, hgc] at hc
      | present c0 =>
        simp only [Func.withBody, hgc, FuncCode.present.injEq] at hc
        subst hc
        have hty := hB k hkt g hg c0 hgc
        have he : lowerTyped (expandL (hookSel iface m.functions.length) (base k) (bodyOf C m k)) =
            lower (TI.eraseL (expandL (hookSel iface m.functions.length) (base k) (bodyOf C m k))) := by
          simp [lowerTyped, lower, TI.lower_erase.2]
        rw [withBody_type]
        refine .intro he ?_
        have hle' := hle.body g.type c0.locals
        refine (expand_typed _).2 _ (bodyOf_pristine C m k) _ ?_ _ _ ?_ _ ?_
        · intro t i hi
          obtain ⟨e, he, _⟩ := hookSel_eq hi
          obtain ⟨i', h1, h2, h3⟩ := hd.hook he
          rw [hi] at h1; cases h1
          have := hΓ _ _ h2 h3
          obtain ⟨h4, h5⟩ := hst t e he
          simpa [hookImport, h4, h5, Ctx.body] using this
        · exact TTyL.mono hle' hty
        · intro hbt j hj
          obtain ⟨h2, h3⟩ := hd.helpers k hkt
          obtain ⟨p, hp⟩ : ∃ p, (TI.tablesL (bodyOf C m k))[j]? = some p := ⟨_, List.getElem?_eq_getElem hj⟩
          have := hΓ _ _ (by omega) (h3 j (helperFunc p) (by
            simp only [helpersFor]
            split
            · rename_i he; exact absurd he hbt
            · rw [List.getElem?_map, hp]; rfl))
          exact this
    · simp only [hkt, if_false]
      exact (hv g (List.mem_of_getElem? hg)).mono hle
  · intro c hc; simp [hookImport] at hc
  · exact valid_helper Γ p

/-! ### Exports -/

theorem flatMap_exports (fs ms : List Func) (hl : ms.length ≤ fs.length)
    (h1 : ∀ (k : Nat) f, ms[k]? = some f → ∃ f', fs[k]? = some f' ∧ f'.exports = f.exports)
    (h2 : ∀ (k : Nat) f, ms.length ≤ k → fs[k]? = some f → f.exports = []) :
    fs.flatMap (·.exports) = ms.flatMap (·.exports) := by
  have e1 : (fs.take ms.length).map (·.exports) = ms.map (·.exports) := by
    apply List.ext_getElem?
    intro i
    rw [List.getElem?_map, List.getElem?_map]
    by_cases hi : i < ms.length
    · obtain ⟨f', h3, h4⟩ := h1 i _ (List.getElem?_eq_getElem hi)
      rw [List.getElem?_take_of_lt hi, h3, List.getElem?_eq_getElem hi]
      simp [h4]
    · rw [List.getElem?_eq_none (by simp; omega), List.getElem?_eq_none (by omega)]
  have e2 : (fs.drop ms.length).flatMap (·.exports) = [] := by
    rw [List.flatMap_eq_nil_iff]
    intro f hf
    obtain ⟨i, hi⟩ := List.getElem?_of_mem hf
    rw [List.getElem?_drop] at hi
    exact h2 _ f (by omega) hi
  conv => lhs; rw [← List.take_append_drop ms.length fs]
  rw [List.flatMap_append, e2, List.append_nil, List.flatMap_def, List.flatMap_def, e1]

theorem exports_memoryFunctions (b : Bool) : (memoryFunctions b).flatMap (·.exports) =
    loadExports.map (·.1) ++ storeExports.map (·.1) ++ ["instrumented_memory_grow", "instrumented_memory_size"] := by
  simp [memoryFunctions, List.flatMap_append, List.flatMap_map, List.flatMap_cons, List.flatMap_nil, ← List.map_eq_flatMap]

theorem BodiesDesc.exports {C iface targets m fs base} (hd : BodiesDesc C iface targets m fs base) :
    fs.flatMap (·.exports) = m.functions.flatMap (·.exports) := by
  refine flatMap_exports fs m.functions (by have := hd.length; omega) ?_ ?_
  · intro k f hf
    have := hd.own k (List.getElem?_eq_some_iff.1 hf).1
    rw [hf] at this
    refine ⟨_, this, ?_⟩
    dsimp only
    split
    · exact withBody_exports _ _
    · rfl
  · intro k f hk hf
    rcases hd.cases hf with ⟨g, hg, _⟩ | ⟨_, e, rfl⟩ | ⟨_, p, rfl⟩
    · have := (List.getElem?_eq_some_iff.1 hg).1; omega
    · rfl
    · rfl

theorem ApplyDesc.exports {order ga cb m r sigs hooks copy} (h : ApplyDesc order ga cb m r sigs hooks copy)
    (ho : ∀ i ∈ order, i < m.functions.length) :
    r.functions.flatMap (·.exports) = m.functions.flatMap (·.exports) ++ [cb.name] := by
  have hlen := h.length
  have hge := h.copy_ge
  have e : r.functions = r.functions.take (copy + 2 * order.length) ++ [callBaseFunc cb m.tables.length] := by
    conv => lhs; rw [← List.take_append_drop (copy + 2 * order.length) r.functions]
    congr 1
    apply List.ext_getElem?
    intro i
    rw [List.getElem?_drop]
    cases i with
    | zero => rw [Nat.add_zero, h.callBase]; rfl
    | succ i => rw [List.getElem?_eq_none (by omega), List.getElem?_eq_none (by simp)]
  rw [e, List.flatMap_append]
  congr 1
  refine flatMap_exports _ _ (by rw [List.length_take]; omega) ?_ ?_
  · intro k f hf
    have hk := (List.getElem?_eq_some_iff.1 hf).1
    rw [List.getElem?_take_of_lt (by omega)]
    by_cases hko : k ∈ order
    · obtain ⟨j, hj⟩ := List.getElem?_of_mem hko
      obtain ⟨_, ht, _⟩ := h.target j k f hj hf
      exact ⟨_, ht, rfl⟩
    · exact ⟨f, h.untouched k f hko hf, rfl⟩
  · intro k f hk hf
    have hlt : k < copy + 2 * order.length := by
      have := (List.getElem?_eq_some_iff.1 hf).1
      rw [List.length_take] at this; omega
    rw [List.getElem?_take_of_lt hlt] at hf
    rcases h.cases ho hf with q | q | q | q | q | q | q
    · omega
    · obtain ⟨j, g, hj, _⟩ := q
      have := ho k (List.mem_of_getElem? hj)
      omega
    · rw [q.2]; rfl
    · obtain ⟨_, ty, nm, rfl, _⟩ := q; rfl
    · obtain ⟨j, i, g, _, _, _, rfl⟩ := q; rfl
    · obtain ⟨j, i, g, _, _, _, rfl⟩ := q; rfl
    · omega

/-- The names exported by the instrumented module: those of the program, then the tool's. -/
theorem instrumented_exports {C iface ts m r} (hs : SmallModule m) (h : Instruments C iface ts m r) :
    r.module.functions.flatMap (·.exports) = m.functions.flatMap (·.exports) ++ iface.toolExports := by
  obtain ⟨ord, ord', ho, ho', h⟩ := h
  obtain ⟨_, _, fs, base, hd, hn, hg⟩ := instrument_desc ho ho' hs h
  cases hgen : iface.generic with
  | none =>
    rw [(hn hgen).2]
    simp only [List.flatMap_append, hd.exports, exports_memoryFunctions, Interface.toolExports, hgen, List.nil_append]
  | some p =>
    obtain ⟨m2, sigs, hooks, copy, ha, _, e⟩ := hg p.1 p.2 hgen
    have hol : ∀ i ∈ ord' (applyTargets m ts), i < fs.length := by
      intro i hi
      obtain ⟨g, hg, _⟩ := mem_applyTargets.1 ((ho' _).mem_iff.1 hi)
      have := (List.getElem?_eq_some_iff.1 hg).1
      have := hd.length
      omega
    rw [e]
    simp only [List.flatMap_append, ha.exports hol, hd.exports, exports_memoryFunctions, Interface.toolExports, hgen,
      List.append_assoc]

/-! ### C15 -/

theorem ctx_le {C iface ts m r} (hs : SmallModule m) (h : Instruments C iface ts m r) : m.ctx.Le r.module.ctx := by
  obtain ⟨h1, ⟨tb, h2⟩, ⟨el, h3⟩, h4, h5, h6, h7⟩ := C43_indices_stay_valid hs h
  refine ⟨?_, ?_, ?_, ?_, ?_, ?_, rfl, rfl, rfl⟩
  · intro f ty hf
    simp only [Module.ctx, Option.map_eq_some_iff] at hf ⊢
    obtain ⟨g, hg, rfl⟩ := hf
    obtain ⟨g', hg', ht, _⟩ := h1 f g hg
    exact ⟨g', hg', ht⟩
  · intro i r' hi
    simp only [Module.ctx, h2, List.map_append] at hi ⊢
    rw [List.getElem?_append_left (List.getElem?_eq_some_iff.1 hi).1, hi]
  · intro i r' hi
    simp only [Module.ctx, h3, List.map_append] at hi ⊢
    rw [List.getElem?_append_left (List.getElem?_eq_some_iff.1 hi).1, hi]
  · simp only [Module.ctx, h5]
  · simp only [Module.ctx, h4]
  · simp only [Module.ctx, h6]

theorem memories_pos {ms : List MemDef} (h : ms.isEmpty = false) : 0 < ms.length := by
  cases ms with
  | nil => simp at h
  | cons a l => simp

/-- **C15.** For every valid program, every set of hooks and every choice of target functions, the instrumented module is
valid: every function type-checks (the instrumented bodies, the helpers for branch tables, the functions that intercept
applications, the accessor functions for the memory), the element segments and the start function refer to functions and
tables of the right type, and no name is exported twice.

Hypotheses: the analysis' hooks have the documented signatures; the type checker annotates the target bodies correctly; the
program does not itself export a name reserved for the tool. -/
theorem C15_instrumented_module_valid {C iface ts m r} (hs : SmallModule m) (hst : iface.Standard) (hsa : iface.StandardApply)
    (h : Instruments C iface ts m r) (hv : ValidModule m)
    (hB : ∀ i ∈ bodyTargets m ts, ∀ f, m.functions[i]? = some f → WellAnnotated m f (bodyOf C m i))
    (hres : ∀ name ∈ iface.toolExports, name ∉ m.exportNames) : ValidModule r.module := by
  have hle := ctx_le hs h
  have hfx := instrumented_exports hs h
  obtain ⟨hix, ⟨tb, htb⟩, ⟨el, hel⟩, hmem, hglob, hdat, hstart⟩ := C43_indices_stay_valid hs h
  have hΓ : ∀ (k : Nat) f, r.module.functions[k]? = some f → r.module.ctx.ftype k = some f.type := by
    intro k f hf; simp [Module.ctx, hf]
  have hmemΓ : m.memories.isEmpty = false → 0 < r.module.ctx.mems := by
    intro hne
    simp only [Module.ctx, hmem]
    exact memories_pos hne
  have hcore : (∀ f ∈ r.module.functions, ValidFunc r.module.ctx f) ∧ (∀ e ∈ r.module.elements, ValidElement r.module.ctx e) ∧
      r.module.tables.flatMap (·.exports) = m.tables.flatMap (·.exports) := by
    obtain ⟨ord, ord', ho, ho', h⟩ := h
    obtain ⟨_, _, fs, base, hd, hn, hg⟩ := instrument_desc ho ho' hs h
    have hB' : ∀ i ∈ ord (bodyTargets m ts), ∀ f, m.functions[i]? = some f → WellAnnotated m f (bodyOf C m i) :=
      fun i hi => hB i ((ho _).mem_iff.1 hi)
    cases hgen : iface.generic with
    | none =>
      have e := (hn hgen).2
      have hfs : ∀ (k : Nat) f, fs[k]? = some f → r.module.ctx.ftype k = some f.type := by
        intro k f hf
        refine hΓ k f ?_
        rw [e]; dsimp only
        rw [List.getElem?_append_left (List.getElem?_eq_some_iff.1 hf).1, hf]
      have hvfs := bodyOf_typed_valid hd hst hle (fun k f _ hf => hfs k f hf) hv.functions hB'
      refine ⟨?_, ?_, by rw [e]⟩
      · intro f hf
        rw [e] at hf
        rcases List.mem_append.1 hf with hf | hf
        · exact hvfs f hf
        · exact valid_baseFunctions hmemΓ f hf
      · intro el hel
        refine (hv.elements el ?_).mono hle
        rw [e] at hel; exact hel
    | some p =>
      obtain ⟨ge, cb⟩ := p
      obtain ⟨m2, sigs, hooks, copy, ha, _, e⟩ := hg ge cb hgen
      obtain ⟨a1, a2, a3, a4, _⟩ := hsa ge cb hgen
      have hol : ∀ i ∈ ord' (applyTargets m ts), i < fs.length := by
        intro i hi
        obtain ⟨g, hg, _⟩ := mem_applyTargets.1 ((ho' _).mem_iff.1 hi)
        have := (List.getElem?_eq_some_iff.1 hg).1
        have := hd.length
        omega
      have hm2 : ∀ (k : Nat) f, m2.functions[k]? = some f → r.module.ctx.ftype k = some f.type := by
        intro k f hf
        refine hΓ k f ?_
        rw [e]; dsimp only
        rw [List.getElem?_append_left (List.getElem?_eq_some_iff.1 hf).1, hf]
      have hfs : ∀ (k : Nat) f, m.functions.length ≤ k → fs[k]? = some f → r.module.ctx.ftype k = some f.type := by
        intro k f hk hf
        refine hm2 k f (ha.untouched k f ?_ hf)
        intro hko
        obtain ⟨g, hg, _⟩ := mem_applyTargets.1 ((ho' _).mem_iff.1 hko)
        have := (List.getElem?_eq_some_iff.1 hg).1
        omega
      have hvfs := bodyOf_typed_valid hd hst hle hfs hv.functions hB'
      have hga : r.module.ctx.ftype fs.length = some ⟨[.i32, .i32, .i32, .i32, .i32, .i32, .i32], []⟩ := by
        have := hm2 _ _ ha.generic
        simpa [genericApplyImport, a1, a2] using this
      have htab : r.module.ctx.tables[m.tables.length]? = some .funcRef := by
        rw [e]
        simp [Module.ctx, ha.tables]
      refine ⟨?_, ?_, ?_⟩
      · intro f hf
        rw [e] at hf
        rcases List.mem_append.1 hf with hf | hf
        · obtain ⟨k, hk⟩ := List.getElem?_of_mem hf
          rcases ha.cases hol hk with q | q | q | q | q | q | q
          · exact hvfs f (List.mem_of_getElem? q.2.2)
          · obtain ⟨j, g, hj, hgk, rfl⟩ := q
            obtain ⟨hl, _⟩ := ha.target j k g hj hgk
            exact valid_trampoline hm2 hl hga
          · rw [q.2]; intro c hc; simp [genericApplyImport] at hc
          · obtain ⟨_, ty, nm, rfl, _⟩ := q; intro c hc; simp [stackImport] at hc
          · obtain ⟨j, i, g, _, hgi, _, rfl⟩ := q
            exact hvfs g (List.mem_of_getElem? hgi)
          · obtain ⟨j, i, g, hj, hgi, _, rfl⟩ := q
            obtain ⟨hl, _, hcp, _⟩ := ha.target j i g hj hgi
            exact valid_applyFunc (t := g.type) hm2 hl (by have := hm2 _ _ hcp; simpa using this)
          · rw [q.2]; exact valid_callBase a3 a4 htab
        · exact valid_baseFunctions hmemΓ f hf
      · intro el hel
        rw [e] at hel
        dsimp only at hel
        rw [ha.elements] at hel
        rcases List.mem_append.1 hel with hel | hel
        · exact (hv.elements el hel).mono hle
        · simp only [List.mem_singleton] at hel
          subst hel
          refine ⟨?_, ?_⟩
          · intro is his f hf
            simp only [List.mem_map, List.mem_range] at his
            obtain ⟨j, hj, rfl⟩ := his
            simp only [List.mem_cons, LInstr.refFunc.injEq, List.not_mem_nil, or_false] at hf
            rcases hf with rfl | hf
            · obtain ⟨i, hi⟩ : ∃ i, (ord' (applyTargets m ts))[j]? = some i := ⟨_, List.getElem?_eq_getElem hj⟩
              obtain ⟨g, hg⟩ : ∃ g, fs[i]? = some g := ⟨_, List.getElem?_eq_getElem (hol i (List.mem_of_getElem? hi))⟩
              obtain ⟨_, _, _, t2⟩ := ha.target j i g hi hg
              exact ⟨_, hm2 _ _ t2⟩
            · simp at hf
          · intro tbl off ho
            simp only [ElemMode.active.injEq] at ho
            rw [← ho.1]
            exact htab
      · rw [e]
        simp [ha.tables]
  refine ⟨hcore.1, hcore.2.1, ?_, ?_⟩
  · intro i hi
    rw [hstart] at hi
    exact hle.ftype _ _ (hv.start i hi)
  · have hnt : iface.toolExports.Nodup := by
      unfold Interface.toolExports
      rw [List.append_assoc, List.append_assoc]
      split
      · rw [List.nil_append, ← List.append_assoc]; exact C19_export_names_distinct
      · rename_i p hp
        rw [List.singleton_append, List.nodup_cons, ← List.append_assoc]
        exact ⟨(hsa p.1 p.2 hp).2.2.2.2, C19_export_names_distinct⟩
    have hx := hv.exports
    simp only [Module.exportNames, hfx, hcore.2.2, hmem, hglob] at hx hres ⊢
    have hp : (m.functions.flatMap (·.exports) ++ iface.toolExports ++ m.tables.flatMap (·.exports) ++ m.memories.flatMap (·.exports) ++
        m.globals.flatMap (·.exports)).Perm (iface.toolExports ++ (m.functions.flatMap (·.exports) ++ m.tables.flatMap (·.exports) ++
        m.memories.flatMap (·.exports) ++ m.globals.flatMap (·.exports))) := by
      simp only [List.append_assoc]
      exact List.perm_append_comm_assoc _ _ _
    rw [hp.nodup_iff, List.nodup_append]
    exact ⟨hnt, hx, fun a ha b hb e => hres a ha (e ▸ hb)⟩

/-! ### The hypotheses are met by a real program -/

/-- A checker that knows the types of the locals of `exModule` (all those read are `i32`). -/
def exTypedChecker : Checker := ⟨Unit, fun _ _ => (), fun _ i => match i with
  | .loc .get _ => some ((), .reachable ⟨[], [.i32]⟩)
  | _ => some ((), .unreachable)⟩

/-- An analysis that uses five hooks and intercepts applications. -/
def exIfaceAll : Interface where
  generic := some interfaceGenericApply
  trap t := if t = .ifThenElseTrap ∨ t = .preTrapCall ∨ t = .postTrapCall ∨ t = .binaryI32I32ToI32 ∨ t = .localGetI32 then some t.export else none

theorem exModule_valid : ValidModule exModule where
  functions := by
    intro f hf c hc
    simp only [exModule, List.mem_cons, List.not_mem_nil, or_false] at hf
    rcases hf with rfl | rfl | rfl | rfl
    · simp at hc
    · simp only [FuncCode.present.injEq] at hc; subst hc
      refine .intro (b := [.basic (.loc .get 0), .ifElse ⟨[], [.i32]⟩ [.basic (.loc .get 1)] [.basic (.const (.i32 7)), .basic (.call 2)]]) rfl ?_
      refine .cons (.basic ⟨.i32, rfl, [], rfl, rfl⟩) (.one (.ifElse (t := ⟨[], [.i32]⟩) (r := []) (.ofBasic ⟨.i32, rfl, [], rfl, rfl⟩) ?_))
      exact .cons (.basic ⟨[], rfl, rfl⟩) (.ofBasic ⟨_, rfl, [], rfl, rfl⟩)
    · simp only [FuncCode.present.injEq] at hc; subst hc
      refine .straight (bs := [.loc .get 0, .call 0, .loc .get 0, .loc .get 0, .binary .i32Mul]) rfl ?_
      exact .cons (.basic ⟨.i32, rfl, [], rfl, rfl⟩) (.cons (.basic ⟨_, rfl, [], rfl, rfl⟩) (.cons (.basic ⟨.i32, rfl, [], rfl, rfl⟩)
        (.cons (.basic ⟨.i32, rfl, _, rfl, rfl⟩) (.ofBasic ⟨[], rfl, rfl⟩))))
    · simp only [FuncCode.present.injEq] at hc; subst hc
      exact .straight (bs := []) rfl .nil
  elements := by simp [exModule]
  start := by simp [exModule]
  exports := by decide

example : exIfaceAll.Standard ∧ exIfaceAll.StandardApply ∧ ∀ name ∈ exIfaceAll.toolExports, name ∉ exModule.exportNames := by
  refine ⟨?_, ?_, by decide +kernel⟩
  · intro t e h
    simp only [exIfaceAll] at h
    split at h
    · simp only [Option.some.injEq] at h; subst h; exact ⟨rfl, rfl⟩
    · simp at h
  · intro ge cb h
    simp only [exIfaceAll, Option.some.injEq] at h
    obtain ⟨rfl, rfl⟩ := Prod.mk.inj h
    exact ⟨rfl, rfl, rfl, rfl, by decide +kernel⟩

theorem exModule_annotated : ∀ i ∈ bodyTargets exModule none, ∀ f, exModule.functions[i]? = some f → WellAnnotated exModule f (bodyOf exTypedChecker exModule i) := by
  have h : bodyTargets exModule none = [1, 2] := by decide +kernel
  rw [h]
  intro i hi f hf c hc
  simp only [List.mem_cons, List.not_mem_nil, or_false] at hi
  rcases hi with rfl | rfl
  · cases hf; cases hc
    have e : bodyOf exTypedChecker exModule 1 =
        [.basic ⟨1, 0, .reachable ⟨[], [.i32]⟩, false⟩ (.loc .get 0),
          .ifElse ⟨1, 1, .unreachable, false⟩ ⟨[], [.i32]⟩ [.basic ⟨1, 2, .reachable ⟨[], [.i32]⟩, false⟩ (.loc .get 1)]
          [.basic ⟨1, 4, .unreachable, false⟩ (.const (.i32 7)), .basic ⟨1, 5, .unreachable, false⟩ (.call 2)]] := rfl
    rw [e]
    have ok : ∀ i, (i = 0 ∨ i = 1) → ∀ t, (InferredTy.reachable ⟨[], [.i32]⟩).reads = some t → [ValType.i32, .i32, .i64][i]? = some t := by
      rintro i (rfl | rfl) t ht <;> cases ht <;> rfl
    refine .cons (.basic ⟨.i32, rfl, [], rfl, rfl⟩ (ok 0 (.inl rfl))) (.cons (.ifElse (t := ⟨[], [.i32]⟩) (r := [])
      (.cons (.basic ⟨.i32, rfl, [], rfl, rfl⟩ (ok 1 (.inr rfl))) .nil) ?_) .nil)
    exact .cons (.basic ⟨[], rfl, rfl⟩ trivial) (.cons (.basic ⟨_, rfl, [], rfl, rfl⟩ trivial) .nil)
  · cases hf; cases hc
    have e : bodyOf exTypedChecker exModule 2 =
        [.basic ⟨2, 0, .reachable ⟨[], [.i32]⟩, false⟩ (.loc .get 0), .basic ⟨2, 1, .unreachable, false⟩ (.call 0),
          .basic ⟨2, 2, .reachable ⟨[], [.i32]⟩, false⟩ (.loc .get 0), .basic ⟨2, 3, .reachable ⟨[], [.i32]⟩, false⟩ (.loc .get 0),
          .basic ⟨2, 4, .unreachable, false⟩ (.binary .i32Mul)] := rfl
    rw [e]
    have ok : ∀ t, (InferredTy.reachable ⟨[], [.i32]⟩).reads = some t → [ValType.i32][0]? = some t := by
      rintro t ht; cases ht; rfl
    exact .cons (.basic ⟨.i32, rfl, [], rfl, rfl⟩ ok) (.cons (.basic ⟨_, rfl, [], rfl, rfl⟩ trivial) (.cons (.basic ⟨.i32, rfl, [], rfl, rfl⟩ ok)
      (.cons (.basic ⟨.i32, rfl, _, rfl, rfl⟩ ok) (.cons (.basic ⟨[], rfl, rfl⟩ trivial) .nil))))

theorem exModule_raises_typed : ∀ i ∈ bodyTargets exModule none, ∃ b, raiseTarget exTypedChecker exModule i = .ok b := by
  have h : bodyTargets exModule none = [1, 2] := by decide +kernel
  rw [h]
  intro i hi
  simp only [List.mem_cons, List.not_mem_nil, or_false] at hi
  rcases hi with rfl | rfl
  · exact ⟨_, rfl⟩
  · exact ⟨_, rfl⟩

example : ∃ r, Instruments exTypedChecker exIfaceAll none exModule r :=
  instruments_of_ok (by decide) exModule_small exModule_raises_typed

end Wastrum
