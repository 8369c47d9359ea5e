import Verif.Keeps
import Verif.ApplyThms
/-!
# What instrumented code leaves alone (C27)
-/

set_option linter.unusedSimpArgs false
set_option linter.unusedVariables false

namespace Wastrum

/-! ## Code that stays inside a realm -/

section
variable {W : Type} {ρ : Realm W} {D : Nat → Prop}

theorem HI.InL_append {a b : List HI} : HI.InL ρ D (a ++ b) ↔ HI.InL ρ D a ∧ HI.InL ρ D b := by
  induction a with
  | nil => simp [HI.InL]
  | cons i l ih => simp [HI.InL, ih, and_assoc]

/-- Instructions that use neither functions nor tables. -/
def LInstr.plain : LInstr → Bool
  | .call _ | .refFunc _ | .callIndirect .. | .tableGet _ | .tableSet _ | .tableGrow _ | .tableFill _ | .tableCopy .. | .tableInit .. => false
  | _ => true

theorem plain_in {b : Basic} (h : b.toL.plain = true) : b.In ρ D := by
  cases b <;> first | trivial | simp [Basic.toL, LInstr.plain] at h

theorem plain_codeIn {code : List LInstr} (h : ∀ i ∈ code, i.plain = true) : CodeIn ρ D code := fun b hb => plain_in (h _ hb)

theorem calls_codeIn (hD : ∀ k, D k) {code : List LInstr} (h : ∀ i ∈ code, i.plain = true ∨ ∃ f, i = .call f) : CodeIn ρ D code := by
  intro b hb
  rcases h _ hb with h | ⟨f, h⟩
  · exact plain_in h
  · cases b <;> first | trivial | (simp [Basic.toL] at h; done) | exact hD _

theorem in_hookCall {m : Meta} {imm : List Basic} {k : Nat} (hi : ∀ b ∈ imm, b.In ρ D) (hk : D k) : HI.InL ρ D (TI.eraseL (hookCall m imm k)) := by
  have : ∀ l : List Basic, (∀ b ∈ l, b.In ρ D) → HI.InL ρ D (TI.eraseL (l.map (ins m))) := by
    intro l
    induction l with
    | nil => intro _; trivial
    | cons b l ih => intro h; exact ⟨h b List.mem_cons_self, ih fun b hb => h b (List.mem_cons_of_mem _ hb)⟩
  refine this _ fun b hb => ?_
  rcases List.mem_append.1 hb with h | h
  · exact hi b h
  · simp only [List.mem_cons, List.not_mem_nil, or_false] at h
    rcases h with rfl | rfl | rfl
    · trivial
    · trivial
    · exact hk

theorem in_hooked {σ : Sel} (hσ : ∀ t k, σ t = some k → D k) {m : Meta} {o : Option (Trap × List Basic)} (ho : ∀ t imm, o = some (t, imm) → σ t ≠ none → ∀ b ∈ imm, b.In ρ D) :
    HI.InL ρ D (TI.eraseL (hooked σ m o)) := by
  unfold hooked
  split
  · trivial
  · rename_i t imm
    split
    · trivial
    · rename_i k hk
      exact in_hookCall (ho t imm rfl (by rw [hk]; simp)) (hσ _ _ hk)

theorem in_arity {t : FuncType} : ∀ b ∈ arity t, b.In ρ D := by
  intro b hb
  simp only [arity, List.mem_cons, List.not_mem_nil, or_false] at hb
  rcases hb with rfl | rfl <;> trivial

/-- Rewritten code stays inside the realm if the code, the hooks and the helper functions do. -/
theorem expand_in {σ : Sel} (hσ : ∀ t k, σ t = some k → D k) :
    (∀ i : TI, i.erase.In ρ D → ∀ n, (σ .brTableTrap ≠ none → ∀ j < i.tables.length, D (n + j)) → HI.InL ρ D (TI.eraseL (expandI σ n i))) ∧
    (∀ l : List TI, HI.InL ρ D (TI.eraseL l) → ∀ n, (σ .brTableTrap ≠ none → ∀ j < (TI.tablesL l).length, D (n + j)) → HI.InL ρ D (TI.eraseL (expandL σ n l))) := by
  have nul : ∀ {m : Meta} {t : Trap}, HI.InL ρ D (TI.eraseL (hooked σ m (some (t, [])))) := fun {m t} => in_hooked hσ (by simp)
  have ari : ∀ {m : Meta} {t : Trap} {ty : FuncType}, HI.InL ρ D (TI.eraseL (hooked σ m (some (t, arity ty)))) := fun {m t ty} => in_hooked hσ (by
    intro t imm h; cases h; exact fun _ => in_arity)
  refine TI.induct ?_ ?_ ?_ ?_ ?_ ?_ ?_
  · intro m b h n hh
    simp only [expandI]
    split
    · exact ⟨h, trivial⟩
    · rename_i hm
      simp only [TI.eraseL_append, HI.InL_append]
      refine ⟨⟨in_hooked hσ ?_, ?_⟩, in_hooked hσ ?_⟩
      · intro t imm ho hs b' hb'
        cases b with
        | brTable l d =>
          simp only [hookBefore, Option.some.injEq, Prod.mk.injEq] at ho
          obtain ⟨rfl, rfl⟩ := ho
          simp only [List.mem_cons, List.not_mem_nil, or_false] at hb'
          rcases hb' with rfl | rfl
          · have := hh hs 0 (by simp [TI.tables, hm])
            exact this
          · trivial
        | loc op i =>
          cases op <;> simp only [hookBefore, Option.map_eq_some_iff, reduceCtorEq] at ho
          all_goals (obtain ⟨_, _, ho⟩ := ho; cases ho; simp only [List.mem_singleton] at hb'; subst hb'; trivial)
        | glob op i =>
          cases op <;> simp only [hookBefore, Option.map_eq_some_iff, reduceCtorEq] at ho
          all_goals (obtain ⟨_, _, ho⟩ := ho; cases ho; simp only [List.mem_singleton] at hb'; subst hb'; trivial)
        | _ => 
          simp only [hookBefore, Option.some.injEq, Prod.mk.injEq, reduceCtorEq] at ho
          all_goals (obtain ⟨rfl, rfl⟩ := ho; simp only [List.mem_singleton, List.not_mem_nil] at hb')
          all_goals (subst hb'; trivial)
      · unfold orReplaced
        split
        · exact ⟨h, trivial⟩
        · rename_i t imm ho
          split
          · exact ⟨h, trivial⟩
          · rename_i k hk
            refine in_hookCall ?_ (hσ _ _ hk)
            intro b' hb'
            cases b <;> simp only [hookReplace, Option.map_eq_some_iff, Option.some.injEq, reduceCtorEq] at ho
            all_goals first | (obtain ⟨_, _, ho⟩ := ho; cases ho) | cases ho
            all_goals (simp only [List.mem_cons, List.not_mem_nil, or_false] at hb')
            all_goals first | (rcases hb' with rfl | rfl <;> trivial) | (subst hb'; trivial)
      · intro t imm ho hs b' hb'
        cases b with
        | loc op i =>
          cases op <;> simp only [hookAfter, Option.map_eq_some_iff, reduceCtorEq] at ho
          all_goals (obtain ⟨_, _, ho⟩ := ho; cases ho; simp only [List.mem_singleton] at hb'; subst hb'; trivial)
        | glob op i =>
          cases op <;> simp only [hookAfter, Option.map_eq_some_iff, reduceCtorEq] at ho
          all_goals (obtain ⟨_, _, ho⟩ := ho; cases ho; simp only [List.mem_singleton] at hb'; subst hb'; trivial)
        | const v =>
          simp only [hookAfter, Option.map_eq_some_iff] at ho
          obtain ⟨_, _, ho⟩ := ho; cases ho; simp at hb'
        | _ => 
          simp only [hookAfter, Option.some.injEq, Prod.mk.injEq, reduceCtorEq] at ho
          all_goals (obtain ⟨rfl, rfl⟩ := ho; simp only [List.mem_singleton, List.not_mem_nil] at hb')
          all_goals (subst hb'; trivial)
  · intro m t body ih h n hh
    have hb := ih h n hh
    simp only [expandI]
    split
    · exact ⟨hb, trivial⟩
    · refine ⟨?_, trivial⟩
      simp only [TI.erase, HI.In, TI.eraseL_append, HI.InL_append]
      exact ⟨⟨ari, hb⟩, nul⟩
  · intro m t body ih h n hh
    have hb := ih h n hh
    simp only [expandI]
    split
    · exact ⟨hb, trivial⟩
    · refine ⟨?_, trivial⟩
      simp only [TI.erase, HI.In, TI.eraseL_append, HI.InL_append]
      exact ⟨⟨ari, hb⟩, nul⟩
  · intro m t thn ih h n hh
    have hb := ih h n hh
    simp only [expandI]
    split
    · exact ⟨hb, trivial⟩
    · simp only [TI.eraseL_append, HI.InL_append]
      refine ⟨ari, ?_⟩
      split
      · exact ⟨hb, trivial⟩
      · rename_i k hk
        have hc : HI.InL ρ D (TI.eraseL (hookCall m [] k)) := in_hookCall (by simp) (hσ _ _ hk)
        refine ⟨⟨?_, hc⟩, trivial⟩
        simp only [TI.eraseL_append, HI.InL_append]
        exact ⟨hb, hc⟩
  · intro m t thn els ih1 ih2 h n hh
    simp only [TI.tables, List.length_append] at hh
    have h1 := ih1 h.1 n fun hs j hj => hh hs j (by omega)
    have h2 := ih2 h.2 (n + (TI.tablesL thn).length) fun hs j hj => by rw [Nat.add_assoc]; exact hh hs _ (by omega)
    simp only [expandI]
    split
    · exact ⟨⟨h1, h2⟩, trivial⟩
    · simp only [TI.eraseL_append, HI.InL_append]
      refine ⟨ari, ⟨?_, ?_⟩, trivial⟩
      · simp only [TI.eraseL_append, HI.InL_append]; exact ⟨h1, nul⟩
      · simp only [TI.eraseL_append, HI.InL_append]; exact ⟨h2, nul⟩
  · intro _ _ _; trivial
  · intro i l ih1 ih2 h n hh
    simp only [TI.tablesL, List.length_append] at hh
    simp only [expandL, TI.eraseL_append, HI.InL_append]
    exact ⟨ih1 h.1 n fun hs j hj => hh hs j (by omega), ih2 h.2 _ fun hs j hj => by rw [Nat.add_assoc]; exact hh hs _ (by omega)⟩

theorem helperBody_plain (l : List Nat) (d : Nat) : ∀ i ∈ helperBody l d, i.plain = true := by
  intro i hi
  unfold helperBody at hi
  split at hi
  · simp only [List.mem_cons, List.not_mem_nil, or_false] at hi
    rcases hi with rfl | rfl | rfl <;> rfl
  · simp only [List.mem_cons, List.not_mem_nil, or_false] at hi
    rcases hi with rfl | rfl | rfl | rfl | rfl | rfl | rfl | rfl | rfl <;> rfl
  · simp only [List.mem_append, List.mem_map, List.mem_flatMap, List.mem_cons, List.not_mem_nil, or_false] at hi
    rcases hi with ((⟨_, _, rfl⟩ | rfl | rfl | rfl | rfl) | ⟨_, _, rfl | rfl | rfl | rfl⟩) | rfl | rfl | rfl <;> rfl

theorem memoryFunctions_plain {b : Bool} {f : Func} (hf : f ∈ memoryFunctions b) : ∃ c, f.code = .present c ∧ ∀ i ∈ c.body, i.plain = true := by
  simp only [memoryFunctions, List.mem_append, List.mem_map, List.mem_cons, List.not_mem_nil, or_false] at hf
  rcases hf with (⟨e, he, rfl⟩ | ⟨e, he, rfl⟩) | rfl | rfl
  all_goals (refine ⟨_, rfl, ?_⟩; dsimp only [baseLoadBody, baseStoreBody, baseGrowBody, baseSizeBody]; cases b <;> simp [LInstr.plain])

theorem trampoline_calls {t : FuncType} {h : StackHooks} {ga : Nat} {a b c d e : BitVec 32} : ∀ i ∈ applyTrampoline t h ga a b c d e, i.plain = true ∨ ∃ f, i = .call f := by
  intro i hi
  simp only [applyTrampoline, List.mem_append, List.mem_map, List.mem_flatMap, List.mem_cons, List.not_mem_nil, or_false] at hi
  rcases hi with ((⟨_, _, rfl⟩ | hi) | ⟨_, _, rfl | rfl⟩) | hi
  · exact .inl rfl
  · rcases hi with rfl | rfl | rfl | rfl | rfl | rfl | rfl | rfl | rfl | rfl | rfl | rfl <;> first | exact .inl rfl | exact .inr ⟨_, rfl⟩
  · exact .inl rfl
  · exact .inr ⟨_, rfl⟩
  · rcases hi with rfl | rfl | rfl | rfl | rfl <;> first | exact .inl rfl | exact .inr ⟨_, rfl⟩

theorem baseApply_calls {h : StackHooks} {un : Nat} : ∀ i ∈ baseApplyBody h un, i.plain = true ∨ ∃ f, i = .call f := by
  intro i hi
  simp only [baseApplyBody, List.mem_append, List.mem_flatMap, List.mem_cons, List.not_mem_nil, or_false, List.cons_append] at hi
  rcases hi with rfl | ⟨_, _, rfl | rfl⟩ | rfl | rfl | rfl <;> first | exact .inl rfl | exact .inr ⟨_, rfl⟩

end


/-! ## The program's own things -/

variable {W A : Type}

/-- A legal state of the stack library. -/
def Legal (w : World W A) : Prop := ∃ l : Lib, w.2.2 = l.store ∧ l.Ok

/-- The stack allocator is where it was, and the library's memory below that is as it was, except for the addresses in `P`. -/
def Kept (P : Nat → Prop) (w w' : World W A) : Prop :=
  ∀ l : Lib, w.2.2 = l.store → l.Ok → ∃ l' : Lib, w'.2.2 = l'.store ∧ l'.Ok ∧ l'.free = l.free ∧ l'.mem.limit = l.mem.limit ∧
    ∀ a < l.free, ¬ P a → l'.mem.bytes a = l.mem.bytes a

/-- No address. -/
abbrev Nowhere : Nat → Prop := fun _ => False

/-- The addresses of the buffer at `p` for values of signature `t`. -/
def InBuffer (p : Nat) (t : FuncType) (a : Nat) : Prop := p ≤ a ∧ a < p + 8 * t.slots

/-- What the uninstrumented program `m` consists of, in a run of the instrumented one: references lead to its functions, its tables and
element segments come first. `T` is what the tables added by the tool hold. -/
def ownRealm (m : Module) (r : Instrumented) (T : Nat → Option Table) : Realm (World W A) where
  fn k := k < m.functions.length
  ft k := r.module.functions[k]?.map (·.type)
  tab i := i < m.tables.length
  el e := e < m.elements.length
  frozen := T
  good := Legal

/-- What an embedder or an analysis can call: the program's functions and the functions for access to its memory. -/
def Callable (m : Module) (r : Instrumented) (k : Nat) : Prop :=
  k < m.functions.length ∨ ∃ f ∈ memoryFunctions m.memories.isEmpty, r.module.functions[k]? = some f

/-- An imported function that leaves the stack allocator (and the tables added by the tool) alone, if what it calls does. -/
def HostKeeps (m : Module) (r : Instrumented) (h : Host (World W A)) : Prop :=
  ∀ T call, CallsKeep (ownRealm m r T) (Callable m r) (Kept Nowhere) call → ∀ args s, (∀ v ∈ args, v.In (ownRealm (W := W) (A := A) m r T)) → s.In (ownRealm m r T) →
    (h call args s).Keeps (ownRealm m r T) (Kept Nowhere) s

/-- A generic `apply` of an analysis that, when asked about a call, leaves the stack allocator (and the tables added by the tool, and other
buffers) alone, if what it calls does. It may use the buffer of the call and resume the call as often as it likes. -/
def AdviceKeeps (m : Module) (r : Instrumented) (base : Nat) (h : Host (World W A)) : Prop :=
  ∀ T call, CallsKeep (ownRealm m r T) (Callable m r) (Kept Nowhere) call →
    ∀ (j i : Nat) (f : Func) (present : BitVec 32) (l0 l : Lib) (xs : List Val) (p q : Nat) (s : Store (World W A)), m.functions[i]? = some f → f.type.RefFree → f.type.slots < 8192 →
    Prepared l0 f.type xs p q l → s.In (ownRealm m r T) → s.getLib = l.store →
    (∀ (s' : Store (World W A)) (l' : Lib), s'.In (ownRealm m r T) → s'.getLib = l'.store → l'.Ok → l'.free = l.free →
      (call base [.i32 (BitVec.ofNat 32 j), .i32 (BitVec.ofNat 32 p)] s').Keeps (ownRealm m r T) (Kept (InBuffer p f.type)) s') →
    (h call (applyQuestion j i f.type p q present) s).Keeps (ownRealm m r T) (Kept (InBuffer p f.type)) s

/-- The instruction refers to functions, tables and element segments of the module only. -/
def LInstr.Within (m : Module) : LInstr → Prop
  | .call f | .refFunc f => f < m.functions.length
  | .callIndirect _ t | .tableGet t | .tableSet t | .tableGrow t | .tableFill t => t < m.tables.length
  | .tableCopy i j => i < m.tables.length ∧ j < m.tables.length
  | .tableInit i e => i < m.tables.length ∧ e < m.elements.length
  | _ => True

/-- The program's code refers to functions, tables and element segments of the program only. -/
def Closed (m : Module) : Prop := ∀ f ∈ m.functions, ∀ c, f.code = .present c → ∀ i ∈ c.body, i.Within m

/-- The names the tool uses for its own purposes are not used otherwise. -/
structure Reserved (iface : Interface) (m : Module) (ge : WasmExport) : Prop where
  imports : ∀ f ∈ m.functions, ∀ ns name, f.code = .imported ns name → ns ≠ stackModule ∧ ¬ (ns = analysisModule ∧ name = ge.name)
  hooks : ∀ t e, iface.trap t = some e → e.name ≠ ge.name

theorem Lib.store_inj {l l' : Lib} (ok : l.Ok) (ok' : l'.Ok) (h : l.store = l'.store) : l = l' := by
  obtain ⟨f, me⟩ := l
  obtain ⟨f', me'⟩ := l'
  simp only [Lib.store, Store.mk.injEq, List.cons.injEq, and_true, RVal.i32, RVal.num.injEq, Val.i32.injEq] at h
  obtain ⟨⟨h1, _⟩, h2⟩ := h
  subst h2
  have h3 := congrArg BitVec.toNat h1
  have := ok.free'
  have := ok'.free'
  dsimp only at *
  rw [BitVec.toNat_ofNat, BitVec.toNat_ofNat, Nat.mod_eq_of_lt (by omega), Nat.mod_eq_of_lt (by omega)] at h3
  rw [h3]

theorem Kept.refl (P) (w : World W A) : Kept P w w := fun l h ok => ⟨l, h, ok, rfl, rfl, fun _ _ _ => rfl⟩

theorem Kept.trans {P} (a b c : World W A) (h : Kept P a b) (h' : Kept P b c) : Kept P a c := by
  intro l hl ok
  obtain ⟨l1, h1, ok1, f1, li1, b1⟩ := h l hl ok
  obtain ⟨l2, h2, ok2, f2, li2, b2⟩ := h' l1 h1 ok1
  exact ⟨l2, h2, ok2, f2.trans f1, li2.trans li1, fun x hx hp => (b2 x (by omega) hp).trans (b1 x hx hp)⟩

theorem Kept.mono {P Q : Nat → Prop} (h : ∀ a, P a → Q a) {w w' : World W A} (hk : Kept P w w') : Kept Q w w' := by
  intro l hl ok
  obtain ⟨l1, h1, ok1, f1, li1, b1⟩ := hk l hl ok
  exact ⟨l1, h1, ok1, f1, li1, fun x hx hp => b1 x hx fun hP => hp (h x hP)⟩

section
variable {m : Module} {r : Instrumented} {T : Nat → Option Table}

theorem Store.In.setLib {s : Store (World W A)} (h : s.In (ownRealm m r T)) {l : Lib} (ok : l.Ok) : (s.setLib l.store).In (ownRealm m r T) :=
  ⟨h.globals, h.tables, h.elems, h.frozen, ⟨l, rfl, ok⟩⟩

theorem Store.In.lib {s : Store (World W A)} (h : s.In (ownRealm m r T)) : ∃ l : Lib, s.getLib = l.store ∧ l.Ok := h.good

theorem in_nums {ρ : Realm W} (xs : List Val) : ∀ v ∈ xs.map RVal.num, v.In ρ := by
  intro v hv
  obtain ⟨x, _, rfl⟩ := List.mem_map.1 hv
  trivial

theorem within_codeIn {ρ : Realm W} {D : Nat → Prop} {code : List LInstr} (h : ∀ i ∈ code, i.Within m) (hf : ∀ k < m.functions.length, ρ.fn k) (hD : ∀ k < m.functions.length, D k)
    (ht : ∀ k < m.tables.length, ρ.tab k) (he : ∀ k < m.elements.length, ρ.el k) : CodeIn ρ D code := by
  intro b hb
  have := h _ hb
  cases b <;> first | trivial | exact hD _ this | exact hf _ this | exact ht _ this | exact ⟨ht _ this.1, ht _ this.2⟩ | exact ⟨ht _ this.1, he _ this.2⟩

end

/-! ## The invariant -/

section
variable {C : Checker} {iface : Interface} {ts : Option (List Nat)} {m : Module} {r : Instrumented} {ge : WasmExport} {cb : WasmImport}
  {order : List Nat} {fs : List Func} {hooks : FuncType → StackHooks} {copy : Nat} {K : LibLink} {H : Imports (World W A)} {N : Num} {L : Nat} {T : Nat → Option Table}

/-- The functions of the instrumented module that are not part of the machinery for function application. -/
def Ordinary (order : List Nat) (fs : List Func) (copy k : Nat) : Prop := k < fs.length ∨ (∃ j < order.length, k = copy + 2 * j) ∨ copy + 2 * order.length < k

/-- The tables added by the tool are intact in every state of the realm if they are intact in one. -/
theorem frozen_intact (hA : Applied C iface ts m r ge cb order fs K.sigs hooks copy) {s0 s : Store (World W A)} (h0 : SegmentsIntact m r s0)
    (hT : ∀ i, m.tables.length ≤ i → s0.tables[i]? = T i) (h : s.In (ownRealm m r T)) : SegmentsIntact m r s := by
  intro el hel tbl hm k f hk
  obtain ⟨T', hT', he⟩ := h0 el hel tbl hm k f hk
  refine ⟨T', ?_, he⟩
  obtain ⟨m2, ha, hr⟩ := hA.desc
  rw [hr] at hel
  dsimp only at hel
  rw [ha.elements] at hel
  dsimp only at hel
  rw [List.drop_left, List.mem_singleton] at hel
  subst hel
  cases hm
  rw [← hT', hT _ (Nat.le_refl _)]
  exact h.frozen _ (Nat.lt_irrefl _)

theorem args_nums {vs : List RVal} {ts : List ValType} (h : vs.map RVal.type = ts) (hr : ∀ v ∈ ts, ∀ r, v ≠ .ref r) : ∃ xs : List Val, vs = xs.map .num ∧ xs.map Val.type = ts := by
  induction vs generalizing ts with
  | nil => subst h; exact ⟨[], rfl, rfl⟩
  | cons v vs ih =>
    subst h
    obtain ⟨xs, h1, h2⟩ := ih rfl fun v hv => hr v (List.mem_cons_of_mem _ hv)
    cases v with
    | num x => exact ⟨x :: xs, by rw [h1]; rfl, by simp [RVal.type, h2]⟩
    | ref rt a => exact absurd rfl (hr _ List.mem_cons_self rt)


theorem envAt_ftype (fs : List Func) (d : Nat) {W : Type} (H : Imports W) : (envAt N (machineOf H fs) L d).ftype = fun k => fs[k]?.map (·.type) := by
  funext k
  simp only [envAt, machineOf, Option.map_map]
  cases fs[k]? <;> rfl

theorem callsKeep_zero {ρ : Realm W} {D S} (M) : CallsKeep ρ D S (callF N M L 0) := by
  intro k _ args s _ _ _
  simp only [callF]
  trivial

/-- The result of a call of a function without results. -/
def Res.asUnit : Res W → Res W
  | .ok [] s => .ok [] s
  | .ok _ _ => .stuck
  | r => r

/-- Results, with a weaker relation. -/
theorem Res.Keeps.mono {ρ : Realm W} {S S' : W → W → Prop} (h : ∀ a b, S a b → S' a b) {s : Store W} {x : Res W} (hx : x.Keeps ρ S s) : x.Keeps ρ S' s := by
  cases x with
  | ok vs s' => exact ⟨hx.1, hx.2.1, h _ _ hx.2.2⟩
  | _ => trivial

/-- Straight code with calls, when calls cannot be completed. -/
theorem shallow_keeps {ty : FuncType} {locals : List ValType} {code : List LInstr} (hcode : ∀ i ∈ code, i.plain = true ∨ ∃ f, i = .call f) {P : Nat → Prop} {args : List RVal}
    {s : Store (World W A)} (ha : ∀ v ∈ args, v.In (ownRealm (W := W) (A := A) m r T)) (hs : s.In (ownRealm m r T)) :
    (runBody ty locals (denFlat (envAt N (machineOf H r.module.functions) L 0) code) args s).Keeps (ownRealm m r T) (Kept P) s := by
  refine runBody_keeps (denFlat_preserves (D := fun _ => True) (Kept.refl P) Kept.trans (fun _ _ => trivial) (envAt_ftype _ _ _)
    (show CallsKeep _ _ _ (callF N (machineOf H r.module.functions) L 0) from callsKeep_zero _) (calls_codeIn (fun _ => trivial) hcode)) ha hs

theorem BodiesDesc.hook_name {targets : List Nat} {base : Nat → Nat} (hd : BodiesDesc C iface targets m fs base) {k : Nat} {e : WasmExport} (hf : fs[k]? = some (hookImport e))
    (hk : m.functions.length ≤ k) : ∃ t e', iface.trap t = some e' ∧ e'.name = e.name := by
  have h1 := drop_get (j := k - m.functions.length) hd.added
  rw [show m.functions.length + (k - m.functions.length) = k by omega, hf] at h1
  rcases List.mem_append.1 (List.mem_of_getElem? h1.symm) with h2 | h2
  · obtain ⟨t, _, ht⟩ := List.mem_filterMap.1 h2
    obtain ⟨e', he', h⟩ := Option.map_eq_some_iff.1 ht
    refine ⟨t, e', he', ?_⟩
    have := congrArg Func.code h
    simp only [hookImport, FuncCode.imported.injEq, true_and] at this
    exact this
  · obtain ⟨i, _, hi⟩ := List.mem_flatMap.1 h2
    obtain ⟨p, hp⟩ := helpersFor_present hi
    have := congrArg Func.code hp
    simp [hookImport, helperFunc] at this

variable (hA : Applied C iface ts m r ge cb order fs K.sigs hooks copy) (hcl : Closed m) (hre : Reserved iface m ge)
  (hhost : ∀ ns name, ns ≠ stackModule → ¬ (ns = analysisModule ∧ name = ge.name) → HostKeeps m r (H ns name))
include hA

theorem callable_ordinary (hst : cb.name ∉ loadExports.map (·.1) ++ storeExports.map (·.1) ++ ["instrumented_memory_grow", "instrumented_memory_size"]) {k : Nat}
    (hk : Callable m r k) : Ordinary order fs copy k := by
  have hle := hA.length_le
  rcases hk with hk | ⟨f, hf, hk⟩
  · exact .inl (by omega)
  · obtain ⟨c, hc, _⟩ := memoryFunctions_plain hf
    have hex : ∃ n ∈ loadExports.map (·.1) ++ storeExports.map (·.1) ++ ["instrumented_memory_grow", "instrumented_memory_size"], f.exports = [n] := by
      simp only [memoryFunctions, List.mem_append, List.mem_map, List.mem_cons, List.not_mem_nil, or_false] at hf
      rcases hf with (⟨e, he, rfl⟩ | ⟨e, he, rfl⟩) | rfl | rfl
      · exact ⟨e.1, by simp only [List.mem_append, List.mem_map]; exact .inl (.inl ⟨e, he, rfl⟩), rfl⟩
      · exact ⟨e.1, by simp only [List.mem_append, List.mem_map]; exact .inl (.inr ⟨e, he, rfl⟩), rfl⟩
      · exact ⟨"instrumented_memory_grow", by simp, rfl⟩
      · exact ⟨"instrumented_memory_size", by simp, rfl⟩
    have hat := hA.at
    by_cases h1 : k < fs.length
    · exact .inl h1
    by_cases h2 : k = fs.length
    · subst h2
      rw [hat.generic, Option.some.injEq] at hk
      subst hk
      simp [genericApplyImport] at hc
    by_cases h3 : k < copy
    · obtain ⟨ty, name, rfl⟩ := hat.stack k f (by omega) h3 hk
      simp [stackImport] at hc
    by_cases h4 : copy + 2 * order.length < k
    · exact .inr (.inr h4)
    by_cases h5 : k = copy + 2 * order.length
    · subst h5
      rw [hat.callBase, Option.some.injEq] at hk
      subst hk
      obtain ⟨n, hn, he⟩ := hex
      simp only [callBaseFunc, List.cons.injEq, and_true] at he
      exact absurd (he ▸ hn) hst
    · obtain ⟨j, hj⟩ : ∃ j, k = copy + 2 * j ∨ k = copy + 2 * j + 1 := ⟨(k - copy) / 2, by omega⟩
      have hjl : j < order.length := by omega
      rcases hj with rfl | rfl
      · exact .inr (.inl ⟨j, hjl, rfl⟩)
      · have ho : order[j]? = some order[j] := List.getElem?_eq_getElem hjl
        obtain ⟨f', hf', _⟩ := mem_applyTargets.1 ((hA.mem _).1 (List.mem_of_getElem? ho))
        obtain ⟨g, hg, _⟩ := hA.own hf'
        rw [(hat.target j _ g ho hg).2.2.2.2, Option.some.injEq] at hk
        subst hk
        obtain ⟨n, _, he⟩ := hex
        simp [applyFunc] at he

include hcl hre hhost

/-- The program's own functions, instrumented or not. -/
theorem own_keeps (hst : cb.name ∉ loadExports.map (·.1) ++ storeExports.map (·.1) ++ ["instrumented_memory_grow", "instrumented_memory_size"]) {d : Nat}
    (ih : CallsKeep (ownRealm m r T) (Ordinary order fs copy) (Kept Nowhere) (callF N (machineOf H r.module.functions) L d)) {k i : Nat} {f g : Func}
    (hk : r.module.functions[k]? = some f) (hg : fs[i]? = some g) (hcode : f.code = g.code) {args : List RVal} {s : Store (World W A)}
    (ha : ∀ v ∈ args, v.In (ownRealm (W := W) (A := A) m r T)) (hs : s.In (ownRealm m r T)) :
    (callF N (machineOf H r.module.functions) L (d + 1) k args s).Keeps (ownRealm m r T) (Kept Nowhere) s := by
  have hlen := hA.length_le
  have hOrd : ∀ k < fs.length, Ordinary order fs copy k := fun k hk => .inl hk
  have hD : ∀ k, (ownRealm (W := W) (A := A) m r T).fn k → Ordinary order fs copy k := fun k hk => hOrd k (Nat.lt_of_lt_of_le hk hlen)
  have hi := (List.getElem?_eq_some_iff.1 hg).1
  obtain ⟨targets, bs, htg, hd⟩ := hA.bodies
  have himp : ∀ ns name, f.code = .imported ns name → ns ≠ stackModule → ¬ (ns = analysisModule ∧ name = ge.name) →
      (callF N (machineOf H r.module.functions) L (d + 1) k args s).Keeps (ownRealm m r T) (Kept Nowhere) s := by
    intro ns name hc h1 h2
    rw [callF_import hk hc]
    exact hhost ns name h1 h2 T _ (fun k hk => ih k (callable_ordinary hA hst hk)) args s ha hs
  rcases hd.cases hg with ⟨g0, hg0, hbody⟩ | ⟨hle, e, rfl⟩ | ⟨_, p, rfl⟩
  · have hmem := List.mem_of_getElem? hg0
    cases hc0 : g0.code with
    | imported ns name =>
      have : g.code = .imported ns name := by
        rw [hbody]; split
        · simp [Func.withBody, hc0]
        · exact hc0
      exact himp ns name (hcode.trans this) (hre.imports g0 hmem ns name hc0).1 (hre.imports g0 hmem ns name hc0).2
    | present c0 =>
      have hin : CodeIn (ownRealm (W := W) (A := A) m r T) (Ordinary order fs copy) c0.body :=
        within_codeIn (hcl g0 hmem c0 hc0) (fun _ h => h) (fun k h => hOrd k (by omega)) (fun _ h => h) (fun _ h => h)
      by_cases hit : i ∈ targets
      · have hb := hA.raised i ((htg i).1 hit)
        obtain ⟨f', c', hf', hc', hr⟩ := raiseTarget_present hb
        rw [hg0] at hf'; cases hf'
        rw [hc0] at hc'; cases hc'
        have hlow := C02_lowerTyped_raiseFunction _ _ _ _ _ hr
        have herase : HI.InL (ownRealm (W := W) (A := A) m r T) (Ordinary order fs copy) (TI.eraseL (bodyOf C m i)) := by
          refine in_lowerL.2 _ fun b hm => hin b ?_
          rw [← hlow, lowerTyped, TI.lower_erase.2]
          exact List.mem_append_left _ hm
        have hex := (expand_in (ρ := ownRealm (W := W) (A := A) m r T) (D := Ordinary order fs copy) (σ := hookSel iface m.functions.length) (by
          intro t k hk
          refine hOrd k ?_
          obtain ⟨e, he, rfl⟩ := hookSel_eq hk
          have h1 := hd.length
          have h2 : iface.selected.idxOf t < (hookImports iface).length := by
            exact (List.getElem?_eq_some_iff.1 (hookImports_get he)).1
          omega)).2 (bodyOf C m i) herase (bs i) (by
          intro hs j hj
          refine hOrd _ ?_
          obtain ⟨g', hg'⟩ : ∃ g', (helpersFor (hookSel iface m.functions.length) (bodyOf C m i))[j]? = some g' := by
            unfold helpersFor
            split
            · rename_i h; exact absurd h hs
            · exact ⟨_, List.getElem?_eq_getElem (by simpa using hj)⟩
          exact (List.getElem?_eq_some_iff.1 ((hd.helpers i hit).2 j g' hg')).1)
        have hcf : f.code = .present ⟨c0.locals, lowerTyped (expandL (hookSel iface m.functions.length) (bs i) (bodyOf C m i))⟩ := by
          rw [hcode, hbody, if_pos hit]; simp [Func.withBody, hc0]
        rw [callF_code hk hcf]
        refine runBody_keeps ?_ ha hs
        intro c hcfg
        rw [denFlat_lowerTyped]
        exact (den_preserves (Kept.refl _) Kept.trans hD (envAt_ftype _ _ _) (by exact ih)).2 _ hex c hcfg
      · have hcf : f.code = .present c0 := by rw [hcode, hbody, if_neg hit, hc0]
        rw [callF_code hk hcf]
        exact runBody_keeps (denFlat_preserves (Kept.refl _) Kept.trans hD (envAt_ftype _ _ _) (by exact ih) hin) ha hs
  · refine himp analysisModule e.name hcode (by decide) ?_
    rintro ⟨_, he⟩
    obtain ⟨t, e', ht, hn⟩ := hd.hook_name hg hle
    exact hre.hooks t e' ht (hn.trans he)
  · rw [callF_code hk hcode]
    exact runBody_keeps (denFlat_preserves (Kept.refl _) Kept.trans hD (envAt_ftype _ _ _) (by exact ih) (plain_codeIn (helperBody_plain _ _))) ha hs


omit hcl hre hhost in
/-- Resuming a call changes the stack library's memory in the call's buffer only. -/
theorem resume_keeps (hcb : cb.args = [.i32, .i32] ∧ cb.results = []) (hsz : order.length < 2 ^ 32) (hK : K.Good) (hlib : HasLib K H) {s0 : Store (World W A)}
    (h0 : SegmentsIntact m r s0) (hT : ∀ i, m.tables.length ≤ i → s0.tables[i]? = T i) {d : Nat}
    (ih : ∀ d' < d, CallsKeep (ownRealm m r T) (Ordinary order fs copy) (Kept Nowhere) (callF N (machineOf H r.module.functions) L d')) {j i : Nat} {f : Func} (hj : order[j]? = some i)
    (hf : m.functions[i]? = some f) {p : Nat} {s : Store (World W A)} {l : Lib} (hs : s.In (ownRealm m r T)) (hl : s.getLib = l.store) (ok : l.Ok) (hp : p + 8 * f.type.slots ≤ l.free) :
    (callF N (machineOf H r.module.functions) L d (copy + 2 * order.length) [.i32 (BitVec.ofNat 32 j), .i32 (BitVec.ofNat 32 p)] s).Keeps (ownRealm m r T) (Kept (InBuffer p f.type)) s := by
  have hseg := frozen_intact hA h0 hT hs
  obtain ⟨g, hg, hgt, hgp⟩ := hA.own hf
  obtain ⟨hmem, hlk, htr, hcp, hap⟩ := hA.at.target j i g hj hg
  have hjl := (List.getElem?_eq_some_iff.1 hj).1
  obtain ⟨Tb, hTb, hel⟩ := hA.at.intact hseg (by intro e; simp [e] at hjl)
  have hjb : (BitVec.ofNat 32 j).toNat = j := by rw [BitVec.toNat_ofNat, Nat.mod_eq_of_lt (by omega)]
  have hbase : ∀ d, callF N (machineOf H r.module.functions) L (d + 1) (copy + 2 * order.length) [.i32 (BitVec.ofNat 32 j), .i32 (BitVec.ofNat 32 p)] s =
      (callF N (machineOf H r.module.functions) L d (copy + 2 * j + 1) [.i32 (BitVec.ofNat 32 p)] s).asUnit := by
    intro d
    have := callF_code (N := N) (L := L) hA.at.callBase (c := ⟨[], callBaseBody m.tables.length⟩) rfl d [.i32 (BitVec.ofNat 32 j), .i32 (BitVec.ofNat 32 p)] s H
    rw [this]
    simp only [callBaseFunc, hcb.1, hcb.2]
    rw [run_callBase (p := .i32 (BitVec.ofNat 32 p)) (E := envAt N (machineOf H r.module.functions) L d) hTb (k := copy + 2 * j + 1) (by rw [hjb]; exact hel j hjl) (by rw [envAt_ftype]; dsimp only; rw [hap]; rfl) rfl]
    unfold Res.asUnit
    simp only [envAt]
    cases callF N (machineOf H r.module.functions) L d (copy + 2 * j + 1) [.i32 (BitVec.ofNat 32 p)] s with
    | ok vs s => cases vs <;> rfl
    | _ => rfl
  match d, ih with
  | 0, _ => simp only [callF]; trivial
  | 1, _ => rw [hbase 0]; simp only [callF, Res.asUnit]; trivial
  | 2, _ =>
    rw [hbase 1]
    have happ := callF_code (N := N) (L := L) hap (c := ⟨[.i32], baseApplyBody (hooks g.type) (copy + 2 * j)⟩) rfl 0 [.i32 (BitVec.ofNat 32 p)] s H
    have hk := shallow_keeps (N := N) (L := L) (H := H) (ty := (applyFunc (hooks g.type) (copy + 2 * j)).type) (locals := [.i32]) (code := baseApplyBody (hooks g.type) (copy + 2 * j))
      baseApply_calls (P := InBuffer p f.type) (args := [.i32 (BitVec.ofNat 32 p)]) (by simp [RVal.i32, RVal.In]) hs
    rw [← happ] at hk
    unfold Res.asUnit
    split
    · rename_i s' he
      rw [he] at hk
      exact hk
    all_goals trivial
  | d' + 3, ih =>
    have hres := call_resumed (N := N) (L := L) hA hcb hsz hK hlib hj hf ok hl hseg (p := p) (Nat.le_trans hp ok.free) d'
    have hin := ih (d' + 1) (by omega) (copy + 2 * j) (.inr (.inl ⟨j, hjl, rfl⟩)) ((l.mem.args f.type p).map .num) s (by
      intro ty hty
      simp only [ownRealm, hcp, Option.map_some, Option.some.injEq] at hty
      subst hty
      rw [List.map_map, ← hgt]
      exact Mem.vals_types _ _ _ (by rw [hgt]; exact (applyTarget_refFree hA hj hf).inputs)) (in_nums _) hs
    cases hc : callF N (machineOf H r.module.functions) L (d' + 1) (copy + 2 * j) ((l.mem.args f.type p).map .num) s with
    | trap s2 => rw [hc] at hres; rw [show _ = Res.trap s2 from hres]; trivial
    | fuel => rw [hc] at hres; rw [show _ = Res.fuel from hres]; trivial
    | stuck => rw [hc] at hres; rw [show _ = Res.stuck from hres]; trivial
    | ok vs s2 =>
      rw [hc] at hres hin
      obtain ⟨hv, hs2, hk⟩ := hin
      by_cases hty : vs.map RVal.type = f.type.results
      · obtain ⟨xs, rfl, hxs⟩ := args_nums hty (applyTarget_refFree hA hj hf).results
        obtain ⟨l2, hl2, ok2, hf2, hli2, hb2⟩ := hk l hl ok
        obtain ⟨m', hrun, hress, honly⟩ := hres.2 xs l2 rfl hxs hl2 ok2 (by have := ok2.free; omega)
        rw [hrun]
        have ok' : (⟨l2.free, m'⟩ : Lib).Ok := honly.ok ok2
        refine ⟨by simp, hs2.setLib ok', ?_⟩
        intro l'' hl'' ok''
        have e : l'' = l := Lib.store_inj ok'' ok (hl''.symm.trans hl)
        subst e
        refine ⟨⟨l2.free, m'⟩, rfl, ok', hf2, honly.limit.trans hli2, fun a ha hna => ?_⟩
        rw [← hb2 a ha (by simp)]
        refine honly.bytes a ?_
        simp only [InBuffer, FuncType.slots] at hna
        omega
      · rw [hres.1 hty]; trivial

/-- Every function of the program leaves the stack allocator where it found it, and memory below that as it was. -/
theorem calls_keep (hge : ge.args = [.i32, .i32, .i32, .i32, .i32, .i32, .i32] ∧ ge.results = []) (hcb : cb.args = [.i32, .i32] ∧ cb.results = [])
    (hst : cb.name ∉ loadExports.map (·.1) ++ storeExports.map (·.1) ++ ["instrumented_memory_grow", "instrumented_memory_size"])
    (hsz : order.length < 2 ^ 32) (hK : K.Good) (hsm : SmallSigs K.sigs) (hlib : HasLib K H) {s0 : Store (World W A)}
    (h0 : SegmentsIntact m r s0) (hT : ∀ i, m.tables.length ≤ i → s0.tables[i]? = T i)
    (hadv : AdviceKeeps m r (copy + 2 * order.length) (H analysisModule ge.name)) :
    ∀ d, CallsKeep (ownRealm m r T) (Ordinary order fs copy) (Kept Nowhere) (callF N (machineOf H r.module.functions) L d) := by
  intro d
  induction d using Nat.strongRecOn with
  | ind d ih =>
    match d with
    | 0 => exact callsKeep_zero _
    | d + 1 =>
      intro k hk args s hty ha hs
      have ihd := ih d (by omega)
      have hat := hA.at
      rcases hk with hk | ⟨j, hj, rfl⟩ | hk
      · by_cases hko : k ∈ order
        · obtain ⟨j, hj⟩ := List.getElem?_of_mem hko
          obtain ⟨f, hf, _⟩ := mem_applyTargets.1 ((hA.mem k).1 hko)
          obtain ⟨g, hg, hgt, hgp⟩ := hA.own hf
          obtain ⟨hmem, hlk, htr, hcp, hap⟩ := hat.target j k g hj hg
          have hr := applyTarget_refFree hA hj hf
          match d, ih with
          | 0, _ =>
            have := callF_code (N := N) (L := L) htr (c := ⟨[.i32, .i32], applyTrampoline g.type (hooks g.type) fs.length (BitVec.ofNat 32 j) (BitVec.ofNat 32 k)
              (BitVec.ofNat 32 g.type.inputs.length) (BitVec.ofNat 32 g.type.results.length) (codePresent g)⟩) rfl 0 args s H
            rw [this]
            exact shallow_keeps trampoline_calls ha hs
          | d + 1, ih =>
            obtain ⟨l, hl, ok⟩ := hs.lib
            have hargs : args.map RVal.type = f.type.inputs := hty _ (by simp only [ownRealm, htr, Option.map_some, trampolineFunc, hgt])
            obtain ⟨xs, rfl, hxs⟩ := args_nums hargs hr.inputs
            rcases call_intercepted (N := N) (L := L) hA hge hK hsm hlib hj hf ok hl hxs d with ⟨_, l', hrun, _⟩ | ⟨p, q, l1, hP, hans⟩
            · rw [hrun]; trivial
            · have hpf : p + 8 * f.type.slots ≤ l1.free := by
                have h1 := hP.p_eq
                have h2 := hP.alloc.free
                split at h1 <;> omega
              have hq := hadv T (callF N (machineOf H r.module.functions) L d) (fun k hk => ih d (by omega) k (callable_ordinary hA hst hk)) j k f (codePresent f) l l1 xs p q
                (s.setLib l1.store) hf hr (by rw [← hgt]; exact hsm _ hmem) hP (hs.setLib hP.alloc.ok) rfl (by
                  intro s' l' hs' hl' ok' hfree
                  exact resume_keeps hA hcb hsz hK hlib h0 hT (fun d' hd' => ih d' (by omega)) hj hf hs' hl' ok' (by omega))
              cases hc : H analysisModule ge.name (callF N (machineOf H r.module.functions) L d) (applyQuestion j k f.type p q (codePresent f)) (s.setLib l1.store) with
              | trap s2 => rw [hc] at hans; rw [show _ = Res.trap s2 from hans]; trivial
              | fuel => rw [hc] at hans; rw [show _ = Res.fuel from hans]; trivial
              | stuck => rw [hc] at hans; rw [show _ = Res.stuck from hans]; trivial
              | ok vs s2 =>
                rw [hc] at hans hq
                match vs, hans, hq with
                | _ :: _, hans, _ => rw [show _ = Res.stuck from hans]; trivial
                | [], hans, hq =>
                  obtain ⟨_, hs2, hk2⟩ := hq
                  obtain ⟨l2, hl2, ok2, hf2, hli2, hb2⟩ := hk2 l1 rfl hP.alloc.ok
                  rw [show _ = Res.ok _ _ from hans l2 hl2 ok2 hf2]
                  have hle : l.free ≤ l1.free := by have := hP.alloc.free; omega
                  have ok' : (⟨l.free, l2.mem⟩ : Lib).Ok := ⟨by have := ok2.free; dsimp only; omega, ok.free', ok2.pages, ok2.limit⟩
                  refine ⟨in_nums _, hs2.setLib ok', ?_⟩
                  intro l'' hl'' ok''
                  have e : l'' = l := Lib.store_inj ok'' ok (hl''.symm.trans hl)
                  subst e
                  refine ⟨⟨l''.free, l2.mem⟩, rfl, ok', rfl, hli2.trans hP.alloc.limit, fun a ha _ => ?_⟩
                  dsimp only
                  rw [← hP.alloc.below a ha]
                  refine hb2 a (by omega) ?_
                  have h1 := hP.p_eq
                  simp only [InBuffer]
                  split at h1 <;> omega
        · obtain ⟨g, hg⟩ : ∃ g, fs[k]? = some g := ⟨_, List.getElem?_eq_getElem hk⟩
          exact own_keeps hA hcl hre hhost hst ihd (hat.untouched k g hko hg) hg rfl ha hs
      · have ho : order[j]? = some order[j] := List.getElem?_eq_getElem hj
        obtain ⟨f, hf, _⟩ := mem_applyTargets.1 ((hA.mem _).1 (List.mem_of_getElem? ho))
        obtain ⟨g, hg, hgt, hgp⟩ := hA.own hf
        exact own_keeps hA hcl hre hhost hst ihd (hat.target j _ g ho hg).2.2.2.1 hg rfl ha hs
      · cases hf : r.module.functions[k]? with
        | none => simp only [callF, machineOf, hf, Option.map_none]; trivial
        | some f =>
          obtain ⟨c, hc, hpl⟩ := memoryFunctions_plain (hat.last k f hk hf)
          have hlen := hA.length_le
          rw [callF_code hf hc]
          exact runBody_keeps (denFlat_preserves (D := Ordinary order fs copy) (Kept.refl _) Kept.trans (fun k hk => .inl (Nat.lt_of_lt_of_le hk hlen)) (envAt_ftype _ _ _) (by exact ihd) (plain_codeIn hpl)) ha hs

end

end Wastrum
