/-
The stack library in Rust implements the specification of call buffers (C52), given an allocator that keeps its contract.
-/
import Verif.SrcExec

set_option linter.unusedVariables false
set_option linter.unusedSimpArgs false
set_option linter.unusedSectionVars false

namespace Wastrum

/-! ## The contract of the allocator -/

/-- A block of memory handed out. -/
structure Block where
  addr : Nat
  size : Nat
  align : Nat

/-- What the contract of `GlobalAlloc` promises, for an invariant `I` relating the blocks handed out, the state of the allocator and the memory:
blocks are aligned, not null, inside the memory and apart; their contents are left alone; the user may write inside them and return them.
An allocation may fail, returning null. -/
structure AllocatorOk {α : Type} (A : Allocator α) (I : List Block → α → Mem → Prop) : Prop where
  bound : ∀ {L h m}, I L h m → m.size ≤ 2 ^ 32
  block : ∀ {L h m}, I L h m → ∀ b ∈ L, b.addr ≠ 0 ∧ b.addr % b.align = 0 ∧ b.addr < 2 ^ 32 ∧ b.addr + b.size ≤ m.size
  apart : ∀ {L h m}, I L h m → L.Pairwise fun b c => b.size = 0 ∨ c.size = 0 ∨ b.addr + b.size ≤ c.addr ∨ c.addr + c.size ≤ b.addr
  perm : ∀ {L L' h m}, I L h m → L.Perm L' → I L' h m
  write : ∀ {L h m m'}, I L h m → m'.pages = m.pages → m'.limit = m.limit →
    (∀ j, m'.bytes j ≠ m.bytes j → ∃ b ∈ L, b.addr ≤ j ∧ j < b.addr + b.size) → I L h m'
  alloc : ∀ {L h m size align p h' m'}, I L h m → (size = 0 → A.zero = true) → layoutOk size align = true → (align = 4 ∨ align = 8) →
    A.alloc size align h m = (p, h', m') → p = 0 ∨ I (⟨p, size, align⟩ :: L) h' m' ∧ ∀ b ∈ L, ∀ j, b.addr ≤ j → j < b.addr + b.size → m'.bytes j = m.bytes j
  dealloc : ∀ {b L h m h' m'}, I (b :: L) h m → A.dealloc b.addr b.size b.align h m = (h', m') →
    I L h' m' ∧ ∀ b ∈ L, ∀ j, b.addr ≤ j → j < b.addr + b.size → m'.bytes j = m.bytes j

/-! ## Calls of generated functions -/

/-- The names of the functions of `LIB_BOILERPLATE` that are not exported. -/
def rustPrimNames : List String :=
  ["wastrumentation_memory_load", "wastrumentation_memory_store", "stack_allocate_types", "stack_deallocate_types", "stack_allocate_values",
    "stack_deallocate_values", "wastrumentation_stack_store_type", "*ptr.add(offset)"]

theorem generic_head (r a : Nat) (op : StackOp) :
    (tok (genericName r a op)).head? ∈ [some "allocate".toList, some "load".toList, some "store".toList, some "free".toList] := by
  rw [tok_genericName]
  split
  · simp
  · cases op <;> simp [StackOp.toks]

theorem rustPrimNames_head : ∀ n ∈ rustPrimNames, (tok n).head? ∉ [some "allocate".toList, some "load".toList, some "store".toList, some "free".toList] := by
  decide +kernel

section
variable {α : Type} {A : Allocator α} {junk : Mem → Nat → Nat} {sigs : List FuncType}

theorem rustPrim_none {name : String} (h : name ∉ rustPrimNames) (ts : List String) (args : List SVal) (s : RState α) : rustPrim A junk name ts args s = none := by
  unfold rustPrim
  split <;> first
    | rfl
    | exact absurd (by decide) h

/-- Functions, at most `d` deep. -/
abbrev rustFn (A : Allocator α) (junk : Mem → Nat → Nat) (sigs : List FuncType) (d : Nat) : SCall (RState α) := srcCall (rustPrim A junk) (rustLib sigs) d

theorem rust_generic {t : FuncType} (ht : t ∈ sigs) {f : SFn} (hf : f ∈ rustGeneric t.results.length t.inputs.length) (d : Nat) (args : List SVal) (s : RState α) :
    rustFn A junk sigs (d + 1) f.name [] args s = f.run (rustFn A junk sigs d) [] args s := by
  refine srcCall_fn (rustPrim_none ?_ _ _ _) (rustGen.nodup sigs) (rustGen.mem_generic ht hf)
  intro hm
  have h1 := rustPrimNames_head _ hm
  have h2 : f.name ∈ (rustGeneric t.results.length t.inputs.length).map SFn.name := List.mem_map_of_mem hf
  rw [rustGen.genericNames] at h2
  obtain ⟨op, _, e⟩ := List.mem_map.1 h2
  rw [← e] at h1
  exact h1 (generic_head _ _ op)

theorem rust_special {t : FuncType} (ht : t ∈ sigs) {f : SFn} (hf : f ∈ rustSpecial t) (he : f.exported = true) (args : List Val) (s : RState α) :
    rustCall A junk sigs f.name args s = f.run (rustFn A junk sigs 4) [] (args.map .num) s :=
  exportCall_fn (rustGen.nodup sigs) (rustGen.mem_special ht hf) he

theorem rust_boiler {f : SFn} (hf : f ∈ rustBoilerplate) (he : f.exported = true) (args : List Val) (s : RState α) :
    rustCall A junk sigs f.name args s = f.run (rustFn A junk sigs 4) [] (args.map .num) s :=
  exportCall_fn (rustGen.nodup sigs) (List.mem_append_left _ hf) he

/-! ## Membership -/

theorem rustLoadGeneric_mem {t : FuncType} {side : Side} {i : Nat} (h : i < (t.side side).length) :
    rustLoadGeneric t.results.length t.inputs.length side i ∈ rustGeneric t.results.length t.inputs.length := by
  cases side <;> simp only [rustGeneric, List.mem_append, List.mem_map, List.mem_range, FuncType.side] at h ⊢
  · exact .inl (.inl (.inr (.inr ⟨i, h, rfl⟩)))
  · exact .inl (.inl (.inr (.inl ⟨i, h, rfl⟩)))

theorem rustStoreGeneric_mem {t : FuncType} {side : Side} {i : Nat} (h : i < (t.side side).length) :
    rustStoreGeneric t.results.length t.inputs.length side i ∈ rustGeneric t.results.length t.inputs.length := by
  cases side <;> simp only [rustGeneric, List.mem_append, List.mem_map, List.mem_range, FuncType.side] at h ⊢
  · exact .inl (.inr (.inr ⟨i, h, rfl⟩))
  · exact .inl (.inr (.inl ⟨i, h, rfl⟩))

theorem mapIdx_mem {β γ : Type} (f : Nat → β → γ) {l : List β} {i : Nat} {v : β} (h : l[i]? = some v) : f i v ∈ l.mapIdx f := by
  refine List.mem_of_getElem? (i := i) ?_
  rw [List.getElem?_mapIdx, h]; rfl

theorem rustLoad_mem {t : FuncType} {side : Side} {i : Nat} {v : ValType} (h : (t.side side)[i]? = some v) : rustLoad t side i v ∈ rustSpecial t := by
  cases side <;> simp only [rustSpecial, List.mem_append, FuncType.side] at h ⊢
  · exact .inl (.inl (.inr (.inr (mapIdx_mem (rustLoad t .ret) h))))
  · exact .inl (.inl (.inr (.inl (mapIdx_mem (rustLoad t .arg) h))))

theorem rustStore_mem {t : FuncType} {side : Side} {i : Nat} {v : ValType} (h : (t.side side)[i]? = some v) : rustStore t side i v ∈ rustSpecial t := by
  cases side <;> simp only [rustSpecial, List.mem_append, FuncType.side] at h ⊢
  · exact .inl (.inr (.inr (mapIdx_mem (rustStore t .ret) h)))
  · exact .inl (.inr (.inl (mapIdx_mem (rustStore t .arg) h)))

theorem slotIndex_eq (t : FuncType) (side : Side) (i : Nat) : slotIndex t.results.length side i = slotOf t side i := by cases side <;> rfl

/-! ## Memory -/

theorem prim_load {d : Nat} {p : BitVec 32} {k : Nat} (hk : k < 2 ^ 32) {s : RState α} (h : derefable s.mem p.toNat k 8 = true) :
    rustFn A junk sigs (d + 1) "wastrumentation_memory_load" [] [.num (.i32 p), .num (.i32 (BitVec.ofNat 32 k))] s =
      .ok (.union (s.mem.word (p.toNat + 8 * k) 8) 8) s := by
  rw [rustFn, srcCall_prim rfl, ofNat_toNat32 hk, if_pos h]

/-- The union holding a number. -/
def Val.union (v : Val) : SVal := .union v.bits v.width

theorem construct_eq (v : Val) : construct (rustConstructor v.type) (.num v) = some v.union := by
  cases v <;> rfl

theorem Wrote.union (m : Mem) (a : Nat) (v : Val) : Wrote m (putUnion junk m a v.bits v.width) a [v] := by
  by_cases hw : v.width = 8
  · have := Wrote.one m a v
    rw [hw] at this
    rw [putUnion, if_pos hw]; exact this
  · have hw4 : v.width = 4 := by cases v <;> simp [Val.width] at hw ⊢
    have := Wrote.one m a v
    rw [putUnion, if_neg hw]
    rw [hw4] at this
    refine ⟨rfl, rfl, fun j hj => ?_, fun i w e => ?_⟩
    · simp only [List.length_cons, List.length_nil] at hj
      rw [Mem.put_bytes _ _ _ _ _ (by omega), Mem.put_bytes _ _ _ _ _ (by omega)]
    · have h0 : i = 0 := by have := (List.getElem?_eq_some_iff.1 e).1; simpa using this
      subst h0
      simp only [List.getElem?_cons_zero, Option.some.injEq] at e
      subst e
      refine Mem.holds_of_word ?_
      rw [show a + 8 * 0 = a from rfl, hw4, Mem.word_congr (m := m.put a 4 v.bits) (fun j h1 h2 => Mem.put_bytes _ _ _ _ _ (by omega)), Mem.put_word]
      exact hw4 ▸ v.bits_lt_width

theorem prim_store {d : Nat} {p : BitVec 32} {k : Nat} (hk : k < 2 ^ 32) {s : RState α} (v : Val) (h : derefable s.mem p.toNat k 8 = true) :
    ∃ m', rustFn A junk sigs (d + 1) "wastrumentation_memory_store" [] [.num (.i32 p), v.union, .num (.i32 (BitVec.ofNat 32 k))] s =
      .ok .unit ⟨s.heap, m'⟩ ∧ Wrote s.mem m' (p.toNat + 8 * k) [v] := by
  refine ⟨_, ?_, Wrote.union (junk := junk) s.mem (p.toNat + 8 * k) v⟩
  rw [rustFn, Val.union, srcCall_prim rfl, ofNat_toNat32 hk, if_pos h]

/-! ## Loads and stores -/

theorem project_ofBits {σ : Type} (v : ValType) (hv : ∀ r, v ≠ .ref r) (x : Nat) (s : σ) : project (rustAccessor v) (.union x 8) s = .ok (.num (v.ofBits x)) s := by
  cases v with
  | ref r => exact absurd rfl (hv r)
  | _ => rfl

theorem rust_load {t : FuncType} (ht : t ∈ sigs) {side : Side} {i : Nat} {v : ValType} (hi : (t.side side)[i]? = some v) (hv : ∀ r, v ≠ .ref r) {p : BitVec 32}
    {s : RState α} (hk : slotOf t side i < 2 ^ 32) (h : derefable s.mem p.toNat (slotOf t side i) 8 = true) :
    rustCall A junk sigs (loadName t side i) [.i32 p] s = .ok (.num (v.ofBits (s.mem.word (p.toNat + 8 * slotOf t side i) 8))) s := by
  have hlt := (List.getElem?_eq_some_iff.1 hi).1
  have h1 : rustFn A junk sigs 4 ("load_" ++ side.asStr ++ i.repr ++ "_" ++ countName t.results.length t.inputs.length) [] [.num (.i32 p)] s =
      .ok (.union (s.mem.word (p.toNat + 8 * slotOf t side i) 8) 8) s := by
    rw [show ("load_" ++ side.asStr ++ i.repr ++ "_" ++ countName t.results.length t.inputs.length) =
      (rustLoadGeneric t.results.length t.inputs.length side i).name from rfl, rust_generic ht (rustLoadGeneric_mem hlt)]
    simp only [SFn.run, rustLoadGeneric, List.length_nil, List.length_cons, List.map_cons, List.map_nil, List.zip_cons_cons, List.zip_nil_left, and_self, if_true,
      runStmts, SExpr.eval, evalAtoms, SAtom.eval, List.lookup_cons, BEq.rfl, slotIndex_eq]
    exact prim_load hk h
  rw [show loadName t side i = (rustLoad t side i v).name from rfl, rust_special ht (rustLoad_mem hi) rfl]
  simp only [SFn.run, rustLoad, List.length_nil, List.length_cons, List.map_cons, List.map_nil, List.zip_cons_cons, List.zip_nil_left, and_self, if_true,
    runStmts, SExpr.eval, evalAtoms, SAtom.eval, List.lookup_cons, BEq.rfl, h1, project_ofBits v hv]

theorem rust_store {t : FuncType} (ht : t ∈ sigs) {side : Side} {i : Nat} {v : Val} (hi : (t.side side)[i]? = some v.type) {p : BitVec 32}
    {s : RState α} (hk : slotOf t side i < 2 ^ 32) (h : derefable s.mem p.toNat (slotOf t side i) 8 = true) :
    ∃ m', rustCall A junk sigs (storeName t side i) [.i32 p, v] s = .ok .unit ⟨s.heap, m'⟩ ∧ Wrote s.mem m' (p.toNat + 8 * slotOf t side i) [v] := by
  have hlt := (List.getElem?_eq_some_iff.1 hi).1
  obtain ⟨m', e, hw⟩ := prim_store (A := A) (junk := junk) (sigs := sigs) (d := 2) hk v h
  have hvar : ("stack_ptr" == valueVar side i) = false ∧ (valueVar side i == "stack_ptr") = false := by
    have : valueVar side i ≠ "stack_ptr" := by
      cases side <;> intro e <;> have := congrArg (fun s => s.toList.head?) e <;> simp [valueVar] at this
    exact ⟨by rw [beq_eq_false_iff_ne]; exact this.symm, by rw [beq_eq_false_iff_ne]; exact this⟩
  have h1 : rustFn A junk sigs 4 ("store_" ++ side.asStr ++ i.repr ++ "_" ++ countName t.results.length t.inputs.length) [] [.num (.i32 p), v.union] s =
      .ok .unit ⟨s.heap, m'⟩ := by
    rw [show ("store_" ++ side.asStr ++ i.repr ++ "_" ++ countName t.results.length t.inputs.length) =
      (rustStoreGeneric t.results.length t.inputs.length side i).name from rfl, rust_generic ht (rustStoreGeneric_mem hlt)]
    simp only [SFn.run, rustStoreGeneric, List.length_nil, List.length_cons, List.map_cons, List.map_nil, List.zip_cons_cons, List.zip_nil_left, and_self, if_true,
      runStmts, SExpr.eval, evalAtoms, SAtom.eval, List.lookup_cons, BEq.rfl, slotIndex_eq, hvar.1, hvar.2, Bool.false_eq_true, if_false, e]
  refine ⟨m', ?_, hw⟩
  have hvar' : (argVar i == "stack_ptr") = false := argVar_ne (by decide) i
  rw [show storeName t side i = (rustStore t side i v.type).name from rfl, rust_special ht (rustStore_mem hi) rfl]
  simp only [SFn.run, rustStore, List.length_nil, List.length_cons, List.map_cons, List.map_nil, List.zip_cons_cons, List.zip_nil_left, and_self, if_true,
    runStmts, SExpr.eval, evalAtoms, SAtom.eval, List.lookup_cons, BEq.rfl, hvar', Bool.false_eq_true, if_false, Option.bind_some, construct_eq, h1]

/-! ## Several values -/

theorem names_mapIdx (l : List ValType) : (l.mapIdx fun i v => (argVar i, v.asStr)).map Prod.fst = (List.range' 0 l.length).map argVar := by
  rw [map_mapIdx']
  apply List.ext_getElem?
  intro i
  simp only [List.getElem?_mapIdx, List.getElem?_map, List.getElem?_range']
  by_cases h : i < l.length
  · simp [h]
  · simp [h]

theorem names_range (n : Nat) (ty : String) : ((List.range n).map fun i => (argVar i, ty)).map Prod.fst = (List.range' 0 n).map argVar := by
  rw [List.map_map, List.range_eq_range']; rfl

/-- The constructors applied to the parameters. -/
theorem eval_constructors {env : List (String × SVal)} {vs : List Val} (h : ∀ i v, vs[i]? = some v → env.lookup (argVar i) = some (.num v)) :
    evalAtoms env ((vs.map Val.type).mapIdx fun i ty => .new (rustConstructor ty) (argVar i)) = some (vs.map Val.union) := by
  refine evalAtoms_of (by simp) fun i a ha => ?_
  simp only [List.getElem?_mapIdx, List.getElem?_map, Option.map_map, Option.map_eq_some_iff, Function.comp_apply] at ha
  obtain ⟨v, hv, rfl⟩ := ha
  exact ⟨v.union, by simp [hv], by simp only [SAtom.eval, h i v hv, Option.bind_some, construct_eq]⟩

theorem lookup_args' {xs : List SVal} {n : Nat} (hn : n = xs.length) {i : Nat} {x : SVal} (h : xs[i]? = some x) :
    (((List.range' 0 n).map argVar).zip xs).lookup (argVar i) = some x := by
  subst hn
  have := lookup_args xs 0 i
  rw [Nat.zero_add] at this
  rw [this, h]

theorem derefable_of {m : Mem} {p k n w : Nat} (h0 : p ≠ 0) (hp : p % w = 0) (hk : k < n) (hs : p + w * n ≤ m.size) : derefable m p k w = true := by
  have : w * k + w ≤ w * n := by rw [← Nat.mul_succ]; exact Nat.mul_le_mul_left _ hk
  simp only [derefable, Bool.and_eq_true, bne_iff_ne, ne_eq, h0, not_false_eq_true, beq_iff_eq, hp, decide_eq_true_eq, and_self, true_and]
  omega

theorem map_run {γ : Type} (l : List γ) (f : γ → SExpr) : (l.map fun n => SStmt.run (f n)) = (l.map f).map .run := by
  rw [List.map_map]; rfl

theorem range_get {n i x : Nat} (h : (List.range n)[i]? = some x) : x = i ∧ i < n := by
  obtain ⟨h1, h2⟩ := List.getElem?_eq_some_iff.1 h
  simp at h1 h2
  exact ⟨h2.symm, h1⟩

theorem rust_storeRets {t : FuncType} (ht : t ∈ sigs) {vs : List Val} (hvs : vs.map Val.type = t.results) {p : BitVec 32} {s : RState α} (hlen : t.slots < 2 ^ 32)
    (h0 : t.slots ≠ 0 → p.toNat ≠ 0 ∧ p.toNat % 8 = 0 ∧ p.toNat + 8 * t.slots ≤ s.mem.size) :
    ∃ m', rustCall A junk sigs (storeRetsName t) (.i32 p :: vs) s = .ok .unit ⟨s.heap, m'⟩ ∧ Wrote s.mem m' p.toNat vs := by
  have hl := mapTypes hvs
  simp only [FuncType.slots] at hlen h0
  have h1 : ∃ m', rustFn A junk sigs 4 ("store_rets_" ++ countName t.results.length t.inputs.length) [] (.num (.i32 p) :: vs.map Val.union) s =
      .ok .unit ⟨s.heap, m'⟩ ∧ Wrote s.mem m' p.toNat vs := by
    rw [show ("store_rets_" ++ countName t.results.length t.inputs.length) = (rustStoreRetsGeneric t.results.length t.inputs.length).name from rfl,
      rust_generic ht (by simp [rustGeneric])]
    have hrun := runStmts_stages (call := rustFn A junk sigs 3) (tenv := List.zip [] [])
      (env := ((if t.results.length = 0 then "_stack_ptr" else "stack_ptr"), .num (.i32 p)) :: ((List.range' 0 t.results.length).map argVar).zip (vs.map Val.union))
      (fun i s' => s'.heap = s.heap ∧ Wrote s.mem s'.mem p.toNat (vs.take i))
      ((List.range t.results.length).map fun n => .call ("store_ret" ++ n.repr ++ "_" ++ countName t.results.length t.inputs.length) [] [.var "stack_ptr", .var (argVar n)])
      0 s (fun i e s' he hP => ?_) ⟨rfl, by simpa using Wrote.nil s.mem p.toNat⟩
    · obtain ⟨s', e, hh, hw⟩ := hrun
      refine ⟨s'.mem, ?_, by simpa [List.take_of_length_le (Nat.le_of_eq hl)] using hw⟩
      rw [SFn.run, if_pos ⟨rfl, by simp [rustStoreRetsGeneric, hl]⟩]
      simp only [rustStoreRetsGeneric, List.map_cons, names_range, List.zip_cons_cons]
      rw [map_run, e, ← hh]
    · simp only [List.getElem?_map, Option.map_eq_some_iff] at he
      obtain ⟨n, hn, rfl⟩ := he
      have hi := range_get hn
      obtain ⟨rfl, hi⟩ := hi
      rw [Nat.zero_add] at hP ⊢
      obtain ⟨hh, hw⟩ := hP
      have hv : vs[n]? = some vs[n] := List.getElem?_eq_getElem (by omega)
      have hne : t.results.length ≠ 0 := by omega
      obtain ⟨h0, hp, hin⟩ := h0 (by omega)
      obtain ⟨m', e, hw'⟩ := prim_store (A := A) (junk := junk) (sigs := sigs) (d := 1) (p := p) (k := n) (s := s') (by omega) vs[n]
        (derefable_of (n := n + 1) h0 hp (by omega) (by rw [hw.size]; omega))
      refine ⟨.unit, ⟨s'.heap, m'⟩, ?_, hh, ?_⟩
      · have hx : (argVar n == "stack_ptr") = false := argVar_ne (by decide) n
        simp only [SExpr.eval, evalAtoms, SAtom.eval, hne, if_false, List.lookup_cons, BEq.rfl, hx, List.map_nil]
        rw [lookup_args' (x := vs[n].union) (by simp [hl]) (by simp [hv])]
        dsimp only
        rw [show ("store_ret" ++ n.repr ++ "_" ++ countName t.results.length t.inputs.length) =
            (rustStoreGeneric t.results.length t.inputs.length .ret n).name from by
          simp only [rustStoreGeneric, Side.asStr]; rw [show "store_" ++ "ret" = "store_ret" from rfl],
          rust_generic ht (rustStoreGeneric_mem (side := .ret) hi)]
        have hvar : ("stack_ptr" == valueVar .ret n) = false ∧ (valueVar .ret n == "stack_ptr") = false := by
          have : valueVar .ret n ≠ "stack_ptr" := by
            intro e; have := congrArg (fun s => s.toList.head?) e; simp [valueVar] at this
          exact ⟨by rw [beq_eq_false_iff_ne]; exact this.symm, by rw [beq_eq_false_iff_ne]; exact this⟩
        simp only [SFn.run, rustStoreGeneric, List.length_nil, List.length_cons, List.map_cons, List.map_nil, List.zip_cons_cons, List.zip_nil_left, and_self, if_true,
          runStmts, SExpr.eval, evalAtoms, SAtom.eval, List.lookup_cons, BEq.rfl, slotIndex, hvar.1, hvar.2, Bool.false_eq_true, if_false, e]
      · dsimp only
        rw [take_succ_of_get hv]
        exact hw.snoc (by rw [List.length_take, Nat.min_eq_left (by omega)]; exact hw')
  obtain ⟨m', e, hw⟩ := h1
  refine ⟨m', ?_, hw⟩
  rw [show storeRetsName t = (rustStoreRets t).name from rfl, rust_special ht (by simp [rustSpecial]) rfl, SFn.run,
    if_pos ⟨rfl, by simp [rustStoreRets, hl]⟩]
  simp only [rustStoreRets, List.map_cons, names_mapIdx, List.zip_cons_cons, runStmts, SExpr.eval, evalAtoms, SAtom.eval, List.lookup_cons, BEq.rfl, List.map_nil]
  rw [← hvs, eval_constructors (vs := vs)]
  · rw [hvs]; simp only [e]
  · intro i v hv
    have hx : (argVar i == "stack_ptr") = false := argVar_ne (by decide) i
    rw [List.lookup_cons, hx]
    exact lookup_args' (x := .num v) (by simp) (by simp [hv])

/-! ## Allocation -/

theorem prim_allocate_values {d n : Nat} (hn : n ≠ 0) (hb : n < 8192) {s : RState α} {p : Nat} {h' : α} {m' : Mem} (hA : A.alloc (8 * n) 8 s.heap s.mem = (p, h', m')) :
    rustFn A junk sigs (d + 1) "stack_allocate_values" [] [.num (.i32 (BitVec.ofNat 32 n))] s = .ok (.num (.i32 (BitVec.ofNat 32 p))) ⟨h', m'⟩ := by
  have hl : layoutOk (n * 8) 8 = true := by simp [layoutOk]; omega
  have hc : ¬ (n * 8 = 0 ∧ A.zero = false ∨ layoutOk (n * 8) 8 = false) := by rw [hl]; simp; omega
  rw [rustFn, srcCall_prim rfl, ofNat_toNat32 (by omega), if_neg hc, Nat.mul_comm n 8, hA]

theorem prim_allocate_types {d n : Nat} (hn : n = 0 → A.zero = true) (hb : n < 8192) {s : RState α} {p : Nat} {h' : α} {m' : Mem}
    (hA : A.alloc (4 * n) 4 s.heap s.mem = (p, h', m')) :
    rustFn A junk sigs (d + 1) "stack_allocate_types" [] [.num (.i32 (BitVec.ofNat 32 n))] s = .ok (.num (.i32 (BitVec.ofNat 32 p))) ⟨h', m'⟩ := by
  have hl : layoutOk (4 * n) 4 = true := by simp [layoutOk]; omega
  have hc : ¬ (4 * n = 0 ∧ A.zero = false ∨ layoutOk (4 * n) 4 = false) := by
    rw [hl]; rintro (⟨h1, h2⟩ | h)
    · rw [hn (by omega)] at h2; cases h2
    · cases h
  rw [rustFn, srcCall_prim rfl, ofNat_toNat32 (by omega), if_neg hc, hA]

theorem rust_allocate {t : FuncType} (ht : t ∈ sigs) {args : List Val} (hargs : args.map Val.type = t.inputs) (hn : t.slots ≠ 0) (hb : t.slots < 8192) {s : RState α}
    {p : Nat} {h' : α} {m' : Mem} (hA : A.alloc (8 * t.slots) 8 s.heap s.mem = (p, h', m')) (h0 : p ≠ 0) (hp : p % 8 = 0) (hp' : p < 2 ^ 32)
    (hin : p + 8 * t.slots ≤ m'.size) :
    ∃ m'', rustCall A junk sigs (allocateValuesName t) args s = .ok (.num (.i32 (BitVec.ofNat 32 p))) ⟨h', m''⟩ ∧ Wrote m' m'' (p + 8 * t.results.length) args := by
  have hl := mapTypes hargs
  have hpn : (BitVec.ofNat 32 p).toNat = p := ofNat_toNat32 hp'
  have h1 : ∃ m'', rustFn A junk sigs 4 ("allocate_" ++ countName t.results.length t.inputs.length) [] (args.map Val.union) s =
      .ok (.num (.i32 (BitVec.ofNat 32 p))) ⟨h', m''⟩ ∧ Wrote m' m'' (p + 8 * t.results.length) args := by
    have hP := prim_allocate_values (A := A) (junk := junk) (sigs := sigs) (d := 2) hn hb hA
    simp only [FuncType.slots] at hn hb hin hP
    have hf : rustAllocateGeneric t.results.length t.inputs.length = ⟨false, "allocate_" ++ countName t.results.length t.inputs.length, [],
        (List.range t.inputs.length).map (fun n => (argVar n, "WasmValue")), "usize",
        .bind "frame_ptr" (.call "stack_allocate_values" [] [.int (t.results.length + t.inputs.length)]) ::
          (List.range t.inputs.length).map (fun n => .run (.call "wastrumentation_memory_store" [] [.var "frame_ptr", .var (argVar n), .int (t.results.length + n)])),
        some (.atom (.var "frame_ptr"))⟩ := by rw [rustAllocateGeneric, if_neg hn]
    rw [show ("allocate_" ++ countName t.results.length t.inputs.length) = (rustAllocateGeneric t.results.length t.inputs.length).name from by rw [hf],
      rust_generic ht (by simp [rustGeneric]), hf]
    have hrun := runStmts_stages (call := rustFn A junk sigs 3) (tenv := List.zip [] [])
      (env := ("frame_ptr", .num (.i32 (BitVec.ofNat 32 p))) :: ((List.range' 0 t.inputs.length).map argVar).zip (args.map Val.union))
      (fun i s' => s'.heap = h' ∧ Wrote m' s'.mem (p + 8 * t.results.length) (args.take i))
      ((List.range t.inputs.length).map fun n => .call "wastrumentation_memory_store" [] [.var "frame_ptr", .var (argVar n), .int (t.results.length + n)])
      0 ⟨h', m'⟩ (fun i e s' he hP => ?_) ⟨rfl, by simpa using Wrote.nil m' _⟩
    · obtain ⟨s', e, hh, hw⟩ := hrun
      refine ⟨s'.mem, ?_, by simpa [List.take_of_length_le (Nat.le_of_eq hl)] using hw⟩
      rw [SFn.run, if_pos ⟨rfl, by simp [hl]⟩]
      simp only [names_range, runStmts, SExpr.eval, evalAtoms, SAtom.eval, List.map_nil, hP]
      rw [map_run, e, ← hh]
      simp only [List.lookup_cons, BEq.rfl]
    · simp only [List.getElem?_map, Option.map_eq_some_iff] at he
      obtain ⟨n, hn', rfl⟩ := he
      obtain ⟨rfl, hi⟩ := range_get hn'
      rw [Nat.zero_add] at hP ⊢
      obtain ⟨hh, hw⟩ := hP
      have hv : args[n]? = some args[n] := List.getElem?_eq_getElem (by omega)
      obtain ⟨m'', e, hw'⟩ := prim_store (A := A) (junk := junk) (sigs := sigs) (d := 2) (p := BitVec.ofNat 32 p) (k := t.results.length + n) (s := s') (by omega) args[n]
        (derefable_of (n := t.results.length + t.inputs.length) (by rw [hpn]; exact h0) (by rw [hpn]; exact hp) (by omega) (by rw [hw.size, hpn]; omega))
      refine ⟨.unit, ⟨s'.heap, m''⟩, ?_, hh, ?_⟩
      · have hx : (argVar n == "frame_ptr") = false := argVar_ne (by decide) n
        simp only [SExpr.eval, evalAtoms, SAtom.eval, List.lookup_cons, BEq.rfl, hx, List.map_nil]
        rw [lookup_args' (x := args[n].union) (by simp [hl]) (by simp [hv])]
        exact e
      · dsimp only
        rw [take_succ_of_get hv]
        refine hw.snoc ?_
        rw [List.length_take, Nat.min_eq_left (by omega)]
        rw [hpn, Nat.mul_add, ← Nat.add_assoc] at hw'; exact hw'
  obtain ⟨m'', e, hw⟩ := h1
  refine ⟨m'', ?_, hw⟩
  rw [show allocateValuesName t = (rustAllocate t).name from rfl, rust_special ht (by simp [rustSpecial]) rfl, SFn.run,
    if_pos ⟨rfl, by simp [rustAllocate, hl]⟩]
  simp only [rustAllocate, names_mapIdx, runStmts, SExpr.eval, List.map_nil]
  rw [← hargs, eval_constructors (vs := args)]
  · rw [hargs]; simp only [e]
  · intro i v hv
    exact lookup_args' (x := .num v) (by simp) (by simp [hv])

theorem rust_allocate_none {t : FuncType} (ht : t ∈ sigs) (hn : t.slots = 0) (s : RState α) :
    rustCall A junk sigs (allocateValuesName t) [] s = .ok (.num (.i32 0)) s := by
  simp only [FuncType.slots] at hn
  have hi : t.inputs = [] := List.length_eq_zero_iff.1 (by omega)
  have h1 : rustFn A junk sigs 4 ("allocate_" ++ countName t.results.length t.inputs.length) [] [] s = .ok (.num (.i32 0)) s := by
    have hf : rustAllocateGeneric t.results.length t.inputs.length =
        ⟨false, "allocate_" ++ countName t.results.length t.inputs.length, [], [], "usize", [], some (.atom (.int 0))⟩ := by rw [rustAllocateGeneric, if_pos hn]
    rw [show ("allocate_" ++ countName t.results.length t.inputs.length) = (rustAllocateGeneric t.results.length t.inputs.length).name from by rw [hf],
      rust_generic ht (by simp [rustGeneric]), hf]
    rfl
  rw [show allocateValuesName t = (rustAllocate t).name from rfl, rust_special ht (by simp [rustSpecial]) rfl, SFn.run,
    if_pos ⟨rfl, by simp [rustAllocate, hi]⟩]
  simp only [rustAllocate, hi, List.mapIdx_nil, List.map_nil, List.zip_nil_left, runStmts, SExpr.eval, evalAtoms]
  rw [← hi, h1]

/-- The variants have the values of the type codes. -/
theorem variantValue_eq (v : ValType) : variantValue v.runtimeEnumVariant = some v.runtimeEnumValue := by
  cases v with
  | ref r => cases r <;> rfl
  | _ => rfl

theorem rust_allocate_types {t : FuncType} (ht : t ∈ sigs) (hz : t.slots = 0 → A.zero = true) (hb : t.slots < 8192) {s : RState α}
    {p : Nat} {h' : α} {m' : Mem} (hA : A.alloc (4 * t.slots) 4 s.heap s.mem = (p, h', m')) (h0 : p ≠ 0) (hp : p % 4 = 0) (hp' : p < 2 ^ 32)
    (hin : p + 4 * t.slots ≤ m'.size) :
    rustCall A junk sigs (allocateTypesName t) [] s = .ok (.num (.i32 (BitVec.ofNat 32 p))) ⟨h', m'.puts p 4 (typeCodes t)⟩ := by
  have hpn : (BitVec.ofNat 32 p).toNat = p := ofNat_toNat32 hp'
  have hlen : (t.results ++ t.inputs).length = t.slots := by simp [FuncType.slots]
  have h1 : rustFn A junk sigs 4 ("allocate_signature_types_buffer_" ++ countName t.results.length t.inputs.length) [] [] s = .ok (.num (.i32 (BitVec.ofNat 32 p))) ⟨h', m'⟩ := by
    rw [show ("allocate_signature_types_buffer_" ++ countName t.results.length t.inputs.length) = (rustAllocateTypesGeneric t.results.length t.inputs.length).name from rfl,
      rust_generic ht (by simp [rustGeneric])]
    have hP := prim_allocate_types (A := A) (junk := junk) (sigs := sigs) (d := 2) hz hb hA
    rw [SFn.run, if_pos ⟨rfl, rfl⟩]
    simp only [rustAllocateTypesGeneric, List.map_nil, List.zip_nil_left, runStmts, SExpr.eval, evalAtoms, SAtom.eval]
    exact hP
  rw [show allocateTypesName t = (rustAllocateTypes t).name from rfl, rust_special ht (by simp [rustSpecial]) rfl, SFn.run,
    if_pos ⟨rfl, rfl⟩]
  have hrun := runStmts_stages (call := rustFn A junk sigs 4) (tenv := []) (env := [("types_buffer", .num (.i32 (BitVec.ofNat 32 p)))])
    (fun i s' => s' = ⟨h', m'.puts p 4 ((typeCodes t).take i)⟩)
    ((t.results ++ t.inputs).mapIdx fun i v => .call "wastrumentation_stack_store_type" [] [.var "types_buffer", .int i, .variant v.runtimeEnumVariant])
    0 ⟨h', m'⟩ (fun i e s' he hP => ?_) (by simp [Mem.puts])
  · obtain ⟨s', e, rfl⟩ := hrun
    simp only [rustAllocateTypes, List.map_nil, List.zip_nil_left, runStmts, SExpr.eval, evalAtoms, h1]
    rw [show (List.mapIdx (fun i v => SStmt.run (.call "wastrumentation_stack_store_type" [] [.var "types_buffer", .int i, .variant v.runtimeEnumVariant]))
        (t.results ++ t.inputs)) = ((t.results ++ t.inputs).mapIdx fun i v => .call "wastrumentation_stack_store_type" [] [.var "types_buffer", .int i, .variant v.runtimeEnumVariant]).map .run from
        (map_mapIdx' _ _ _).symm]
    rw [e]
    simp only [SAtom.eval, List.lookup_cons, BEq.rfl]
    rw [List.take_of_length_le (by simp [typeCodes])]
  · simp only [List.getElem?_mapIdx, Option.map_eq_some_iff] at he
    obtain ⟨v, hv, rfl⟩ := he
    have hi := (List.getElem?_eq_some_iff.1 hv).1
    rw [hlen] at hi
    rw [Nat.zero_add] at hP ⊢
    subst hP
    refine ⟨.unit, _, ?_, rfl⟩
    simp only [SExpr.eval, evalAtoms, SAtom.eval, List.lookup_cons, BEq.rfl, variantValue_eq, Option.map_some, List.map_nil]
    have hd : derefable (m'.puts p 4 ((typeCodes t).take i)) p i 4 = true :=
      derefable_of (n := t.slots) h0 hp hi (by rw [Mem.puts_size]; exact hin)
    have hv4 := runtimeEnumValue_le v
    rw [rustFn, srcCall_prim rfl, hpn, ofNat_toNat32 (by omega), if_pos hd, ofNat_toNat32 (by omega)]
    have htake : (typeCodes t).take (i + 1) = (typeCodes t).take i ++ [v.runtimeEnumValue] := by
      rw [List.take_add_one, show (typeCodes t)[i]? = some v.runtimeEnumValue by simp only [typeCodes, List.getElem?_map, hv, Option.map_some]]; rfl
    rw [htake, Mem.puts_append, List.length_take, Nat.min_eq_left (by simp only [typeCodes, List.length_map, hlen]; omega)]
    rfl

/-! ## Release -/

theorem prim_free_values {d n : Nat} (hn : n ≠ 0) (hb : n < 8192) {s : RState α} {p : BitVec 32} {h' : α} {m' : Mem} (hA : A.dealloc p.toNat (8 * n) 8 s.heap s.mem = (h', m')) :
    rustFn A junk sigs (d + 1) "stack_deallocate_values" [] [.num (.i32 p), .num (.i32 (BitVec.ofNat 32 n))] s = .ok .unit ⟨h', m'⟩ := by
  have hl : layoutOk (n * 8) 8 = true := by simp [layoutOk]; omega
  have hc : ¬ (n * 8 = 0 ∧ A.zero = false ∨ layoutOk (n * 8) 8 = false) := by rw [hl]; simp; omega
  rw [rustFn, srcCall_prim rfl, ofNat_toNat32 (by omega), if_neg hc, Nat.mul_comm n 8, hA]

theorem prim_free_types {d n : Nat} (hn : n = 0 → A.zero = true) (hb : n < 8192) {s : RState α} {p : BitVec 32} {h' : α} {m' : Mem}
    (hA : A.dealloc p.toNat (4 * n) 4 s.heap s.mem = (h', m')) :
    rustFn A junk sigs (d + 1) "stack_deallocate_types" [] [.num (.i32 p), .num (.i32 (BitVec.ofNat 32 n))] s = .ok .unit ⟨h', m'⟩ := by
  have hl : layoutOk (4 * n) 4 = true := by simp [layoutOk]; omega
  have hc : ¬ (4 * n = 0 ∧ A.zero = false ∨ layoutOk (4 * n) 4 = false) := by
    rw [hl]; rintro (⟨h1, h2⟩ | h)
    · rw [hn (by omega)] at h2; cases h2
    · cases h
  rw [rustFn, srcCall_prim rfl, ofNat_toNat32 (by omega), if_neg hc, hA]

theorem rust_free_values {t : FuncType} (ht : t ∈ sigs) (hn : t.slots ≠ 0) (hb : t.slots < 8192) {s : RState α} {p : BitVec 32} {h' : α} {m' : Mem}
    (hA : A.dealloc p.toNat (8 * t.slots) 8 s.heap s.mem = (h', m')) :
    rustCall A junk sigs (freeValuesName t) [.i32 p] s = .ok .unit ⟨h', m'⟩ := by
  have hP := prim_free_values (A := A) (junk := junk) (sigs := sigs) (d := 2) hn hb hA
  simp only [FuncType.slots] at hn hP
  have hf : rustFreeValuesGeneric t.results.length t.inputs.length = ⟨false, "free_values_" ++ countName t.results.length t.inputs.length, [], [("ptr", "usize")], "()",
      [.run (.call "stack_deallocate_values" [] [.var "ptr", .int (t.results.length + t.inputs.length)])], none⟩ := by rw [rustFreeValuesGeneric, if_neg hn]
  have h1 : rustFn A junk sigs 4 ("free_values_" ++ countName t.results.length t.inputs.length) [] [.num (.i32 p)] s = .ok .unit ⟨h', m'⟩ := by
    rw [show ("free_values_" ++ countName t.results.length t.inputs.length) = (rustFreeValuesGeneric t.results.length t.inputs.length).name from by rw [hf],
      rust_generic ht (by simp [rustGeneric]), hf]
    simp only [SFn.run, List.length_nil, List.length_cons, List.map_cons, List.map_nil, List.zip_cons_cons, List.zip_nil_left, and_self, if_true,
      runStmts, SExpr.eval, evalAtoms, SAtom.eval, List.lookup_cons, BEq.rfl, hP]
  rw [show freeValuesName t = (rustFreeValues t).name from rfl, rust_special ht (by simp [rustSpecial]) rfl]
  simp only [SFn.run, rustFreeValues, List.length_nil, List.length_cons, List.map_cons, List.map_nil, List.zip_cons_cons, List.zip_nil_left, and_self, if_true,
    runStmts, SExpr.eval, evalAtoms, SAtom.eval, List.lookup_cons, BEq.rfl, h1]

theorem rust_free_values_none {t : FuncType} (ht : t ∈ sigs) (hn : t.slots = 0) (s : RState α) (p : BitVec 32) :
    rustCall A junk sigs (freeValuesName t) [.i32 p] s = .ok .unit s := by
  simp only [FuncType.slots] at hn
  have hf : rustFreeValuesGeneric t.results.length t.inputs.length = ⟨false, "free_values_" ++ countName t.results.length t.inputs.length, [], [("_ptr", "usize")], "()",
      [], none⟩ := by rw [rustFreeValuesGeneric, if_pos hn]
  have h1 : rustFn A junk sigs 4 ("free_values_" ++ countName t.results.length t.inputs.length) [] [.num (.i32 p)] s = .ok .unit s := by
    rw [show ("free_values_" ++ countName t.results.length t.inputs.length) = (rustFreeValuesGeneric t.results.length t.inputs.length).name from by rw [hf],
      rust_generic ht (by simp [rustGeneric]), hf]
    rfl
  rw [show freeValuesName t = (rustFreeValues t).name from rfl, rust_special ht (by simp [rustSpecial]) rfl]
  simp only [SFn.run, rustFreeValues, List.length_nil, List.length_cons, List.map_cons, List.map_nil, List.zip_cons_cons, List.zip_nil_left, and_self, if_true,
    runStmts, SExpr.eval, evalAtoms, SAtom.eval, List.lookup_cons, BEq.rfl, h1]

theorem rust_free_types {t : FuncType} (ht : t ∈ sigs) (hz : t.slots = 0 → A.zero = true) (hb : t.slots < 8192) {s : RState α} {p : BitVec 32} {h' : α} {m' : Mem}
    (hA : A.dealloc p.toNat (4 * t.slots) 4 s.heap s.mem = (h', m')) :
    rustCall A junk sigs (freeTypesName t) [.i32 p] s = .ok .unit ⟨h', m'⟩ := by
  have hP := prim_free_types (A := A) (junk := junk) (sigs := sigs) (d := 2) hz hb hA
  simp only [FuncType.slots] at hP
  have h1 : rustFn A junk sigs 4 ("free_types_" ++ countName t.results.length t.inputs.length) [] [.num (.i32 p)] s = .ok .unit ⟨h', m'⟩ := by
    rw [show ("free_types_" ++ countName t.results.length t.inputs.length) = (rustFreeTypesGeneric t.results.length t.inputs.length).name from rfl,
      rust_generic ht (by simp [rustGeneric])]
    simp only [SFn.run, rustFreeTypesGeneric, List.length_nil, List.length_cons, List.map_cons, List.map_nil, List.zip_cons_cons, List.zip_nil_left, and_self, if_true,
      runStmts, SExpr.eval, evalAtoms, SAtom.eval, List.lookup_cons, BEq.rfl, hP]
  rw [show freeTypesName t = (rustFreeTypes t).name from rfl, rust_special ht (by simp [rustSpecial]) rfl]
  simp only [SFn.run, rustFreeTypes, List.length_nil, List.length_cons, List.map_cons, List.map_nil, List.zip_cons_cons, List.zip_nil_left, and_self, if_true,
    runStmts, SExpr.eval, evalAtoms, SAtom.eval, List.lookup_cons, BEq.rfl, h1]

/-! ## The accessors of analyses -/

theorem rust_peek {v : ValType} (hv : ∀ r, v ≠ .ref r) {p : BitVec 32} {k : Nat} {s : RState α} (hk : k < 2 ^ 32) (h : derefable s.mem p.toNat k 8 = true) :
    rustCall A junk sigs (typedName v) [.i32 p, .i32 (BitVec.ofNat 32 k)] s = .ok (.num (v.ofBits (s.mem.word (p.toNat + 8 * k) 8))) s := by
  have h1 := prim_load (A := A) (junk := junk) (sigs := sigs) (d := 3) hk h
  have : ∀ ty : String, ty ∈ ["i32", "f32", "i64", "f64"] → rustAccessor v = ty →
      rustCall A junk sigs (rustTypedLoad ty).name [.i32 p, .i32 (BitVec.ofNat 32 k)] s = .ok (.num (v.ofBits (s.mem.word (p.toNat + 8 * k) 8))) s := by
    intro ty hty e
    have hm : rustTypedLoad ty ∈ rustBoilerplate := by
      simp only [rustBoilerplate, List.mem_append, List.mem_cons, List.cons_append]
      exact .inr (.inl (List.mem_map_of_mem hty))
    rw [rust_boiler hm rfl]
    have hx : ("offset" == "ptr") = false := by decide
    simp only [SFn.run, rustTypedLoad, List.length_nil, List.length_cons, List.map_cons, List.map_nil, List.zip_cons_cons, List.zip_nil_left, and_self, if_true,
      runStmts, SExpr.eval, evalAtoms, SAtom.eval, List.lookup_cons, BEq.rfl, hx, h1]
    rw [← e, project_ofBits v hv]
  cases v with
  | ref r => exact absurd rfl (hv r)
  | i32 => exact this "i32" (by simp) rfl
  | f32 => exact this "f32" (by simp) rfl
  | i64 => exact this "i64" (by simp) rfl
  | f64 => exact this "f64" (by simp) rfl

theorem rust_poke (v : Val) {p : BitVec 32} {k : Nat} {s : RState α} (hk : k < 2 ^ 32) (h : derefable s.mem p.toNat k 8 = true) :
    ∃ m', rustCall A junk sigs (typedStoreName v.type) [.i32 p, v, .i32 (BitVec.ofNat 32 k)] s = .ok .unit ⟨s.heap, m'⟩ ∧ Wrote s.mem m' (p.toNat + 8 * k) [v] := by
  obtain ⟨m', h1, hw⟩ := prim_store (A := A) (junk := junk) (sigs := sigs) (d := 3) hk v h
  refine ⟨m', ?_, hw⟩
  have : ∀ ty : String, ty ∈ ["i32", "f32", "i64", "f64"] → rustConstructor v.type = "new_" ++ ty →
      rustCall A junk sigs (rustTypedStore ty).name [.i32 p, v, .i32 (BitVec.ofNat 32 k)] s = .ok .unit ⟨s.heap, m'⟩ := by
    intro ty hty e
    have hm : rustTypedStore ty ∈ rustBoilerplate := by
      simp only [rustBoilerplate, List.mem_append, List.mem_cons, List.cons_append]
      exact .inr (.inr (List.mem_map_of_mem hty))
    rw [rust_boiler hm rfl]
    have hx : ("value" == "ptr") = false ∧ ("offset" == "ptr") = false ∧ ("offset" == "value") = false := by decide
    simp only [SFn.run, rustTypedStore, List.length_nil, List.length_cons, List.map_cons, List.map_nil, List.zip_cons_cons, List.zip_nil_left, and_self, if_true,
      runStmts, SExpr.eval, evalAtoms, SAtom.eval, List.lookup_cons, BEq.rfl, hx.1, hx.2.1, hx.2.2, Option.bind_some]
    rw [← e, construct_eq]
    simp only [h1]
  cases v with
  | i32 => exact this "i32" (by simp) rfl
  | f32 => exact this "f32" (by simp) rfl
  | i64 => exact this "i64" (by simp) rfl
  | f64 => exact this "f64" (by simp) rfl

theorem rust_loadType {p : BitVec 32} {k : Nat} {s : RState α} (hk : k < 2 ^ 32) (h : derefable s.mem p.toNat k 4 = true) (hv : s.mem.word (p.toNat + 4 * k) 4 ≤ 5) :
    rustCall A junk sigs "wastrumentation_stack_load_type" [.i32 p, .i32 (BitVec.ofNat 32 k)] s =
      .ok (.num (.i32 (BitVec.ofNat 32 (s.mem.word (p.toNat + 4 * k) 4)))) s := by
  have h1 : rustFn A junk sigs 4 "*ptr.add(offset)" [] [.num (.i32 p), .num (.i32 (BitVec.ofNat 32 k))] s =
      .ok (.num (.i32 (BitVec.ofNat 32 (s.mem.word (p.toNat + 4 * k) 4)))) s := by
    rw [rustFn, srcCall_prim rfl, ofNat_toNat32 hk, if_pos ⟨h, hv⟩]
  rw [show "wastrumentation_stack_load_type" = rustLoadType.name from rfl, rust_boiler (by simp [rustBoilerplate]) rfl]
  have hx : ("offset" == "ptr") = false := by decide
  simp only [SFn.run, rustLoadType, List.length_nil, List.length_cons, List.map_cons, List.map_nil, List.zip_cons_cons, List.zip_nil_left, and_self, if_true,
    runStmts, SExpr.eval, evalAtoms, SAtom.eval, List.lookup_cons, BEq.rfl, hx, h1]

end

end Wastrum
