import Verif.InstrumentThms
/-!
# The exported base memory functions (C19, C20)
-/

set_option linter.unusedSimpArgs false
set_option linter.unusedVariables false

namespace Wastrum

variable {W : Type}

/-- What executing one instruction on the given operands (deepest first) amounts to: results and new state, or a trap. -/
def execInstr (E : Env W) (b : Basic) (operands : List RVal) (s : Store W) : Res W :=
  match step E b ⟨operands.reverse, [], s⟩ with
  | .norm c => .ok c.stack.reverse c.store
  | .trap s => .trap s
  | .fuel => .fuel
  | _ => .stuck

/-- Function `k` of the result is exported as `name` and has type `ty`. -/
def ExportedAs (r : Instrumented) (name : String) (ty : FuncType) (k : Nat) : Prop :=
  ∃ f, r.module.functions[k]? = some f ∧ f.exports = [name] ∧ f.type = ty

/-- What a call of function `k` of the instrumented module returns, whatever the imports do. -/
def Returns (r : Instrumented) (k : Nat) (args : List RVal) (s : Store W) (res : Res W) : Prop :=
  ∀ (N : Num) (H : Imports W) (L d : Nat), callF N (machineOf H r.module.functions) L (d + 1) k args s = res

theorem memoryFunctions_installed {C iface ts m r} (hs : SmallModule m) (h : Instruments C iface ts m r) {f : Func}
    (hf : f ∈ memoryFunctions m.memories.isEmpty) : ∃ k : Nat, r.module.functions[k]? = some f := by
  obtain ⟨ord, ord', ho, ho', h⟩ := h
  obtain ⟨_, _, fs, base, hd, hn, hg⟩ := instrument_desc ho ho' hs h
  refine List.getElem?_of_mem ?_
  cases hgen : iface.generic with
  | none => rw [(hn hgen).2]; exact List.mem_append_right _ hf
  | some p =>
    obtain ⟨m2, sigs, hooks, copy, ha, _, e⟩ := hg p.1 p.2 hgen
    rw [e]; exact List.mem_append_right _ hf

theorem exported_of_mem {C iface ts m r} (hs : SmallModule m) (h : Instruments C iface ts m r) {name : String} {ty : FuncType} {body : List LInstr}
    (hf : (⟨ty, .present ⟨[], body⟩, [name]⟩ : Func) ∈ memoryFunctions m.memories.isEmpty) :
    ∃ k, ExportedAs r name ty k ∧ ∀ (W : Type) (args : List RVal) (s : Store W) (res : Res W),
      (∀ E : Env W, runBody ty [] (denFlat E body) args s = res) → Returns r k args s res := by
  obtain ⟨k, hk⟩ := memoryFunctions_installed hs h hf
  refine ⟨k, ⟨_, hk, rfl, rfl⟩, ?_⟩
  intro W args s res hE N H L d
  simp only [callF, machineOf, hk, Option.map_some, implOf]
  exact hE _

/-! ## C19 -/

theorem Val.type_i32 (x : BitVec 32) : (Val.i32 x).type = .i32 := rfl

theorem run_baseLoad (E : Env W) (op : LoadOp) (a off : BitVec 32) (s : Store W) :
    runBody ⟨[.i32, .i32], [op.ty]⟩ [] (denFlat E (baseLoadBody false op op.ty)) [.i32 a, .i32 off] s =
      execInstr E (.load op ⟨0, op.alignExp⟩) [.i32 (a + off)] s := by
  have e : baseLoadBody false op op.ty = lower [.basic (.loc .get 0), .basic (.loc .get 1), .basic (.binary .i32Add),
    .basic (.load op ⟨0, op.alignExp⟩)] := rfl
  unfold runBody
  rw [e, denFlat_lower]
  simp only [denL, denI, step, List.map_nil, List.append_nil, List.getElem?_cons_zero, List.getElem?_cons_succ, Out.bind_norm,
    BinaryOp.sig, Val.type_i32, and_self, if_true, E.num.i32Add, execInstr, List.reverse_cons, List.reverse_nil, List.nil_append]
  cases h0 : s.mems[0]? with
  | none => simp
  | some m => dsimp only; cases m.load op ((a + off).toNat + (0 : BitVec 32).toNat) <;> rfl

theorem run_baseStore (E : Env W) (op : StoreOp) (a off : BitVec 32) (v : RVal) (s : Store W) :
    runBody ⟨[.i32, op.ty, .i32], []⟩ [] (denFlat E (baseStoreBody false op)) [.i32 a, v, .i32 off] s =
      execInstr E (.store op ⟨0, op.alignExp⟩) [.i32 (a + off), v] s := by
  have e : baseStoreBody false op = lower [.basic (.loc .get 0), .basic (.loc .get 2), .basic (.binary .i32Add), .basic (.loc .get 1),
    .basic (.store op ⟨0, op.alignExp⟩)] := rfl
  unfold runBody
  rw [e, denFlat_lower]
  simp only [denL, denI, step, List.map_nil, List.append_nil, List.getElem?_cons_zero, List.getElem?_cons_succ, Out.bind_norm,
    BinaryOp.sig, Val.type_i32, and_self, if_true, E.num.i32Add, execInstr, List.reverse_cons, List.reverse_nil, List.nil_append,
    List.cons_append]
  cases v with
  | ref r x => simp
  | num v =>
    by_cases hv : v.type = op.ty
    · simp only [hv, if_true]
      cases h0 : s.mems[0]? with
      | none => simp
      | some m => dsimp only; cases m.store op ((a + off).toNat + (0 : BitVec 32).toNat) v <;> rfl
    · simp [hv]

theorem execInstr_load (E : Env W) (op : LoadOp) (ma : Memarg) (a : BitVec 32) (s : Store W) :
    execInstr E (.load op ma) [.i32 a] s = match s.mems[0]? with
      | none => .stuck
      | some m => match m.load op (a.toNat + ma.offset.toNat) with
        | some v => .ok [.num v] s
        | none => .trap s := by
  simp only [execInstr, step, List.reverse_cons, List.reverse_nil, List.nil_append]
  cases s.mems[0]? with
  | none => rfl
  | some m => dsimp only; cases m.load op (a.toNat + ma.offset.toNat) <;> rfl

theorem execInstr_store (E : Env W) (op : StoreOp) (ma : Memarg) (a : BitVec 32) (v : Val) (s : Store W) :
    execInstr E (.store op ma) [.i32 a, .num v] s = if v.type = op.ty then match s.mems[0]? with
      | none => .stuck
      | some m => match m.store op (a.toNat + ma.offset.toNat) v with
        | some m' => .ok [] (s.setMem 0 m')
        | none => .trap s else .stuck := by
  simp only [execInstr, step, List.reverse_cons, List.reverse_nil, List.nil_append, List.cons_append]
  by_cases hv : v.type = op.ty
  · simp only [hv, if_true]
    cases s.mems[0]? with
    | none => rfl
    | some m => dsimp only; cases m.store op (a.toNat + ma.offset.toNat) v <;> rfl
  · simp only [hv, if_false]

theorem add_nowrap {a off : BitVec 32} (h : a.toNat + off.toNat < 2 ^ 32) : (a + off).toNat = a.toNat + off.toNat := by
  rw [BitVec.toNat_add]; exact Nat.mod_eq_of_lt h

theorem loadExports_mem (noMem : Bool) {e : String × LoadOp × ValType} (h : e ∈ loadExports) :
    (⟨⟨[.i32, .i32], [e.2.2]⟩, .present ⟨[], baseLoadBody noMem e.2.1 e.2.2⟩, [e.1]⟩ : Func) ∈ memoryFunctions noMem := by
  simp only [memoryFunctions, List.mem_append, List.mem_map]
  exact .inl (.inl ⟨e, h, rfl⟩)

theorem storeExports_mem (noMem : Bool) {e : String × StoreOp × ValType} (h : e ∈ storeExports) :
    (⟨⟨[.i32, e.2.2, .i32], []⟩, .present ⟨[], baseStoreBody noMem e.2.1⟩, [e.1]⟩ : Func) ∈ memoryFunctions noMem := by
  simp only [memoryFunctions, List.mem_append, List.mem_map]
  exact .inl (.inr ⟨e, h, rfl⟩)

/-- The name under which the base function for a load is exported. -/
def LoadOp.baseName : LoadOp → String
  | .i32Load => "instrumented_base_load_i32" | .i64Load => "instrumented_base_load_i64"
  | .f32Load => "instrumented_base_load_f32" | .f64Load => "instrumented_base_load_f64"
  | .i32Load8S => "instrumented_base_load_i32_8S" | .i32Load8U => "instrumented_base_load_i32_8U"
  | .i32Load16S => "instrumented_base_load_i32_16S" | .i32Load16U => "instrumented_base_load_i32_16U"
  | .i64Load8S => "instrumented_base_load_i64_8S" | .i64Load8U => "instrumented_base_load_i64_8U"
  | .i64Load16S => "instrumented_base_load_i64_16S" | .i64Load16U => "instrumented_base_load_i64_16U"
  | .i64Load32S => "instrumented_base_load_i64_32S" | .i64Load32U => "instrumented_base_load_i64_32U"

/-- The name under which the base function for a store is exported. -/
def StoreOp.baseName : StoreOp → String
  | .i32Store => "instrumented_base_store_i32" | .i64Store => "instrumented_base_store_i64"
  | .f32Store => "instrumented_base_store_f32" | .f64Store => "instrumented_base_store_f64"
  | .i32Store8 => "instrumented_base_store_i32_8" | .i32Store16 => "instrumented_base_store_i32_16"
  | .i64Store8 => "instrumented_base_store_i64_8" | .i64Store16 => "instrumented_base_store_i64_16"
  | .i64Store32 => "instrumented_base_store_i64_32"

theorem baseName_mem_load (op : LoadOp) : (op.baseName, op, op.ty) ∈ loadExports := by cases op <;> decide
theorem baseName_mem_store (op : StoreOp) : (op.baseName, op, op.ty) ∈ storeExports := by cases op <;> decide

/-- The base export for a load, exactly. -/
theorem baseLoad_exact {C iface ts m r} (hs : SmallModule m) (h : Instruments C iface ts m r) (hm : m.memories ≠ []) (op : LoadOp) :
    ∃ k, ExportedAs r op.baseName ⟨[.i32, .i32], [op.ty]⟩ k ∧ ∀ (W : Type) (E : Env W) (a off : BitVec 32) (s : Store W),
      Returns r k [.i32 a, .i32 off] s (execInstr E (.load op ⟨0, op.alignExp⟩) [.i32 (a + off)] s) := by
  have hm' : m.memories.isEmpty = false := by simpa using hm
  have := loadExports_mem m.memories.isEmpty (baseName_mem_load op)
  obtain ⟨k, h1, h2⟩ := exported_of_mem hs h this
  refine ⟨k, h1, fun W E a off s => h2 W _ s _ fun E' => ?_⟩
  simp only [hm']
  rw [run_baseLoad, execInstr_load, execInstr_load]

/-- The base export for a store, exactly. -/
theorem baseStore_exact {C iface ts m r} (hs : SmallModule m) (h : Instruments C iface ts m r) (hm : m.memories ≠ []) (op : StoreOp) :
    ∃ k, ExportedAs r op.baseName ⟨[.i32, op.ty, .i32], []⟩ k ∧ ∀ (W : Type) (E : Env W) (a off : BitVec 32) (v : Val) (s : Store W),
      Returns r k [.i32 a, .num v, .i32 off] s (execInstr E (.store op ⟨0, op.alignExp⟩) [.i32 (a + off), .num v] s) := by
  have hm' : m.memories.isEmpty = false := by simpa using hm
  have := storeExports_mem m.memories.isEmpty (baseName_mem_store op)
  obtain ⟨k, h1, h2⟩ := exported_of_mem hs h this
  refine ⟨k, h1, fun W E a off v s => h2 W _ s _ fun E' => ?_⟩
  simp only [hm']
  rw [run_baseStore, execInstr_store, execInstr_store]

/-- **C19 (loads), partial.** For every load instruction there is an exported function that, given the address operand and the
static offset, has exactly the effect of that instruction — provided that address plus offset stays below `2^32`. What is
missing: without that proviso the statement is false, see `C19_load_wraps_instead_of_trapping`. -/
theorem C19_base_load_partial {C iface ts m r} (hs : SmallModule m) (h : Instruments C iface ts m r) (hm : m.memories ≠ []) (op : LoadOp) :
    ∃ k, ExportedAs r op.baseName ⟨[.i32, .i32], [op.ty]⟩ k ∧
      ∀ (W : Type) (E : Env W) (a : BitVec 32) (ma : Memarg) (s : Store W), a.toNat + ma.offset.toNat < 2 ^ 32 →
        Returns r k [.i32 a, .i32 ma.offset] s (execInstr E (.load op ma) [.i32 a] s) := by
  obtain ⟨k, h1, h2⟩ := baseLoad_exact hs h hm op
  refine ⟨k, h1, fun W E a ma s hw => ?_⟩
  have := h2 W E a ma.offset s
  rw [execInstr_load] at this ⊢
  simp only [add_nowrap hw] at this
  simpa using this

/-- **C19 (stores), partial.** The same for store instructions; the same proviso. -/
theorem C19_base_store_partial {C iface ts m r} (hs : SmallModule m) (h : Instruments C iface ts m r) (hm : m.memories ≠ []) (op : StoreOp) :
    ∃ k, ExportedAs r op.baseName ⟨[.i32, op.ty, .i32], []⟩ k ∧
      ∀ (W : Type) (E : Env W) (a : BitVec 32) (v : Val) (ma : Memarg) (s : Store W), a.toNat + ma.offset.toNat < 2 ^ 32 →
        Returns r k [.i32 a, .num v, .i32 ma.offset] s (execInstr E (.store op ma) [.i32 a, .num v] s) := by
  obtain ⟨k, h1, h2⟩ := baseStore_exact hs h hm op
  refine ⟨k, h1, fun W E a v ma s hw => ?_⟩
  have := h2 W E a ma.offset v s
  rw [execInstr_store] at this ⊢
  simp only [add_nowrap hw] at this
  simpa using this

theorem Mem.load_some {x : Mem} {op : LoadOp} {ea : Nat} {v : Val} (h : x.load op ea = some v) : ea + op.width ≤ x.size := by
  unfold Mem.load at h
  by_cases hb : ea + op.width ≤ x.size
  · exact hb
  · simp [hb] at h

theorem Mem.store_some {x x' : Mem} {op : StoreOp} {ea : Nat} {v : Val} (h : x.store op ea v = some x') : ea + op.width ≤ x.size := by
  unfold Mem.store at h
  by_cases hb : ea + op.width ≤ x.size
  · exact hb
  · simp [hb] at h

/-- **C19 (accesses that succeed).** Whenever the program's own load succeeds, so does the base export, with the same result
(memories never exceed 65536 pages). -/
theorem C19_base_load_of_success {C iface ts m r} (hs : SmallModule m) (h : Instruments C iface ts m r) (hm : m.memories ≠ []) (op : LoadOp) :
    ∃ k, ExportedAs r op.baseName ⟨[.i32, .i32], [op.ty]⟩ k ∧
      ∀ (W : Type) (E : Env W) (a : BitVec 32) (ma : Memarg) (s : Store W) vs s', (∀ x ∈ s.mems, x.pages ≤ 65536) →
        execInstr E (.load op ma) [.i32 a] s = .ok vs s' → Returns r k [.i32 a, .i32 ma.offset] s (.ok vs s') := by
  obtain ⟨k, h1, h2⟩ := C19_base_load_partial hs h hm op
  refine ⟨k, h1, fun W E a ma s vs s' hp he => ?_⟩
  have hw : a.toNat + ma.offset.toNat < 2 ^ 32 := by
    rw [execInstr_load] at he
    cases h0 : s.mems[0]? with
    | none => simp [h0] at he
    | some x =>
      have hx := hp x (List.mem_of_getElem? h0)
      simp only [h0] at he
      split at he
      · rename_i hsome
        have := Mem.load_some hsome
        simp only [Mem.size] at this
        cases op <;> simp only [LoadOp.width] at this <;> omega
      · simp at he
  have := h2 W E a ma s hw
  rwa [he] at this

/-- **C19 (accesses that succeed).** The same for stores. -/
theorem C19_base_store_of_success {C iface ts m r} (hs : SmallModule m) (h : Instruments C iface ts m r) (hm : m.memories ≠ []) (op : StoreOp) :
    ∃ k, ExportedAs r op.baseName ⟨[.i32, op.ty, .i32], []⟩ k ∧
      ∀ (W : Type) (E : Env W) (a : BitVec 32) (v : Val) (ma : Memarg) (s : Store W) vs s', (∀ x ∈ s.mems, x.pages ≤ 65536) →
        execInstr E (.store op ma) [.i32 a, .num v] s = .ok vs s' → Returns r k [.i32 a, .num v, .i32 ma.offset] s (.ok vs s') := by
  obtain ⟨k, h1, h2⟩ := C19_base_store_partial hs h hm op
  refine ⟨k, h1, fun W E a v ma s vs s' hp he => ?_⟩
  have hw : a.toNat + ma.offset.toNat < 2 ^ 32 := by
    rw [execInstr_store] at he
    cases h0 : s.mems[0]? with
    | none => simp [h0] at he
    | some x =>
      have hx := hp x (List.mem_of_getElem? h0)
      simp only [h0] at he
      split at he
      · split at he
        · rename_i hsome
          have := Mem.store_some hsome
          simp only [Mem.size] at this
          cases op <;> simp only [StoreOp.width] at this <;> omega
        · simp at he
      · simp at he
  have := h2 W E a v ma s hw
  rwa [he] at this

/-- **C19 is false without the proviso (finding).** The base exports add address and offset modulo `2^32`
(`memory.rs` 418-424, 468-475), where the instruction computes the sum exactly. For every load, address and offset whose sum
exceeds `2^32` while the wrapped sum is inside the memory: the program's own instruction traps, but the base export returns
a value. -/
theorem C19_load_wraps_instead_of_trapping {C iface ts m r} (hs : SmallModule m) (h : Instruments C iface ts m r) (hm : m.memories ≠ [])
    (op : LoadOp) :
    ∃ k, ExportedAs r op.baseName ⟨[.i32, .i32], [op.ty]⟩ k ∧
      ∀ (W : Type) (E : Env W) (a : BitVec 32) (ma : Memarg) (s : Store W) (x : Mem), s.mems[0]? = some x → x.pages ≤ 65536 →
        2 ^ 32 ≤ a.toNat + ma.offset.toNat → (a + ma.offset).toNat + op.width ≤ x.size →
        execInstr E (.load op ma) [.i32 a] s = .trap s ∧ ∃ v, Returns r k [.i32 a, .i32 ma.offset] s (.ok [.num v] s) := by
  obtain ⟨k, h1, h2⟩ := baseLoad_exact hs h hm op
  refine ⟨k, h1, fun W E a ma s x hx hp hw hin => ⟨?_, ?_⟩⟩
  · rw [execInstr_load, hx]
    have : ¬ (a.toNat + ma.offset.toNat + op.width ≤ x.size) := by
      simp only [Mem.size]
      cases op <;> simp only [LoadOp.width] <;> omega
    simp [Mem.load, this]
  · have := h2 W E a ma.offset s
    rw [execInstr_load, hx] at this
    have e : (a + ma.offset).toNat + (0 : BitVec 32).toNat = (a + ma.offset).toNat := rfl
    simp only [e, Mem.load, hin, if_true] at this
    exact ⟨_, this⟩

/-- **C19 is false without the proviso (finding), stores:** the base export overwrites memory where the instruction traps. -/
theorem C19_store_wraps_instead_of_trapping {C iface ts m r} (hs : SmallModule m) (h : Instruments C iface ts m r) (hm : m.memories ≠ [])
    (op : StoreOp) :
    ∃ k, ExportedAs r op.baseName ⟨[.i32, op.ty, .i32], []⟩ k ∧
      ∀ (W : Type) (E : Env W) (a : BitVec 32) (v : Val) (ma : Memarg) (s : Store W) (x : Mem), v.type = op.ty → s.mems[0]? = some x →
        x.pages ≤ 65536 → 2 ^ 32 ≤ a.toNat + ma.offset.toNat → (a + ma.offset).toNat + op.width ≤ x.size →
        execInstr E (.store op ma) [.i32 a, .num v] s = .trap s ∧
        ∃ x', x.store op (a + ma.offset).toNat v = some x' ∧ Returns r k [.i32 a, .num v, .i32 ma.offset] s (.ok [] (s.setMem 0 x')) := by
  obtain ⟨k, h1, h2⟩ := baseStore_exact hs h hm op
  refine ⟨k, h1, fun W E a v ma s x hv hx hp hw hin => ⟨?_, ?_⟩⟩
  · rw [execInstr_store, hx]
    have : ¬ (a.toNat + ma.offset.toNat + op.width ≤ x.size) := by
      simp only [Mem.size]
      cases op <;> simp only [StoreOp.width] <;> omega
    simp [Mem.store, this, hv]
  · have := h2 W E a ma.offset v s
    rw [execInstr_store, hx] at this
    have e : (a + ma.offset).toNat + (0 : BitVec 32).toNat = (a + ma.offset).toNat := rfl
    simp only [e, Mem.store, hin, if_true, hv] at this
    refine ⟨_, by simp only [Mem.store, hin, if_true], this⟩

/-- **C19.** The exports for different instructions have different names, and different from those for grow and size. -/
theorem C19_export_names_distinct :
    (loadExports.map (·.1) ++ storeExports.map (·.1) ++ ["instrumented_memory_grow", "instrumented_memory_size"]).Nodup := by decide +kernel

-- a module with a memory, an address that wraps, and one that does not
example : exModule.memories ≠ [] ∧ ((0xffffffff : BitVec 32).toNat + (5 : BitVec 32).toNat ≥ 2 ^ 32) ∧
    ((0xffffffff : BitVec 32) + 5).toNat + LoadOp.i32Load.width ≤ (⟨1, 1, fun _ => 0⟩ : Mem).size ∧
    (1000 : BitVec 32).toNat + (24 : BitVec 32).toNat < 2 ^ 32 := by decide

/-! ## C20 -/

/-- **C20 (grow and size).** With a memory, the exported grow and size functions do what `memory.grow 0` and `memory.size 0`
do (the memory index they are also given is ignored). -/
theorem C20_grow_and_size {C iface ts m r} (hs : SmallModule m) (h : Instruments C iface ts m r) (hm : m.memories ≠ []) :
    (∃ k, ExportedAs r "instrumented_memory_grow" ⟨[.i32, .i32], [.i32]⟩ k ∧ ∀ (W : Type) (E : Env W) (n idx : BitVec 32) (s : Store W),
      Returns r k [.i32 n, .i32 idx] s (execInstr E (.memoryGrow 0) [.i32 n] s)) ∧
    (∃ k, ExportedAs r "instrumented_memory_size" ⟨[.i32], [.i32]⟩ k ∧ ∀ (W : Type) (E : Env W) (idx : BitVec 32) (s : Store W),
      Returns r k [.i32 idx] s (execInstr E (.memorySize 0) [] s)) := by
  have hm' : m.memories.isEmpty = false := by simpa using hm
  constructor
  · obtain ⟨k, h1, h2⟩ := exported_of_mem (name := "instrumented_memory_grow") (ty := ⟨[.i32, .i32], [.i32]⟩)
      (body := baseGrowBody m.memories.isEmpty) hs h (by simp [memoryFunctions])
    refine ⟨k, h1, fun W E n idx s => h2 W _ s _ fun E' => ?_⟩
    rw [hm']
    have e : baseGrowBody false = lower [.basic (.loc .get 0), .basic (.memoryGrow 0)] := rfl
    unfold runBody
    rw [e, denFlat_lower]
    simp only [denL, denI, step, List.map_nil, List.append_nil, List.getElem?_cons_zero, Out.bind_norm, execInstr,
      List.reverse_cons, List.reverse_nil, List.nil_append]
    cases h0 : s.mems[0]? with
    | none => rfl
    | some x => dsimp only; cases h1 : x.grow n.toNat <;> rfl
  · obtain ⟨k, h1, h2⟩ := exported_of_mem (name := "instrumented_memory_size") (ty := ⟨[.i32], [.i32]⟩)
      (body := baseSizeBody m.memories.isEmpty) hs h (by simp [memoryFunctions])
    refine ⟨k, h1, fun W E idx s => h2 W _ s _ fun E' => ?_⟩
    rw [hm']
    have e : baseSizeBody false = lower [.basic (.memorySize 0)] := rfl
    unfold runBody
    rw [e, denFlat_lower]
    simp only [denL, denI, step, List.map_nil, List.append_nil, execInstr, List.reverse_nil]
    cases h0 : s.mems[0]? <;> rfl

/-- **C20 (no memory).** Without a memory, the load exports return zero, the store exports do nothing, grow returns -1 and size
returns 0; none changes the state. -/
theorem C20_without_memory {C iface ts m r} (hs : SmallModule m) (h : Instruments C iface ts m r) (hm : m.memories = []) :
    (∀ op : LoadOp, ∃ k, ExportedAs r op.baseName ⟨[.i32, .i32], [op.ty]⟩ k ∧ ∀ (W : Type) (a off : BitVec 32) (s : Store W),
      Returns r k [.i32 a, .i32 off] s (.ok [op.ty.zero] s)) ∧
    (∀ op : StoreOp, ∃ k, ExportedAs r op.baseName ⟨[.i32, op.ty, .i32], []⟩ k ∧ ∀ (W : Type) (a off : BitVec 32) (v : Val) (s : Store W),
      Returns r k [.i32 a, .num v, .i32 off] s (.ok [] s)) ∧
    (∃ k, ExportedAs r "instrumented_memory_grow" ⟨[.i32, .i32], [.i32]⟩ k ∧ ∀ (W : Type) (n idx : BitVec 32) (s : Store W),
      Returns r k [.i32 n, .i32 idx] s (.ok [.i32 (-1)] s)) ∧
    (∃ k, ExportedAs r "instrumented_memory_size" ⟨[.i32], [.i32]⟩ k ∧ ∀ (W : Type) (idx : BitVec 32) (s : Store W),
      Returns r k [.i32 idx] s (.ok [.i32 0] s)) := by
  have hm' : m.memories.isEmpty = true := by simp [hm]
  refine ⟨fun op => ?_, fun op => ?_, ?_, ?_⟩
  · obtain ⟨k, h1, h2⟩ := exported_of_mem hs h (loadExports_mem m.memories.isEmpty (baseName_mem_load op))
    refine ⟨k, h1, fun W a off s => h2 W _ s _ fun E => ?_⟩
    rw [hm']
    have e : baseLoadBody true op op.ty = lower [.basic (.const (zeroVal op.ty))] := rfl
    simp only [runBody, e, denFlat_lower, denL, denI, step, Out.bind_norm]
    cases op <;> rfl
  · obtain ⟨k, h1, h2⟩ := exported_of_mem hs h (storeExports_mem m.memories.isEmpty (baseName_mem_store op))
    refine ⟨k, h1, fun W a off v s => h2 W _ s _ fun E => ?_⟩
    rw [hm']
    rfl
  · obtain ⟨k, h1, h2⟩ := exported_of_mem (name := "instrumented_memory_grow") (ty := ⟨[.i32, .i32], [.i32]⟩)
      (body := baseGrowBody m.memories.isEmpty) hs h (by simp [memoryFunctions])
    refine ⟨k, h1, fun W n idx s => h2 W _ s _ fun E' => ?_⟩
    rw [hm']; rfl
  · obtain ⟨k, h1, h2⟩ := exported_of_mem (name := "instrumented_memory_size") (ty := ⟨[.i32], [.i32]⟩)
      (body := baseSizeBody m.memories.isEmpty) hs h (by simp [memoryFunctions])
    refine ⟨k, h1, fun W idx s => h2 W _ s _ fun E' => ?_⟩
    rw [hm']; rfl

/-- **C20 (refusal).** With two or more memories the tool never produces a module. -/
theorem C20_refuses_several_memories {C iface ts m} (hs : SmallModule m) (hm : 2 ≤ m.memories.length) (r : Instrumented) :
    ¬ Instruments C iface ts m r := by
  rintro ⟨ord, ord', ho, ho', h⟩
  have := (instrument_ok_iff ho ho' hs).1 ⟨r, h⟩
  omega

/-- **C20 (no other refusal).** It refuses for no other reason than that or a target body that is not well-formed (C03). -/
theorem C20_success_iff {C iface ts m} (hs : SmallModule m) :
    (∃ r, Instruments C iface ts m r) ↔ m.memories.length ≤ 1 ∧ ∀ i ∈ bodyTargets m ts, ∃ b, raiseTarget C m i = .ok b := by
  constructor
  · rintro ⟨r, ord, ord', ho, ho', h⟩
    exact (instrument_ok_iff ho ho' hs).1 ⟨r, h⟩
  · rintro ⟨h1, h2⟩
    exact instruments_of_ok h1 hs h2

-- Without a memory: the example program, its memory removed.
example : ({ exModule with memories := [] } : Module).memories = [] ∧
    ∃ r, Instruments exChecker exIface (some [2]) { exModule with memories := [] } r := by
  refine ⟨rfl, instruments_of_ok (by decide) ⟨exModule_small.functions, exModule_small.arity, exModule_small.length, exModule_small.body⟩ ?_⟩
  have h : bodyTargets { exModule with memories := [] } (some [2]) = [2] := by decide +kernel
  rw [h]
  intro i hi
  simp only [List.mem_cons, List.not_mem_nil, or_false] at hi
  subst hi
  exact ⟨_, rfl⟩

end Wastrum
