import Verif.RuntimeValues
import Verif.ValidityThms
/-!
# Running the functions that function application generates (lemmas)

What the trampoline, the apply function and `call_base` of `Instrument` do when the imports from the stack library are
provided by the generated library.
-/

set_option linter.unusedSimpArgs false
set_option linter.unusedVariables false

namespace Wastrum

variable {W A : Type}

/-! ## Straight-line code -/

/-- Run straight-line code. -/
def runs (E : Env W) (bs : List Basic) (c : Cfg W) : Out W := denL E (bs.map HI.basic) c

theorem runs_nil (E : Env W) (c : Cfg W) : runs E [] c = .norm c := rfl
theorem runs_cons (E : Env W) (b : Basic) (bs : List Basic) (c : Cfg W) : runs E (b :: bs) c = (step E b c).bind (runs E bs) := rfl
theorem runs_append (E : Env W) (a b : List Basic) (c : Cfg W) : runs E (a ++ b) c = (runs E a c).bind (runs E b) := by
  simp only [runs, List.map_append, denL_append]
  rfl

theorem denFlat_straight (E : Env W) (bs : List Basic) (c : Cfg W) : denFlat E (bs.map Basic.toL ++ [.fin]) c = runs E bs c := by
  rw [← lowerL_basics]
  exact denFlat_lower E _ c

theorem runs_get {E : Env W} {i : Nat} {v : RVal} {bs : List Basic} {st lo : List RVal} {s : Store W} (h : lo[i]? = some v) :
    runs E (.loc .get i :: bs) ⟨st, lo, s⟩ = runs E bs ⟨v :: st, lo, s⟩ := by
  simp only [runs_cons, step, h, Out.bind]

theorem runs_set {E : Env W} {i : Nat} {v : RVal} {bs : List Basic} {st lo : List RVal} {s : Store W} (h : i < lo.length) :
    runs E (.loc .set i :: bs) ⟨v :: st, lo, s⟩ = runs E bs ⟨st, lo.set i v, s⟩ := by
  simp only [runs_cons, step, h, if_true, Out.bind]

theorem runs_const {E : Env W} {v : Val} {bs : List Basic} {st lo : List RVal} {s : Store W} :
    runs E (.const v :: bs) ⟨st, lo, s⟩ = runs E bs ⟨.num v :: st, lo, s⟩ := by
  simp only [runs_cons, step, Out.bind]

/-- What a function with `n` results returns when its body has run. -/
def Out.result (n : Nat) (o : Out W) : Res W :=
  match o with
  | .norm c => if c.stack.length = n then .ok c.stack.reverse c.store else .stuck
  | .ret c | .br 0 c => if n ≤ c.stack.length then .ok (c.stack.take n).reverse c.store else .stuck
  | .br (_ + 1) _ => .stuck
  | .trap s => .trap s
  | .stuck => .stuck
  | .fuel => .fuel

theorem runBody_eq (ty : FuncType) (locals : List ValType) (body : Cfg W → Out W) (args : List RVal) (s : Store W) :
    runBody ty locals body args s = (body ⟨[], args ++ locals.map ValType.zero, s⟩).result ty.results.length := by
  unfold runBody Out.result
  cases body ⟨[], args ++ locals.map ValType.zero, s⟩ with
  | br l c => cases l <;> rfl
  | _ => rfl

/-- What happens with the outcome of a call. -/
def Res.andThen {β : Type} (r : Res W) (ts : List ValType) (k : List RVal → Store W → Out β) (t : Store W → Out β) : Out β :=
  match r with
  | .ok vs s => if vs.map RVal.type = ts then k vs s else .stuck
  | .trap s => t s
  | .stuck => .stuck
  | .fuel => .fuel

theorem runs_call {E : Env W} {k : Nat} {ty : FuncType} {bs : List Basic} {args st lo : List RVal} {s : Store W} (hk : E.ftype k = some ty)
    (ha : args.map RVal.type = ty.inputs) :
    runs E (.call k :: bs) ⟨args.reverse ++ st, lo, s⟩ =
      (E.callF k args s).andThen ty.results (fun vs s => runs E bs ⟨vs.reverse ++ st, lo, s⟩) .trap := by
  have hl : args.length = ty.inputs.length := by rw [← ha, List.length_map]
  have e1 : ((args.reverse ++ st).take ty.inputs.length).reverse = args := by
    rw [List.take_append_of_le_length (by simp [hl]), List.take_of_length_le (by simp [hl]), List.reverse_reverse]
  have e2 : (args.reverse ++ st).drop ty.inputs.length = st := by
    rw [List.drop_append_of_le_length (by simp [hl]), List.drop_of_length_le (by simp [hl]), List.nil_append]
  simp only [runs_cons, step, hk, doCall, e1, ha, if_true, e2]
  cases E.callF k args s with
  | ok vs s' =>
    simp only [Res.andThen]
    by_cases h : vs.map RVal.type = ty.results
    · simp only [h, if_true, Out.bind]
    · simp only [h, if_false, Out.bind]
  | trap s' => rfl
  | stuck => rfl
  | fuel => rfl

theorem runs_call_ok {E : Env W} {k : Nat} {ty : FuncType} {bs : List Basic} {args st lo vs : List RVal} {s s' : Store W} (hk : E.ftype k = some ty)
    (ha : args.map RVal.type = ty.inputs) (hc : E.callF k args s = .ok vs s') (hv : vs.map RVal.type = ty.results) :
    runs E (.call k :: bs) ⟨args.reverse ++ st, lo, s⟩ = runs E bs ⟨vs.reverse ++ st, lo, s'⟩ := by
  rw [runs_call hk ha, hc]
  simp only [Res.andThen, hv, if_true]

theorem runs_gets {E : Env W} {bs : List Basic} {s : Store W} : ∀ (xs pre post st : List RVal),
    runs E ((List.range' pre.length xs.length).map (Basic.loc .get) ++ bs) ⟨st, pre ++ xs ++ post, s⟩ = runs E bs ⟨xs.reverse ++ st, pre ++ xs ++ post, s⟩ := by
  intro xs
  induction xs with
  | nil => intro pre post st; rfl
  | cons x xs ih =>
    intro pre post st
    simp only [List.length_cons, List.range'_succ, List.map_cons, List.cons_append]
    rw [runs_get (v := x) (by simp)]
    have := ih (pre ++ [x]) post (x :: st)
    simp only [List.length_append, List.length_cons, List.length_nil, Nat.zero_add, List.append_assoc, List.cons_append, List.nil_append] at this
    simp only [List.append_assoc, List.cons_append, List.reverse_cons, List.nil_append]
    exact this

/-! ## The library -/

theorem allocateValuesName_eq {t : FuncType} (h : t.RefFree) : allocateValuesName t = "allocate_" ++ mangledName t := by
  rw [show allocateValuesName t = StackOp.allocateValues.nameFor t from rfl, generateName_eq t h]
  apply String.ext; simp [exportName, StackOp.str]
theorem freeValuesName_eq {t : FuncType} (h : t.RefFree) : freeValuesName t = "free_values_" ++ mangledName t := by
  rw [show freeValuesName t = StackOp.freeValues.nameFor t from rfl, generateName_eq t h]
  apply String.ext; simp [exportName, StackOp.str]
theorem allocateTypesName_eq {t : FuncType} (h : t.RefFree) : allocateTypesName t = "allocate_types_" ++ mangledName t := by
  rw [show allocateTypesName t = StackOp.allocateTypes.nameFor t from rfl, generateName_eq t h]
  apply String.ext; simp [exportName, StackOp.str]
theorem freeTypesName_eq {t : FuncType} (h : t.RefFree) : freeTypesName t = "free_types_" ++ mangledName t := by
  rw [show freeTypesName t = StackOp.freeTypes.nameFor t from rfl, generateName_eq t h]
  apply String.ext; simp [exportName, StackOp.str]
theorem storeRetsName_eq {t : FuncType} (h : t.RefFree) : storeRetsName t = "store_rets_" ++ mangledName t := by
  rw [show storeRetsName t = StackOp.storeRets.nameFor t from rfl, generateName_eq t h]
  apply String.ext; simp [exportName, StackOp.str]
theorem loadName_eq {t : FuncType} (h : t.RefFree) (s : Side) (i : Nat) : loadName t s i = "load_" ++ s.asStr ++ i.repr ++ "_" ++ mangledName t := by
  rw [show loadName t s i = (StackOp.load s i).nameFor t from rfl, generateName_eq t h]
  apply String.ext; simp [exportName, StackOp.str]

theorem FuncType.RefFree.inputs {t : FuncType} (h : t.RefFree) : ∀ v ∈ t.inputs, ∀ r, v ≠ .ref r := fun v hv => h v (List.mem_append_left _ hv)
theorem FuncType.RefFree.results {t : FuncType} (h : t.RefFree) : ∀ v ∈ t.results, ∀ r, v ≠ .ref r := fun v hv => h v (List.mem_append_right _ hv)
theorem FuncType.RefFree.both {t : FuncType} (h : t.RefFree) : ∀ v ∈ t.results ++ t.inputs, ∀ r, v ≠ .ref r := fun v hv =>
  (List.mem_append.1 hv).elim (h.results v) (h.inputs v)

/-- Typed values without references are numbers. -/
theorem nums_of_types {ts : List ValType} (h : ∀ v ∈ ts, ∀ r, v ≠ .ref r) : ∀ {vs : List RVal}, vs.map RVal.type = ts → ∃ xs : List Val, vs = xs.map .num ∧ xs.map Val.type = ts := by
  induction ts with
  | nil => intro vs hv; exact ⟨[], by simpa using hv, rfl⟩
  | cons t ts ih =>
    intro vs hv
    cases vs with
    | nil => simp at hv
    | cons v vs =>
      simp only [List.map_cons, List.cons.injEq] at hv
      obtain ⟨xs, rfl, hx⟩ := ih (fun v hm => h v (List.mem_cons_of_mem _ hm)) hv.2
      cases v with
      | num x => exact ⟨x :: xs, rfl, by simp only [List.map_cons, hx]; rw [show x.type = t from hv.1]⟩
      | ref r a => exact absurd hv.1.symm (h t (List.mem_cons_self ..) r)

theorem types_nums (xs : List Val) : (xs.map RVal.num).map RVal.type = xs.map Val.type := by simp [RVal.type, Function.comp_def]

/-- There is no room for `n` more bytes in the library's memory. -/
def Full (l : Lib) (n : Nat) : Prop := l.mem.limit * 65536 < l.free + n ∨ 65535 * 65536 < l.free + n ∨ l.mem.pages = 65536

/-- `l'` is `l` after `n` bytes have been allocated. -/
structure Allocated (l l' : Lib) (n : Nat) : Prop where
  ok : l'.Ok
  free : l'.free = l.free + n
  limit : l'.mem.limit = l.mem.limit
  pages : l.mem.pages ≤ l'.mem.pages
  room : l.mem.pages < 65536 → l'.mem.pages < 65536
  below : ∀ i < l.free, l'.mem.bytes i = l.mem.bytes i

section
variable {K : LibLink} {l : Lib} {t : FuncType}

/-- Call of an exported function of the library. -/
abbrev LibLink.lib (K : LibLink) (name : String) (args : List RVal) (s : Store Unit) : Res Unit := libCall K.N (generateLib K.sigs) K.L K.d name args s

theorem lib_allocate_values (hK : K.Good) (ht : t ∈ K.sigs) (hr : t.RefFree) (hn : t.slots < 8192) (ok : l.Ok) {xs : List Val} (hx : xs.map Val.type = t.inputs) :
    (Full l (8 * t.slots) ∧ ∃ m', K.lib (allocateValuesName t) (xs.map .num) l.store = .trap (⟨l.free, m'⟩ : Lib).store ∧ (⟨l.free, m'⟩ : Lib).Ok ∧ m'.limit = l.mem.limit) ∨
    ∃ p l', K.lib (allocateValuesName t) (xs.map .num) l.store = .ok [.i32 (BitVec.ofNat 32 p)] l'.store ∧ Allocated l l' (8 * t.slots) ∧
      p = (if t.slots = 0 then 0 else l.free) ∧ l'.mem.args t p = xs := by
  obtain ⟨d, hd⟩ := hK.eq
  rw [allocateValuesName_eq hr]
  have f1 := ok.free'
  by_cases h0 : t.slots = 0
  · have hi : t.inputs = [] := List.length_eq_zero_iff.1 (by simp only [FuncType.slots] at h0; omega)
    have hx0 : xs = [] := by rw [hi] at hx; simpa using hx
    subst hx0
    have := call_allocate_none (N := K.N) (sigs := K.sigs) (L := K.L) d ht l.store (by simpa [FuncType.slots] using h0)
    refine .inr ⟨0, l, by simp only [LibLink.lib, hd]; exact this, ⟨ok, by omega, rfl, Nat.le_refl _, id, fun _ _ => rfl⟩, by simp [h0], ?_⟩
    simp [Mem.args, Mem.vals, hi]
  · have hlen := mapTypes hx
    have := call_allocate_values (N := K.N) (L := K.L) hK.num hK.loops d ht l ok xs hx (by simp only [FuncType.slots] at h0; omega)
      (by simp only [FuncType.slots] at hn; omega)
    rw [← hd] at this
    simp only [LibLink.lib]
    generalize libCall K.N (generateLib K.sigs) K.L K.d ("allocate_" ++ mangledName t) (xs.map .num) l.store = res at this
    have hs : (t.results.length + t.inputs.length) * 8 = 8 * t.slots := by simp only [FuncType.slots]; omega
    rw [hs] at this
    cases this with
    | @ok m' g1 g2 g3 g4 =>
      refine .inr ⟨l.free, _, rfl, ⟨?_, rfl, ?_, ?_, fun _ => ?_, ?_⟩, by simp [h0], ?_⟩
      · have := Lib.Ok.of (f := l.free + 8 * t.slots) (n := 8 * t.slots) ok g1 g4 (Nat.le_refl _) g2 (Nat.le_trans g2 (Nat.mul_le_mul_right 65536 g3))
        exact this.puts _ _ _
      · rw [(Mem.puts_pages _ _ _ _).2]; exact g1.limit
      · rw [(Mem.puts_pages _ _ _ _).1]; exact g1.pages
      · rw [(Mem.puts_pages _ _ _ _).1]; omega
      · intro i hi
        rw [Mem.puts_bytes _ _ _ _ _ (.inl (by omega))]
        exact g1.bytes i (Nat.lt_of_lt_of_le hi ok.free)
      · have := Mem.vals_puts m' l.free t.results.length xs
        rw [hx] at this
        exact this
    | @fail m' g1 g2 g3 =>
      refine .inl ⟨?_, m', rfl, ⟨Nat.le_trans ok.free g1.size, ok.free', g2, by dsimp only; rw [g1.limit]; exact ok.limit⟩, g1.limit⟩
      rcases g3 with h | h | h
      · exact .inl h
      · exact .inr (.inl h)
      · exact .inr (.inr h)

theorem types_of_puts {m : Mem} {q : Nat} : (m.puts q 4 (typeCodes t)).Types q (t.results ++ t.inputs) := by
  intro k v hk
  have hlt : k < (typeCodes t).length := by
    have := (List.getElem?_eq_some_iff.1 hk).1
    simpa [typeCodes] using this
  have hv : (typeCodes t)[k] = v.runtimeEnumValue := by
    have : (typeCodes t)[k]? = some v.runtimeEnumValue := by rw [typeCodes, List.getElem?_map, hk]; rfl
    exact (List.getElem?_eq_some_iff.1 this).2
  have := Mem.puts_word 4 (typeCodes t) m q k hlt (by rw [hv]; exact runtimeEnumValue_lt v)
  rw [this, hv]

theorem lib_allocate_types (hK : K.Good) (ht : t ∈ K.sigs) (hr : t.RefFree) (hn : t.slots < 8192) (ok : l.Ok) :
    (Full l (4 * t.slots) ∧ ∃ m', K.lib (allocateTypesName t) [] l.store = .trap (⟨l.free, m'⟩ : Lib).store ∧ (⟨l.free, m'⟩ : Lib).Ok ∧ m'.limit = l.mem.limit) ∨
    ∃ q l', K.lib (allocateTypesName t) [] l.store = .ok [.i32 (BitVec.ofNat 32 q)] l'.store ∧ Allocated l l' (4 * t.slots) ∧
      q = (if t.slots = 0 then 0 else l.free) ∧ l'.mem.Types q (t.results ++ t.inputs) := by
  obtain ⟨d, hd⟩ := hK.eq
  rw [allocateTypesName_eq hr]
  have f1 := ok.free'
  by_cases h0 : t.slots = 0
  · have hi : t.inputs = [] := List.length_eq_zero_iff.1 (by simp only [FuncType.slots] at h0; omega)
    have hi' : t.results = [] := List.length_eq_zero_iff.1 (by simp only [FuncType.slots] at h0; omega)
    have := call_allocate_types_none (N := K.N) (sigs := K.sigs) (L := K.L) d ht l.store (by simpa [FuncType.slots] using h0)
    refine .inr ⟨0, l, by simp only [LibLink.lib, hd]; exact this, ⟨ok, by omega, rfl, Nat.le_refl _, id, fun _ _ => rfl⟩, by simp [h0], ?_⟩
    intro k v hk
    simp [hi, hi'] at hk
  · have := call_allocate_types (N := K.N) (L := K.L) hK.num hK.loops d ht l ok (by simp only [FuncType.slots] at h0; omega)
      (by simp only [FuncType.slots] at hn; omega)
    rw [← hd] at this
    simp only [LibLink.lib]
    generalize libCall K.N (generateLib K.sigs) K.L K.d ("allocate_types_" ++ mangledName t) [] l.store = res at this
    have hs : (t.results.length + t.inputs.length) * 4 = 4 * t.slots := by simp only [FuncType.slots]; omega
    rw [hs] at this
    cases this with
    | @ok m' g1 g2 g3 g4 =>
      refine .inr ⟨l.free, _, rfl, ⟨?_, rfl, ?_, ?_, fun _ => ?_, ?_⟩, by simp [h0], types_of_puts⟩
      · have := Lib.Ok.of (f := l.free + 4 * t.slots) (n := 4 * t.slots) ok g1 g4 (Nat.le_refl _) g2 (Nat.le_trans g2 (Nat.mul_le_mul_right 65536 g3))
        exact this.puts _ _ _
      · rw [(Mem.puts_pages _ _ _ _).2]; exact g1.limit
      · rw [(Mem.puts_pages _ _ _ _).1]; exact g1.pages
      · rw [(Mem.puts_pages _ _ _ _).1]; omega
      · intro i hi
        rw [Mem.puts_bytes _ _ _ _ _ (.inl (by omega))]
        exact g1.bytes i (Nat.lt_of_lt_of_le hi ok.free)
    | @fail m' g1 g2 g3 =>
      refine .inl ⟨?_, m', rfl, ⟨Nat.le_trans ok.free g1.size, ok.free', g2, by dsimp only; rw [g1.limit]; exact ok.limit⟩, g1.limit⟩
      rcases g3 with h | h | h
      · exact .inl h
      · exact .inr (.inl h)
      · exact .inr (.inr h)

theorem lib_load (hK : K.Good) (ht : t ∈ K.sigs) (hr : t.RefFree) (ok : l.Ok) {p : Nat} (hin : p + 8 * t.slots ≤ l.mem.size) (side : Side) {i : Nat} {v : ValType}
    (hi : (t.side side)[i]? = some v) (hv : ∀ r, v ≠ .ref r) :
    K.lib (loadName t side i) [.i32 (BitVec.ofNat 32 p)] l.store = .ok [.num (v.ofBits (l.mem.word (p + 8 * slotOf t side i) 8))] l.store := by
  obtain ⟨d, hd⟩ := hK.eq
  rw [loadName_eq hr]
  have := call_load (N := K.N) (L := K.L) hK.num d ht l side hi hv p hin ok.size
  simp only [LibLink.lib, hd]
  exact this

theorem lib_store_rets (hK : K.Good) (ht : t ∈ K.sigs) (hr : t.RefFree) (ok : l.Ok) {p : Nat} (hin : p + 8 * t.slots ≤ l.mem.size) {vs : List Val}
    (hv : vs.map Val.type = t.results) :
    K.lib (storeRetsName t) (.i32 (BitVec.ofNat 32 p) :: vs.map .num) l.store = .ok [] (⟨l.free, l.mem.puts p 8 (vs.map Val.bits)⟩ : Lib).store := by
  obtain ⟨d, hd⟩ := hK.eq
  rw [storeRetsName_eq hr]
  have := call_store_rets (N := K.N) (L := K.L) hK.num d ht l vs hv p hin ok.size
  simp only [LibLink.lib, hd]
  exact this

theorem lib_free_values (hK : K.Good) (ht : t ∈ K.sigs) (hr : t.RefFree) {p : RVal} (hp : p.type = .i32) (h : 8 * t.slots ≤ l.free) :
    K.lib (freeValuesName t) [p] l.store = .ok [] (⟨l.free - 8 * t.slots, l.mem⟩ : Lib).store := by
  obtain ⟨d, hd⟩ := hK.eq
  rw [freeValuesName_eq hr]
  have := call_free_values (N := K.N) (L := K.L) hK.num d ht l p hp (by simp only [FuncType.slots] at h; omega)
  simp only [LibLink.lib, hd]
  rw [this, show (t.results.length + t.inputs.length) * 8 = 8 * t.slots by simp only [FuncType.slots]; omega]

theorem lib_free_types (hK : K.Good) (ht : t ∈ K.sigs) (hr : t.RefFree) {p : RVal} (hp : p.type = .i32) (h : 4 * t.slots ≤ l.free) :
    K.lib (freeTypesName t) [p] l.store = .ok [] (⟨l.free - 4 * t.slots, l.mem⟩ : Lib).store := by
  obtain ⟨d, hd⟩ := hK.eq
  rw [freeTypesName_eq hr]
  have := call_free_types (N := K.N) (L := K.L) hK.num d ht l p hp (by simp only [FuncType.slots] at h; omega)
  simp only [LibLink.lib, hd]
  rw [this, show (t.results.length + t.inputs.length) * 4 = 4 * t.slots by simp only [FuncType.slots]; omega]

end

/-! ## The generated functions -/

/-- The surroundings `E` provide the functions `fs`, those imported from the stack library being the library's. -/
structure Wired (K : LibLink) (fs : List Func) (E : Env (World W A)) : Prop where
  ftype : ∀ (k : Nat) f, fs[k]? = some f → E.ftype k = some f.type
  call : ∀ (k : Nat) ty name args s, fs[k]? = some (stackImport ty name) → E.callF k args s = (K.lib name args s.getLib).inside s

section
variable {K : LibLink} {fs : List Func} {E : Env (World W A)} {lo : Nat} {t : FuncType} {h : StackHooks}

theorem Wired.at_ftype (hW : Wired K fs E) {k : Nat} {ty name} (ha : At lo fs k (stackImport ty name)) : E.ftype k = some ty := hW.ftype k _ ha.2
theorem Wired.at_call (hW : Wired K fs E) {k : Nat} {ty name} (ha : At lo fs k (stackImport ty name)) {args s l} (hs : s.getLib = l) :
    E.callF k args s = (K.lib name args l).inside s := by rw [hW.call k _ _ args s ha.2, hs]

/-- Loading consecutive values. -/
theorem runs_loads (hW : Wired K fs E) (hK : K.Good) (ht : t ∈ K.sigs) (hr : t.RefFree) {side : Side} {pi : Nat} {p : Nat} {ll : List RVal} {l : Lib} (ok : l.Ok)
    {s : Store (World W A)} (hs : s.getLib = l.store) (hp : ll[pi]? = some (.i32 (BitVec.ofNat 32 p))) (hin : p + 8 * t.slots ≤ l.mem.size) (base : Nat)
    (hslot : ∀ i, slotOf t side i = base + i) (hv : ∀ v ∈ t.side side, ∀ r, v ≠ .ref r) (bs : List Basic) :
    ∀ (ts : List ValType) (ks : List Nat) (k : Nat) (st : List RVal), ks.length = ts.length → (∀ i v, ts[i]? = some v → (t.side side)[k + i]? = some v) →
    (∀ i v j, ts[i]? = some v → ks[i]? = some j → At lo fs j (stackImport ⟨[.i32], [v]⟩ (loadName t side (k + i)))) →
    runs E ((ks.flatMap fun j => [Basic.loc .get pi, .call j]) ++ bs) ⟨st, ll, s⟩ =
      runs E bs ⟨((l.mem.vals p (base + k) ts).map RVal.num).reverse ++ st, ll, s⟩ := by
  intro ts
  induction ts with
  | nil =>
    intro ks k st hl _ _
    have : ks = [] := List.length_eq_zero_iff.1 hl
    subst this; rfl
  | cons v ts ih =>
    intro ks k st hl hts hat
    cases ks with
    | nil => simp at hl
    | cons j ks =>
      simp only [List.flatMap_cons, List.cons_append, List.nil_append]
      have h0 := hts 0 v rfl
      have a0 := hat 0 v j rfl rfl
      rw [Nat.add_zero] at h0 a0
      have hvv : ∀ r, v ≠ .ref r := hv v (List.mem_of_getElem? h0)
      have hload := lib_load hK ht hr ok hin side h0 hvv
      rw [runs_get hp]
      have hc : E.callF j [.i32 (BitVec.ofNat 32 p)] s = .ok [.num (v.ofBits (l.mem.word (p + 8 * slotOf t side k) 8))] s := by
        rw [hW.at_call a0 hs, hload]
        simp only [Res.inside, Store.setLib_of hs]
      have := runs_call_ok (bs := (ks.flatMap fun j => [Basic.loc .get pi, .call j]) ++ bs) (st := st) (lo := ll) (hW.at_ftype a0) rfl hc
        (by simp only [List.map_cons, List.map_nil, RVal.type, ofBits_type hvv])
      simp only [List.reverse_cons, List.reverse_nil, List.nil_append, List.cons_append] at this
      rw [this, ih ks (k + 1) _ (by simpa using hl) (fun i w hw => by
          have := hts (i + 1) w hw
          rwa [show k + (i + 1) = k + 1 + i by omega] at this) (fun i w j' hw hj => by
          have := hat (i + 1) w j' hw hj
          rwa [show k + (i + 1) = k + 1 + i by omega] at this)]
      have hvals : l.mem.vals p (base + k) (v :: ts) = v.ofBits (l.mem.word (p + 8 * slotOf t side k) 8) :: l.mem.vals p (base + (k + 1)) ts := by
        simp only [Mem.vals, List.mapIdx_cons, hslot, Nat.add_zero, List.cons.injEq, true_and]
        exact congrArg (List.mapIdx · ts) (funext fun i => funext fun w => by rw [show base + (k + 1) + i = base + k + (i + 1) by omega])
      rw [hvals]
      simp only [List.map_cons, List.reverse_cons, List.append_assoc, List.cons_append, List.nil_append]

/-- The state in which the analysis is asked about a call of a function of type `t` with arguments `xs`: `l` is the library's
state before the call. -/
structure Prepared (l : Lib) (t : FuncType) (xs : List Val) (p q : Nat) (l1 : Lib) : Prop where
  alloc : Allocated l l1 (12 * t.slots)
  p_eq : p = if t.slots = 0 then 0 else l.free
  q_eq : q = if t.slots = 0 then 0 else l.free + 8 * t.slots
  args : l1.mem.args t p = xs
  types : l1.mem.Types q (t.results ++ t.inputs)

theorem Prepared.values_in {l l1 : Lib} {xs p q} (hP : Prepared l t xs p q l1) : p + 8 * t.slots ≤ l1.mem.size := by
  have h1 := hP.alloc.ok.free
  have h2 := hP.alloc.free
  have h3 := hP.p_eq
  split at h3 <;> omega

theorem Prepared.types_in {l l1 : Lib} {xs p q} (hP : Prepared l t xs p q l1) : q + 4 * t.slots ≤ l1.mem.size := by
  have h1 := hP.alloc.ok.free
  have h2 := hP.alloc.free
  have h3 := hP.q_eq
  split at h3 <;> omega

/-- The question a trampoline asks the analysis. -/
def applyQuestion (j i : Nat) (t : FuncType) (p q : Nat) (present : BitVec 32) : List RVal :=
  [.i32 (BitVec.ofNat 32 j), .i32 (BitVec.ofNat 32 i), .i32 (BitVec.ofNat 32 t.inputs.length), .i32 (BitVec.ofNat 32 t.results.length),
   .i32 (BitVec.ofNat 32 p), .i32 (BitVec.ofNat 32 q), .i32 present]

/-- The trampoline: either the library's memory is exhausted, or the analysis is asked with the arguments in a fresh buffer,
and once it returns the results in the buffer are returned and the buffers released. -/
theorem run_trampoline (hW : Wired K fs E) (hK : K.Good) (ht : t ∈ K.sigs) (hr : t.RefFree) (hn : t.slots < 8192) (hl : Linked lo fs t h) {ga : Nat}
    (hga : E.ftype ga = some ⟨[.i32, .i32, .i32, .i32, .i32, .i32, .i32], []⟩) (j i : Nat) (present : BitVec 32)
    {l : Lib} (ok : l.Ok) {s : Store (World W A)} (hs : s.getLib = l.store) {xs : List Val} (hx : xs.map Val.type = t.inputs) :
    let run := runBody t [.i32, .i32] (denFlat E (applyTrampoline t h ga (BitVec.ofNat 32 j) (BitVec.ofNat 32 i) (BitVec.ofNat 32 t.inputs.length)
      (BitVec.ofNat 32 t.results.length) present)) (xs.map .num) s
    (Full l (12 * t.slots) ∧ ∃ l' : Lib, run = .trap (s.setLib l'.store) ∧ l'.Ok ∧ l'.mem.limit = l.mem.limit) ∨
    ∃ p q l1, Prepared l t xs p q l1 ∧
      (∀ (s2 : Store (World W A)) (l2 : Lib), E.callF ga (applyQuestion j i t p q present) (s.setLib l1.store) = .ok [] s2 → s2.getLib = l2.store → l2.Ok → l2.free = l1.free →
        run = .ok ((l2.mem.ress t p).map .num) (s2.setLib (⟨l.free, l2.mem⟩ : Lib).store)) ∧
      (∀ s2, E.callF ga (applyQuestion j i t p q present) (s.setLib l1.store) = .trap s2 → run = .trap s2) ∧
      (E.callF ga (applyQuestion j i t p q present) (s.setLib l1.store) = .fuel → run = .fuel) ∧
      (E.callF ga (applyQuestion j i t p q present) (s.setLib l1.store) = .stuck → run = .stuck) ∧
      (∀ v vs s2, E.callF ga (applyQuestion j i t p q present) (s.setLib l1.store) = .ok (v :: vs) s2 → run = .stuck) := by
  intro run
  have hlen : xs.length = t.inputs.length := mapTypes hx
  let n := t.inputs.length
  -- the code
  let tail : List Basic := (h.retLoad.flatMap fun l => [.loc .get n, .call l]) ++ [.loc .get n, .call h.freeValues, .loc .get (n + 1), .call h.freeTypes]
  let mid : List Basic := [.loc .set n, .call h.allocateTypes, .loc .set (n + 1),
    .const (.i32 (BitVec.ofNat 32 j)), .const (.i32 (BitVec.ofNat 32 i)), .const (.i32 (BitVec.ofNat 32 t.inputs.length)), .const (.i32 (BitVec.ofNat 32 t.results.length)),
    .loc .get n, .loc .get (n + 1), .const (.i32 present), .call ga]
  have hcode : denFlat E (applyTrampoline t h ga (BitVec.ofNat 32 j) (BitVec.ofNat 32 i) (BitVec.ofNat 32 t.inputs.length)
      (BitVec.ofNat 32 t.results.length) present) = runs E ((List.range n).map (Basic.loc .get) ++ (.call h.allocateValues :: (mid ++ tail))) := by
    funext c
    rw [← denFlat_straight]
    congr 1
    simp only [applyTrampoline, mid, tail, List.map_append, List.map_map, flatMap_toL, List.map_cons, List.map_nil, List.append_assoc, Basic.toL, List.cons_append, List.nil_append]
    rfl
  have hz : ∀ a b : RVal, ((xs.map RVal.num) ++ [a, b])[n]? = some a := by intro a b; simp [n, ← hlen]
  have hz1 : ∀ a b : RVal, ((xs.map RVal.num) ++ [a, b])[n + 1]? = some b := by intro a b; simp [n, ← hlen]
  have hset0 : ∀ a b c : RVal, ((xs.map RVal.num) ++ [a, b]).set n c = (xs.map RVal.num) ++ [c, b] := by
    intro a b c; rw [List.set_append_right _ _ (by simp [n, hlen])]; simp [n, hlen]
  have hset1 : ∀ a b c : RVal, ((xs.map RVal.num) ++ [a, b]).set (n + 1) c = (xs.map RVal.num) ++ [a, c] := by
    intro a b c; rw [List.set_append_right _ _ (by simp [n, hlen])]; simp [n, hlen]
  have hfirst : denFlat E (applyTrampoline t h ga (BitVec.ofNat 32 j) (BitVec.ofNat 32 i) (BitVec.ofNat 32 t.inputs.length)
      (BitVec.ofNat 32 t.results.length) present) ⟨[], xs.map .num ++ [ValType.i32, ValType.i32].map ValType.zero, s⟩ =
      runs E (.call h.allocateValues :: (mid ++ tail)) ⟨(xs.map RVal.num).reverse ++ [], (xs.map RVal.num) ++ [.i32 0, .i32 0], s⟩ := by
    rw [hcode]
    have := runs_gets (E := E) (bs := .call h.allocateValues :: (mid ++ tail)) (s := s) (xs.map RVal.num) [] [.i32 0, .i32 0] []
    simp only [List.length_nil, List.length_map, hlen, ← List.range_eq_range', List.nil_append] at this
    exact this
  have hrun : run = (runs E (.call h.allocateValues :: (mid ++ tail)) ⟨(xs.map RVal.num).reverse ++ [], (xs.map RVal.num) ++ [.i32 0, .i32 0], s⟩).result t.results.length := by
    rw [← hfirst, ← runBody_eq]
  clear_value run
  subst hrun
  have hxt : (xs.map RVal.num).map RVal.type = t.inputs := by rw [types_nums, hx]
  have halloc := runs_call (E := E) (bs := mid ++ tail) (st := []) (lo := (xs.map RVal.num) ++ [.i32 0, .i32 0]) (s := s) (hW.at_ftype hl.allocateValues) hxt
  rw [hW.at_call hl.allocateValues hs] at halloc
  rcases lib_allocate_values hK ht hr hn ok hx with ⟨hf, m', e, mok, ml⟩ | ⟨p, l', e, al, hp, hargs⟩
  · rw [e] at halloc
    simp only [Res.inside, Res.andThen] at halloc
    refine .inl ⟨?_, ⟨l.free, m'⟩, by rw [halloc]; rfl, mok, ml⟩
    rcases hf with hf | hf | hf
    · exact .inl (by omega)
    · exact .inr (.inl (by omega))
    · exact .inr (.inr hf)
  rw [e] at halloc
  simp only [Res.inside, Res.andThen] at halloc
  rw [if_pos (show List.map RVal.type [RVal.i32 _] = [ValType.i32] from rfl)] at halloc
  simp only [List.reverse_cons, List.reverse_nil, List.nil_append, List.cons_append] at halloc
  rw [show mid ++ tail = .loc .set n :: .call h.allocateTypes :: (.loc .set (n + 1) :: (mid.drop 3 ++ tail)) from rfl,
    runs_set (by simp [n, hlen]), hset0] at halloc
  have htypes := runs_call (E := E) (bs := .loc .set (n + 1) :: (mid.drop 3 ++ tail)) (args := []) (st := []) (lo := (xs.map RVal.num) ++ [.i32 (BitVec.ofNat 32 p), .i32 0]) (s := s.setLib l'.store)
    (hW.at_ftype hl.allocateTypes) rfl
  rw [List.reverse_nil, List.nil_append] at htypes
  rw [htypes, hW.at_call hl.allocateTypes (Store.getLib_setLib _ _)] at halloc
  clear htypes
  rcases lib_allocate_types hK ht hr hn al.ok with ⟨hf, m', e2, mok, ml⟩ | ⟨q, l1, e2, al2, hq, hty⟩
  · rw [e2] at halloc
    simp only [Res.inside, Res.andThen, Store.setLib_setLib] at halloc
    refine .inl ⟨?_, ⟨l'.free, m'⟩, by rw [show mid ++ tail = .loc .set n :: .call h.allocateTypes :: (.loc .set (n + 1) :: (mid.drop 3 ++ tail)) from rfl, halloc]; rfl, mok, ml.trans al.limit⟩
    have h1 := al.free
    have h2 := al.limit
    rcases hf with hf | hf | hf
    · exact .inl (by rw [h2] at hf; omega)
    · exact .inr (.inl (by omega))
    · refine .inr (.inr ?_)
      have h3 := ok.pages
      have h4 := ok.limit
      have h5 := al.room
      omega
  right
  have hfree : l1.free = l.free + 12 * t.slots := by have := al.free; have := al2.free; omega
  have hP : Prepared l t xs p q l1 := by
    refine ⟨⟨al2.ok, hfree, al2.limit.trans al.limit, Nat.le_trans al.pages al2.pages, fun h => al2.room (al.room h), ?_⟩, hp, ?_, ?_, hty⟩
    · intro i hi
      rw [al2.below i (by have := al.free; omega), al.below i hi]
    · rw [hq]; split
      · rfl
      · exact al.free
    · rw [← hargs]
      refine Mem.vals_congr fun i h1 h2 => al2.below i ?_
      have h3 := al.free
      have h4 : t.results.length + t.inputs.length = t.slots := rfl
      split at hp <;> omega
  refine ⟨p, q, l1, hP, ?_⟩
  rw [e2] at halloc
  simp only [Res.inside, Res.andThen, Store.setLib_setLib] at halloc
  rw [if_pos (show List.map RVal.type [RVal.i32 _] = [ValType.i32] from rfl)] at halloc
  simp only [List.reverse_cons, List.reverse_nil, List.nil_append, List.cons_append] at halloc
  rw [runs_set (by simp [n, hlen]), hset1] at halloc
  simp only [mid, List.drop_succ_cons, List.drop_zero, List.cons_append, List.nil_append] at halloc
  rw [runs_const, runs_const, runs_const, runs_const, runs_get (hz _ _), runs_get (hz1 _ _), runs_const] at halloc
  have hask := runs_call (E := E) (bs := tail) (args := applyQuestion j i t p q present) (st := [])
    (lo := (xs.map RVal.num) ++ [.i32 (BitVec.ofNat 32 p), .i32 (BitVec.ofNat 32 q)]) (s := s.setLib l1.store) hga rfl
  rw [show (applyQuestion j i t p q present).reverse ++ [] = [RVal.i32 present, .i32 (BitVec.ofNat 32 q), .i32 (BitVec.ofNat 32 p), .i32 (BitVec.ofNat 32 t.results.length),
    .i32 (BitVec.ofNat 32 t.inputs.length), .i32 (BitVec.ofNat 32 i), .i32 (BitVec.ofNat 32 j)] from rfl] at hask
  rw [hask] at halloc
  clear hask
  simp only [mid, List.cons_append, List.nil_append] at *
  rw [halloc]
  refine ⟨?_, ?_, ?_, ?_, ?_⟩
  · intro s2 l2 he hs2 ok2 hf2
    rw [he]
    simp only [Res.andThen, List.map_nil, if_true, List.reverse_nil, List.nil_append]
    have hin2 : p + 8 * t.slots ≤ l2.mem.size := by
      have := ok2.free
      split at hp <;> omega
    have hloads := runs_loads (E := E) (lo := lo) (fs := fs) hW hK ht hr (side := .ret) (pi := n) (p := p) (ll := (xs.map RVal.num) ++ [.i32 (BitVec.ofNat 32 p), .i32 (BitVec.ofNat 32 q)])
      ok2 hs2 (hz _ _) hin2 0 (fun i => (Nat.zero_add _).symm) hr.results [.loc .get n, .call h.freeValues, .loc .get (n + 1), .call h.freeTypes] t.results h.retLoad 0 []
      hl.retLoadLen (fun i v hv => by rw [Nat.zero_add]; exact hv) (fun i v k h1 h2 => by simpa using hl.retLoad i v k h1 h2)
    simp only [tail]
    rw [hloads, runs_get (hz _ _)]
    have e3 := lib_free_values (l := l2) hK ht hr (p := .i32 (BitVec.ofNat 32 p)) rfl (by omega)
    have c3 : E.callF h.freeValues [.i32 (BitVec.ofNat 32 p)] s2 = .ok [] (s2.setLib (⟨l2.free - 8 * t.slots, l2.mem⟩ : Lib).store) := by
      rw [hW.at_call hl.freeValues hs2, e3]; rfl
    have r3 := runs_call_ok (bs := [.loc .get (n + 1), .call h.freeTypes]) (st := ((l2.mem.vals p (0 + 0) t.results).map RVal.num).reverse ++ [])
      (lo := (xs.map RVal.num) ++ [.i32 (BitVec.ofNat 32 p), .i32 (BitVec.ofNat 32 q)]) (hW.at_ftype hl.freeValues) rfl c3 rfl
    simp only [List.reverse_cons, List.reverse_nil, List.nil_append, List.cons_append] at r3
    rw [r3, runs_get (hz1 _ _)]
    have e4 := lib_free_types (l := ⟨l2.free - 8 * t.slots, l2.mem⟩) hK ht hr (p := .i32 (BitVec.ofNat 32 q)) rfl (by dsimp only; omega)
    have c4 : E.callF h.freeTypes [.i32 (BitVec.ofNat 32 q)] (s2.setLib (⟨l2.free - 8 * t.slots, l2.mem⟩ : Lib).store) =
        .ok [] (s2.setLib (⟨l.free, l2.mem⟩ : Lib).store) := by
      rw [hW.at_call hl.freeTypes (Store.getLib_setLib _ _), e4]
      simp only [Res.inside, Store.setLib_setLib]
      rw [show l2.free - 8 * t.slots - 4 * t.slots = l.free by omega]
    have r4 := runs_call_ok (bs := []) (st := ((l2.mem.vals p (0 + 0) t.results).map RVal.num).reverse ++ [])
      (lo := (xs.map RVal.num) ++ [.i32 (BitVec.ofNat 32 p), .i32 (BitVec.ofNat 32 q)]) (hW.at_ftype hl.freeTypes) rfl c4 rfl
    simp only [List.reverse_cons, List.reverse_nil, List.nil_append, List.cons_append] at r4
    rw [r4, runs_nil]
    simp only [Out.result, List.append_nil, List.length_reverse, List.length_map, Mem.vals_length, if_true, List.reverse_reverse]
    rfl
  · intro s2 he; rw [he]; rfl
  · intro he; rw [he]; rfl
  · intro he; rw [he]; rfl
  · intro v vs s2 he; rw [he]; simp [Res.andThen, Out.result]

/-- The apply function calls the copy with the arguments in the buffer, then writes the results to the buffer. -/
theorem run_applyFunc (hW : Wired K fs E) (hK : K.Good) (ht : t ∈ K.sigs) (hr : t.RefFree) (hl : Linked lo fs t h) {un : Nat} (hun : E.ftype un = some t)
    {l : Lib} (ok : l.Ok) {s : Store (World W A)} (hs : s.getLib = l.store) {p : Nat} (hin : p + 8 * t.slots ≤ l.mem.size) :
    let run := runBody ⟨[.i32], []⟩ [.i32] (denFlat E (baseApplyBody h un)) [.i32 (BitVec.ofNat 32 p)] s
    (∀ (vs : List Val) (s2 : Store (World W A)) (l2 : Lib), E.callF un ((l.mem.args t p).map .num) s = .ok (vs.map .num) s2 → vs.map Val.type = t.results → s2.getLib = l2.store → l2.Ok →
      p + 8 * t.slots ≤ l2.mem.size → run = .ok [] (s2.setLib (⟨l2.free, l2.mem.puts p 8 (vs.map Val.bits)⟩ : Lib).store)) ∧
    (∀ vs s2, E.callF un ((l.mem.args t p).map .num) s = .ok vs s2 → vs.map RVal.type ≠ t.results → run = .stuck) ∧
    (∀ s2, E.callF un ((l.mem.args t p).map .num) s = .trap s2 → run = .trap s2) ∧
    (E.callF un ((l.mem.args t p).map .num) s = .fuel → run = .fuel) ∧
    (E.callF un ((l.mem.args t p).map .num) s = .stuck → run = .stuck) := by
  intro run
  have hcode : denFlat E (baseApplyBody h un) = runs E (.loc .get 0 :: ((h.argLoad.flatMap fun l => [Basic.loc .get 0, .call l]) ++ [.call un, .call h.retStoreAll])) := by
    funext c
    rw [← denFlat_straight]
    congr 1
    simp [baseApplyBody, flatMap_toL, Basic.toL]
  let ll : List RVal := [.i32 (BitVec.ofNat 32 p), .i32 0]
  have hrun : run = (runs E (.loc .get 0 :: ((h.argLoad.flatMap fun l => [Basic.loc .get 0, .call l]) ++ [.call un, .call h.retStoreAll])) ⟨[], ll, s⟩).result 0 := by
    rw [← hcode]; exact runBody_eq _ _ _ _ _
  clear_value run
  subst hrun
  have hloads := runs_loads (E := E) (lo := lo) (fs := fs) hW hK ht hr (side := .arg) (pi := 0) (p := p) (ll := ll)
    ok hs rfl hin t.results.length (fun i => rfl) hr.inputs [.call un, .call h.retStoreAll] t.inputs h.argLoad 0 [.i32 (BitVec.ofNat 32 p)]
    hl.argLoadLen (fun i v hv => by rw [Nat.zero_add]; exact hv) (fun i v k h1 h2 => by simpa using hl.argLoad i v k h1 h2)
  rw [runs_get (v := .i32 (BitVec.ofNat 32 p)) rfl, hloads, Nat.add_zero, show l.mem.vals p t.results.length t.inputs = l.mem.args t p from rfl,
    runs_call hun (by rw [types_nums]; exact Mem.vals_types _ _ _ hr.inputs)]
  refine ⟨?_, ?_, ?_, ?_, ?_⟩
  · intro vs s2 l2 he hvs hs2 ok2 hin2
    rw [he]
    simp only [Res.andThen, types_nums, hvs, if_true]
    have e4 := lib_store_rets hK ht hr ok2 hin2 hvs
    have c4 : E.callF h.retStoreAll (.i32 (BitVec.ofNat 32 p) :: vs.map .num) s2 = .ok [] (s2.setLib (⟨l2.free, l2.mem.puts p 8 (vs.map Val.bits)⟩ : Lib).store) := by
      rw [hW.at_call hl.retStoreAll hs2, e4]; rfl
    have r4 := runs_call_ok (bs := []) (st := []) (lo := ll) (hW.at_ftype hl.retStoreAll) (by rw [List.map_cons, types_nums, hvs]; rfl) c4 rfl
    simp only [List.reverse_cons, List.append_nil, List.reverse_nil, List.nil_append] at r4
    rw [r4, runs_nil]
    rfl
  · intro vs s2 he hne; rw [he]; simp only [Res.andThen, hne, if_false]; rfl
  · intro s2 he; rw [he]; rfl
  · intro he; rw [he]; rfl
  · intro he; rw [he]; rfl

/-- `call_base` calls the function in the given slot of its table. -/
theorem run_callBase {E : Env W} {tbl : Nat} {s : Store W} {T : Table} {j : BitVec 32} {k : Nat} {p : RVal} (hT : s.tables[tbl]? = some T) (hj : T.elems[j.toNat]? = some (some k))
    (hk : E.ftype k = some ⟨[.i32], []⟩) (hp : p.type = .i32) :
    runBody ⟨[.i32, .i32], []⟩ [] (denFlat E (callBaseBody tbl)) [.i32 j, p] s = (match E.callF k [p] s with
      | .ok [] s => .ok [] s
      | .ok _ _ => .stuck
      | .trap s => .trap s
      | .stuck => .stuck
      | .fuel => .fuel) := by
  have hcode : denFlat E (callBaseBody tbl) = runs E [.loc .get 1, .loc .get 0, .callIndirect ⟨[.i32], []⟩ tbl] := by
    funext c
    rw [← denFlat_straight]; rfl
  simp only [runBody, hcode, List.map_nil, List.append_nil]
  rw [runs_get (v := p) rfl, runs_get (v := .i32 j) rfl, runs_cons]
  simp only [step, hT, hj, hk, if_true, doCall, List.length_cons, List.length_nil, Nat.zero_add, List.take_succ_cons, List.take_zero, List.reverse_cons, List.reverse_nil,
    List.nil_append, List.map_cons, List.map_nil, hp, List.drop_succ_cons, List.drop_zero]
  cases E.callF k [p] s with
  | ok vs s' =>
    cases vs with
    | nil => simp [Out.bind, runs_nil]
    | cons v vs => simp [Out.bind]
  | trap s' => rfl
  | stuck => rfl
  | fuel => rfl

end

end Wastrum
