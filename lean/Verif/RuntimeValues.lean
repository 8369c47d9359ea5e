import Verif.StackThms
/-!
# The analysis' view of an intercepted call

Model of `WasmFunction` and `RuntimeValues` of the Rust analysis library
(`/repo/wastrumentation-instr-lib/tests/analyses/rust/wastrumentation-rs-stdlib/src/lib.rs`), which give an analysis access
to the arguments and results of a call it intercepts, and facts about what they read and write.
-/

set_option linter.unusedSimpArgs false
set_option linter.unusedVariables false

namespace Wastrum

/-! ## Model -/

/-- The world of an instrumented program: the part `W` that belongs to the program and its embedder, the state `A` of the
analysis, and the instance of the generated stack library (a module of its own: it has its own memory and globals).
`wastrumentation` links the three modules together (`wastrumentation/src/lib.rs` 146-202). -/
abbrev World (W A : Type) := W × A × Store Unit

variable {W A : Type}

/-- Replace the state of the library. -/
def Store.setLib (s : Store (World W A)) (l : Store Unit) : Store (World W A) := { s with world := (s.world.1, s.world.2.1, l) }

/-- The state of the library. -/
def Store.getLib (s : Store (World W A)) : Store Unit := s.world.2.2

/-- Outcome of a piece of the analysis' code that computes an `α`. A Rust panic is a trap (the analyses are compiled with
`panic = "abort"`, and the panic handler of the library executes `unreachable`). -/
inductive Eff (W α : Type) where
  | ok (a : α) (s : Store W)
  | trap (s : Store W)
  | stuck
  | fuel

/-- A piece of the analysis' code. -/
abbrev Act (W α : Type) := Store W → Eff W α

/-- Sequencing. -/
def Act.bind {W α β : Type} (x : Act W α) (f : α → Act W β) : Act W β := fun s =>
  match x s with
  | .ok a s => f a s
  | .trap s => .trap s
  | .stuck => .stuck
  | .fuel => .fuel

instance {W : Type} : Monad (Act W) where
  pure a s := .ok a s
  bind := Act.bind

/-- `panic!()`. -/
def Act.panic {W α : Type} : Act W α := fun s => .trap s

/-- Something the type system rules out. -/
def Act.stuck {W α : Type} : Act W α := fun _ => .stuck

/-- A call of a function of the library: the answer of the library, and its new state. -/
def Res.inside (r : Res Unit) (s : Store (World W A)) : Res (World W A) :=
  match r with
  | .ok vs l => .ok vs (s.setLib l)
  | .trap l => .trap (s.setLib l)
  | .stuck => .stuck
  | .fuel => .fuel

/-- The import `name` of the stack library. -/
def libHost (N : Num) (sigs : List FuncType) (L d : Nat) (name : String) : Host (World W A) := fun _ args s =>
  (libCall N (generateLib sigs) L d name args s.getLib).inside s

/-- The outcome of a call as that of a piece of the analysis' code. -/
def Res.toEff {W : Type} : Res W → Eff W (List RVal)
  | .ok vs s => .ok vs s
  | .trap s => .trap s
  | .stuck => .stuck
  | .fuel => .fuel

/-- The stack library as the analysis sees it, through its own imports (`lib.rs` 67-78). -/
structure LibLink where
  N : Num
  sigs : List FuncType
  L : Nat
  d : Nat

/-- Call a function of the stack library. -/
def LibLink.call (K : LibLink) (name : String) (args : List RVal) : Act (World W A) (List RVal) := fun s =>
  (libHost K.N K.sigs K.L K.d name (fun _ _ _ => .stuck) args s).toEff

/-- `WasmType::from`: `lib.rs` 132-142; `none` is the panic. -/
def wasmType (code : BitVec 32) : Option ValType :=
  if code = 0 then some .i32 else if code = 1 then some .f32 else if code = 2 then some .i64 else if code = 3 then some .f64 else none

/-- `WasmType::load`: `lib.rs` 158-178. The offset counts values. -/
def LibLink.load (K : LibLink) (v : ValType) (ptr offset : BitVec 32) : Act (World W A) Val := do
  match ← K.call (typedName v) [.i32 ptr, .i32 offset] with
  | [.num x] => pure x
  | _ => .stuck

/-- `WasmValue::store`: `lib.rs` 226-242. The value's own type selects the function. -/
def LibLink.store (K : LibLink) (x : Val) (ptr offset : BitVec 32) : Act (World W A) Unit := do
  match ← K.call (typedStoreName x.type) [.i32 ptr, .num x, .i32 offset] with
  | [] => pure ()
  | _ => .stuck

/-- `RuntimeValues`: `lib.rs` 338-344. -/
structure RuntimeValues where
  argc : BitVec 32
  resc : BitVec 32
  sigv : BitVec 32
  types : List ValType

/-- The loop of `RuntimeValues::new`: `lib.rs` 384-388, `n` rounds from `index` on. -/
def LibLink.loadTypes (K : LibLink) (sigtypv : BitVec 32) : (index n : Nat) → Act (World W A) (List ValType)
  | _, 0 => pure []
  | index, n + 1 => do
    match ← K.call "wastrumentation_stack_load_type" [.i32 sigtypv, .i32 (BitVec.ofNat 32 index)] with
    | [.num (.i32 code)] => match wasmType code with
      | some v => do return v :: (← K.loadTypes sigtypv (index + 1) n)
      | none => .panic
    | _ => .stuck

/-- `RuntimeValues::new`: `lib.rs` 380-395. The loop runs over `0..total` of `i32`s: not at all if the total is negative. -/
def LibLink.runtimeValues (K : LibLink) (argc resc sigv sigtypv : BitVec 32) : Act (World W A) RuntimeValues := do
  return ⟨argc, resc, sigv, ← K.loadTypes sigtypv 0 (argc + resc).toInt.toNat⟩

/-- `check_bounds`: `lib.rs` 397-404. -/
def RuntimeValues.inBounds (count index : BitVec 32) : Bool := ¬ index.toInt < 0 ∧ ¬ index.toInt ≥ count.toInt

/-- `get_value`: `lib.rs` 406-409. Indexing a `Vec` out of bounds panics. -/
def LibLink.getValue (K : LibLink) (rv : RuntimeValues) (index : BitVec 32) : Act (World W A) Val :=
  match rv.types[index.toNat]? with
  | some v => K.load v rv.sigv index
  | none => .panic

/-- `get_arg`: `lib.rs` 424-427. -/
def LibLink.getArg (K : LibLink) (rv : RuntimeValues) (index : BitVec 32) : Act (World W A) Val :=
  if RuntimeValues.inBounds rv.argc index then K.getValue rv (rv.resc + index) else .panic

/-- `get_res`: `lib.rs` 429-432. -/
def LibLink.getRes (K : LibLink) (rv : RuntimeValues) (index : BitVec 32) : Act (World W A) Val :=
  if RuntimeValues.inBounds rv.resc index then K.getValue rv (0 + index) else .panic

/-- `set_arg`: `lib.rs` 434-437 (with `set_value`, 411-414). -/
def LibLink.setArg (K : LibLink) (rv : RuntimeValues) (index : BitVec 32) (x : Val) : Act (World W A) Unit :=
  if RuntimeValues.inBounds rv.argc index then K.store x rv.sigv (rv.resc + index) else .panic

/-- `set_res`: `lib.rs` 439-442 (with `set_value`, 411-414). -/
def LibLink.setRes (K : LibLink) (rv : RuntimeValues) (index : BitVec 32) (x : Val) : Act (World W A) Unit :=
  if RuntimeValues.inBounds rv.resc index then K.store x rv.sigv (0 + index) else .panic

/-- `get_arg_type`: `lib.rs` 444-447. -/
def RuntimeValues.argType (rv : RuntimeValues) (index : BitVec 32) : Option ValType :=
  if RuntimeValues.inBounds rv.argc index then rv.types[(rv.resc + index).toNat]? else none

/-- `get_res_type`: `lib.rs` 449-452. -/
def RuntimeValues.resType (rv : RuntimeValues) (index : BitVec 32) : Option ValType :=
  if RuntimeValues.inBounds rv.resc index then rv.types[(0 + index).toNat]? else none

/-- `update_each_arg`: `lib.rs` 462-468, `n` rounds from `index` on. -/
def LibLink.updateArgs (K : LibLink) (rv : RuntimeValues) (f : Nat → Val → Val) : (index n : Nat) → Act (World W A) Unit
  | _, 0 => pure ()
  | index, n + 1 => do
    let value ← K.getArg rv (BitVec.ofNat 32 index)
    K.setArg rv (BitVec.ofNat 32 index) (f index value)
    K.updateArgs rv f (index + 1) n

/-- `update_each_res`: `lib.rs` 470-476, `n` rounds from `index` on. -/
def LibLink.updateRess (K : LibLink) (rv : RuntimeValues) (f : Nat → Val → Val) : (index n : Nat) → Act (World W A) Unit
  | _, 0 => pure ()
  | index, n + 1 => do
    let value ← K.getRes rv (BitVec.ofNat 32 index)
    K.setRes rv (BitVec.ofNat 32 index) (f index value)
    K.updateRess rv f (index + 1) n

/-- `RuntimeValuesIterator` run to its end: `lib.rs` 454-460, 479-532 (`n` values from `state` on). -/
def LibLink.iterate (K : LibLink) (rv : RuntimeValues) : (state n : Nat) → Act (World W A) (List Val)
  | _, 0 => pure []
  | state, n + 1 => do return (← K.getValue rv (BitVec.ofNat 32 state)) :: (← K.iterate rv (state + 1) n)

/-- `WasmFunction`: `lib.rs` 321-326. -/
structure WasmFunction where
  f_apply : BitVec 32
  instr_f_idx : BitVec 32
  sigv : BitVec 32
  code_present : BitVec 32

/-- `WasmFunction::is_imported` with `CODE_IS_IMPORT`: `lib.rs` 347, 367-369. -/
def WasmFunction.isImported (f : WasmFunction) : Bool := f.code_present == 1

/-- `WasmFunction::is_present` with `CODE_IS_PRESENT`: `lib.rs` 346, 371-373. -/
def WasmFunction.isPresent (f : WasmFunction) : Bool := f.code_present == 0

/-- `WasmFunction::apply`: `lib.rs` 359-361. `base` is the index of the export `call_base` of the instrumented program. -/
def WasmFunction.apply (f : WasmFunction) (base : Nat) (call : Nat → List RVal → Store W → Res W) : Act W Unit := do
  match ← fun s => (call base [.i32 f.f_apply, .i32 f.sigv] s).toEff with
  | [] => pure ()
  | _ => .stuck

/-- The exported function the `advice!` macro makes of the generic `apply` advice `(func, args, ress) { body }`:
`lib.rs` 693-716. `call` is what `func.apply()` does. -/
def applyAdvice (K : LibLink) (base : Nat) (body : (func : WasmFunction) → (call : Act (World W A) Unit) → (args ress : RuntimeValues) → Act (World W A) Unit) : Host (World W A) := fun call args s =>
  match args with
  | [.num (.i32 f_apply), .num (.i32 idx), .num (.i32 argc), .num (.i32 resc), .num (.i32 sigv), .num (.i32 sigtypv), .num (.i32 present)] =>
    let act : Act (World W A) Unit := do
      let args ← K.runtimeValues argc resc sigv sigtypv
      let ress ← K.runtimeValues argc resc sigv sigtypv
      body ⟨f_apply, idx, sigv, present⟩ (WasmFunction.apply ⟨f_apply, idx, sigv, present⟩ base call) args ress
    match act s with
    | .ok _ s => .ok [] s
    | .trap s => .trap s
    | .stuck => .stuck
    | .fuel => .fuel
  | _ => .stuck

/-! ## Values in a buffer -/

/-- The values of types `ts` in consecutive slots from `k` on of the buffer at `p`. -/
def Mem.vals (m : Mem) (p k : Nat) (ts : List ValType) : List Val := ts.mapIdx fun i v => v.ofBits (m.word (p + 8 * (k + i)) 8)

/-- The arguments in a buffer for values of signature `t` at `p`. -/
def Mem.args (m : Mem) (t : FuncType) (p : Nat) : List Val := m.vals p t.results.length t.inputs
/-- The results in a buffer for values of signature `t` at `p`. -/
def Mem.ress (m : Mem) (t : FuncType) (p : Nat) : List Val := m.vals p 0 t.results

theorem Mem.vals_length (m : Mem) (p k ts) : (m.vals p k ts).length = ts.length := by simp [Mem.vals]

theorem Mem.vals_get (m : Mem) (p k : Nat) (ts : List ValType) (i : Nat) (v) (h : ts[i]? = some v) :
    (m.vals p k ts)[i]? = some (v.ofBits (m.word (p + 8 * (k + i)) 8)) := by simp [Mem.vals, h]

theorem ofBits_type {v : ValType} (hv : ∀ r, v ≠ .ref r) (n : Nat) : (v.ofBits n).type = v := by
  cases v with
  | ref r => exact absurd rfl (hv r)
  | _ => rfl

theorem Mem.vals_types (m : Mem) (p k : Nat) {ts : List ValType} (h : ∀ v ∈ ts, ∀ r, v ≠ .ref r) : (m.vals p k ts).map Val.type = ts := by
  apply List.ext_getElem?
  intro i
  simp only [Mem.vals, List.getElem?_map, List.getElem?_mapIdx, Option.map_map]
  cases hi : ts[i]? with
  | none => rfl
  | some v => simp [ofBits_type (h v (List.mem_of_getElem? hi))]

theorem Mem.vals_congr {m m' : Mem} {p k : Nat} {ts : List ValType} (h : ∀ i, p + 8 * k ≤ i → i < p + 8 * (k + ts.length) → m'.bytes i = m.bytes i) :
    m'.vals p k ts = m.vals p k ts := by
  apply List.ext_getElem?
  intro i
  simp only [Mem.vals, List.getElem?_mapIdx]
  cases hi : ts[i]? with
  | none => rfl
  | some v =>
    have := (List.getElem?_eq_some_iff.1 hi).1
    simp only [Option.map_some]
    rw [Mem.word_congr]
    intro j h1 h2
    exact h j (by omega) (by omega)

theorem Mem.vals_puts (m : Mem) (p k : Nat) (vs : List Val) : (m.puts (p + 8 * k) 8 (vs.map Val.bits)).vals p k (vs.map Val.type) = vs := by
  apply List.ext_getElem?
  intro i
  simp only [Mem.vals, List.getElem?_mapIdx, List.getElem?_map, Option.map_map]
  cases hi : vs[i]? with
  | none => rfl
  | some v =>
    obtain ⟨hl, rfl⟩ := List.getElem?_eq_some_iff.1 hi
    simp only [Option.map_some, Function.comp]
    have hl' : i < (vs.map Val.bits).length := by rw [List.length_map]; exact hl
    have hb : (vs.map Val.bits)[i]'hl' < 256 ^ 8 := by simp only [List.getElem_map]; exact bits_lt _
    have := Mem.puts_word 8 (vs.map Val.bits) m (p + 8 * k) i hl' hb
    rw [show p + 8 * (k + i) = p + 8 * k + 8 * i by omega, this, List.getElem_map, ofBits_bits]

theorem Mem.vals_put (m : Mem) (p k : Nat) {ts : List ValType} {i : Nat} {x : Val} (h : ts[i]? = some x.type) :
    (m.put (p + 8 * (k + i)) 8 x.bits).vals p k ts = (m.vals p k ts).set i x := by
  apply List.ext_getElem?
  intro j
  rw [List.getElem?_set, Mem.vals_length]
  have hi := (List.getElem?_eq_some_iff.1 h).1
  by_cases e : i = j
  · subst e
    rw [if_pos rfl, if_pos hi, Mem.vals_get _ _ _ _ _ _ h, Mem.put_word _ _ _ _ (bits_lt x), ofBits_bits]
  · rw [if_neg e]
    simp only [Mem.vals, List.getElem?_mapIdx]
    cases hj : ts[j]? with
    | none => simp only [Option.map_none]
    | some v =>
      simp only [Option.map_some]
      rw [Mem.word_congr (m := m)]
      intro q h1 h2
      exact Mem.put_bytes _ _ _ _ _ (by omega)

theorem Mem.vals_put_other (m : Mem) (p k : Nat) (ts : List ValType) (s x : Nat) (h : s < k ∨ k + ts.length ≤ s) :
    (m.put (p + 8 * s) 8 x).vals p k ts = m.vals p k ts :=
  Mem.vals_congr fun i h1 h2 => Mem.put_bytes _ _ _ _ _ (by omega)

/-! ## What `RuntimeValues` reads and writes -/

/-- The library is executed with enough fuel to run to completion. -/
structure LibLink.Good (K : LibLink) : Prop where
  num : StackNum K.N
  loops : 65537 ≤ K.L
  depth : 5 ≤ K.d

theorem LibLink.Good.eq {K : LibLink} (h : K.Good) : ∃ d, K.d = d + 5 := ⟨K.d - 5, by have := h.depth; omega⟩

theorem Store.getLib_setLib (s : Store (World W A)) (l) : (s.setLib l).getLib = l := rfl
theorem Store.setLib_setLib (s : Store (World W A)) (l l') : (s.setLib l).setLib l' = s.setLib l' := rfl
theorem Store.setLib_getLib (s : Store (World W A)) : s.setLib s.getLib = s := rfl
theorem Store.setLib_of {s : Store (World W A)} {l} (h : s.getLib = l) : s.setLib l = s := by subst h; rfl

theorem LibLink.load_ok {K : LibLink} (hK : K.Good) {l : Lib} (ok : l.Ok) {s : Store (World W A)} (hs : s.getLib = l.store) {v : ValType} (hv : ∀ r, v ≠ .ref r)
    {p k : Nat} (hin : p + 8 * k + 8 ≤ l.mem.size) :
    K.load v (BitVec.ofNat 32 p) (BitVec.ofNat 32 k) s = .ok (v.ofBits (l.mem.word (p + 8 * k) 8)) s := by
  obtain ⟨d, hd⟩ := hK.eq
  have := call_typedLoad (N := K.N) (sigs := K.sigs) (L := K.L) hK.num d l v hv p k hin ok.size
  simp only [LibLink.load, bind, Act.bind, LibLink.call, libHost, hd, hs, this, Res.inside, Res.toEff, pure, Store.setLib_of hs]

theorem LibLink.store_ok {K : LibLink} (hK : K.Good) {l : Lib} (ok : l.Ok) {s : Store (World W A)} (hs : s.getLib = l.store) (x : Val)
    {p k : Nat} (hin : p + 8 * k + 8 ≤ l.mem.size) :
    K.store x (BitVec.ofNat 32 p) (BitVec.ofNat 32 k) s = .ok () (s.setLib (⟨l.free, l.mem.put (p + 8 * k) 8 x.bits⟩ : Lib).store) := by
  obtain ⟨d, hd⟩ := hK.eq
  have := call_typedStore (N := K.N) (sigs := K.sigs) (L := K.L) hK.num d l x p k hin ok.size
  simp only [LibLink.store, bind, Act.bind, LibLink.call, libHost, hd, hs, this, Res.inside, Res.toEff, pure]

theorem wasmType_code {v : ValType} (hv : ∀ r, v ≠ .ref r) : wasmType (BitVec.ofNat 32 v.runtimeEnumValue) = some v := by
  cases v with
  | ref r => exact absurd rfl (hv r)
  | _ => rfl

/-- The type buffer at `q` describes the types `ts`. -/
def Mem.Types (m : Mem) (q : Nat) (ts : List ValType) : Prop := ∀ k v, ts[k]? = some v → m.word (q + 4 * k) 4 = v.runtimeEnumValue

theorem LibLink.loadTypes_ok {K : LibLink} (hK : K.Good) {l : Lib} (ok : l.Ok) {s : Store (World W A)} (hs : s.getLib = l.store) {q : Nat} {ts : List ValType}
    (hv : ∀ v ∈ ts, ∀ r, v ≠ .ref r) (ht : l.mem.Types q ts) (hin : q + 4 * ts.length ≤ l.mem.size) : ∀ (n k : Nat), k + n = ts.length →
    K.loadTypes (BitVec.ofNat 32 q) k n s = .ok (ts.drop k) s := by
  obtain ⟨d, hd⟩ := hK.eq
  intro n
  induction n with
  | zero => intro k hk; rw [List.drop_eq_nil_of_le (by omega)]; rfl
  | succ n ih =>
    intro k hk
    have hlt : k < ts.length := by omega
    have hc := call_loadType (N := K.N) (sigs := K.sigs) (L := K.L) hK.num d l q k (by omega) ok.size
    have hg : ts[k]? = some ts[k] := List.getElem?_eq_getElem hlt
    have hw := ht k _ hg
    rw [hw] at hc
    have hcall : K.call "wastrumentation_stack_load_type" [.i32 (BitVec.ofNat 32 q), .i32 (BitVec.ofNat 32 k)] s = .ok [.i32 (BitVec.ofNat 32 ts[k].runtimeEnumValue)] s := by
      simp only [LibLink.call, libHost, hd, hs, hc, Res.inside, Res.toEff, Store.setLib_of hs]
    have hn := ih (k + 1) (by omega)
    simp only [LibLink.loadTypes, bind, Act.bind, hcall, wasmType_code (hv _ (List.getElem_mem hlt)), hn, pure]
    congr 1
    exact (List.drop_eq_getElem_cons hlt).symm

theorem toInt_small {n : Nat} (h : n < 2 ^ 31) : (BitVec.ofNat 32 n).toInt = n := by
  rw [BitVec.toInt_eq_toNat_cond, BitVec.toNat_ofNat, Nat.mod_eq_of_lt (by omega), if_pos (by omega)]

/-- The handle an analysis gets for a call of a function of type `t`. -/
def handle (t : FuncType) (p : Nat) : RuntimeValues := ⟨BitVec.ofNat 32 t.inputs.length, BitVec.ofNat 32 t.results.length, BitVec.ofNat 32 p, t.results ++ t.inputs⟩

theorem LibLink.runtimeValues_ok {K : LibLink} (hK : K.Good) {l : Lib} (ok : l.Ok) {s : Store (World W A)} (hs : s.getLib = l.store) {p q : Nat} {t : FuncType}
    (hv : ∀ v ∈ t.results ++ t.inputs, ∀ r, v ≠ .ref r) (hn : t.slots < 8192) (ht : l.mem.Types q (t.results ++ t.inputs)) (hin : q + 4 * t.slots ≤ l.mem.size) :
    K.runtimeValues (BitVec.ofNat 32 t.inputs.length) (BitVec.ofNat 32 t.results.length) (BitVec.ofNat 32 p) (BitVec.ofNat 32 q) s = .ok (handle t p) s := by
  have hsum : (BitVec.ofNat 32 t.inputs.length + BitVec.ofNat 32 t.results.length).toInt.toNat = (t.results ++ t.inputs).length := by
    rw [← BitVec.ofNat_add, toInt_small (by simp only [FuncType.slots] at hn; omega), List.length_append]
    omega
  simp only [LibLink.runtimeValues, hsum, bind, Act.bind]
  rw [LibLink.loadTypes_ok hK ok hs hv ht (by simpa [FuncType.slots] using hin) _ 0 (by omega)]
  rfl

theorem inBounds_iff {c i : Nat} (hc : c < 2 ^ 31) (hi : i < 2 ^ 31) : RuntimeValues.inBounds (BitVec.ofNat 32 c) (BitVec.ofNat 32 i) = decide (i < c) := by
  simp only [RuntimeValues.inBounds, toInt_small hc, toInt_small hi]
  by_cases h : i < c
  · simp [h]
  · simp [h]

theorem inBounds_ok {c i : Nat} (h : i < c) (hc : c < 2 ^ 31) : RuntimeValues.inBounds (BitVec.ofNat 32 c) (BitVec.ofNat 32 i) = true := by
  rw [inBounds_iff hc (by omega)]; simpa using h

section
variable {K : LibLink} {l : Lib} {s : Store (World W A)} {t : FuncType} {p : Nat}

theorem LibLink.getValue_ok (hK : K.Good) (ok : l.Ok) (hs : s.getLib = l.store) (hv : ∀ v ∈ t.results ++ t.inputs, ∀ r, v ≠ .ref r) (hn : t.slots < 8192)
    (hin : p + 8 * t.slots ≤ l.mem.size) {k : Nat} {v : ValType} (hk : (t.results ++ t.inputs)[k]? = some v) :
    K.getValue (handle t p) (BitVec.ofNat 32 k) s = .ok (v.ofBits (l.mem.word (p + 8 * k) 8)) s := by
  have hlt := (List.getElem?_eq_some_iff.1 hk).1
  simp only [List.length_append] at hlt
  simp only [FuncType.slots] at hn hin
  simp only [LibLink.getValue, handle, ofNat_toNat32 (show k < 2 ^ 32 by omega), hk]
  exact LibLink.load_ok hK ok hs (hv v (List.mem_of_getElem? hk)) (by omega)

/-- `get_arg` reads the argument. -/
theorem LibLink.getArg_ok (hK : K.Good) (ok : l.Ok) (hs : s.getLib = l.store) (hv : ∀ v ∈ t.results ++ t.inputs, ∀ r, v ≠ .ref r) (hn : t.slots < 8192)
    (hin : p + 8 * t.slots ≤ l.mem.size) {i : Nat} {x : Val} (hi : (l.mem.args t p)[i]? = some x) :
    K.getArg (handle t p) (BitVec.ofNat 32 i) s = .ok x s := by
  have hlt := (List.getElem?_eq_some_iff.1 hi).1
  rw [Mem.args, Mem.vals_length] at hlt
  have hg : t.inputs[i]? = some t.inputs[i] := List.getElem?_eq_getElem hlt
  rw [Mem.args, Mem.vals_get _ _ _ _ _ _ hg] at hi
  cases hi
  have hn' := hn
  simp only [FuncType.slots] at hn'
  simp only [LibLink.getArg]
  rw [show (handle t p).argc = BitVec.ofNat 32 t.inputs.length from rfl, inBounds_ok hlt (by omega), if_pos rfl,
    show (handle t p).resc = BitVec.ofNat 32 t.results.length from rfl, ← BitVec.ofNat_add]
  exact LibLink.getValue_ok hK ok hs hv hn hin (by rw [List.getElem?_append_right (by omega), Nat.add_sub_cancel_left, hg])

/-- `get_res` reads the result. -/
theorem LibLink.getRes_ok (hK : K.Good) (ok : l.Ok) (hs : s.getLib = l.store) (hv : ∀ v ∈ t.results ++ t.inputs, ∀ r, v ≠ .ref r) (hn : t.slots < 8192)
    (hin : p + 8 * t.slots ≤ l.mem.size) {i : Nat} {x : Val} (hi : (l.mem.ress t p)[i]? = some x) :
    K.getRes (handle t p) (BitVec.ofNat 32 i) s = .ok x s := by
  have hlt := (List.getElem?_eq_some_iff.1 hi).1
  rw [Mem.ress, Mem.vals_length] at hlt
  have hg : t.results[i]? = some t.results[i] := List.getElem?_eq_getElem hlt
  rw [Mem.ress, Mem.vals_get _ _ _ _ _ _ hg] at hi
  cases hi
  have hn' := hn
  simp only [FuncType.slots] at hn'
  simp only [LibLink.getRes]
  rw [show (handle t p).resc = BitVec.ofNat 32 t.results.length from rfl, inBounds_ok hlt (by omega), if_pos rfl, show (0 : BitVec 32) + BitVec.ofNat 32 i = BitVec.ofNat 32 i by simp, Nat.zero_add]
  exact LibLink.getValue_ok hK ok hs hv hn hin (by rw [List.getElem?_append_left hlt, hg])

/-- `set_arg` writes the argument's slot. -/
theorem LibLink.setArg_ok (hK : K.Good) (ok : l.Ok) (hs : s.getLib = l.store) (hn : t.slots < 8192)
    (hin : p + 8 * t.slots ≤ l.mem.size) {i : Nat} (x : Val) (hi : i < t.inputs.length) :
    K.setArg (handle t p) (BitVec.ofNat 32 i) x s =
      .ok () (s.setLib (⟨l.free, l.mem.put (p + 8 * (t.results.length + i)) 8 x.bits⟩ : Lib).store) := by
  simp only [FuncType.slots] at hn hin
  simp only [LibLink.setArg]
  rw [show (handle t p).argc = BitVec.ofNat 32 t.inputs.length from rfl, inBounds_ok hi (by omega), if_pos rfl,
    show (handle t p).resc = BitVec.ofNat 32 t.results.length from rfl, ← BitVec.ofNat_add]
  exact LibLink.store_ok hK ok hs x (by omega)

/-- `set_res` writes the result's slot. -/
theorem LibLink.setRes_ok (hK : K.Good) (ok : l.Ok) (hs : s.getLib = l.store) (hn : t.slots < 8192)
    (hin : p + 8 * t.slots ≤ l.mem.size) {i : Nat} (x : Val) (hi : i < t.results.length) :
    K.setRes (handle t p) (BitVec.ofNat 32 i) x s =
      .ok () (s.setLib (⟨l.free, l.mem.put (p + 8 * i) 8 x.bits⟩ : Lib).store) := by
  simp only [FuncType.slots] at hn hin
  simp only [LibLink.setRes]
  rw [show (handle t p).resc = BitVec.ofNat 32 t.results.length from rfl, inBounds_ok hi (by omega), if_pos rfl, show (0 : BitVec 32) + BitVec.ofNat 32 i = BitVec.ofNat 32 i by simp]
  exact LibLink.store_ok hK ok hs x (by omega)

/-- Outside the signature's range, access panics. -/
theorem LibLink.getArg_panics (hn : t.slots < 8192) (b : BitVec 32) (hb : b.toInt < 0 ∨ t.inputs.length ≤ b.toInt) (x : Val) :
    K.getArg (handle t p) b s = .trap s ∧ K.setArg (handle t p) b x s = .trap s := by
  have : RuntimeValues.inBounds (handle t p).argc b = false := by
    simp only [FuncType.slots] at hn
    simp only [RuntimeValues.inBounds, handle, toInt_small (show t.inputs.length < 2 ^ 31 by omega)]
    simp; omega
  simp [LibLink.getArg, LibLink.setArg, this, Act.panic]

theorem LibLink.getRes_panics (hn : t.slots < 8192) (b : BitVec 32) (hb : b.toInt < 0 ∨ t.results.length ≤ b.toInt) (x : Val) :
    K.getRes (handle t p) b s = .trap s ∧ K.setRes (handle t p) b x s = .trap s := by
  have : RuntimeValues.inBounds (handle t p).resc b = false := by
    simp only [FuncType.slots] at hn
    simp only [RuntimeValues.inBounds, handle, toInt_small (show t.results.length < 2 ^ 31 by omega)]
    simp; omega
  simp [LibLink.getRes, LibLink.setRes, this, Act.panic]

/-- The memories differ only between `a` and `b`. -/
structure Mem.OnlyIn (m m' : Mem) (a b : Nat) : Prop where
  pages : m'.pages = m.pages
  limit : m'.limit = m.limit
  bytes : ∀ i, i < a ∨ b ≤ i → m'.bytes i = m.bytes i

theorem Mem.OnlyIn.refl (m : Mem) (a b) : m.OnlyIn m a b := ⟨rfl, rfl, fun _ _ => rfl⟩
theorem Mem.OnlyIn.trans {m m' m'' : Mem} {a b} (h : m.OnlyIn m' a b) (h' : m'.OnlyIn m'' a b) : m.OnlyIn m'' a b :=
  ⟨h'.pages.trans h.pages, h'.limit.trans h.limit, fun i hi => (h'.bytes i hi).trans (h.bytes i hi)⟩
theorem Mem.OnlyIn.mono {m m' : Mem} {a b a' b'} (h : m.OnlyIn m' a b) (ha : a' ≤ a) (hb : b ≤ b') : m.OnlyIn m' a' b' :=
  ⟨h.pages, h.limit, fun i hi => h.bytes i (by omega)⟩
theorem Mem.OnlyIn.size {m m' : Mem} {a b} (h : m.OnlyIn m' a b) : m'.size = m.size := by simp only [Mem.size, h.pages]
theorem Mem.OnlyIn.ok {l : Lib} {m' : Mem} {a b} (ok : l.Ok) (h : l.mem.OnlyIn m' a b) : (⟨l.free, m'⟩ : Lib).Ok :=
  ⟨by dsimp only; rw [h.size]; exact ok.free, ok.free', by dsimp only; rw [h.pages, h.limit]; exact ok.pages, by dsimp only; rw [h.limit]; exact ok.limit⟩
theorem Mem.put_onlyIn (m : Mem) (a w x : Nat) : m.OnlyIn (m.put a w x) a (a + w) := ⟨rfl, rfl, fun i hi => Mem.put_bytes _ _ _ _ _ hi⟩
theorem Mem.puts_onlyIn (m : Mem) (a w : Nat) (xs : List Nat) : m.OnlyIn (m.puts a w xs) a (a + w * xs.length) :=
  ⟨(Mem.puts_pages _ _ _ _).1, (Mem.puts_pages _ _ _ _).2, fun i hi => Mem.puts_bytes _ _ _ _ _ hi⟩
theorem Mem.OnlyIn.vals {m m' : Mem} {a b p k : Nat} {ts} (h : m.OnlyIn m' a b) (hd : p + 8 * (k + ts.length) ≤ a ∨ b ≤ p + 8 * k) :
    m'.vals p k ts = m.vals p k ts := Mem.vals_congr fun i h1 h2 => h.bytes i (by omega)

theorem mapIdx_from_succ {f : Nat → Val → Val} {xs : List Val} {k : Nat} {x : Val} (hx : xs[k]? = some x) :
    (xs.set k (f k x)).mapIdx (fun i x => if k + 1 ≤ i then f i x else x) = xs.mapIdx (fun i x => if k ≤ i then f i x else x) := by
  apply List.ext_getElem?
  intro i
  have hk := (List.getElem?_eq_some_iff.1 hx).1
  simp only [List.getElem?_mapIdx, List.getElem?_set]
  by_cases e : k = i
  · subst e
    simp only [if_pos, hk, hx, Option.map_some, Nat.le_refl, if_true]
    rw [if_neg (by omega)]
  · rw [if_neg e]
    congr 1
    funext x
    by_cases h : k ≤ i
    · rw [if_pos h, if_pos (by omega)]
    · rw [if_neg h, if_neg (by omega)]

/-- `update_each_arg` maps the arguments and touches nothing else. -/
theorem LibLink.updateArgs_ok (hK : K.Good) (hv : ∀ v ∈ t.results ++ t.inputs, ∀ r, v ≠ .ref r) (hn : t.slots < 8192)
    {f : Nat → Val → Val} (hf : ∀ i x, (f i x).type = x.type) : ∀ (n k : Nat) (l : Lib) (s : Store (World W A)), l.Ok → s.getLib = l.store →
    p + 8 * t.slots ≤ l.mem.size → k + n = t.inputs.length →
    ∃ m', K.updateArgs (handle t p) f k n s = .ok () (s.setLib (⟨l.free, m'⟩ : Lib).store) ∧
      l.mem.OnlyIn m' (p + 8 * t.results.length) (p + 8 * t.slots) ∧
      m'.args t p = (l.mem.args t p).mapIdx (fun i x => if k ≤ i then f i x else x) := by
  intro n
  induction n with
  | zero =>
    intro k l s ok hs hin hk
    refine ⟨l.mem, ?_, .refl _ _ _, ?_⟩
    · rw [show (⟨l.free, l.mem⟩ : Lib) = l from rfl, Store.setLib_of hs]; rfl
    · apply List.ext_getElem?
      intro i
      simp only [List.getElem?_mapIdx]
      cases hi : (l.mem.args t p)[i]? with
      | none => rfl
      | some x =>
        have := (List.getElem?_eq_some_iff.1 hi).1
        rw [Mem.args, Mem.vals_length] at this
        simp only [Option.map_some]
        rw [if_neg (by omega)]
  | succ n ih =>
    intro k l s ok hs hin hk
    have hkl : k < t.inputs.length := by omega
    obtain ⟨x, hx⟩ : ∃ x, (l.mem.args t p)[k]? = some x := ⟨_, List.getElem?_eq_getElem (by rw [Mem.args, Mem.vals_length]; exact hkl)⟩
    have hty : t.inputs[k]? = some (f k x).type := by
      rw [hf]
      have h1 := Mem.vals_types l.mem p t.results.length (fun v hm => hv v (List.mem_append_right _ hm))
      have h2 : (l.mem.args t p).map Val.type = t.inputs := h1
      rw [← h2, List.getElem?_map, hx]; rfl
    have e1 := LibLink.getArg_ok hK ok hs hv hn hin hx
    have e2 := LibLink.setArg_ok (p := p) hK ok hs hn hin (f k x) hkl
    have honly := Mem.put_onlyIn l.mem (p + 8 * (t.results.length + k)) 8 (f k x).bits
    obtain ⟨m', e3, o3, a3⟩ := ih (k + 1) ⟨l.free, l.mem.put (p + 8 * (t.results.length + k)) 8 (f k x).bits⟩ (s.setLib _) (ok.put _ _ _) (Store.getLib_setLib _ _)
      (by simpa [Mem.put_size] using hin) (by omega)
    refine ⟨m', ?_, ?_, ?_⟩
    · simp only [LibLink.updateArgs, bind, Act.bind, e1, e2, e3, Store.setLib_setLib]
    · refine (honly.mono ?_ ?_).trans o3
      · omega
      · simp only [FuncType.slots]; omega
    · have hset : (l.mem.put (p + 8 * (t.results.length + k)) 8 (f k x).bits).args t p = (l.mem.args t p).set k (f k x) :=
        Mem.vals_put l.mem p t.results.length hty
      rw [a3, ← mapIdx_from_succ hx, hset]

/-- `update_each_res` maps the results and touches nothing else. -/
theorem LibLink.updateRess_ok (hK : K.Good) (hv : ∀ v ∈ t.results ++ t.inputs, ∀ r, v ≠ .ref r) (hn : t.slots < 8192)
    {f : Nat → Val → Val} (hf : ∀ i x, (f i x).type = x.type) : ∀ (n k : Nat) (l : Lib) (s : Store (World W A)), l.Ok → s.getLib = l.store →
    p + 8 * t.slots ≤ l.mem.size → k + n = t.results.length →
    ∃ m', K.updateRess (handle t p) f k n s = .ok () (s.setLib (⟨l.free, m'⟩ : Lib).store) ∧
      l.mem.OnlyIn m' p (p + 8 * t.results.length) ∧
      m'.ress t p = (l.mem.ress t p).mapIdx (fun i x => if k ≤ i then f i x else x) := by
  intro n
  induction n with
  | zero =>
    intro k l s ok hs hin hk
    refine ⟨l.mem, ?_, .refl _ _ _, ?_⟩
    · rw [show (⟨l.free, l.mem⟩ : Lib) = l from rfl, Store.setLib_of hs]; rfl
    · apply List.ext_getElem?
      intro i
      simp only [List.getElem?_mapIdx]
      cases hi : (l.mem.ress t p)[i]? with
      | none => rfl
      | some x =>
        have := (List.getElem?_eq_some_iff.1 hi).1
        rw [Mem.ress, Mem.vals_length] at this
        simp only [Option.map_some]
        rw [if_neg (by omega)]
  | succ n ih =>
    intro k l s ok hs hin hk
    have hkl : k < t.results.length := by omega
    obtain ⟨x, hx⟩ : ∃ x, (l.mem.ress t p)[k]? = some x := ⟨_, List.getElem?_eq_getElem (by rw [Mem.ress, Mem.vals_length]; exact hkl)⟩
    have hty : t.results[k]? = some (f k x).type := by
      rw [hf]
      have h1 := Mem.vals_types l.mem p 0 (fun v hm => hv v (List.mem_append_left _ hm))
      have h2 : (l.mem.ress t p).map Val.type = t.results := h1
      rw [← h2, List.getElem?_map, hx]; rfl
    have e1 := LibLink.getRes_ok hK ok hs hv hn hin hx
    have e2 := LibLink.setRes_ok (p := p) hK ok hs hn hin (f k x) hkl
    have honly := Mem.put_onlyIn l.mem (p + 8 * k) 8 (f k x).bits
    obtain ⟨m', e3, o3, a3⟩ := ih (k + 1) ⟨l.free, l.mem.put (p + 8 * k) 8 (f k x).bits⟩ (s.setLib _) (ok.put _ _ _) (Store.getLib_setLib _ _)
      (by simpa [Mem.put_size] using hin) (by omega)
    refine ⟨m', ?_, ?_, ?_⟩
    · simp only [LibLink.updateRess, bind, Act.bind, e1, e2, e3, Store.setLib_setLib]
    · refine (honly.mono ?_ ?_).trans o3
      · omega
      · omega
    · have hset : (l.mem.put (p + 8 * k) 8 (f k x).bits).ress t p = (l.mem.ress t p).set k (f k x) := by
        have := Mem.vals_put l.mem p 0 hty
        rw [Nat.zero_add] at this
        exact this
      rw [a3, ← mapIdx_from_succ hx, hset]

/-- Iterating over arguments or results yields them in order. -/
theorem LibLink.iterate_ok (hK : K.Good) (ok : l.Ok) (hs : s.getLib = l.store) (hv : ∀ v ∈ t.results ++ t.inputs, ∀ r, v ≠ .ref r) (hn : t.slots < 8192)
    (hin : p + 8 * t.slots ≤ l.mem.size) (n k : Nat) : k + n ≤ t.slots →
    K.iterate (handle t p) k n s = .ok (l.mem.vals p k (((t.results ++ t.inputs).drop k).take n)) s := by
  induction n generalizing k with
  | zero => intro _; simp [LibLink.iterate, Mem.vals, pure]
  | succ n ih =>
    intro h
    have hlt : k < (t.results ++ t.inputs).length := by simp only [FuncType.slots] at h; simp; omega
    have hg : (t.results ++ t.inputs)[k]? = some (t.results ++ t.inputs)[k] := List.getElem?_eq_getElem hlt
    have e1 := LibLink.getValue_ok hK ok hs hv hn hin hg
    have e2 := ih (k + 1) (by omega)
    simp only [LibLink.iterate, bind, Act.bind, e1, e2, pure, List.drop_eq_getElem_cons hlt, List.take_succ_cons]
    simp only [Mem.vals, List.mapIdx_cons, Nat.add_zero]
    congr 3
    funext i v
    rw [show k + 1 + i = k + (i + 1) by omega]

end

end Wastrum
