import Verif.StackNames
import Verif.MemoryThms
/-!
# Running the stack library (lemmas)

What the functions of the generated library do, in terms of an abstract state: free pointer and memory.
-/

set_option linter.unusedSimpArgs false
set_option linter.unusedVariables false

namespace Wastrum

/-- The operators used by the stack library behave as WebAssembly defines. -/
structure StackNum (N : Num) : Prop where
  mul : ∀ x y, N.binary .i32Mul (.i32 x) (.i32 y) = some (.i32 (x * y))
  sub : ∀ x y, N.binary .i32Sub (.i32 x) (.i32 y) = some (.i32 (x - y))
  gtU : ∀ x y, N.binary .i32GtU (.i32 x) (.i32 y) = some (.i32 (if y.toNat < x.toNat then 1 else 0))
  eq : ∀ x y, N.binary .i32Eq (.i32 x) (.i32 y) = some (.i32 (if x = y then 1 else 0))
  wrap : ∀ x, N.unary .i32WrapI64 (.i64 x) = some (.i32 (x.setWidth 32))
  extend : ∀ x, N.unary .i64ExtendI32U (.i32 x) = some (.i64 (x.setWidth 64))
  f32bits : ∀ x, N.unary .i32ReinterpretF32 (.f32 x) = some (.i32 x)
  f64bits : ∀ x, N.unary .i64ReinterpretF64 (.f64 x) = some (.i64 x)
  bitsF32 : ∀ x, N.unary .f32ReinterpretI32 (.i32 x) = some (.f32 x)
  bitsF64 : ∀ x, N.unary .f64ReinterpretI64 (.i64 x) = some (.f64 x)

/-- Abstract state of the library: the number of bytes in use and the memory. -/
structure Lib where
  free : Nat
  mem : Mem

/-- The concrete state. -/
def Lib.store (l : Lib) : Store Unit :=
  ⟨[.i32 (BitVec.ofNat 32 l.free), .i32 (BitVec.ofNat 32 l.mem.pages), .i32 1, .i32 65536, .i32 8, .i32 4], [l.mem], [], [], [], ()⟩

theorem libStart_eq (limit : Nat) : libStart limit = (⟨0, ⟨1, limit, fun _ => 0⟩⟩ : Lib).store := rfl

/-- `m'` is `m` after growing. -/
structure Grows (m m' : Mem) : Prop where
  pages : m.pages ≤ m'.pages
  limit : m'.limit = m.limit
  bytes : ∀ i < m.size, m'.bytes i = m.bytes i

theorem Grows.refl (m : Mem) : Grows m m := ⟨Nat.le_refl _, rfl, fun _ _ => rfl⟩

theorem Grows.trans {m m' m'' : Mem} (h : Grows m m') (h' : Grows m' m'') : Grows m m'' where
  pages := Nat.le_trans h.pages h'.pages
  limit := by rw [h'.limit, h.limit]
  bytes i hi := by
    rw [h'.bytes i (Nat.lt_of_lt_of_le hi (Nat.mul_le_mul_right _ h.pages)), h.bytes i hi]

/-- Invariant of the library's state. -/
structure Lib.Ok (l : Lib) : Prop where
  free : l.free ≤ l.mem.size
  free' : l.free ≤ 65535 * 65536
  pages : l.mem.pages ≤ l.mem.limit
  limit : l.mem.limit ≤ 65536

/-! ## Finding functions -/

theorem findIdx_of_nodup {α κ : Type} [DecidableEq κ] {l : List α} {p : α → Bool} {a : α} (ha : a ∈ l) (hp : p a = true)
    (hu : ∀ b ∈ l, p b = true → b = a) : l[l.findIdx p]? = some a := by
  have hlt : l.findIdx p < l.length := List.findIdx_lt_length_of_exists ⟨a, ha, hp⟩
  rw [List.getElem?_eq_getElem hlt]
  exact congrArg some (hu _ (List.getElem_mem _) (List.findIdx_getElem (w := hlt)))

theorem filterMap_nodup_inj {α β : Type} {f : α → Option β} {b : β} {y : α} : ∀ {l : List α},
    (l.filterMap f).Nodup → ∀ {x}, x ∈ l → y ∈ l → f x = some b → f y = some b → x = y := by
  intro l
  induction l with
  | nil => intro _ x h; simp at h
  | cons a l ih =>
    intro hn x hx hy hfx hfy
    have hmem : ∀ z ∈ l, f z = some b → b ∈ l.filterMap f := fun z hz e => List.mem_filterMap.2 ⟨z, hz, e⟩
    rw [List.mem_cons] at hx hy
    rcases hx with rfl | hx <;> rcases hy with rfl | hy
    · rfl
    · rw [List.filterMap_cons, hfx] at hn
      exact absurd (hmem _ hy hfy) (List.nodup_cons.1 hn).1
    · rw [List.filterMap_cons, hfy] at hn
      exact absurd (hmem _ hx hfx) (List.nodup_cons.1 hn).1
    · refine ih ?_ hx hy hfx hfy
      rw [List.filterMap_cons] at hn
      split at hn
      · exact hn
      · exact (List.nodup_cons.1 hn).2

theorem flatMap_nodup_inj {α β : Type} {f : α → List β} {b : β} {y : α} : ∀ {l : List α},
    (l.flatMap f).Nodup → ∀ {x}, x ∈ l → y ∈ l → b ∈ f x → b ∈ f y → x = y := by
  intro l
  induction l with
  | nil => intro _ x h; simp at h
  | cons a l ih =>
    intro hn x hx hy hfx hfy
    have hmem : ∀ z ∈ l, b ∈ f z → b ∈ l.flatMap f := fun z hz e => List.mem_flatMap.2 ⟨z, hz, e⟩
    rw [List.flatMap_cons, List.nodup_append] at hn
    rw [List.mem_cons] at hx hy
    rcases hx with rfl | hx <;> rcases hy with rfl | hy
    · rfl
    · exact absurd rfl (hn.2.2 _ hfx _ (hmem _ hy hfy))
    · exact absurd rfl (hn.2.2 _ hfy _ (hmem _ hx hfx))
    · exact ih hn.2.1 hx hy hfx hfy

/-! ## Words in memory -/

/-- The word of `w` bytes at `a`. -/
def Mem.word (m : Mem) (a w : Nat) : Nat := readLE m.bytes a w
/-- Write a word of `w` bytes at `a`. -/
def Mem.put (m : Mem) (a w x : Nat) : Mem := { m with bytes := writeLE m.bytes a w x }
/-- Write consecutive words. -/
def Mem.puts (m : Mem) (a w : Nat) : List Nat → Mem
  | [] => m
  | x :: xs => (m.put a w x).puts (a + w) w xs

theorem readLE_congr {f g : Nat → BitVec 8} : ∀ (n a : Nat), (∀ i, a ≤ i → i < a + n → f i = g i) → readLE f a n = readLE g a n := by
  intro n
  induction n with
  | zero => intro a _; rfl
  | succ n ih =>
    intro a h
    simp only [readLE]
    rw [h a (Nat.le_refl _) (by omega), ih (a + 1) fun i h1 h2 => h i (by omega) (by omega)]

theorem readLE_writeLE (b : Nat → BitVec 8) (a x : Nat) : ∀ (n k : Nat),
    readLE (writeLE b a (k + n) x) (a + k) n = (x / 256 ^ k) % 256 ^ n := by
  intro n
  induction n with
  | zero => intro k; simp [readLE, Nat.mod_one]
  | succ n ih =>
    intro k
    simp only [readLE]
    have h1 : (writeLE b a (k + (n + 1)) x (a + k)).toNat = x / 256 ^ k % 256 := by
      simp [writeLE]
    have h2 := ih (k + 1)
    rw [show k + 1 + n = k + (n + 1) by omega, show a + (k + 1) = a + k + 1 by omega] at h2
    rw [h1, h2, Nat.pow_succ' (m := 256) (n := n), Nat.mod_mul, Nat.pow_succ, Nat.div_div_eq_div_mul]

theorem Mem.put_word (m : Mem) (a w x : Nat) (h : x < 256 ^ w) : (m.put a w x).word a w = x := by
  have := readLE_writeLE m.bytes a x w 0
  simp only [Nat.zero_add, Nat.add_zero, Nat.pow_zero, Nat.div_one, Nat.mod_eq_of_lt h] at this
  exact this

theorem Mem.put_bytes (m : Mem) (a w x i : Nat) (h : i < a ∨ a + w ≤ i) : (m.put a w x).bytes i = m.bytes i := by
  simp only [Mem.put, writeLE]
  rw [if_neg (by omega)]

theorem Mem.puts_bytes (w : Nat) : ∀ (xs : List Nat) (m : Mem) (a i : Nat), (i < a ∨ a + w * xs.length ≤ i) → (m.puts a w xs).bytes i = m.bytes i := by
  intro xs
  induction xs with
  | nil => intro m a i _; rfl
  | cons x xs ih =>
    intro m a i h
    simp only [Mem.puts]
    simp only [List.length_cons, Nat.mul_succ] at h
    rw [ih _ _ _ (by omega), Mem.put_bytes _ _ _ _ _ (by omega)]

theorem Mem.puts_pages (w : Nat) : ∀ (xs : List Nat) (m : Mem) (a : Nat), (m.puts a w xs).pages = m.pages ∧ (m.puts a w xs).limit = m.limit := by
  intro xs
  induction xs with
  | nil => intro m a; exact ⟨rfl, rfl⟩
  | cons x xs ih => intro m a; simp only [Mem.puts, ih]; exact ⟨rfl, rfl⟩

theorem Mem.word_congr {m m' : Mem} {a w : Nat} (h : ∀ i, a ≤ i → i < a + w → m'.bytes i = m.bytes i) : m'.word a w = m.word a w :=
  readLE_congr w a h

theorem Mem.puts_word (w : Nat) : ∀ (xs : List Nat) (m : Mem) (a i : Nat) (h : i < xs.length), xs[i] < 256 ^ w →
    (m.puts a w xs).word (a + w * i) w = xs[i] := by
  intro xs
  induction xs with
  | nil => intro m a i h; simp at h
  | cons x xs ih =>
    intro m a i h hx
    simp only [Mem.puts]
    cases i with
    | zero =>
      simp only [List.getElem_cons_zero, Nat.mul_zero, Nat.add_zero] at hx ⊢
      rw [Mem.word_congr (m := m.put a w x), Mem.put_word _ _ _ _ hx]
      intro j h1 h2
      exact Mem.puts_bytes _ _ _ _ _ (by omega)
    | succ i =>
      simp only [List.getElem_cons_succ] at hx ⊢
      rw [show a + w * (i + 1) = a + w + w * i by rw [Nat.mul_succ]; omega]
      exact ih _ _ _ _ hx

theorem Mem.put_size (m : Mem) (a w x : Nat) : (m.put a w x).size = m.size := rfl
theorem Mem.puts_size (m : Mem) (a w : Nat) (xs : List Nat) : (m.puts a w xs).size = m.size := by
  simp only [Mem.size, (Mem.puts_pages w xs m a).1]

/-- A value from its bits. -/
def ValType.ofBits : ValType → Nat → Val
  | .i32, n => .i32 (BitVec.ofNat 32 n)
  | .i64, n => .i64 (BitVec.ofNat 64 n)
  | .f32, n => .f32 (BitVec.ofNat 32 n)
  | .f64, n => .f64 (BitVec.ofNat 64 n)
  | .ref _, n => .i32 (BitVec.ofNat 32 n)

theorem ofBits_bits (v : Val) : v.type.ofBits v.bits = v := by
  cases v <;> simp [Val.type, ValType.ofBits, Val.bits]

theorem bits_lt (v : Val) : v.bits < 256 ^ 8 := by
  cases v <;> simp only [Val.bits] <;> exact Nat.lt_of_lt_of_le (BitVec.isLt _) (by decide)

section
variable (N : Num) (sigs : List FuncType) (L : Nat)

/-- The library as a machine. -/
abbrev libM : Machine Unit := watMachine (generateLib sigs)

/-- Calling a function of the library by identifier. -/
def callN (d : Nat) (n : String) (args : List RVal) (s : Store Unit) : Res Unit :=
  callF N (libM sigs) L d (idIndex (generateLib sigs) n) args s

/-- The environment of the library's bodies. -/
abbrev libE (d : Nat) : Env Unit := envAt N (libM sigs) L d

/-- The meaning of library code. -/
abbrev runW (d : Nat) (code : List WI) : Cfg Unit → Out Unit := denL (libE N sigs L d) (resolveL (idIndex (generateLib sigs)) code)

variable {N sigs L}

theorem id_at {g : WatFunc} {n : String} (hg : g ∈ generateLib sigs) (hn : g.id = some n) :
    (generateLib sigs)[idIndex (generateLib sigs) n]? = some g := by
  refine findIdx_of_nodup (κ := Nat) hg (by simp [hn]) fun b hb hp => ?_
  simp only [beq_iff_eq] at hp
  exact filterMap_nodup_inj (generateLib_ids_nodup sigs) hb hg hp hn

theorem export_at {g : WatFunc} {n : String} (hg : g ∈ generateLib sigs) (hn : n ∈ g.exps) :
    (generateLib sigs)[exportIndex (generateLib sigs) n]? = some g := by
  refine findIdx_of_nodup (κ := Nat) hg (by simp [hn]) fun b hb hp => ?_
  simp only [decide_eq_true_eq] at hp
  exact flatMap_nodup_inj (generateLib_exports_nodup sigs) hb hg hp hn

theorem callN_succ {g : WatFunc} {n : String} (hg : g ∈ generateLib sigs) (hn : g.id = some n) (d : Nat) (args : List RVal) (s : Store Unit) :
    callN N sigs L (d + 1) n args s = runBody g.type g.locals (runW N sigs L d g.body) args s := by
  simp only [callN, callF, watMachine, id_at hg hn, Option.map_some]
  rfl

theorem libCall_succ {g : WatFunc} {n : String} (hg : g ∈ generateLib sigs) (hn : n ∈ g.exps) (d : Nat) (args : List RVal) (s : Store Unit) :
    libCall N (generateLib sigs) L (d + 1) n args s = runBody g.type g.locals (runW N sigs L d g.body) args s := by
  simp only [libCall, callF, watMachine, export_at hg hn, Option.map_some]
  rfl

theorem resolveL_append (ix : String → Nat) (a b : List WI) : resolveL ix (a ++ b) = resolveL ix a ++ resolveL ix b := by
  induction a with
  | nil => rfl
  | cons i a ih => simp [resolveL, ih]

theorem runW_nil (d : Nat) (c : Cfg Unit) : runW N sigs L d [] c = .norm c := by
  simp [runW, resolveL, denL]

theorem runW_ins (d : Nat) (b : Basic) (l : List WI) (c : Cfg Unit) :
    runW N sigs L d (.ins b :: l) c = (step (libE N sigs L d) b c).bind (runW N sigs L d l) := by
  simp only [runW, resolveL, WI.resolve, denL, denI]

theorem runW_append (d : Nat) (a b : List WI) (c : Cfg Unit) :
    runW N sigs L d (a ++ b) c = (runW N sigs L d a c).bind (runW N sigs L d b) := by
  induction a generalizing c with
  | nil => simp [runW_nil, Out.bind]
  | cons i a ih =>
    simp only [runW, List.cons_append, resolveL, denL] at ih ⊢
    cases hden : denI (libE N sigs L d) (i.resolve (idIndex (generateLib sigs))) c <;> simp only [Out.bind]
    exact ih _

theorem runW_call {g : WatFunc} {n : String} (hg : g ∈ generateLib sigs) (hn : g.id = some n) (d : Nat) (l : List WI)
    (args st locals : List RVal) (s : Store Unit) (hargs : args.map RVal.type = g.params) :
    runW N sigs L d (.call n :: l) ⟨args.reverse ++ st, locals, s⟩ =
      match callN N sigs L d n args s with
      | .ok vs s' => if vs.map RVal.type = g.results then runW N sigs L d l ⟨vs.reverse ++ st, locals, s'⟩ else .stuck
      | .trap s' => .trap s'
      | .stuck => .stuck
      | .fuel => .fuel := by
  have hlen : args.length = g.params.length := by rw [← hargs, List.length_map]
  simp only [runW, resolveL, WI.resolve, denL, denI, step, envAt, watMachine, id_at hg hn, Option.map_some, doCall, WatFunc.type]
  rw [show (args.reverse ++ st).take g.params.length = args.reverse by rw [← hlen]; simp,
    show (args.reverse ++ st).drop g.params.length = st by rw [← hlen]; simp]
  simp only [List.reverse_reverse, hargs, if_true, callN]
  cases callF N (libM sigs) L d (idIndex (generateLib sigs) n) args s with
  | ok vs s' =>
    simp only
    split <;> rfl
  | trap s => rfl
  | stuck => rfl
  | fuel => rfl

theorem runW_call_ok {g : WatFunc} {n : String} (hg : g ∈ generateLib sigs) (hn : g.id = some n) (d : Nat) (l : List WI)
    (args st locals : List RVal) (s : Store Unit) (hargs : args.map RVal.type = g.params) {vs : List RVal} {s' : Store Unit}
    (h : callN N sigs L d n args s = .ok vs s') (hvs : vs.map RVal.type = g.results) :
    runW N sigs L d (.call n :: l) ⟨args.reverse ++ st, locals, s⟩ = runW N sigs L d l ⟨vs.reverse ++ st, locals, s'⟩ := by
  rw [runW_call hg hn d l args st locals s hargs, h]
  simp [hvs]

theorem runW_call_trap {g : WatFunc} {n : String} (hg : g ∈ generateLib sigs) (hn : g.id = some n) (d : Nat) (l : List WI)
    (args st locals : List RVal) (s : Store Unit) (hargs : args.map RVal.type = g.params) {s' : Store Unit}
    (h : callN N sigs L d n args s = .trap s') :
    runW N sigs L d (.call n :: l) ⟨args.reverse ++ st, locals, s⟩ = .trap s' := by
  rw [runW_call hg hn d l args st locals s hargs, h]

/-! ## Single instructions -/

theorem runW_lget (d i : Nat) (l : List WI) (st lo : List RVal) (s : Store Unit) {v : RVal} (h : lo[i]? = some v) :
    runW N sigs L d (lget i :: l) ⟨st, lo, s⟩ = runW N sigs L d l ⟨v :: st, lo, s⟩ := by
  simp only [lget, runW_ins, step, h, Out.bind]

theorem runW_lset (d i : Nat) (l : List WI) (v : RVal) (st lo : List RVal) (s : Store Unit) (h : i < lo.length) :
    runW N sigs L d (lset i :: l) ⟨v :: st, lo, s⟩ = runW N sigs L d l ⟨st, lo.set i v, s⟩ := by
  simp only [lset, runW_ins, step, h, Out.bind, if_true]

theorem runW_i32c (d n : Nat) (l : List WI) (st lo : List RVal) (s : Store Unit) :
    runW N sigs L d (i32c n :: l) ⟨st, lo, s⟩ = runW N sigs L d l ⟨.i32 (BitVec.ofNat 32 n) :: st, lo, s⟩ := by
  simp only [i32c, runW_ins, step, Out.bind]

theorem runW_gget (d i : Nat) (l : List WI) (st lo : List RVal) (s : Store Unit) {v : RVal} (h : s.globals[i]? = some v) :
    runW N sigs L d (gget i :: l) ⟨st, lo, s⟩ = runW N sigs L d l ⟨v :: st, lo, s⟩ := by
  simp only [gget, runW_ins, step, h, Out.bind]

theorem runW_gset (d i : Nat) (l : List WI) (v : RVal) (st lo : List RVal) (s : Store Unit) (h : i < s.globals.length) :
    runW N sigs L d (gset i :: l) ⟨v :: st, lo, s⟩ = runW N sigs L d l ⟨st, lo, { s with globals := s.globals.set i v }⟩ := by
  simp only [gset, runW_ins, step, h, Out.bind, if_true]

theorem runW_bin (d : Nat) (op : BinaryOp) (l : List WI) (x y : Val) (st lo : List RVal) (s : Store Unit) {w : Val}
    (h1 : x.type = op.sig.1) (h2 : y.type = op.sig.1) (h : N.binary op x y = some w) :
    runW N sigs L d (bin op :: l) ⟨.num y :: .num x :: st, lo, s⟩ = runW N sigs L d l ⟨.num w :: st, lo, s⟩ := by
  simp only [bin, runW_ins, step, h1, h2, and_self, if_true, envAt, h, Out.bind]

theorem runW_un (d : Nat) (op : UnaryOp) (l : List WI) (x : Val) (st lo : List RVal) (s : Store Unit) {w : Val}
    (h1 : x.type = op.sig.1) (h : N.unary op x = some w) :
    runW N sigs L d (un op :: l) ⟨.num x :: st, lo, s⟩ = runW N sigs L d l ⟨.num w :: st, lo, s⟩ := by
  simp only [un, runW_ins, step, h1, if_true, envAt, h, Out.bind]

theorem runW_ifElse (d : Nat) (t e l : List WI) (x : BitVec 32) (st lo : List RVal) (s : Store Unit) :
    runW N sigs L d (.ifElse t e :: l) ⟨.i32 x :: st, lo, s⟩ =
      (inBlock ⟨[], []⟩ (if x = 0 then runW N sigs L d e else runW N sigs L d t) ⟨st, lo, s⟩).bind (runW N sigs L d l) := by
  simp only [runW, resolveL, WI.resolve, denL, denI, branchOn]
  split <;> rfl

theorem runW_ifThen (d : Nat) (t l : List WI) (x : BitVec 32) (st lo : List RVal) (s : Store Unit) :
    runW N sigs L d (.ifThen t :: l) ⟨.i32 x :: st, lo, s⟩ =
      (inBlock ⟨[], []⟩ (if x = 0 then .norm else runW N sigs L d t) ⟨st, lo, s⟩).bind (runW N sigs L d l) := by
  simp only [runW, resolveL, WI.resolve, denL, denI, branchOn]
  split <;> rfl

theorem runW_loop (d : Nat) (b l : List WI) (c : Cfg Unit) :
    runW N sigs L d (.loop b :: l) c = (inLoop ⟨[], []⟩ (runW N sigs L d b) L c).bind (runW N sigs L d l) := by
  simp only [runW, resolveL, WI.resolve, denL, denI]
  rfl

theorem inBlock_norm {body : Cfg Unit → Out Unit} {st lo lo' : List RVal} {s s' : Store Unit}
    (h : body ⟨[], lo, s⟩ = .norm ⟨[], lo', s'⟩) : inBlock ⟨[], []⟩ body ⟨st, lo, s⟩ = .norm ⟨st, lo', s'⟩ := by
  simp [inBlock, h]

theorem inBlock_br {body : Cfg Unit → Out Unit} {st lo : List RVal} {s : Store Unit} {k : Nat} {c : Cfg Unit}
    (h : body ⟨[], lo, s⟩ = .br (k + 1) c) : inBlock ⟨[], []⟩ body ⟨st, lo, s⟩ = .br k c := by
  simp [inBlock, h]

theorem inBlock_trap {body : Cfg Unit → Out Unit} {st lo : List RVal} {s s' : Store Unit}
    (h : body ⟨[], lo, s⟩ = .trap s') : inBlock ⟨[], []⟩ body ⟨st, lo, s⟩ = .trap s' := by
  simp [inBlock, h]

theorem runBody_ok {ty : FuncType} {locals : List ValType} {body : Cfg Unit → Out Unit} {args vs lo : List RVal} {s s' : Store Unit}
    (h : body ⟨[], args ++ locals.map ValType.zero, s⟩ = .norm ⟨vs.reverse, lo, s'⟩) (hl : vs.length = ty.results.length) :
    runBody ty locals body args s = .ok vs s' := by
  simp [runBody, h, hl]

theorem runBody_trap {ty : FuncType} {locals : List ValType} {body : Cfg Unit → Out Unit} {args : List RVal} {s s' : Store Unit}
    (h : body ⟨[], args ++ locals.map ValType.zero, s⟩ = .trap s') : runBody ty locals body args s = .trap s' := by
  simp [runBody, h]

/-! ## The fixed part -/

theorem ofNat_mul32 (a b : Nat) : BitVec.ofNat 32 a * BitVec.ofNat 32 b = BitVec.ofNat 32 (a * b) := by
  apply BitVec.eq_of_toNat_eq; simp

theorem ofNat_add32 (a b : Nat) : BitVec.ofNat 32 a + BitVec.ofNat 32 b = BitVec.ofNat 32 (a + b) := by
  apply BitVec.eq_of_toNat_eq; simp

theorem call_totalUsed (hN : StackNum N) (d : Nat) (l : Lib) :
    callN N sigs L (d + 1) "total_used_memory_in_bytes" [] l.store = .ok [.i32 (BitVec.ofNat 32 (l.mem.pages * 65536))] l.store := by
  rw [callN_succ (g := wTotalUsed) (boilerplate_mem (by simp [boilerplate])) rfl]
  refine runBody_ok (lo := []) ?_ rfl
  simp only [wTotalUsed, List.map_nil, List.append_nil]
  rw [runW_gget (h := rfl), runW_gget (h := rfl), runW_bin (h1 := rfl) (h2 := rfl) (h := hN.mul _ _), runW_nil, ← ofNat_mul32]
  rfl

/-- The memory after growing by one page. -/
def Mem.grown (m : Mem) : Mem := { m with pages := m.pages + 1, bytes := fun i => if i < m.size then m.bytes i else 0 }

theorem Mem.grown_grows (m : Mem) : Grows m m.grown := ⟨Nat.le_succ _, rfl, fun i hi => by simp [Mem.grown, hi]⟩

theorem runW_const (d : Nat) (v : Val) (l : List WI) (st lo : List RVal) (s : Store Unit) :
    runW N sigs L d (.ins (.const v) :: l) ⟨st, lo, s⟩ = runW N sigs L d l ⟨.num v :: st, lo, s⟩ := by
  simp only [runW_ins, step, Out.bind]

theorem runW_grow (d : Nat) (c : List WI) (l : Lib) (st lo : List RVal) :
    runW N sigs L d (.ins (.memoryGrow 0) :: c) ⟨.i32 1 :: st, lo, l.store⟩ =
      if l.mem.pages + 1 ≤ l.mem.limit then
        runW N sigs L d c ⟨.i32 (BitVec.ofNat 32 l.mem.pages) :: st, lo, l.store.setMem 0 l.mem.grown⟩
      else runW N sigs L d c ⟨.i32 (-1) :: st, lo, l.store⟩ := by
  rw [runW_ins]
  have hm : l.store.mems[0]? = some l.mem := rfl
  have e1 : (BitVec.toNat (1 : BitVec 32)) = 1 := rfl
  by_cases h : l.mem.pages + 1 ≤ l.mem.limit
  · simp only [step, hm, Mem.grow, e1, h, if_true, Out.bind, Mem.grown]
  · simp only [step, hm, Mem.grow, e1, h, if_false, Out.bind]

theorem call_grow (hN : StackNum N) (d : Nat) (l : Lib) (hp : l.mem.pages ≤ 65536) :
    callN N sigs L (d + 1) "grow_memory" [] l.store =
      if l.mem.pages + 1 ≤ l.mem.limit then .ok [] (⟨l.free, l.mem.grown⟩ : Lib).store else .trap l.store := by
  rw [callN_succ (g := wGrowMemory) (boilerplate_mem (by simp [boilerplate])) rfl]
  split
  · rename_i h
    refine runBody_ok (lo := []) ?_ rfl
    simp only [wGrowMemory, List.map_nil, List.append_nil]
    rw [runW_gget (h := rfl)]
    erw [runW_grow]
    rw [if_pos h, runW_const, runW_bin (h1 := rfl) (h2 := rfl) (h := hN.eq _ _)]
    have hne : BitVec.ofNat 32 l.mem.pages ≠ -1 := by
      intro h
      have := congrArg BitVec.toNat h
      simp at this
      omega
    rw [if_neg hne, runW_ifElse, if_pos rfl, inBlock_norm (lo' := []) (s' := (⟨l.free, l.mem.grown⟩ : Lib).store)]
    · simp [Out.bind, runW_nil]
    · rw [runW_gget (h := rfl), runW_gget (h := rfl), runW_bin (h1 := rfl) (h2 := rfl) (h := N.i32Add _ _), runW_gset _ _ _ _ _ _ _ (by simp [Lib.store, Store.setMem, gTotal]), runW_nil]
      simp only [Lib.store, Store.setMem, List.set, gTotal, Mem.grown, ← ofNat_add32]
      rfl
  · rename_i h
    refine runBody_trap ?_
    simp only [wGrowMemory, List.map_nil, List.append_nil]
    rw [runW_gget (h := rfl)]
    erw [runW_grow]
    rw [if_neg h, runW_const, runW_bin (h1 := rfl) (h2 := rfl) (h := hN.eq _ _), if_pos rfl, runW_ifElse, if_neg (by decide), inBlock_trap]
    · rfl
    · simp [runW_ins, step, Out.bind]

/-- The body of the loop in `stack_allocate`. -/
def growLoop : List WI :=
  [lget 2, .call "total_used_memory_in_bytes", bin .i32GtU, .ifThen [.call "grow_memory", .ins (.br 1)]]

theorem run_growLoop (hN : StackNum N) (d : Nat) (l : Lib) (b before : RVal) (a : BitVec 32) (hp : l.mem.pages ≤ 65536) :
    runW N sigs L (d + 1) growLoop ⟨[], [b, before, .i32 a], l.store⟩ =
      if (l.mem.pages * 65536) % 2 ^ 32 < a.toNat then
        if l.mem.pages + 1 ≤ l.mem.limit then .br 0 ⟨[], [b, before, .i32 a], (⟨l.free, l.mem.grown⟩ : Lib).store⟩
        else .trap l.store
      else .norm ⟨[], [b, before, .i32 a], l.store⟩ := by
  unfold growLoop
  rw [runW_lget (h := rfl)]
  have h1 := runW_call_ok (N := N) (sigs := sigs) (L := L) (g := wTotalUsed) (boilerplate_mem (by simp [boilerplate])) rfl (d + 1)
    [bin .i32GtU, .ifThen [.call "grow_memory", .ins (.br 1)]] [] [.i32 a] [b, before, .i32 a] l.store rfl (call_totalUsed hN d l) rfl
  simp only [List.reverse_nil, List.nil_append, List.reverse_cons] at h1
  rw [h1]
  change runW N sigs L (d + 1) _ ⟨.num (.i32 _) :: .num (.i32 a) :: [], _, _⟩ = _
  rw [runW_bin (h1 := rfl) (h2 := rfl) (h := hN.gtU _ _)]
  simp only [BitVec.toNat_ofNat]
  split
  · change runW N sigs L (d + 1) _ ⟨.i32 1 :: [], _, _⟩ = _
    rw [runW_ifThen, if_neg (by decide)]
    split
    · rename_i hl
      rw [inBlock_br (k := 0) (c := ⟨[], [b, before, .i32 a], (⟨l.free, l.mem.grown⟩ : Lib).store⟩)]
      · rfl
      · have h2 := runW_call_ok (N := N) (sigs := sigs) (L := L) (g := wGrowMemory) (boilerplate_mem (by simp [boilerplate])) rfl (d + 1)
          [.ins (.br 1)] [] [] [b, before, .i32 a] l.store rfl ((call_grow hN d l hp).trans (if_pos hl)) rfl
        simp only [List.reverse_nil, List.nil_append] at h2
        rw [h2, runW_ins]
        rfl
    · rename_i hl
      rw [inBlock_trap (s' := l.store)]
      · rfl
      · exact runW_call_trap (N := N) (sigs := sigs) (L := L) (g := wGrowMemory) (boilerplate_mem (by simp [boilerplate])) rfl (d + 1)
          [.ins (.br 1)] [] [] [b, before, .i32 a] l.store rfl ((call_grow hN d l hp).trans (if_neg hl))
  · change runW N sigs L (d + 1) _ ⟨.i32 0 :: [], _, _⟩ = _
    rw [runW_ifThen, if_pos rfl, inBlock_norm (lo' := [b, before, .i32 a]) (s' := l.store) rfl]
    simp only [Out.bind, runW_nil]

/-- Growing until the memory has `n` bytes: success, or failure with some growth. -/
inductive Grown (m : Mem) (n : Nat) : Option Mem → Mem → Prop where
  | ok {m'} : Grows m m' → n ≤ m'.size → m'.pages ≤ 65535 → m'.pages ≤ m'.limit → Grown m n (some m') m'
  | fail {m'} : Grows m m' → m'.pages ≤ m'.limit → (m.limit * 65536 < n ∨ 65535 * 65536 < n ∨ m.pages = 65536) → Grown m n none m'

theorem iterate_grow (hN : StackNum N) (d : Nat) (b before : RVal) (n : Nat) (hn : n < 2 ^ 32) (hn0 : 0 < n) (f : Nat) : ∀ (k : Nat) (m : Mem),
    m.pages ≤ m.limit → m.limit ≤ 65536 → 65536 - m.pages < k →
    ∃ r m', Grown m n r m' ∧
      iterate ⟨[], []⟩ (runW N sigs L (d + 1) growLoop) k ⟨[], [b, before, .i32 (BitVec.ofNat 32 n)], (⟨f, m⟩ : Lib).store⟩ =
        if r.isSome then .norm ⟨[], [b, before, .i32 (BitVec.ofNat 32 n)], (⟨f, m'⟩ : Lib).store⟩ else .trap (⟨f, m'⟩ : Lib).store := by
  intro k
  induction k with
  | zero => intro m _ _ h; omega
  | succ k ih =>
    intro m hp hl hk
    simp only [iterate]
    rw [run_growLoop hN d ⟨f, m⟩ b before _ (by simp only; omega)]
    have en : (BitVec.ofNat 32 n).toNat = n := by simp; omega
    simp only [en]
    by_cases hs : m.pages * 65536 % 2 ^ 32 < n
    · rw [if_pos hs]
      by_cases hg : m.pages + 1 ≤ m.limit
      · rw [if_pos hg]
        obtain ⟨r, m', h1, h2⟩ := ih m.grown hg (by simpa [Mem.grown] using hl) (by simp only [Mem.grown]; omega)
        refine ⟨r, m', ?_, ?_⟩
        · cases h1 with
          | ok g1 g2 g3 g4 => exact .ok (m.grown_grows.trans g1) g2 g3 g4
          | fail g1 g2 g3 =>
            refine .fail (m.grown_grows.trans g1) g2 ?_
            simp only [Mem.grown] at g3
            omega
        · simpa using h2
      · rw [if_neg hg]
        refine ⟨none, m, .fail (.refl m) hp ?_, by simp⟩
        have : m.pages = m.limit := by omega
        by_cases hm : m.pages = 65536
        · simp [hm]
        · have : m.pages * 65536 % 2 ^ 32 = m.pages * 65536 := Nat.mod_eq_of_lt (by omega)
          omega
    · rw [if_neg hs]
      refine ⟨some m, m, ?_, by simp⟩
      have hm : m.pages ≤ 65535 := by
        by_cases h : m.pages = 65536
        · rw [h] at hs; simp at hs; omega
        · omega
      have : m.pages * 65536 % 2 ^ 32 = m.pages * 65536 := Nat.mod_eq_of_lt (by omega)
      exact .ok (.refl m) (by simp only [Mem.size]; omega) hm hp

/-- Outcome of an allocation of `n` bytes. -/
inductive Allocates (l : Lib) (n : Nat) : Res Unit → Prop where
  | ok {m' : Mem} : Grows l.mem m' → l.free + n ≤ m'.size → m'.pages ≤ 65535 → m'.pages ≤ m'.limit →
      Allocates l n (.ok [.i32 (BitVec.ofNat 32 l.free)] (⟨l.free + n, m'⟩ : Lib).store)
  | fail {m' : Mem} : Grows l.mem m' → m'.pages ≤ m'.limit →
      (l.mem.limit * 65536 < l.free + n ∨ 65535 * 65536 < l.free + n ∨ l.mem.pages = 65536) →
      Allocates l n (.trap (⟨l.free, m'⟩ : Lib).store)

theorem call_allocate (hN : StackNum N) (hL : 65537 ≤ L) (d : Nat) (l : Lib) (n : Nat) (hp : l.mem.pages ≤ l.mem.limit) (hl : l.mem.limit ≤ 65536)
    (hn : 0 < n) (hn' : l.free + n < 2 ^ 32) :
    Allocates l n (callN N sigs L (d + 2) "stack_allocate" [.i32 (BitVec.ofNat 32 n)] l.store) := by
  rw [callN_succ (g := wStackAllocate) (boilerplate_mem (by simp [boilerplate])) rfl]
  obtain ⟨r, m', hg, hi⟩ := iterate_grow (N := N) (sigs := sigs) (L := L) hN d (.i32 (BitVec.ofNat 32 n)) (.i32 (BitVec.ofNat 32 l.free)) (l.free + n) hn' (by omega) l.free
    L l.mem hp hl (by omega)
  have hloop : inLoop ⟨[], []⟩ (runW N sigs L (d + 1) growLoop) L
      ⟨[], [.i32 (BitVec.ofNat 32 n), .i32 (BitVec.ofNat 32 l.free), .i32 (BitVec.ofNat 32 (l.free + n))], l.store⟩ =
      if r.isSome then .norm ⟨[], [.i32 (BitVec.ofNat 32 n), .i32 (BitVec.ofNat 32 l.free), .i32 (BitVec.ofNat 32 (l.free + n))], (⟨l.free, m'⟩ : Lib).store⟩
      else .trap (⟨l.free, m'⟩ : Lib).store := by
    simp only [inLoop, List.length_nil, Nat.le_refl, if_true, List.take_nil, List.drop_nil]
    rw [show l.store = (⟨l.free, l.mem⟩ : Lib).store from rfl, hi]
    cases r <;> simp
  have hrun : runW N sigs L (d + 1) wStackAllocate.body ⟨[], [.i32 (BitVec.ofNat 32 n), .i32 0, .i32 0], l.store⟩ =
      if r.isSome then .norm ⟨[.i32 (BitVec.ofNat 32 l.free)], [.i32 (BitVec.ofNat 32 n), .i32 (BitVec.ofNat 32 l.free), .i32 (BitVec.ofNat 32 (l.free + n))],
        (⟨l.free + n, m'⟩ : Lib).store⟩ else .trap (⟨l.free, m'⟩ : Lib).store := by
    simp only [wStackAllocate]
    rw [runW_gget (h := rfl), runW_lset _ _ _ _ _ _ _ (by simp), runW_gget (h := rfl), runW_lget (h := rfl),
      runW_bin (h1 := rfl) (h2 := rfl) (h := N.i32Add _ _), ofNat_add32, runW_lset _ _ _ _ _ _ _ (by simp), runW_loop]
    simp only [List.set]
    change (inLoop _ (runW N sigs L (d + 1) growLoop) _ _).bind _ = _
    rw [hloop]
    split
    · simp only [Out.bind]
      rw [runW_lget (h := rfl), runW_gset _ _ _ _ _ _ _ (by simp [Lib.store, gFree]), runW_lget (h := rfl), runW_nil]
      rfl
    · rfl
  cases hg with
  | ok g1 g2 g3 g4 =>
    rw [runBody_ok (vs := [.i32 (BitVec.ofNat 32 l.free)]) (s' := (⟨l.free + n, m'⟩ : Lib).store) (by exact hrun) rfl]
    exact .ok g1 g2 g3 g4
  | fail g1 g2 g3 =>
    rw [runBody_trap (s' := (⟨l.free, m'⟩ : Lib).store) (by exact hrun)]
    exact .fail g1 g2 g3

theorem ofNat_sub32 (a b : Nat) (h : b ≤ a) : BitVec.ofNat 32 a - BitVec.ofNat 32 b = BitVec.ofNat 32 (a - b) := by
  have : BitVec.ofNat 32 a = BitVec.ofNat 32 (a - b) + BitVec.ofNat 32 b := by rw [ofNat_add32, Nat.sub_add_cancel h]
  rw [this, BitVec.add_sub_cancel]

theorem call_deallocate (hN : StackNum N) (d : Nat) (l : Lib) (p : RVal) (n : Nat) (hp : p.type = .i32) (h : n ≤ l.free) :
    callN N sigs L (d + 1) "stack_deallocate" [p, .i32 (BitVec.ofNat 32 n)] l.store = .ok [] (⟨l.free - n, l.mem⟩ : Lib).store := by
  rw [callN_succ (g := wStackDeallocate) (boilerplate_mem (by simp [boilerplate])) rfl]
  refine runBody_ok (lo := [p, .i32 (BitVec.ofNat 32 n)]) ?_ rfl
  simp only [wStackDeallocate, List.map_nil, List.append_nil]
  rw [runW_gget (h := rfl), runW_lget (h := rfl), runW_bin (h1 := rfl) (h2 := rfl) (h := hN.sub _ _), ofNat_sub32 _ _ h,
    runW_gset _ _ _ _ _ _ _ (by simp [Lib.store, gFree]), runW_nil]
  rfl

theorem call_allocateBy (hN : StackNum N) (hL : 65537 ≤ L) (d : Nat) (l : Lib) (k : Nat) (types : Bool) (hp : l.mem.pages ≤ l.mem.limit) (hl : l.mem.limit ≤ 65536)
    (hk : 0 < k) (hk' : l.free + k * (if types then 4 else 8) < 2 ^ 32) :
    Allocates l (k * (if types then 4 else 8))
      (callN N sigs L (d + 3) (if types then "stack_allocate_types" else "stack_allocate_values") [.i32 (BitVec.ofNat 32 k)] l.store) := by
  have h0 := call_allocate (N := N) (sigs := sigs) hN hL d l (k * (if types then 4 else 8)) hp hl (by split <;> omega) hk'
  have hg : ∃ g : WatFunc, g ∈ generateLib sigs ∧ g.id = some (if types then "stack_allocate_types" else "stack_allocate_values") ∧
      g.params = [.i32] ∧ g.results = [.i32] ∧ g.locals = [] ∧
      g.body = [lget 0, gget (if types then gType else gValue), bin .i32Mul, .call "stack_allocate"] := by
    cases types
    · exact ⟨wAllocateValues, boilerplate_mem (by simp [boilerplate]), rfl, rfl, rfl, rfl, rfl⟩
    · exact ⟨wAllocateTypes, boilerplate_mem (by simp [boilerplate]), rfl, rfl, rfl, rfl, rfl⟩
  obtain ⟨g, hg, hid, hpar, hres, hloc, hbody⟩ := hg
  rw [callN_succ hg hid]
  have hrun : runW N sigs L (d + 2) g.body ⟨[], [.i32 (BitVec.ofNat 32 k)], l.store⟩ =
      runW N sigs L (d + 2) [.call "stack_allocate"] ⟨[.i32 (BitVec.ofNat 32 (k * (if types then 4 else 8)))].reverse ++ [],
        [.i32 (BitVec.ofNat 32 k)], l.store⟩ := by
    rw [hbody, runW_lget (h := rfl), runW_gget (v := .i32 (if types then 4 else 8)) (h := by cases types <;> rfl),
      runW_bin (h1 := rfl) (h2 := rfl) (h := hN.mul _ _)]
    have : BitVec.ofNat 32 k * (if types then 4 else 8) = BitVec.ofNat 32 (k * (if types then 4 else 8)) := by
      rw [← ofNat_mul32]; cases types <;> rfl
    rw [this]
    rfl
  generalize hr : callN N sigs L (d + 2) "stack_allocate" _ l.store = res at h0
  cases h0 with
  | ok g1 g2 g3 g4 =>
    have hgm : wStackAllocate ∈ generateLib sigs := boilerplate_mem (by simp [boilerplate])
    rw [runW_call_ok hgm rfl _ _ _ _ _ _ rfl hr rfl, runW_nil] at hrun
    rw [runBody_ok (vs := [.i32 (BitVec.ofNat 32 l.free)]) (s' := (⟨l.free + k * (if types then 4 else 8), _⟩ : Lib).store) (by rw [hloc]; exact hrun) (by rw [WatFunc.type, hres]; rfl)]
    exact .ok g1 g2 g3 g4
  | fail g1 g2 g3 =>
    have hgm : wStackAllocate ∈ generateLib sigs := boilerplate_mem (by simp [boilerplate])
    rw [runW_call_trap hgm rfl _ _ _ _ _ _ rfl hr] at hrun
    rw [runBody_trap (by rw [hloc]; exact hrun)]
    exact .fail g1 g2 g3

theorem call_deallocateBy (hN : StackNum N) (d : Nat) (l : Lib) (p : RVal) (k : Nat) (types : Bool) (hp : p.type = .i32)
    (h : k * (if types then 4 else 8) ≤ l.free) :
    callN N sigs L (d + 2) (if types then "stack_deallocate_types" else "stack_deallocate_values") [p, .i32 (BitVec.ofNat 32 k)] l.store =
      .ok [] (⟨l.free - k * (if types then 4 else 8), l.mem⟩ : Lib).store := by
  have h0 := call_deallocate (N := N) (sigs := sigs) (L := L) hN d l p (k * (if types then 4 else 8)) hp h
  have hg : ∃ g : WatFunc, g ∈ generateLib sigs ∧ g.id = some (if types then "stack_deallocate_types" else "stack_deallocate_values") ∧
      g.params = [.i32, .i32] ∧ g.results = [] ∧ g.locals = [] ∧
      g.body = [lget 0, lget 1, gget (if types then gType else gValue), bin .i32Mul, .call "stack_deallocate"] := by
    cases types
    · exact ⟨wDeallocateValues, boilerplate_mem (by simp [boilerplate]), rfl, rfl, rfl, rfl, rfl⟩
    · exact ⟨wDeallocateTypes, boilerplate_mem (by simp [boilerplate]), rfl, rfl, rfl, rfl, rfl⟩
  obtain ⟨g, hg, hid, hpar, hres, hloc, hbody⟩ := hg
  rw [callN_succ hg hid]
  refine runBody_ok (lo := [p, .i32 (BitVec.ofNat 32 k)]) ?_ (by rw [WatFunc.type, hres]; rfl)
  rw [hloc, hbody]
  simp only [List.map_nil, List.append_nil]
  rw [runW_lget (h := rfl), runW_lget (h := rfl), runW_gget (v := .i32 (if types then 4 else 8)) (h := by cases types <;> rfl),
      runW_bin (h1 := rfl) (h2 := rfl) (h := hN.mul _ _)]
  have : BitVec.ofNat 32 k * (if types then 4 else 8) = BitVec.ofNat 32 (k * (if types then 4 else 8)) := by
    rw [← ofNat_mul32]; cases types <;> rfl
  rw [this]
  have hgm : wStackDeallocate ∈ generateLib sigs := boilerplate_mem (by simp [boilerplate])
  change runW N sigs L (d + 1) [.call "stack_deallocate"] ⟨[p, .i32 _].reverse ++ [], _, _⟩ = _
  rw [runW_call_ok hgm rfl _ _ _ _ _ _ (by simp only [wStackDeallocate, List.map_cons, List.map_nil, hp]; rfl) h0 rfl, runW_nil]
  rfl

/-! ### Loads and stores -/

theorem ofNat_toNat32 {n : Nat} (h : n < 2 ^ 32) : (BitVec.ofNat 32 n).toNat = n := by simp; omega

theorem call_memLoad (hN : StackNum N) (d : Nat) (l : Lib) (p k : Nat) (hin : p + 8 * k + 8 ≤ l.mem.size) (hsz : l.mem.size ≤ 2 ^ 32) :
    callN N sigs L (d + 1) "wastrumentation_memory_load" [.i32 (BitVec.ofNat 32 p), .i32 (BitVec.ofNat 32 k)] l.store =
      .ok [.i64 (BitVec.ofNat 64 (l.mem.word (p + 8 * k) 8))] l.store := by
  rw [callN_succ (g := wMemoryLoad) (boilerplate_mem (by simp [boilerplate])) rfl]
  refine runBody_ok (lo := [.i32 (BitVec.ofNat 32 p), .i32 (BitVec.ofNat 32 k)]) ?_ rfl
  simp only [wMemoryLoad, List.map_nil, List.append_nil]
  rw [runW_lget (h := rfl), runW_lget (h := rfl), runW_gget (h := rfl), runW_bin (h1 := rfl) (h2 := rfl) (h := hN.mul _ _),
    show (8 : BitVec 32) = BitVec.ofNat 32 8 from rfl, ofNat_mul32, runW_bin (h1 := rfl) (h2 := rfl) (h := N.i32Add _ _), ofNat_add32, i64Load, runW_ins]
  have hm : l.store.mems[0]? = some l.mem := rfl
  simp only [step, hm, ofNat_toNat32 (show p + k * 8 < 2 ^ 32 by omega)]
  have e0 : (BitVec.toNat (0 : BitVec 32)) = 0 := rfl
  simp only [e0, Nat.add_zero, Mem.load, LoadOp.width]
  rw [if_pos (by omega)]
  simp only [Out.bind, runW_nil, LoadOp.decode, Mem.word, Nat.mul_comm k 8]
  rfl

theorem call_memStore (hN : StackNum N) (d : Nat) (l : Lib) (p k : Nat) (x : BitVec 64) (hin : p + 8 * k + 8 ≤ l.mem.size) (hsz : l.mem.size ≤ 2 ^ 32) :
    callN N sigs L (d + 1) "wastrumentation_memory_store" [.i32 (BitVec.ofNat 32 p), .i64 x, .i32 (BitVec.ofNat 32 k)] l.store =
      .ok [] (⟨l.free, l.mem.put (p + 8 * k) 8 x.toNat⟩ : Lib).store := by
  rw [callN_succ (g := wMemoryStore) (boilerplate_mem (by simp [boilerplate])) rfl]
  refine runBody_ok (lo := [.i32 (BitVec.ofNat 32 p), .i64 x, .i32 (BitVec.ofNat 32 k)]) ?_ rfl
  simp only [wMemoryStore, List.map_nil, List.append_nil]
  rw [runW_lget (h := rfl), runW_lget (h := rfl), runW_gget (h := rfl), runW_bin (h1 := rfl) (h2 := rfl) (h := hN.mul _ _),
    show (8 : BitVec 32) = BitVec.ofNat 32 8 from rfl, ofNat_mul32, runW_bin (h1 := rfl) (h2 := rfl) (h := N.i32Add _ _), ofNat_add32,
    runW_lget (h := rfl), i64Store, runW_ins]
  have hm : l.store.mems[0]? = some l.mem := rfl
  simp only [step, hm, ofNat_toNat32 (show p + k * 8 < 2 ^ 32 by omega)]
  have e0 : (BitVec.toNat (0 : BitVec 32)) = 0 := rfl
  have e1 : (Val.i64 x).type = StoreOp.i64Store.ty := rfl
  simp only [e0, e1, if_true, Nat.add_zero, Mem.store, StoreOp.width]
  rw [if_pos (by omega)]
  simp only [Out.bind, runW_nil, Val.bits, Nat.mul_comm k 8]
  rfl

theorem run_loadType (hN : StackNum N) (d : Nat) (l : Lib) (p k : Nat) (hin : p + 4 * k + 4 ≤ l.mem.size) (hsz : l.mem.size ≤ 2 ^ 32) :
    runBody wLoadType.type wLoadType.locals (runW N sigs L d wLoadType.body) [.i32 (BitVec.ofNat 32 p), .i32 (BitVec.ofNat 32 k)] l.store =
      .ok [.i32 (BitVec.ofNat 32 (l.mem.word (p + 4 * k) 4))] l.store := by
  refine runBody_ok (lo := [.i32 (BitVec.ofNat 32 p), .i32 (BitVec.ofNat 32 k)]) ?_ rfl
  simp only [wLoadType, List.map_nil, List.append_nil]
  rw [runW_lget (h := rfl), runW_lget (h := rfl), runW_gget (h := rfl), runW_bin (h1 := rfl) (h2 := rfl) (h := hN.mul _ _),
    show (4 : BitVec 32) = BitVec.ofNat 32 4 from rfl, ofNat_mul32, runW_bin (h1 := rfl) (h2 := rfl) (h := N.i32Add _ _), ofNat_add32, i32Load, runW_ins]
  have hm : l.store.mems[0]? = some l.mem := rfl
  simp only [step, hm, ofNat_toNat32 (show p + k * 4 < 2 ^ 32 by omega)]
  have e0 : (BitVec.toNat (0 : BitVec 32)) = 0 := rfl
  simp only [e0, Nat.add_zero, Mem.load, LoadOp.width]
  rw [if_pos (by omega)]
  simp only [Out.bind, runW_nil, LoadOp.decode, Mem.word, Nat.mul_comm k 4]
  rfl

theorem call_storeType (hN : StackNum N) (d : Nat) (l : Lib) (p k x : Nat) (hx : x < 2 ^ 32) (hin : p + 4 * k + 4 ≤ l.mem.size) (hsz : l.mem.size ≤ 2 ^ 32) :
    callN N sigs L (d + 1) "wastrumentation_stack_store_type" [.i32 (BitVec.ofNat 32 p), .i32 (BitVec.ofNat 32 k), .i32 (BitVec.ofNat 32 x)] l.store =
      .ok [] (⟨l.free, l.mem.put (p + 4 * k) 4 x⟩ : Lib).store := by
  rw [callN_succ (g := wStoreType) (boilerplate_mem (by simp [boilerplate])) rfl]
  refine runBody_ok (lo := [.i32 (BitVec.ofNat 32 p), .i32 (BitVec.ofNat 32 k), .i32 (BitVec.ofNat 32 x)]) ?_ rfl
  simp only [wStoreType, List.map_nil, List.append_nil]
  rw [runW_lget (h := rfl), runW_lget (h := rfl), runW_gget (h := rfl), runW_bin (h1 := rfl) (h2 := rfl) (h := hN.mul _ _),
    show (4 : BitVec 32) = BitVec.ofNat 32 4 from rfl, ofNat_mul32, runW_bin (h1 := rfl) (h2 := rfl) (h := N.i32Add _ _), ofNat_add32,
    runW_lget (h := rfl), i32Store, runW_ins]
  have hm : l.store.mems[0]? = some l.mem := rfl
  simp only [step, hm, ofNat_toNat32 (show p + k * 4 < 2 ^ 32 by omega)]
  have e0 : (BitVec.toNat (0 : BitVec 32)) = 0 := rfl
  have e1 : (Val.i32 (BitVec.ofNat 32 x)).type = StoreOp.i32Store.ty := rfl
  simp only [e0, e1, if_true, Nat.add_zero, Mem.store, StoreOp.width]
  rw [if_pos (by omega)]
  simp only [Out.bind, runW_nil, Val.bits, Nat.mul_comm k 4, ofNat_toNat32 hx]
  rfl

end

end Wastrum
