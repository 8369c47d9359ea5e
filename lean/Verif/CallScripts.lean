import Verif.BalanceThms
import Verif.AsThms
import Verif.Resume
/-!
# What an `apply` advice makes of the program

An analysis that intercepts calls is a `Script` per function: it reads and writes arguments and results, resumes the call (never, once, or several times), keeps state of its own and may
panic. Here its meaning for the *program* is given without trampolines, buffers or the stack library (`Script.around`, `decidedCall`), and it is shown that the instrumented program
follows it. The property (C85) is in `CallScriptsThms.lean`.
-/

set_option linter.unusedSimpArgs false
set_option linter.unusedVariables false

namespace Wastrum

variable {W A : Type}

/-! ## The specification -/

/-- The numbers among the values. -/
def numbers : List RVal → List Val
  | [] => []
  | .num x :: vs => x :: numbers vs
  | _ :: vs => numbers vs

/-- The values, if all are there. -/
def allSet : List (Option Val) → Option (List Val)
  | [] => some []
  | some y :: rs => (allSet rs).map (y :: ·)
  | none :: _ => none

/-- An intercepted call, as the analysis' script decides it: `call` is the function called, `xs` are the arguments and `rs` the results as they stand (`none`: nothing there yet). The
world is that of the program together with the analysis' state. Indices out of range panic. -/
def Script.around (call : List RVal → Store (W × A) → Res (W × A)) : Script A → List Val → List (Option Val) → Store (W × A) → Res (W × A)
  | .done, _, rs, s => match allSet rs with
    | some ys => .ok (ys.map .num) s
    | none => .stuck
  | .panic, _, _, s => .trap s
  | .getArg i k, xs, rs, s => match xs[i.toNat]? with
    | some x => (k x).around call xs rs s
    | none => .trap s
  | .getRes i k, xs, rs, s => match rs[i.toNat]? with
    | some (some y) => (k y).around call xs rs s
    | some none => .stuck
    | none => .trap s
  | .setArg i x k, xs, rs, s => if i.toNat < xs.length then k.around call (xs.set i.toNat x) rs s else .trap s
  | .setRes i y k, xs, rs, s => if i.toNat < rs.length then k.around call xs (rs.set i.toNat (some y)) s else .trap s
  | .resume k, xs, rs, s => match call (xs.map .num) s with
    | .ok vs s' => k.around call xs ((numbers vs).map some) s'
    | .trap s' => .trap s'
    | .stuck => .stuck
    | .fuel => .fuel
  | .state g k, xs, rs, s => (k s.world.2).around call xs rs { s with world := (s.world.1, g s.world.2) }

/-- What becomes of an intercepted call: given the function called, the arguments and the state. -/
abbrev Decision (W A : Type) := (List RVal → Store (W × A) → Res (W × A)) → List Val → Store (W × A) → Res (W × A)

/-- Calls of the original program in which what becomes of the calls of the functions `i` in `intercepted` is decided by `δ i`; `L` bounds loop iterations, the next argument the depth of
calls. -/
def decidedCall (m : Module) (intercepted : List Nat) (δ : Nat → Decision W A) (H : Imports (W × A)) (N : Num) (L : Nat) : Nat → Nat → List RVal → Store (W × A) → Res (W × A)
  | 0, _, _, _ => .fuel
  | d + 1, i, args, s => match m.functions[i]? with
    | none => .stuck
    | some f =>
      let run := runImpl ⟨N, fun k => m.functions[k]?.map (·.type), decidedCall m intercepted δ H N L d, L⟩ f.type (implOf H f)
      if i ∈ intercepted then δ i run (numbers args) s else run args s

/-- What a script decides about calls of a function with `n` results. -/
def Script.decision (a : Script A) (n : Nat) : Decision W A := fun call xs s => a.around call xs (List.replicate n none) s

/-- What is decided by passing on edited arguments, and handing back edited results. -/
def editing (φ ψ : List Val → List Val) : Decision W A := fun call xs s =>
  match call ((φ xs).map .num) s with
  | .ok vs s' => .ok ((ψ (numbers vs)).map .num) s'
  | o => o

/-- The script fits functions of type `t`: what it writes has the right type, it looks only at results that are there, and leaves a value for every result. `S` says which results
are there. -/
def Script.Fits (t : FuncType) : Script A → (Nat → Prop) → Prop
  | .done, S => ∀ n < t.results.length, S n
  | .panic, _ => True
  | .getArg i k, S => ∀ x : Val, t.inputs[i.toNat]? = some x.type → (k x).Fits t S
  | .getRes i k, S => (i.toNat < t.results.length → S i.toNat) ∧ ∀ y : Val, t.results[i.toNat]? = some y.type → (k y).Fits t S
  | .setArg i x k, S => (∀ v, t.inputs[i.toNat]? = some v → x.type = v) ∧ k.Fits t S
  | .setRes i y k, S => (∀ v, t.results[i.toNat]? = some v → y.type = v) ∧ k.Fits t fun n => n = i.toNat ∨ S n
  | .resume k, _ => k.Fits t fun _ => True
  | .state _ k, S => ∀ a, (k a).Fits t S

theorem numbers_nums (xs : List Val) : numbers (xs.map .num) = xs := by
  induction xs with
  | nil => rfl
  | cons x xs ih => simp only [List.map_cons, numbers, ih]

theorem allSet_of {rs : List (Option Val)} {ys : List Val} (hl : rs.length = ys.length) (h : ∀ n < rs.length, ∃ y, rs[n]? = some (some y) ∧ ys[n]? = some y) : allSet rs = some ys := by
  induction rs generalizing ys with
  | nil => cases ys with
    | nil => rfl
    | cons => simp at hl
  | cons r rs ih =>
    cases ys with
    | nil => simp at hl
    | cons y ys =>
      obtain ⟨z, h1, h2⟩ := h 0 (by simp)
      simp only [List.getElem?_cons_zero, Option.some.injEq] at h1 h2
      subst h1 h2
      rw [allSet, ih (by simpa using hl)]
      · rfl
      · intro n hn
        have := h (n + 1) (by simpa using hn)
        simpa using this

/-! ## Running a script on a buffer -/

/-- What a language's library offers for the buffer of a call. -/
structure BufferOps (W A : Type) where
  getArg : BitVec 32 → Act (World W A) Val
  getRes : BitVec 32 → Act (World W A) Val
  setArg : BitVec 32 → Val → Act (World W A) Unit
  setRes : BitVec 32 → Val → Act (World W A) Unit

/-- Run a script with it. -/
def Script.runWith (o : BufferOps W A) (call : Act (World W A) Unit) : Script A → Act (World W A) Unit
  | .done => pure ()
  | .panic => Act.panic
  | .getArg i k => do (k (← o.getArg i)).runWith o call
  | .getRes i k => do (k (← o.getRes i)).runWith o call
  | .setArg i x k => do o.setArg i x; k.runWith o call
  | .setRes i x k => do o.setRes i x; k.runWith o call
  | .resume k => do call; k.runWith o call
  | .state g k => do
    let a ← fun s => .ok s.world.2.1 { s with world := (s.world.1, g s.world.2.1, s.world.2.2) }
    (k a).runWith o call

/-- The operations work on the buffer at `p` of a call of a function of type `t`; its types follow the values. -/
structure BufferOps.Good (o : BufferOps W A) (t : FuncType) (p : Nat) : Prop where
  getArg : ∀ (l : Lib) (s : Store (World W A)), l.Ok → s.getLib = l.store → p + 12 * t.slots ≤ l.mem.size → l.mem.Types (p + 8 * t.slots) (t.results ++ t.inputs) → ∀ i,
    o.getArg i s = match (l.mem.args t p)[i.toNat]? with
      | some x => .ok x s
      | none => .trap s
  getRes : ∀ (l : Lib) (s : Store (World W A)), l.Ok → s.getLib = l.store → p + 12 * t.slots ≤ l.mem.size → l.mem.Types (p + 8 * t.slots) (t.results ++ t.inputs) → ∀ i,
    o.getRes i s = match (l.mem.ress t p)[i.toNat]? with
      | some x => .ok x s
      | none => .trap s
  setArg : ∀ i x, t.inputs[i.toNat]? = some x.type → EditsTyped t p (o.setArg i x) (·.set i.toNat x) id
  setArg_out : ∀ i x s, ¬ i.toNat < t.inputs.length → o.setArg i x s = .trap s
  setRes : ∀ i x, t.results[i.toNat]? = some x.type → EditsTyped t p (o.setRes i x) id (·.set i.toNat x)
  setRes_out : ∀ i x s, ¬ i.toNat < t.results.length → o.setRes i x s = .trap s

section
variable {K : LibLink} {t : FuncType} {p q : Nat}

/-- What `wastrumentation-rs-stdlib` offers. -/
def rustOps (K : LibLink) (rv : RuntimeValues) : BufferOps W A := ⟨K.getArg rv, K.getRes rv, K.setArg rv, K.setRes rv⟩

theorem Script.run_eq (K : LibLink) (call : Act (World W A) Unit) (rv : RuntimeValues) (a : Script A) : a.run K call rv = a.runWith (rustOps K rv) call := by
  induction a with
  | done => rfl
  | panic => rfl
  | getArg i k ih => simp only [Script.run, Script.runWith, ih]; rfl
  | getRes i k ih => simp only [Script.run, Script.runWith, ih]; rfl
  | setArg i x k ih => simp only [Script.run, Script.runWith, ih]; rfl
  | setRes i x k ih => simp only [Script.run, Script.runWith, ih]; rfl
  | resume k ih => simp only [Script.run, Script.runWith, ih]
  | state g k ih => simp only [Script.run, Script.runWith, ih]

theorem not_inBounds {c : Nat} (hc : c < 2 ^ 31) {b : BitVec 32} (h : ¬ b.toNat < c) : RuntimeValues.inBounds (BitVec.ofNat 32 c) b = false := by
  simp only [RuntimeValues.inBounds, toInt_small hc, Bool.decide_and, Bool.and_eq_false_iff, decide_eq_false_iff_not]
  have := BitVec.toInt_eq_toNat_cond b
  have := b.isLt
  split at * <;> omega

theorem rustOps_good (hK : K.Good) (hr : t.RefFree) (hn : t.slots < 8192) : (rustOps (W := W) (A := A) K (handle t p)).Good t p := by
  have hb : ∀ b : BitVec 32, BitVec.ofNat 32 b.toNat = b := fun b => by simp
  have hsl : t.slots = t.results.length + t.inputs.length := rfl
  refine ⟨?_, ?_, ?_, ?_, ?_, ?_⟩
  · intro l s ok hs hin hty i
    cases hx : (l.mem.args t p)[i.toNat]? with
    | some x =>
      have := LibLink.getArg_ok hK ok hs hr.both hn (by omega) hx
      rw [hb] at this
      exact this
    | none =>
      rw [List.getElem?_eq_none_iff, Mem.args, Mem.vals_length] at hx
      have : K.getArg (W := W) (A := A) (handle t p) i = Act.panic := by
        unfold LibLink.getArg
        rw [show (handle t p).argc = BitVec.ofNat 32 t.inputs.length from rfl, not_inBounds (by omega) (by omega)]
        rfl
      simp only [rustOps, this]
      rfl
  · intro l s ok hs hin hty i
    cases hx : (l.mem.ress t p)[i.toNat]? with
    | some x =>
      have := LibLink.getRes_ok hK ok hs hr.both hn (by omega) hx
      rw [hb] at this
      exact this
    | none =>
      rw [List.getElem?_eq_none_iff, Mem.ress, Mem.vals_length] at hx
      have : K.getRes (W := W) (A := A) (handle t p) i = Act.panic := by
        unfold LibLink.getRes
        rw [show (handle t p).resc = BitVec.ofNat 32 t.results.length from rfl, not_inBounds (by omega) (by omega)]
        rfl
      simp only [rustOps, this]
      rfl
  · intro i x hx
    have := Edits.setArg (W := W) (A := A) (p := p) hK hn hx
    rw [hb] at this
    exact this.typed
  · intro i x s hi
    have : K.setArg (W := W) (A := A) (handle t p) i x = Act.panic := by
      unfold LibLink.setArg
      rw [show (handle t p).argc = BitVec.ofNat 32 t.inputs.length from rfl, not_inBounds (by omega) hi]
      rfl
    simp only [rustOps, this]
    rfl
  · intro i x hx
    have := Edits.setRes (W := W) (A := A) (p := p) hK hn hx
    rw [hb] at this
    exact this.typed
  · intro i x s hi
    have : K.setRes (W := W) (A := A) (handle t p) i x = Act.panic := by
      unfold LibLink.setRes
      rw [show (handle t p).resc = BitVec.ofNat 32 t.results.length from rfl, not_inBounds (by omega) hi]
      rfl
    simp only [rustOps, this]
    rfl

/-- A value read at the type it has, in a Wasp analysis: as `set_values_to_zero` (`AsValues.lean`), which asks for the type first. -/
def LibLink.asValue (K : LibLink) (values : DynValues) (index : BitVec 32) : Act (World W A) Val := do
  let type ← K.getType index values
  if AsType.enumValue .i32 = some type then K.get .i32 index values
  else if AsType.enumValue .f32 = some type then K.get .f32 index values
  else if AsType.enumValue .i64 = some type then K.get .i64 index values
  else if AsType.enumValue .f64 = some type then K.get .f64 index values
  else .panic

/-- The AssemblyScript type for a value's type. -/
def asTypeOf : ValType → AsType
  | .i64 => .i64
  | .f32 => .f32
  | .f64 => .f64
  | _ => .i32

/-- What the library for Wasp analyses offers. -/
def waspOps (K : LibLink) (args ress : DynValues) : BufferOps W A :=
  ⟨fun i => K.asValue args i, fun i => K.asValue ress i, fun i x => K.set (asTypeOf x.type) i x args, fun i x => K.set (asTypeOf x.type) i x ress⟩

theorem asTypeOf_accessor {x : Val} : (asTypeOf x.type).accessor = some x.type := by cases x <;> rfl

theorem outside_of {c : Nat} (hc : c < 2 ^ 31) {b : BitVec 32} (h : ¬ b.toNat < c) : b.toInt < 0 ∨ c ≤ b.toInt := by
  have := BitVec.toInt_eq_toNat_cond b
  have := b.isLt
  split at * <;> omega

theorem asValue_eq {l : Lib} {s : Store (World W A)} {d : DynValues} (hd : d.Of t p (p + 8 * t.slots)) (hK : K.Good) (hr : t.RefFree) (hn : t.slots < 8192) (ok : l.Ok) (hs : s.getLib = l.store)
    (hin : p + 12 * t.slots ≤ l.mem.size) (hty : l.mem.Types (p + 8 * t.slots) (t.results ++ t.inputs)) (i : BitVec 32) :
    K.asValue d i s = match (d.held t p l.mem)[i.toNat]? with
      | some x => .ok x s
      | none => .trap s := by
  have hp := hd.presents hK hr hn ok hs (by omega) (by omega) hty
  have hb : BitVec.ofNat 32 i.toNat = i := by simp
  have hlen : (d.held t p l.mem).length = (d.at t).2.length := by rw [DynValues.held_eq, Mem.vals_length]
  have hbd := hd.bound
  cases hx : (d.held t p l.mem)[i.toNat]? with
  | none =>
    rw [List.getElem?_eq_none_iff] at hx
    have := (hp.outside i (outside_of (by omega) (by omega))).2.2
    simp only [LibLink.asValue, bind, Act.bind, this]
  | some x =>
    obtain ⟨c, hc, e⟩ := hp.type _ x hx
    rw [hb] at e
    have hsame := hp.same _ x hx
    rw [hb] at hsame
    simp only [LibLink.asValue, bind, Act.bind, e]
    rcases hc with ⟨h, rfl⟩ | ⟨h, rfl⟩ | ⟨h, rfl⟩ | ⟨h, rfl⟩
    · exact hsame .i32 (by decide) h.symm
    · exact hsame .f32 (by decide) h.symm
    · exact hsame .i64 (by decide) h.symm
    · exact hsame .f64 (by decide) h.symm

theorem waspOps_good (hK : K.Good) (hr : t.RefFree) (hn : t.slots < 8192) :
    (waspOps (W := W) (A := A) K (.args (asHandle t p (p + 8 * t.slots))) (.ress (asHandle t p (p + 8 * t.slots)))).Good t p := by
  have hb : ∀ b : BitVec 32, BitVec.ofNat 32 b.toNat = b := fun b => by simp
  have hsl : t.slots = t.results.length + t.inputs.length := rfl
  have ha : DynValues.Of t p (p + 8 * t.slots) (.args (asHandle t p (p + 8 * t.slots))) := .inl rfl
  have hs : DynValues.Of t p (p + 8 * t.slots) (.ress (asHandle t p (p + 8 * t.slots))) := .inr rfl
  refine ⟨?_, ?_, ?_, ?_, ?_, ?_⟩
  · intro l s ok hl hin hty i
    exact asValue_eq ha hK hr hn ok hl hin hty i
  · intro l s ok hl hin hty i
    exact asValue_eq hs hK hr hn ok hl hin hty i
  · intro i x hx
    have := EditsTyped.setArgs (W := W) (A := A) (p := p) (q := p + 8 * t.slots) hK hn asTypeOf_accessor hx
    rw [hb] at this
    exact this
  · intro i x s hi
    exact (ha.outside hn (outside_of (by simp only [DynValues.at]; omega) hi) s).2.1 _ _
  · intro i x hx
    have := EditsTyped.setRess (W := W) (A := A) (p := p) (q := p + 8 * t.slots) hK hn asTypeOf_accessor hx
    rw [hb] at this
    exact this
  · intro i x s hi
    exact (hs.outside hn (outside_of (by simp only [DynValues.at]; omega) hi) s).2.1 _ _

end

/-- The generic `apply` of an analysis written in Rust, with a script for every function. -/
def rustScripts (K : LibLink) (base : Nat) (σ : Nat → Script A) : Host (World W A) := applyAdvice K base fun func call args _ => (σ func.instr_f_idx.toNat).run K call args

/-- The generic `apply` of an analysis written in Wasp, with a script for every function. -/
def waspScripts (K : LibLink) (base : Nat) (σ : Nat → Script A) : Host (World W A) :=
  asApplyAdvice base fun func call args ress => (σ func.instr_f_idx.toNat).runWith (waspOps K args ress) call

/-! ## A script and its meaning -/

/-- The outcome of the reference and that of the analysis' code correspond: values satisfy `P` with the library's memory. -/
inductive Ends (Γ : Ctx) (T : List Table) (X : List (RefType × List (Option Nat))) (fl fr : Bool) (P : List Val → Lib → Prop) : Res (W × A) → Eff (World W A) Unit → Prop where
  | ok {ys s l} : StoreOK Γ s → P ys l → Ends Γ T X fl fr P (.ok (ys.map .num) s) (.ok () (s.extend T X (s.world.1, s.world.2, l.store)))
  | trap {s st} : StoreOK Γ s → Ends Γ T X fl fr P (.trap s) (.trap (s.extend T X (s.world.1, s.world.2, st)))
  | fuel : Ends Γ T X fl fr P .fuel .fuel
  | fuelL {e} : fl = true → Ends Γ T X fl fr P .fuel e
  | fuelR {o} : fr = true → Ends Γ T X fl fr P o .fuel

/-- The library's state while the analysis is asked about a call of a function of type `t`: `F` is the allocator's position before the call. -/
structure Asked (t : FuncType) (p F M : Nat) (b : Nat → BitVec 8) (l : Lib) : Prop where
  ok : l.Ok
  free : l.free = F + 12 * t.slots
  limit : l.mem.limit = M
  pages : l.mem.pages < 65536
  below : ∀ k < F, l.mem.bytes k = b k
  types : l.mem.Types (p + 8 * t.slots) (t.results ++ t.inputs)

theorem Asked.inside {t : FuncType} {p F M : Nat} {b : Nat → BitVec 8} {l : Lib} (h : Asked t p F M b l) (hp : t.slots = 0 ∧ p = 0 ∨ p = F) : p + 12 * t.slots ≤ l.mem.size := by
  have := h.ok.free
  have := h.free
  rcases hp with ⟨h1, h2⟩ | h1 <;> omega

/-- Changes of the values in the buffer. -/
theorem Asked.edit {t : FuncType} {p F M : Nat} {b : Nat → BitVec 8} {l : Lib} (h : Asked t p F M b l) (hp : t.slots = 0 ∧ p = 0 ∨ p = F) {m' : Mem} (ho : l.mem.OnlyIn m' p (p + 8 * t.slots)) :
    Asked t p F M b ⟨l.free, m'⟩ := by
  refine ⟨ho.ok h.ok, h.free, ho.limit.trans h.limit, by dsimp only; rw [ho.pages]; exact h.pages, fun k hk => ?_, fun k v hv => ?_⟩
  · rw [← h.below k hk]
    refine ho.bytes k ?_
    rcases hp with ⟨h1, h2⟩ | h1 <;> omega
  · rw [← h.types k v hv]
    exact Mem.word_congr fun i h1 h2 => ho.bytes i (by omega)

/-- The outcome of resuming the call. -/
def AfterResume (t : FuncType) (p F M : Nat) (b : Nat → BitVec 8) (xs ys : List Val) (l : Lib) : Prop :=
  Asked t p F M b l ∧ l.mem.args t p = xs ∧ l.mem.ress t p = ys ∧ ys.length = t.results.length

/-- The analysis' code does what the script means. -/
theorem script_agrees {Γ : Ctx} {T X} {fl fr : Bool} {t : FuncType} {p F M : Nat} {b : Nat → BitVec 8} {o : BufferOps W A} (ho : o.Good t p) (hr0 : t.RefFree) (hp : t.slots = 0 ∧ p = 0 ∨ p = F)
    {call : List RVal → Store (W × A) → Res (W × A)} {rc : Act (World W A) Unit}
    (hc : ∀ (xs : List Val) (s : Store (W × A)) (l : Lib), StoreOK Γ s → Asked t p F M b l → l.mem.args t p = xs →
      Ends Γ T X fl fr (AfterResume t p F M b xs) (call (xs.map .num) s) (rc (s.extend T X (s.world.1, s.world.2, l.store)))) (a : Script A) :
    ∀ (S : Nat → Prop) (xs : List Val) (rs : List (Option Val)) (s : Store (W × A)) (l : Lib), a.Fits t S → StoreOK Γ s → Asked t p F M b l → l.mem.args t p = xs →
      rs.length = t.results.length → (∀ n < t.results.length, S n → ∃ y, rs[n]? = some (some y)) → (∀ (n : Nat) (y : Val), rs[n]? = some (some y) → (l.mem.ress t p)[n]? = some y) →
      Ends Γ T X fl fr (fun ys l => Asked t p F M b l ∧ l.mem.ress t p = ys) (a.around call xs rs s) (a.runWith o rc (s.extend T X (s.world.1, s.world.2, l.store))) := by
  have hal : ∀ m : Mem, (m.args t p).length = t.inputs.length := fun m => by rw [Mem.args, Mem.vals_length]
  have hrl : ∀ m : Mem, (m.ress t p).length = t.results.length := fun m => by rw [Mem.ress, Mem.vals_length]
  induction a with
  | done =>
    intro S xs rs s l hfit hs hl hx hlen hS hr
    have : allSet rs = some (l.mem.ress t p) := by
      refine allSet_of (by rw [hlen, hrl]) fun n hn => ?_
      obtain ⟨y, hy⟩ := hS n (by omega) (hfit n (by omega))
      exact ⟨y, hy, hr n y hy⟩
    simp only [Script.around, this, Script.runWith]
    exact .ok hs ⟨hl, rfl⟩
  | panic =>
    intro S xs rs s l hfit hs hl hx hlen hS hr
    exact .trap hs
  | getArg i k ih =>
    intro S xs rs s l hfit hs hl hx hlen hS hr
    simp only [Script.around, Script.runWith, bind, Act.bind, ho.getArg l (s.extend T X (s.world.1, s.world.2, l.store)) hl.ok rfl (hl.inside hp) hl.types i, hx]
    cases hi : xs[i.toNat]? with
    | none => exact .trap hs
    | some x =>
      refine ih x S xs rs s l (hfit x ?_) hs hl hx hlen hS hr
      rw [← Mem.vals_types l.mem p t.results.length hr0.inputs, List.getElem?_map]
      rw [← hx] at hi
      rw [show (l.mem.vals p t.results.length t.inputs) = l.mem.args t p from rfl, hi]
      rfl
  | getRes i k ih =>
    intro S xs rs s l hfit hs hl hx hlen hS hr
    simp only [Script.around, Script.runWith, bind, Act.bind, ho.getRes l (s.extend T X (s.world.1, s.world.2, l.store)) hl.ok rfl (hl.inside hp) hl.types i]
    by_cases hi : i.toNat < t.results.length
    · obtain ⟨y, hy⟩ := hS _ hi (hfit.1 hi)
      simp only [hy, hr _ y hy]
      refine ih y S xs rs s l (hfit.2 y ?_) hs hl hx hlen hS hr
      rw [← Mem.vals_types l.mem p 0 hr0.results, List.getElem?_map]
      rw [show (l.mem.vals p 0 t.results) = l.mem.ress t p from rfl, hr _ y hy]
      rfl
    · rw [List.getElem?_eq_none (by omega), List.getElem?_eq_none (by rw [hrl]; omega)]
      exact .trap hs
  | setArg i x k ih =>
    intro S xs rs s l hfit hs hl hx hlen hS hr
    have hxl : xs.length = t.inputs.length := by rw [← hx, hal]
    by_cases hi : i.toNat < t.inputs.length
    · have hty : t.inputs[i.toNat]? = some x.type := by
        have := hfit.1 _ (List.getElem?_eq_getElem hi)
        rw [List.getElem?_eq_getElem hi, this]
      obtain ⟨m', e, h1, h2, h3⟩ := ho.setArg i x hty l (s.extend T X (s.world.1, s.world.2, l.store)) hl.ok rfl (hl.inside hp) hl.types
      simp only [Script.around, Script.runWith, bind, Act.bind, e, if_pos (show i.toNat < xs.length by omega)]
      exact ih S (xs.set i.toNat x) rs s ⟨l.free, m'⟩ hfit.2 hs (hl.edit hp h1) (by dsimp only; rw [h2, hx]) hlen hS (by dsimp only; rw [h3]; exact hr)
    · simp only [Script.around, Script.runWith, bind, Act.bind, ho.setArg_out i x _ hi, if_neg (show ¬ i.toNat < xs.length by omega)]
      exact .trap hs
  | setRes i x k ih =>
    intro S xs rs s l hfit hs hl hx hlen hS hr
    by_cases hi : i.toNat < t.results.length
    · have hty : t.results[i.toNat]? = some x.type := by
        have := hfit.1 _ (List.getElem?_eq_getElem hi)
        rw [List.getElem?_eq_getElem hi, this]
      obtain ⟨m', e, h1, h2, h3⟩ := ho.setRes i x hty l (s.extend T X (s.world.1, s.world.2, l.store)) hl.ok rfl (hl.inside hp) hl.types
      simp only [Script.around, Script.runWith, bind, Act.bind, e, if_pos (show i.toNat < rs.length by omega)]
      refine ih _ xs (rs.set i.toNat (some x)) s ⟨l.free, m'⟩ hfit.2 hs (hl.edit hp h1) (by dsimp only; rw [h2]; exact hx) (by simpa using hlen) ?_ ?_
      · intro n hn hSn
        rw [List.getElem?_set]
        by_cases hni : i.toNat = n
        · rw [if_pos hni, if_pos (by omega)]; exact ⟨x, rfl⟩
        · rw [if_neg hni]
          exact hS n hn (hSn.resolve_left (fun h => hni h.symm))
      · intro n y hy
        dsimp only
        rw [h3, List.getElem?_set]
        rw [List.getElem?_set] at hy
        by_cases hni : i.toNat = n
        · rw [if_pos hni, if_pos (by omega)] at hy
          rw [if_pos hni, if_pos (by rw [hrl]; omega)]
          simpa using hy
        · rw [if_neg hni] at hy ⊢
          exact hr n y hy
    · simp only [Script.around, Script.runWith, bind, Act.bind, ho.setRes_out i x _ hi, if_neg (show ¬ i.toNat < rs.length by omega)]
      exact .trap hs
  | resume k ih =>
    intro S xs rs s l hfit hs hl hx hlen hS hr
    have := hc xs s l hs hl hx
    simp only [Script.around, Script.runWith, bind, Act.bind]
    generalize call (xs.map .num) s = o1 at this ⊢
    generalize rc (s.extend T X (s.world.1, s.world.2, l.store)) = o2 at this ⊢
    cases this with
    | @ok ys s1 l1 hs1 hP =>
      dsimp only
      rw [numbers_nums]
      refine ih _ xs (ys.map some) s1 l1 hfit hs1 hP.1 hP.2.1 (by rw [List.length_map]; exact hP.2.2.2) (fun n hn _ => ?_) (fun n y hy => ?_)
      · have := hP.2.2.2
        exact ⟨ys[n], by simp [List.getElem?_eq_getElem (show n < ys.length by omega)]⟩
      · rw [hP.2.2.1]
        simpa using hy
    | trap h => exact .trap h
    | fuel => exact .fuel
    | fuelL h => exact .fuelL h
    | fuelR h => exact .fuelR h
  | state g k ih =>
    intro S xs rs s l hfit hs hl hx hlen hS hr
    simp only [Script.around, Script.runWith, bind, Act.bind]
    exact ih s.world.2 S xs rs { s with world := (s.world.1, g s.world.2) } l (hfit _) (hs.world rfl rfl rfl rfl rfl) hl hx hlen hS hr

/-- A piece of the analysis' code (which is given how to resume the call) that carries out a decision about calls of a function of type `t`, with the buffer at `p`. -/
def Realises (t : FuncType) (p : Nat) (act : Act (World W A) Unit → Act (World W A) Unit) (δ : Decision W A) : Prop :=
  ∀ (Γ : Ctx) (T : List Table) (X : List (RefType × List (Option Nat))) (fl fr : Bool) (F M : Nat) (b : Nat → BitVec 8), (t.slots = 0 ∧ p = 0 ∨ p = F) →
  ∀ (call : List RVal → Store (W × A) → Res (W × A)) (rc : Act (World W A) Unit),
    (∀ (xs : List Val) (s : Store (W × A)) (l : Lib), StoreOK Γ s → Asked t p F M b l → l.mem.args t p = xs →
      Ends Γ T X fl fr (AfterResume t p F M b xs) (call (xs.map .num) s) (rc (s.extend T X (s.world.1, s.world.2, l.store)))) →
  ∀ (s : Store (W × A)) (l : Lib), StoreOK Γ s → Asked t p F M b l →
    Ends Γ T X fl fr (fun ys l => Asked t p F M b l ∧ l.mem.ress t p = ys) (δ call (l.mem.args t p) s) (act rc (s.extend T X (s.world.1, s.world.2, l.store)))

/-- A script's code carries out what the script decides. -/
theorem script_realises {t : FuncType} {p : Nat} {o : BufferOps W A} (ho : o.Good t p) (hr : t.RefFree) {a : Script A} (hfit : a.Fits t fun _ => False) :
    Realises t p (fun rc => a.runWith o rc) (a.decision t.results.length) := by
  intro Γ T X fl fr F M b hp call rc hc s l hs hl
  refine script_agrees ho hr hp hc a (fun _ => False) _ (List.replicate t.results.length none) s l hfit hs hl rfl (by simp) (fun _ _ h => h.elim) ?_
  intro n y hy
  rw [List.getElem?_replicate] at hy
  split at hy <;> simp at hy

/-- Code that edits the arguments, resumes the call and edits the results carries out that. -/
theorem editing_realises {t : FuncType} {p : Nat} {pre post : Act (World W A) Unit} {φ χ χ' ψ : List Val → List Val} (hpre : EditsTyped t p pre φ χ) (hpost : EditsTyped t p post χ' ψ) :
    Realises t p (fun rc => do pre; rc; post) (editing φ ψ) := by
  intro Γ T X fl fr F M b hp call rc hc s l hs hl
  obtain ⟨m1, e1, o1, a1, _⟩ := hpre l (s.extend T X (s.world.1, s.world.2, l.store)) hl.ok rfl (hl.inside hp) hl.types
  have hl1 := hl.edit hp o1
  have := hc (φ (l.mem.args t p)) s ⟨l.free, m1⟩ hs hl1 a1
  have e0 : (s.extend T X (s.world.1, s.world.2, l.store)).setLib (⟨l.free, m1⟩ : Lib).store = s.extend T X (s.world.1, s.world.2, (⟨l.free, m1⟩ : Lib).store) := rfl
  simp only [editing, bind, Act.bind, e1, e0]
  generalize call _ s = c1 at this ⊢
  generalize rc _ = c2 at this ⊢
  cases this with
  | @ok ys s1 l1 hs1 hP =>
    obtain ⟨m2, e2, o2, _, a2⟩ := hpost l1 (s1.extend T X (s1.world.1, s1.world.2, l1.store)) hP.1.ok rfl (hP.1.inside hp) hP.1.types
    dsimp only
    rw [e2, numbers_nums, ← hP.2.2.1]
    exact .ok hs1 ⟨hP.1.edit hp o2, a2⟩
  | trap h => exact .trap h
  | fuel => exact .fuel
  | fuelL h => exact .fuelL h
  | fuelR h => exact .fuelR h

/-- The `apply` advice carries out what `δ i` decides about the calls of the function with index `i`, for `i` in `intercepted`. -/
def Follows (m : Module) (intercepted : List Nat) (base : Nat) (δ : Nat → Decision W A) (advice : Host (World W A)) : Prop :=
  ∀ (call : Nat → List RVal → Store (World W A) → Res (World W A)) (j i p : Nat) (f : Func) (present : BitVec 32) (l l1 : Lib) (xs : List Val) (s : Store (World W A)),
    i ∈ intercepted → m.functions[i]? = some f → i < 2 ^ 32 → f.type.RefFree → f.type.slots < 8192 → Prepared l f.type xs p (p + 8 * f.type.slots) l1 → s.getLib = l1.store →
    ∃ act : Act (World W A) Unit → Act (World W A) Unit, Realises f.type p act (δ i) ∧
      advice call (applyQuestion j i f.type p (p + 8 * f.type.slots) present) s =
        (act (WasmFunction.apply ⟨BitVec.ofNat 32 j, BitVec.ofNat 32 i, BitVec.ofNat 32 p, present⟩ base call) s).done

/-- The scripts fit the functions they are for. -/
def ScriptsFit (m : Module) (intercepted : List Nat) (σ : Nat → Script A) : Prop := ∀ i ∈ intercepted, ∀ f, m.functions[i]? = some f → (σ i).Fits f.type fun _ => False

/-- What the scripts decide. -/
def scripts (m : Module) (σ : Nat → Script A) : Nat → Decision W A := fun i => (σ i).decision ((m.functions[i]?.map (·.type.results.length)).getD 0)

theorem rustScripts_follows {K : LibLink} (hK : K.Good) (base : Nat) {m : Module} {intercepted : List Nat} {σ : Nat → Script A} (hfit : ScriptsFit m intercepted σ) :
    Follows (W := W) m intercepted base (scripts m σ) (rustScripts K base σ) := by
  intro call j i p f present l l1 xs s hmem hf hi hr hn hP hs
  generalize ht : f.type = t at *
  have hd : scripts (W := W) m σ i = (σ i).decision t.results.length := by simp only [scripts, hf, Option.map_some, Option.getD_some, ht]
  refine ⟨fun rc => (σ i).runWith (rustOps K (handle t p)) rc, ?_, ?_⟩
  · rw [hd]
    exact script_realises (rustOps_good hK hr hn) hr (by rw [← ht]; exact hfit i hmem f hf)
  have hrv := LibLink.runtimeValues_ok (W := W) (A := A) (s := s) (p := p) hK hP.alloc.ok hs hr.both hn hP.types hP.types_in
  have e : ∀ body : RuntimeValues → RuntimeValues → Act (World W A) Unit,
      (do let args ← K.runtimeValues (BitVec.ofNat 32 t.inputs.length) (BitVec.ofNat 32 t.results.length) (BitVec.ofNat 32 p) (BitVec.ofNat 32 (p + 8 * t.slots))
          let ress ← K.runtimeValues (BitVec.ofNat 32 t.inputs.length) (BitVec.ofNat 32 t.results.length) (BitVec.ofNat 32 p) (BitVec.ofNat 32 (p + 8 * t.slots))
          body args ress : Act (World W A) Unit) s = body (handle t p) (handle t p) s := by
    intro body
    simp only [bind, Act.bind, hrv]
  have hbi : (BitVec.ofNat 32 i).toNat = i := by rw [BitVec.toNat_ofNat, Nat.mod_eq_of_lt hi]
  simp only [rustScripts, applyAdvice, applyQuestion, RVal.i32]
  rw [e]
  simp only [hbi, Script.run_eq]
  generalize (σ i).runWith _ _ s = x
  cases x <;> rfl

theorem waspScripts_follows {K : LibLink} (hK : K.Good) (base : Nat) {m : Module} {intercepted : List Nat} {σ : Nat → Script A} (hfit : ScriptsFit m intercepted σ) :
    Follows (W := W) m intercepted base (scripts m σ) (waspScripts K base σ) := by
  intro call j i p f present l l1 xs s hmem hf hi hr hn hP hs
  generalize ht : f.type = t at *
  have hd : scripts (W := W) m σ i = (σ i).decision t.results.length := by simp only [scripts, hf, Option.map_some, Option.getD_some, ht]
  refine ⟨fun rc => (σ i).runWith (waspOps K (.args (asHandle t p (p + 8 * t.slots))) (.ress (asHandle t p (p + 8 * t.slots)))) rc, ?_, ?_⟩
  · rw [hd]
    exact script_realises (waspOps_good hK hr hn) hr (by rw [← ht]; exact hfit i hmem f hf)
  have hbi : (BitVec.ofNat 32 i).toNat = i := by rw [BitVec.toNat_ofNat, Nat.mod_eq_of_lt hi]
  simp only [waspScripts, asApplyAdvice, applyQuestion, RVal.i32, hbi]
  rfl

/-- Advice that surrounds the call with edits carries them out. -/
theorem surrounds_follows {base : Nat} {m : Module} {intercepted : List Nat} {pre post : FuncType → Nat → Nat → Act (World W A) Unit} {advice : Host (World W A)}
    (hH : Surrounds base pre post advice) {φ ψ : Nat → List Val → List Val} (he : ∀ i ∈ intercepted, ∀ f, m.functions[i]? = some f → f.type.RefFree → f.type.slots < 8192 → ∀ p, ∃ χ χ',
      EditsTyped f.type p (pre f.type p (p + 8 * f.type.slots)) (φ i) χ ∧ EditsTyped f.type p (post f.type p (p + 8 * f.type.slots)) χ' (ψ i)) :
    Follows m intercepted base (fun i => editing (φ i) (ψ i)) advice := by
  intro call j i p f present l l1 xs s hmem hf hi hr hn hP hs
  obtain ⟨χ, χ', h1, h2⟩ := he i hmem f hf hr hn p
  exact ⟨_, editing_realises h1 h2, hH _ _ _ _ _ _ _ _ _ _ _ hr hn hP hs⟩

/-! ## One call -/

/-- The library's allocator is at `F`, its memory can grow to `M` pages, and its memory below `F` is `b`. -/
def LibHolds (F M : Nat) (b : Nat → BitVec 8) (st : Store Unit) : Prop :=
  ∃ l : Lib, st = l.store ∧ l.Ok ∧ l.free = F ∧ l.mem.limit = M ∧ l.mem.pages < 65536 ∧ ∀ k < F, l.mem.bytes k = b k

/-- The original with the analysis' state beside the program's world, and the instrumented program: they agree on both, and the stack library's state satisfies `I`. After a trap nothing is said
about the stack library. -/
def besideState (Γ : Ctx) (T : List Table) (X : List (RefType × List (Option Nat))) (I : Store Unit → Prop) (fl fr : Bool) : Rel (W × A) (World W A) :=
  ⟨SameState Γ T X (fun w w' => w = (w'.1, w'.2.1) ∧ I w'.2.2), fl, fr, false, SameState Γ T X (fun w w' => w = (w'.1, w'.2.1)), fun _ => False⟩

theorem besideState_S (Γ : Ctx) (T : List Table) (X : List (RefType × List (Option Nat))) (I : Store Unit → Prop) (fl fr : Bool) :
    (besideState (W := W) (A := A) Γ T X I fl fr).S = SameState Γ T X (fun w w' => w = (w'.1, w'.2.1) ∧ I w'.2.2) := rfl

section
variable {C : Checker} {iface : Interface} {ts : Option (List Nat)} {m : Module} {r : Instrumented} {ge : WasmExport} {cb : WasmImport}
  {order : List Nat} {fs : List Func} {hooks : FuncType → StackHooks} {copy : Nat} {K : LibLink} {H : Imports (World W A)} {N : Num} {L : Nat}

/-- An intercepted call does what the script makes of it, if calls of the copy do what the function called does. -/
theorem decided_agrees (hA : Applied C iface ts m r ge cb order fs K.sigs hooks copy) (hge : ge.args = [.i32, .i32, .i32, .i32, .i32, .i32, .i32] ∧ ge.results = [])
    (hcb : cb.args = [.i32, .i32] ∧ cb.results = []) (hsz : order.length < 2 ^ 32) (hmz : m.functions.length < 2 ^ 32)
    (hK : K.Good) (hsm : SmallSigs K.sigs) (hlib : HasLib K H) {δ : Nat → Decision W A} (hH : Follows m (applyTargets m ts) (copy + 2 * order.length) δ (H analysisModule ge.name))
    {j i : Nat} {f : Func} (hj : order[j]? = some i) (hf : m.functions[i]? = some f)
    {T X} {F M : Nat} {b : Nat → BitVec 8} {fl fr : Bool} {d : Nat} (hd : fr = true ∨ 3 ≤ d) {call : List RVal → Store (W × A) → Res (W × A)} {xs : List Val} (hx : xs.map Val.type = f.type.inputs)
    (hcap : F + 12 * f.type.slots ≤ M * 65536 ∧ F + 12 * f.type.slots ≤ 65535 * 65536) {s : Store (W × A)} {s' : Store (World W A)}
    (hseg : ∀ (s : Store (W × A)) (w : World W A), StoreOK m.ctx s → SegmentsIntact m r (s.extend T X w))
    (hS : (besideState m.ctx T X (LibHolds F M b) fl fr).S s s')
    (hcopy : ∀ d', d = d' + 3 → ∀ (b : Nat → BitVec 8) (xs : List Val) (s : Store (W × A)) (s' : Store (World W A)), xs.map Val.type = f.type.inputs → (besideState m.ctx T X (LibHolds (F + 12 * f.type.slots) M b) fl fr).S s s' →
      (besideState m.ctx T X (LibHolds (F + 12 * f.type.slots) M b) fl fr).Ress m.ctx f.type.results (call (xs.map .num) s)
        (callF N (machineOf H r.module.functions) L (d' + 1) (copy + 2 * j) (xs.map .num) s')) :
    (besideState m.ctx T X (LibHolds F M b) fl fr).Ress m.ctx f.type.results (δ i call xs s)
      (callF N (machineOf H r.module.functions) L (d + 2) i (xs.map .num) s') := by
  obtain ⟨h1, ⟨w, a, st⟩, ⟨h2, l, rfl, ok, rfl, rfl, hpg, hb⟩, rfl⟩ := hS
  have hr := applyTarget_refFree hA hj hf
  have hn : f.type.slots < 8192 := by
    obtain ⟨g, hg, hgt, _⟩ := hA.own hf
    rw [← hgt]; exact hsm _ (hA.at.target j i g hj hg).1
  have hi : i < 2 ^ 32 := by have := (List.getElem?_eq_some_iff.1 hf).1; omega
  have hfull : ¬ Full l (12 * f.type.slots) := by
    rintro (h | h | h) <;> omega
  rcases call_intercepted (N := N) (L := L) hA hge hK hsm hlib hj hf ok (s := s.extend T X (w, a, l.store)) rfl hx d with hF | ⟨p, q, l1, hP, hans⟩
  · exact absurd hF.1 hfull
  have hq := hP.q_after
  subst hq
  have hp : f.type.slots = 0 ∧ p = 0 ∨ p = l.free := by
    have := hP.p_eq
    split at this
    · exact .inl ⟨by assumption, this⟩
    · exact .inr this
  have hasked : Asked f.type p l.free l.mem.limit b l1 :=
    ⟨hP.alloc.ok, hP.alloc.free, hP.alloc.limit, hP.alloc.room hpg, fun k hk => by rw [hP.alloc.below k hk]; exact hb k hk, hP.types⟩
  obtain ⟨act, hact, hask⟩ := hH (callF N (machineOf H r.module.functions) L d) j i p f (codePresent f) l l1 xs ((s.extend T X (w, a, l.store)).setLib l1.store)
    ((hA.mem i).1 (List.mem_of_getElem? hj)) hf hi hr hn hP (Store.getLib_setLib _ _)
  have e0 : (s.extend T X (w, a, l.store)).setLib l1.store = s.extend T X (s.world.1, s.world.2, l1.store) := by rw [h2]; rfl
  rw [hask, e0] at hans
  clear hask
  have key := hact m.ctx T X fl fr l.free l.mem.limit b hp call
    (WasmFunction.apply ⟨BitVec.ofNat 32 j, BitVec.ofNat 32 i, BitVec.ofNat 32 p, codePresent f⟩ (copy + 2 * order.length) (callF N (machineOf H r.module.functions) L d)) ?_ s l1 h1 hasked
  · rw [hP.args] at key
    generalize δ i call xs s = o1 at key ⊢
    generalize act _ _ = o2 at key hans
    generalize callF N (machineOf H r.module.functions) L (d + 2) i (xs.map .num) (s.extend T X (w, a, l.store)) = o3 at hans ⊢
    cases key with
    | @ok ys s1 l2 hs1 hl2 =>
      have := hans l2 rfl hl2.1.ok (by rw [hl2.1.free, hP.alloc.free])
      rw [this, hl2.2]
      refine .ok ⟨?_, ?_⟩ ⟨hs1, (s1.world.1, s1.world.2, (⟨l.free, l2.mem⟩ : Lib).store), ⟨rfl, ⟨l.free, l2.mem⟩, rfl, ?_, rfl, hl2.1.limit, hl2.1.pages, hl2.1.below⟩, rfl⟩
      · rw [types_nums, ← hl2.2]
        exact Mem.vals_types _ _ _ hr.results
      · intro v hv g hg
        obtain ⟨y, _, rfl⟩ := List.mem_map.1 hv
        cases hg
      · have h1 := hl2.1.ok
        have h2 := hl2.1.free
        exact ⟨by have := h1.free; dsimp only; omega, by have := h1.free'; dsimp only; omega, h1.3, h1.limit⟩
    | trap hs1 => rw [hans]; exact .trapT ⟨hs1, _, rfl, rfl⟩
    | fuel => rw [hans]; exact .fuel
    | fuelL h => exact .fuelL h
    | fuelR h => rw [hans]; exact .fuelR h
  · intro xs s l2 hs2 hl2 hx2
    simp only [WasmFunction.apply, bind, Act.bind]
    by_cases h3 : 3 ≤ d
    · obtain ⟨d', rfl⟩ : ∃ d', d = d' + 3 := ⟨d - 3, by omega⟩
      have hres := call_resumed (N := N) (L := L) hA hcb hsz hK hlib hj hf hl2.ok (s := s.extend T X (s.world.1, s.world.2, l2.store)) rfl (hseg s _ hs2) (p := p)
        (by have := hl2.inside hp; omega) d'
      rw [hx2] at hres
      have hty : xs.map Val.type = f.type.inputs := by rw [← hx2]; exact Mem.vals_types _ _ _ hr.inputs
      have := hcopy d' rfl l2.mem.bytes xs s (s.extend T X (s.world.1, s.world.2, l2.store)) hty ⟨hs2, _, ⟨rfl, l2, rfl, hl2.ok, hl2.free, hl2.limit, hl2.pages, fun _ _ => rfl⟩, rfl⟩
      generalize call (xs.map .num) s = o1 at this ⊢
      generalize callF N (machineOf H r.module.functions) L (d' + 1) (copy + 2 * j) (xs.map .num) (s.extend T X (s.world.1, s.world.2, l2.store)) = o2 at this hres
      generalize callF N (machineOf H r.module.functions) L (d' + 3) (copy + 2 * order.length) _ (s.extend T X (s.world.1, s.world.2, l2.store)) = o3 at hres ⊢
      cases this with
      | @ok vs s1 s1' hv hs1 =>
        obtain ⟨g1, ⟨w1, a1, st1⟩, ⟨g2, l3, rfl, ok3, hf3, hl3, hp3, hb3⟩, rfl⟩ := hs1
        obtain ⟨ys, rfl, hy⟩ := args_nums hv.1 hr.results
        have hsl : f.type.slots = f.type.results.length + f.type.inputs.length := rfl
        obtain ⟨m', e, hm', ho'⟩ := hres.2 ys l3 rfl hy rfl ok3 (by have := ok3.free; rcases hp with ⟨h1, h2⟩ | h1 <;> omega)
        rw [e]
        simp only [Res.toEff]
        have e1 : (s1.extend T X (w1, a1, l3.store)).setLib (⟨l3.free, m'⟩ : Lib).store = s1.extend T X (s1.world.1, s1.world.2, (⟨l3.free, m'⟩ : Lib).store) := by rw [g2]; rfl
        rw [e1]
        have hbytes : ∀ k < l.free + 12 * f.type.slots, (k < p ∨ p + 8 * f.type.results.length ≤ k) → m'.bytes k = l2.mem.bytes k := fun k h1 h2 => by
          rw [ho'.bytes k (by omega)]; exact hb3 k h1
        refine .ok g1 ⟨⟨ho'.ok ok3, hf3, ho'.limit.trans hl3, by dsimp only; rw [ho'.pages]; exact hp3, fun k hk => ?_, fun k v hv => ?_⟩, ?_, hm', mapTypes hy⟩
        · dsimp only
          rw [hbytes k (by omega) (by rcases hp with ⟨h1, h2⟩ | h1 <;> omega)]
          exact hl2.below k hk
        · have hk := (List.getElem?_eq_some_iff.1 hv).1
          rw [List.length_append] at hk
          rw [← hl2.types k v hv]
          exact Mem.word_congr fun n n1 n2 => hbytes n (by rcases hp with ⟨h1, h2⟩ | h1 <;> omega) (by omega)
        · rw [← hx2]
          exact Mem.vals_congr fun n n1 n2 => hbytes n (by rcases hp with ⟨h1, h2⟩ | h1 <;> omega) (by omega)
      | trap hs1 =>
        obtain ⟨g1, ⟨w1, a1, st1⟩, ⟨g2, _⟩, rfl⟩ := hs1
        dsimp only [Resumed] at hres
        rw [hres]
        have e1 : ∀ s1 : Store (W × A), s1.world = (w1, a1) → s1.extend T X (w1, a1, st1) = s1.extend T X (s1.world.1, s1.world.2, st1) := by intro s1 h; rw [h]
        simp only [Res.toEff]
        rw [e1 _ g2]
        exact .trap g1
      | fuel => dsimp only [Resumed] at hres; rw [hres]; exact .fuel
      | fuelL h => exact .fuelL h
      | fuelR h => dsimp only [Resumed] at hres; rw [hres]; exact .fuelR h
      | trapL h => cases h
      | trapT hs1 =>
        obtain ⟨g1, ⟨w1, a1, st1⟩, g2, rfl⟩ := hs1
        dsimp only [Resumed] at hres
        rw [hres]
        have e1 : ∀ s1 : Store (W × A), s1.world = (w1, a1) → s1.extend T X (w1, a1, st1) = s1.extend T X (s1.world.1, s1.world.2, st1) := by intro s1 h; rw [h]
        simp only [Res.toEff]
        rw [e1 _ g2]
        exact .trap g1
      | trapR h => exact h.elim
    · rw [base_shallow (N := N) (L := L) (H := H) hA hcb hsz hj hf (s := s.extend T X (s.world.1, s.world.2, l2.store)) (hseg s _ hs2) (p := p) (d := d) (by omega)]
      exact .fuelR (hd.resolve_right h3)

/-! ## The hooks -/

/-- The hooks of a forwarding analysis that leaves its state and the stack library alone keep the executions in step. -/
theorem decided_hooks (hs : SmallModule m) (h : Instruments C iface ts m r) {P : Trap → List RVal → A × Store Unit → A × Store Unit → Prop} (hF : Forwards N iface P H)
    (hP : ∀ t args a a', P t args a a' → a' = a) {I : Store Unit → Prop} {T X} {fl fr : Bool} {D : Nat} (hk : fr = true ∨ 1 ≤ D) {E : Env (W × A)} (hE : E.num = N) :
    (besideState m.ctx T X I fl fr).Hooks m.ctx (fun _ => True) (hookSel iface m.functions.length) (fun _ _ w => w) E (envAt N (machineOf H r.module.functions) L D) := by
  have hook : ∀ {t : Trap} {k : Nat}, hookSel iface m.functions.length t = some k → ∃ e, iface.trap t = some e ∧
      ∀ d args s, callF N (machineOf H r.module.functions) L (d + 1) k args s = H "WASTRUMENTATION_ANALYSIS" e.name (callF N (machineOf H r.module.functions) L d) args s := by
    intro t k hk
    cases he : iface.trap t with
    | none => rw [hookSel_none_iff.2 he] at hk; cases hk
    | some e =>
      obtain ⟨k', h1, h2, h3⟩ := hook_installed hs h he
      rw [hk] at h1; cases h1
      exact ⟨e, rfl, fun d args s => callF_import h3 rfl d args s H⟩
  refine ⟨fun t ht args s s' hS => hS, ?_, ?_⟩
  · intro t i hσ ho hpre args s s' hty hS
    obtain ⟨e, he, hcall⟩ := hook hσ
    simp only [envAt]
    cases D with
    | zero => exact ⟨_, .refl _ _, .fuelR (by rcases hk with hk | hk; exact hk; omega)⟩
    | succ d' =>
      rw [hcall]
      obtain ⟨h1, ⟨w, a⟩, ⟨h2, h3⟩, rfl⟩ := hS
      obtain ⟨vs, a', hsame, hp, hh⟩ := hF.shown t e he ho (callF N (machineOf H r.module.functions) L d') args (s.extend T X w) a hty
      obtain rfl := hP _ _ _ _ hp
      have e1 : (s.extend T X w).withAnalysis a' = s.extend T X (w, a') := rfl
      rw [e1] at hh
      rw [hh]
      have hvt : vs.map RVal.type = t.results := by rw [hsame.types, List.map_take, hty, hpre]
      refine ⟨vs, hsame, .ok ⟨hvt, ?_⟩ ⟨h1, (w, a'), ⟨h2, h3⟩, rfl⟩⟩
      intro v hv f hf
      have : v.type ∈ t.results := by rw [← hvt]; exact List.mem_map_of_mem hv
      rw [hf] at this
      rw [← hpre] at this
      exact absurd (List.mem_of_mem_take this) (t.args_num _)
  · intro b t j info i hd hσ hB hm ops loc s s' hops hloc hty hS
    obtain ⟨e, he, hcall⟩ := hook hσ
    simp only [envAt]
    cases D with
    | zero => exact .fuelR (by rcases hk with hk | hk; exact hk; omega)
    | succ d' =>
      rw [hcall]
      obtain ⟨h1, ⟨w, a⟩, ⟨h2, h3⟩, rfl⟩ := hS
      obtain ⟨a', hp, hh⟩ := hF.performed t e he b j info hd (callF N (machineOf H r.module.functions) L d') ops loc (s.extend T X w) a hops hloc hty
      obtain rfl := hP _ _ _ _ hp
      have e1 : (s.extend T X w).withAnalysis a' = s.extend T X (w, a') := rfl
      rw [e1] at hh
      rw [hh, execInstr_execute E hd, hE]
      have := execute_sim (Γ := m.ctx) (N := N) (T := T) (X := X) (s := note (fun _ _ w => w) t (ops ++ info ++ loc) s) (s' := s.extend T X w) hd rfl hm hops hloc hty
        ⟨h1.world rfl rfl rfl rfl rfl, w, ⟨rfl, rfl⟩, rfl⟩
      have lift : ∀ {s1 : Store (W × A)} {s1' : Store W}, SameState m.ctx T X (fun v v' => v = (note (fun _ _ w => w) t (ops ++ info ++ loc) s).world ∧ v' = (s.extend T X w).world) s1 s1' →
          SameState m.ctx T X (fun v (v' : World W A) => v = (v'.1, v'.2.1) ∧ I v'.2.2) s1 (s1'.withAnalysis a') := by
        rintro s1 s1' ⟨g1, w1, ⟨g2, g3⟩, rfl⟩
        refine ⟨g1, (w1, a'), ⟨?_, h3⟩, rfl⟩
        rw [g2, g3]; exact h2
      generalize execute N b ops (note (fun _ _ w => w) t (ops ++ info ++ loc) s) = o at this ⊢
      generalize execute N b ops _ = o' at this ⊢
      cases this with
      | ok hv hS => exact .ok hv (lift hS)
      | trap hS => exact .trap (lift hS)
      | fuel => exact .fuel
      | fuelL h => cases h
      | fuelR h => cases h
      | trapL h => cases h
      | trapT h => cases h
      | trapR h => cases h

/-! ## The two directions -/

/-- The program's imports do the same beside the analysis and the stack library, and leave both alone (provided the functions of the program that they call back do what they do in the
specification). -/
def ImportsAgreeState (m : Module) (T : List Table) (X : List (RefType × List (Option Nat))) (H : Imports (W × A)) (H' : Imports (World W A)) : Prop :=
  ∀ f ∈ m.functions, ∀ ns name, f.code = .imported ns name → ∀ I fl fr, HostsAgree (besideState m.ctx T X I fl fr) m.ctx f.type (H ns name) (H' ns name)

/-- The assumptions about the linked program, the analysis and the stack library. -/
structure Decided (C : Checker) (iface : Interface) (ts : Option (List Nat)) (m : Module) (r : Instrumented) (ge : WasmExport) (K : LibLink) (N : Num) (base : Nat) (δ : Nat → Decision W A)
    (T : List Table) (X : List (RefType × List (Option Nat))) (B : Nat) (H : Imports (W × A)) (H' : Imports (World W A)) : Prop where
  /-- the stack library linked is the one generated for the instrumented module -/
  sigs : r.librarySignatures = some K.sigs
  small : SmallSigs K.sigs
  good : K.Good
  lib : HasLib K H'
  /-- the instruction-level hooks, if there are any, forward, and leave the analysis' state and the stack library alone -/
  forwards : ∃ P : Trap → List RVal → A × Store Unit → A × Store Unit → Prop, Forwards N iface P H' ∧ ∀ t args a a', P t args a a' → a' = a
  /-- the `apply` advice carries out the decisions -/
  follows : Follows m (applyTargets m ts) base δ (H' analysisModule ge.name)
  imports : ImportsAgreeState m T X H H'
  /-- no frame takes more than `B` bytes -/
  frame : ∀ t ∈ K.sigs, 12 * t.slots ≤ B

variable {G : Imports (W × A)} {T : List Table} {X : List (RefType × List (Option Nat))} {B : Nat} {δ : Nat → Decision W A}

theorem decidedCall_eq {intercepted : List Nat} {d i : Nat} {f : Func} (hf : m.functions[i]? = some f) (args : List RVal) (s : Store (W × A)) :
    decidedCall m intercepted δ G N L (d + 1) i args s =
      let run := runImpl ⟨N, fun k => m.functions[k]?.map (·.type), decidedCall m intercepted δ G N L d, L⟩ f.type (implOf G f)
      if i ∈ intercepted then δ i run (numbers args) s else run args s := by
  rw [decidedCall, hf]

/-- The instrumented program keeps up with the specification. -/
theorem decided_forward (hs : SmallModule m) (hst : iface.Standard) (h : Instruments C iface ts m r)
    (hA : Applied C iface ts m r ge cb order fs K.sigs hooks copy) (hge : ge.args = [.i32, .i32, .i32, .i32, .i32, .i32, .i32] ∧ ge.results = [])
    (hcb : cb.args = [.i32, .i32] ∧ cb.results = []) (hsz : order.length < 2 ^ 32) (hv : ValidModule m)
    (hB : ∀ i ∈ bodyTargets m ts, ∀ f, m.functions[i]? = some f → WellAnnotated m f (bodyOf C m i))
    (hR : Decided C iface ts m r ge K N (copy + 2 * order.length) δ T X B G H)
    (hseg : ∀ (s : Store (W × A)) (w : World W A), StoreOK m.ctx s → SegmentsIntact m r (s.extend T X w)) {M : Nat} :
    ∀ d D F b, 5 * d + 1 ≤ D → F + d * B ≤ M * 65536 → F + d * B ≤ 65535 * 65536 →
      CallsAgree (besideState m.ctx T X (LibHolds F M b) true false) m.ctx (decidedCall m (applyTargets m ts) δ G N L d) (callF N (machineOf H r.module.functions) L D) := by
  obtain ⟨P, hF, hP⟩ := hR.forwards
  intro d
  induction d with
  | zero => intro D F b _ _ _ f ty args s s' _ _ _; exact .fuelL rfl
  | succ d ih =>
    intro D F b hD hc1 hc2 i ty args s s' hf ha hS
    simp only [Module.ctx, Option.map_eq_some_iff] at hf
    obtain ⟨f, hf, rfl⟩ := hf
    obtain ⟨g, hg, hgt, _⟩ := hA.own hf
    rw [Nat.add_mul, Nat.one_mul] at hc1 hc2
    rw [decidedCall_eq hf]
    dsimp only
    by_cases ho : i ∈ order
    · obtain ⟨j, hj⟩ := List.getElem?_of_mem ho
      obtain ⟨hmem, _, _, hcp, _⟩ := hA.at.target j i g hj hg
      have hb : 12 * f.type.slots ≤ B := by rw [← hgt]; exact hR.frame _ hmem
      obtain ⟨D', rfl⟩ : ∃ D', D = D' + 5 := ⟨D - 5, by omega⟩
      have hr := applyTarget_refFree hA hj hf
      obtain ⟨xs, rfl, hx⟩ := args_nums ha.1 hr.inputs
      rw [if_pos ((hA.mem i).1 ho), numbers_nums]
      refine decided_agrees hA hge hcb hsz (by have := hs.functions; omega) hR.good hR.small hR.lib hR.follows hj hf (d := D' + 3) (.inr (by omega)) hx ⟨by omega, by omega⟩ hseg hS ?_
      intro d' hd' b' ys s1 s1' hy hS1
      obtain rfl : D' = d' := by omega
      exact body_runs hs hst hA hv hB (besideState_S _ _ _ _ _ _) (fun f hf ns name hc => hR.imports f hf ns name hc _ _ _) hf hg hcp rfl rfl rfl
        (ih D' _ b' (by omega) (by omega) (by omega)) (B := fun _ => True) (fun _ _ _ _ _ _ _ _ => trivial) (decided_hooks hs h hF hP (.inr (by omega)) rfl)
        ⟨by rw [types_nums]; exact hy, fun v hv g hg => by obtain ⟨y, _, rfl⟩ := List.mem_map.1 hv; cases hg⟩ hS1
    · obtain ⟨D', rfl⟩ : ∃ D', D = D' + 1 := ⟨D - 1, by omega⟩
      rw [if_neg (fun hh => ho ((hA.mem i).2 hh))]
      exact body_runs hs hst hA hv hB (besideState_S _ _ _ _ _ _) (fun f hf ns name hc => hR.imports f hf ns name hc _ _ _) hf hg (es := g.exports) (hA.at.untouched i g ho hg) rfl rfl rfl
        (ih D' F b (by omega) (by omega) (by omega)) (B := fun _ => True) (fun _ _ _ _ _ _ _ _ => trivial) (decided_hooks hs h hF hP (.inr (by omega)) rfl) ha hS

/-- The specification keeps up with the instrumented program. -/
theorem decided_backward (hs : SmallModule m) (hst : iface.Standard) (h : Instruments C iface ts m r)
    (hA : Applied C iface ts m r ge cb order fs K.sigs hooks copy) (hge : ge.args = [.i32, .i32, .i32, .i32, .i32, .i32, .i32] ∧ ge.results = [])
    (hcb : cb.args = [.i32, .i32] ∧ cb.results = []) (hsz : order.length < 2 ^ 32) (hv : ValidModule m)
    (hB : ∀ i ∈ bodyTargets m ts, ∀ f, m.functions[i]? = some f → WellAnnotated m f (bodyOf C m i))
    (hR : Decided C iface ts m r ge K N (copy + 2 * order.length) δ T X B G H)
    (hseg : ∀ (s : Store (W × A)) (w : World W A), StoreOK m.ctx s → SegmentsIntact m r (s.extend T X w)) {M : Nat} :
    ∀ D d F b, D ≤ d → F + D * B ≤ M * 65536 → F + D * B ≤ 65535 * 65536 →
      CallsAgree (besideState m.ctx T X (LibHolds F M b) false true) m.ctx (decidedCall m (applyTargets m ts) δ G N L d) (callF N (machineOf H r.module.functions) L D) := by
  obtain ⟨P, hF, hP⟩ := hR.forwards
  intro D
  induction D using Nat.strongRecOn with
  | ind D ih =>
    intro d F b hD hc1 hc2 i ty args s s' hf ha hS
    match D, ih with
    | 0, _ => exact .fuelR rfl
    | D + 1, ih =>
    obtain ⟨d, rfl⟩ : ∃ d', d = d' + 1 := ⟨d - 1, by omega⟩
    simp only [Module.ctx, Option.map_eq_some_iff] at hf
    obtain ⟨f, hf, rfl⟩ := hf
    obtain ⟨g, hg, hgt, _⟩ := hA.own hf
    rw [decidedCall_eq hf]
    dsimp only
    rw [Nat.add_mul, Nat.one_mul] at hc1 hc2
    by_cases ho : i ∈ order
    · obtain ⟨j, hj⟩ := List.getElem?_of_mem ho
      obtain ⟨hmem, _, _, hcp, _⟩ := hA.at.target j i g hj hg
      have hb : 12 * f.type.slots ≤ B := by rw [← hgt]; exact hR.frame _ hmem
      have hr := applyTarget_refFree hA hj hf
      obtain ⟨xs, rfl, hx⟩ := args_nums ha.1 hr.inputs
      rw [if_pos ((hA.mem i).1 ho), numbers_nums]
      match D, ih with
      | 0, ih => rw [call_shallow_one hA hj hf hx]; exact .fuelR rfl
      | D + 1, ih =>
      refine decided_agrees hA hge hcb hsz (by have := hs.functions; omega) hR.good hR.small hR.lib hR.follows hj hf (d := D) (.inl rfl) hx ⟨by omega, by omega⟩ hseg hS ?_
      intro d' hd' b' ys s1 s1' hy hS1
      subst hd'
      rw [Nat.add_mul, Nat.add_mul] at hc1 hc2
      exact body_runs hs hst hA hv hB (besideState_S _ _ _ _ _ _) (fun f hf ns name hc => hR.imports f hf ns name hc _ _ _) hf hg hcp rfl rfl rfl
        (ih d' (by omega) d _ b' (by omega) (by omega) (by omega)) (B := fun _ => True) (fun _ _ _ _ _ _ _ _ => trivial) (decided_hooks hs h hF hP (.inl rfl) rfl)
        ⟨by rw [types_nums]; exact hy, fun v hv g hg => by obtain ⟨y, _, rfl⟩ := List.mem_map.1 hv; cases hg⟩ hS1
    · rw [if_neg (fun hh => ho ((hA.mem i).2 hh))]
      exact body_runs hs hst hA hv hB (besideState_S _ _ _ _ _ _) (fun f hf ns name hc => hR.imports f hf ns name hc _ _ _) hf hg (es := g.exports) (hA.at.untouched i g ho hg) rfl rfl rfl
        (ih D (by omega) d F b (by omega) (by omega) (by omega)) (B := fun _ => True) (fun _ _ _ _ _ _ _ _ => trivial) (decided_hooks hs h hF hP (.inl rfl) rfl) ha hS

end

end Wastrum
