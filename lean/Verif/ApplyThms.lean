import Verif.ApplyLink
import Verif.ShippedForward
/-!
# Intercepted function applications (C24, C25)
-/

set_option linter.unusedSimpArgs false
set_option linter.unusedVariables false

namespace Wastrum

/-! ## C25: the index handed out with a call resumes that call's function -/

/-- The flag handed out with a call tells whether the function was imported by the input program or defined in it, as
`WasmFunction::is_imported` and `is_present` read it. -/
def Reports (f : Func) (cp : BitVec 32) : Prop :=
  ∀ a b c, ((⟨a, b, c, cp⟩ : WasmFunction).isImported = true ↔ ∃ ns name, f.code = .imported ns name) ∧
    ((⟨a, b, c, cp⟩ : WasmFunction).isPresent = true ↔ ∃ code, f.code = .present code)

theorem reports_codePresent (f : Func) : Reports f (codePresent f) := by
  intro a b c
  cases h : f.code <;> simp [WasmFunction.isImported, WasmFunction.isPresent, codePresent, Func.hasCode, h]

/-- C25. When function application is instrumented, every intercepted function `i` has an index `slot i` of its own, and a copy at
`copy i`, which is the function as it would be without that instrumentation. Linked with the stack library,
* a call of `i` asks the analysis with `slot i`, the index `i`, whether `i` is imported, and the arguments in a buffer, unless the library's memory is exhausted;
* passing `slot i` and any buffer for values of `i`'s signature back to `call_base` runs `copy i`, once, on the arguments in the buffer, and
puts its results into the buffer.
The iteration orders of the tool's sets are quantified over by `Instruments`. -/
theorem C25_index_resumes_function {C iface ts m r ge cb} (hs : SmallModule m) (hsa : iface.StandardApply) (h : Instruments C iface ts m r)
    (hg : iface.generic = some (ge, cb)) :
    ∃ (slot copy : Nat → Nat) (base : Nat) (r0 : Instrumented), Instruments C { iface with generic := none } ts m r0 ∧
      (∃ f, r.module.functions[base]? = some f ∧ f.exports = [cb.name]) ∧
      (∀ i ∈ applyTargets m ts, ∀ i' ∈ applyTargets m ts, slot i = slot i' → i = i') ∧
      (∀ i ∈ applyTargets m ts, ∀ f0, r0.module.functions[i]? = some f0 → r.module.functions[copy i]? = some { f0 with exports := [] }) ∧
      ∀ (W A : Type) (H : Imports (World W A)) (K : LibLink) (N : Num) (L : Nat), r.librarySignatures = some K.sigs → SmallSigs K.sigs → K.Good → HasLib K H →
        ∀ i ∈ applyTargets m ts, ∀ f, m.functions[i]? = some f → ∀ (d : Nat) (l : Lib) (s : Store (World W A)), l.Ok → s.getLib = l.store →
          let call := callF N (machineOf H r.module.functions) L
          (∀ xs : List Val, xs.map Val.type = f.type.inputs → ¬ Full l (12 * f.type.slots) →
            ∃ p q l1 cp, Reports f cp ∧ Prepared l f.type xs p q l1 ∧ Answered f.type p l.free l1
              (H analysisModule ge.name (call d) (applyQuestion (slot i) i f.type p q cp) (s.setLib l1.store)) (call (d + 2) i (xs.map .num) s)) ∧
          (SegmentsIntact m r s → ∀ p, p + 8 * f.type.slots ≤ l.mem.size →
            Resumed f.type p (call (d + 1) (copy i) ((l.mem.args f.type p).map .num) s) (call (d + 3) base [.i32 (BitVec.ofNat 32 (slot i)), .i32 (BitVec.ofNat 32 p)] s)) := by
  obtain ⟨order, fs, sigs, hooks, copy, hA⟩ := applied hs h hg
  obtain ⟨r0, hr0, e0⟩ := hA.without
  have hst := hsa ge cb hg
  have hidx : ∀ i ∈ applyTargets m ts, order[order.idxOf i]? = some i := by
    intro i hi
    have := (hA.mem i).2 hi
    rw [List.getElem?_eq_getElem (List.idxOf_lt_length_iff.2 this), List.getElem_idxOf]
  refine ⟨fun i => order.idxOf i, fun i => copy + 2 * order.idxOf i, copy + 2 * order.length, r0, hr0, ⟨_, hA.at.callBase, rfl⟩, ?_, ?_, ?_⟩
  · intro i hi i' hi' e
    have h1 := hidx i hi
    rw [show order.idxOf i = order.idxOf i' from e, hidx i' hi', Option.some.injEq] at h1
    exact h1.symm
  · intro i hi f0 hf0
    obtain ⟨f, hf, _, _⟩ := mem_applyTargets.1 hi
    obtain ⟨g, hg', _, _⟩ := hA.own hf
    have hlt := (List.getElem?_eq_some_iff.1 hg').1
    rw [e0] at hf0
    dsimp only at hf0
    rw [List.getElem?_append_left hlt, hg', Option.some.injEq] at hf0
    subst hf0
    exact (hA.at.target _ i g (hidx i hi) hg').2.2.2.1
  · intro W A H K N L hsig hsm hK hlib i hi f hf d l s ok hsl
    have hsigs : sigs = K.sigs := by have := hA.sigs_eq; rw [hsig] at this; exact (Option.some.inj this).symm
    subst hsigs
    have hsz : order.length < 2 ^ 32 := by
      have := hA.count
      have := hs.functions
      omega
    refine ⟨?_, ?_⟩
    · intro xs hx hfull
      rcases call_intercepted (N := N) (L := L) hA ⟨hst.1, hst.2.1⟩ hK hsm hlib (hidx i hi) hf ok hsl hx d with hF | hP
      · exact absurd hF.1 hfull
      · obtain ⟨p, q, l1, h1, h2⟩ := hP
        exact ⟨p, q, l1, _, reports_codePresent f, h1, h2⟩
    · intro hseg p hin
      exact call_resumed hA ⟨hst.2.2.1, hst.2.2.2.1⟩ hsz hK hlib (hidx i hi) hf ok hsl hseg hin d

/-! ## C24: the analysis sees and changes the arguments and results of the call -/

variable {W A : Type}

/-- A piece of the analysis' code that, run on the buffer at `p` of a call of a function of type `t`, replaces the arguments `xs` by `φ xs`
and the results `ys` by `ψ ys` and changes nothing else. -/
def Edits (t : FuncType) (p : Nat) (a : Act (World W A) Unit) (φ ψ : List Val → List Val) : Prop :=
  ∀ (l : Lib) (s : Store (World W A)), l.Ok → s.getLib = l.store → p + 8 * t.slots ≤ l.mem.size →
    ∃ m', a s = .ok () (s.setLib (⟨l.free, m'⟩ : Lib).store) ∧ l.mem.OnlyIn m' p (p + 8 * t.slots) ∧
      m'.args t p = φ (l.mem.args t p) ∧ m'.ress t p = ψ (l.mem.ress t p)

section
variable {K : LibLink} {t : FuncType} {p : Nat}

theorem Edits.nothing : Edits (W := W) (A := A) t p (pure ()) id id := fun l s ok hs hin =>
  ⟨l.mem, by rw [show (⟨l.free, l.mem⟩ : Lib) = l from rfl, Store.setLib_of hs]; rfl, .refl _ _ _, rfl, rfl⟩

theorem Edits.seq {a b : Act (World W A) Unit} {φ ψ φ' ψ'} (ha : Edits t p a φ ψ) (hb : Edits t p b φ' ψ') :
    Edits t p (do a; b) (φ' ∘ φ) (ψ' ∘ ψ) := by
  intro l s ok hs hin
  obtain ⟨m1, e1, o1, a1, r1⟩ := ha l s ok hs hin
  obtain ⟨m2, e2, o2, a2, r2⟩ := hb ⟨l.free, m1⟩ (s.setLib _) (o1.ok ok) (Store.getLib_setLib _ _) (by rw [show (⟨l.free, m1⟩ : Lib).mem = m1 from rfl, o1.size]; exact hin)
  refine ⟨m2, ?_, o1.trans o2, ?_, ?_⟩
  · simp only [bind, Act.bind, e1, e2, Store.setLib_setLib]
  · rw [a2]; dsimp only; rw [a1]; rfl
  · rw [r2]; dsimp only; rw [r1]; rfl

/-- `args.set_arg(i, x)`. -/
theorem Edits.setArg (hK : K.Good) (hn : t.slots < 8192) {i : Nat} {x : Val} (hx : t.inputs[i]? = some x.type) :
    Edits (W := W) (A := A) t p (K.setArg (handle t p) (BitVec.ofNat 32 i) x) (·.set i x) id := by
  intro l s ok hs hin
  have hi := (List.getElem?_eq_some_iff.1 hx).1
  refine ⟨_, LibLink.setArg_ok hK ok hs hn hin x hi, (Mem.put_onlyIn _ _ _ _).mono (by omega) (by simp only [FuncType.slots]; omega), Mem.vals_put _ _ _ hx, ?_⟩
  exact Mem.vals_put_other _ _ _ _ _ _ (by omega)

/-- `ress.set_res(i, x)`. -/
theorem Edits.setRes (hK : K.Good) (hn : t.slots < 8192) {i : Nat} {x : Val} (hx : t.results[i]? = some x.type) :
    Edits (W := W) (A := A) t p (K.setRes (handle t p) (BitVec.ofNat 32 i) x) id (·.set i x) := by
  intro l s ok hs hin
  have hi := (List.getElem?_eq_some_iff.1 hx).1
  refine ⟨_, LibLink.setRes_ok hK ok hs hn hin x hi, (Mem.put_onlyIn _ _ _ _).mono (by omega) (by simp only [FuncType.slots]; omega), ?_, ?_⟩
  · exact Mem.vals_put_other _ _ _ _ _ _ (by omega)
  · have := Mem.vals_put l.mem p 0 hx
    rw [Nat.zero_add] at this
    exact this

/-- `args.update_each_arg(g)`. -/
theorem Edits.updateArgs (hK : K.Good) (hr : t.RefFree) (hn : t.slots < 8192) {g : Nat → Val → Val} (hg : ∀ i x, (g i x).type = x.type) :
    Edits (W := W) (A := A) t p (K.updateArgs (handle t p) g 0 t.inputs.length) (·.mapIdx g) id := by
  intro l s ok hs hin
  obtain ⟨m', e, o, ha⟩ := LibLink.updateArgs_ok (p := p) hK hr.both hn hg t.inputs.length 0 l s ok hs hin (by omega)
  refine ⟨m', e, o.mono (by omega) (Nat.le_refl _), ?_, ?_⟩
  · rw [ha]; simp
  · exact o.vals (by omega)

/-- `ress.update_each_res(g)`. -/
theorem Edits.updateRess (hK : K.Good) (hr : t.RefFree) (hn : t.slots < 8192) {g : Nat → Val → Val} (hg : ∀ i x, (g i x).type = x.type) :
    Edits (W := W) (A := A) t p (K.updateRess (handle t p) g 0 t.results.length) id (·.mapIdx g) := by
  intro l s ok hs hin
  obtain ⟨m', e, o, ha⟩ := LibLink.updateRess_ok (p := p) hK hr.both hn hg t.results.length 0 l s ok hs hin (by omega)
  refine ⟨m', e, o.mono (by omega) (by simp only [FuncType.slots]; omega), ?_, ?_⟩
  · exact o.vals (by omega)
  · rw [ha]; simp

end

/-- C24, reading: when the analysis is asked about a call with arguments `xs`, `get_arg(i)` is `xs[i]`, for every `i`; later, `get_res(j)` is
the `j`-th value that will be returned to the caller if nothing else is written. -/
theorem C24_reads_arguments_and_results {K : LibLink} (hK : K.Good) {t : FuncType} (hr : t.RefFree) (hn : t.slots < 8192) {l l1 : Lib} {xs : List Val} {p q : Nat}
    (hP : Prepared l t xs p q l1) {s : Store (World W A)} :
    (s.getLib = l1.store → ∀ i x, xs[i]? = some x → K.getArg (handle t p) (BitVec.ofNat 32 i) s = .ok x s) ∧
    (∀ l2 : Lib, s.getLib = l2.store → l2.Ok → l2.free = l1.free → ∀ j y, (l2.mem.ress t p)[j]? = some y → K.getRes (handle t p) (BitVec.ofNat 32 j) s = .ok y s) := by
  constructor
  · intro hs i x hx
    exact LibLink.getArg_ok hK hP.alloc.ok hs hr.both hn hP.values_in (by rw [hP.args]; exact hx)
  · intro l2 hs ok hf j y hy
    refine LibLink.getRes_ok hK ok hs hr.both hn ?_ hy
    have h1 := hP.alloc.free
    have h2 := ok.free
    have h3 := hP.p_eq
    split at h3 <;> omega

/-- C24, types: `get_arg_type(i)` is the type of the `i`-th parameter of the function, `get_res_type(j)` that of its `j`-th result; any
other index is rejected. -/
theorem C24_reads_types {t : FuncType} (hn : t.slots < 8192) (p i : Nat) (hi : i < 2 ^ 31) :
    (handle t p).argType (BitVec.ofNat 32 i) = t.inputs[i]? ∧ (handle t p).resType (BitVec.ofNat 32 i) = t.results[i]? := by
  simp only [FuncType.slots] at hn
  have out : ∀ n, ¬ i < n → n < 8192 → RuntimeValues.inBounds (BitVec.ofNat 32 n) (BitVec.ofNat 32 i) = false := by
    intro n h1 h2
    simp only [RuntimeValues.inBounds, toInt_small hi, toInt_small (Nat.lt_trans h2 (by decide : 8192 < 2 ^ 31))]
    simp; omega
  constructor
  · by_cases h : i < t.inputs.length
    · simp only [RuntimeValues.argType, handle, inBounds_ok h (by omega), if_true, ← BitVec.ofNat_add, BitVec.toNat_ofNat]
      rw [Nat.mod_eq_of_lt (by omega), List.getElem?_append_right (by omega), Nat.add_sub_cancel_left]
    · simp only [RuntimeValues.argType, handle, out _ h (by omega)]
      rw [List.getElem?_eq_none (l := t.inputs) (by omega)]
      rfl
  · by_cases h : i < t.results.length
    · simp only [RuntimeValues.resType, handle, inBounds_ok h (by omega), if_true]
      rw [show (0 + BitVec.ofNat 32 i : BitVec 32) = BitVec.ofNat 32 i from BitVec.zero_add _, BitVec.toNat_ofNat, Nat.mod_eq_of_lt (by omega), List.getElem?_append_left h]
    · simp only [RuntimeValues.resType, handle, out _ h (by omega)]
      rw [List.getElem?_eq_none (l := t.results) (by omega)]
      rfl

example : (handle ⟨[.i32, .f64], [.i64]⟩ 16).argType 1 = some .f64 ∧ (handle ⟨[.i32, .f64], [.i64]⟩ 16).resType 0 = some .i64 :=
  C24_reads_types (t := ⟨[.i32, .f64], [.i64]⟩) (by decide) 16 1 (by decide) |>.imp id fun _ => (C24_reads_types (t := ⟨[.i32, .f64], [.i64]⟩) (by decide) 16 0 (by decide)).2

/-- The analysis' `apply` advice that runs `pre`, resumes the call and runs `post`. -/
def around (K : LibLink) (base : Nat) (pre post : RuntimeValues → RuntimeValues → Act (World W A) Unit) : Host (World W A) :=
  applyAdvice K base fun _ call args ress => do
    pre args ress
    call
    post args ress

/-- C24. An analysis that edits the arguments, resumes the call, and edits the results: function `i`'s uninstrumented copy is called with
the edited arguments (`φ xs` for arguments `xs`), and the caller receives the edited results (`ψ vs` for results `vs`). The stack allocator
is back where it was.

About the run of the copy it is assumed that it leaves the stack allocator where it found it (this is C27). Out of memory in the stack
library (`Full`) is excluded: such calls trap. -/
theorem C24_edits_reach_callee_and_caller {C iface ts m r ge cb} (hs : SmallModule m) (hsa : iface.StandardApply) (h : Instruments C iface ts m r)
    (hg : iface.generic = some (ge, cb)) :
    ∃ (copy : Nat → Nat) (base : Nat) (r0 : Instrumented), Instruments C { iface with generic := none } ts m r0 ∧
      (∃ f, r.module.functions[base]? = some f ∧ f.exports = [cb.name]) ∧
      (∀ i ∈ applyTargets m ts, ∀ f0, r0.module.functions[i]? = some f0 → r.module.functions[copy i]? = some { f0 with exports := [] }) ∧
      ∀ (W A : Type) (H : Imports (World W A)) (K : LibLink) (N : Num) (L : Nat), r.librarySignatures = some K.sigs → SmallSigs K.sigs → K.Good → HasLib K H →
        ∀ i ∈ applyTargets m ts, ∀ f, m.functions[i]? = some f →
        ∀ (pre post : RuntimeValues → RuntimeValues → Act (World W A) Unit) (φ χ χ' ψ : List Val → List Val),
          H analysisModule ge.name = around K base pre post →
          (∀ p, Edits f.type p (pre (handle f.type p) (handle f.type p)) φ χ) → (∀ p, Edits f.type p (post (handle f.type p) (handle f.type p)) χ' ψ) →
        ∀ (d : Nat) (l : Lib) (s : Store (World W A)) (xs : List Val), l.Ok → s.getLib = l.store → SegmentsIntact m r s → xs.map Val.type = f.type.inputs →
          ¬ Full l (12 * f.type.slots) →
          let call := callF N (machineOf H r.module.functions) L
          ∃ lc : Lib, lc.Ok ∧ lc.free = l.free + 12 * f.type.slots ∧ lc.mem.limit = l.mem.limit ∧ (∀ k < l.free, lc.mem.bytes k = l.mem.bytes k) ∧
            match call (d + 1) (copy i) ((φ xs).map .num) (s.setLib lc.store) with
            | .ok vs s2 => ∀ (ys : List Val) (l2 : Lib), vs = ys.map .num → ys.map Val.type = f.type.results → s2.getLib = l2.store → l2.Ok → l2.free = lc.free →
                ∃ l3 : Lib, call (d + 5) i (xs.map .num) s = .ok ((ψ ys).map .num) (s2.setLib l3.store) ∧ l3.Ok ∧ l3.free = l.free ∧
                  l3.mem.limit = l2.mem.limit ∧ (∀ k < l.free, l3.mem.bytes k = l2.mem.bytes k)
            | .trap s2 => call (d + 5) i (xs.map .num) s = .trap s2
            | .fuel => call (d + 5) i (xs.map .num) s = .fuel
            | .stuck => call (d + 5) i (xs.map .num) s = .stuck := by
  obtain ⟨slot, copy, base, r0, hr0, hbase, hinj, hcopy, hmain⟩ := C25_index_resumes_function hs hsa h hg
  refine ⟨copy, base, r0, hr0, hbase, hcopy, ?_⟩
  intro W A H K N L hsig hsm hK hlib i hi f hf pre post φ χ χ' ψ hH hpre hpost d l s xs ok hsl hseg hx hfull call
  obtain ⟨f', hf', hu, _⟩ := mem_applyTargets.1 hi
  rw [hf, Option.some.injEq] at hf'
  subst hf'
  have hr : f.type.RefFree := usesReferenceTypes_false.1 hu
  have hn : f.type.slots < 8192 := by
    obtain ⟨order, fs, sigs, hooks, cp, hA⟩ := applied hs h hg
    obtain ⟨j, hj⟩ := List.getElem?_of_mem ((hA.mem i).2 hi)
    obtain ⟨g, hg', ht, _⟩ := hA.own hf
    have h1 := (hA.at.target j i g hj hg').1
    have h2 : sigs = K.sigs := by have := hA.sigs_eq; rw [hsig] at this; exact (Option.some.inj this).symm
    subst h2
    rw [← ht]
    exact hsm _ h1
  obtain ⟨p, q, l1, cp, _, hP, hans⟩ := (hmain W A H K N L hsig hsm hK hlib i hi f hf (d + 3) l s ok hsl).1 xs hx hfull
  -- before resuming
  obtain ⟨m1, e1, o1, a1, r1⟩ := hpre p l1 (s.setLib l1.store) hP.alloc.ok (Store.getLib_setLib _ _) hP.values_in
  have ok1 : (⟨l1.free, m1⟩ : Lib).Ok := o1.ok hP.alloc.ok
  have hin1 : p + 8 * f.type.slots ≤ (⟨l1.free, m1⟩ : Lib).mem.size := by dsimp only; rw [o1.size]; exact hP.values_in
  rw [hP.args] at a1
  have hbelow : ∀ k, k < l.free → f.type.slots = 0 ∨ k < p := by
    intro k hk
    have := hP.p_eq
    split at this
    · exact .inl (by assumption)
    · exact .inr (by omega)
  refine ⟨⟨l1.free, m1⟩, ok1, hP.alloc.free, o1.limit.trans hP.alloc.limit, fun k hk => ?_, ?_⟩
  · rw [← hP.alloc.below k hk]
    refine o1.bytes k ?_
    rcases hbelow k hk with h0 | h0 <;> omega
  have hres := (hmain W A H K N L hsig hsm hK hlib i hi f hf d ⟨l1.free, m1⟩ (s.setLib (⟨l1.free, m1⟩ : Lib).store) ok1 rfl).2 hseg p hin1
  rw [show (⟨l1.free, m1⟩ : Lib).mem = m1 from rfl, a1] at hres
  have hrv := LibLink.runtimeValues_ok (W := W) (A := A) (s := s.setLib l1.store) (p := p) hK hP.alloc.ok (Store.getLib_setLib _ _) hr.both hn hP.types hP.types_in
  -- the advice
  have hask : H analysisModule ge.name (callF N (machineOf H r.module.functions) L (d + 3)) (applyQuestion (slot i) i f.type p q cp) (s.setLib l1.store) =
      match (WasmFunction.apply ⟨BitVec.ofNat 32 (slot i), BitVec.ofNat 32 i, BitVec.ofNat 32 p, cp⟩ base (callF N (machineOf H r.module.functions) L (d + 3)) >>= fun _ => post (handle f.type p) (handle f.type p))
        (s.setLib (⟨l1.free, m1⟩ : Lib).store) with
      | .ok _ s => .ok [] s
      | .trap s => .trap s
      | .stuck => .stuck
      | .fuel => .fuel := by
    rw [hH]
    simp only [around, applyAdvice, applyQuestion, RVal.i32, bind, Act.bind, hrv, e1, Store.setLib_setLib]
    rfl
  rw [hask] at hans
  clear hask
  simp only [WasmFunction.apply, bind, Act.bind] at hans
  show match callF N (machineOf H r.module.functions) L (d + 1) (copy i) ((φ xs).map .num) (s.setLib (⟨l1.free, m1⟩ : Lib).store) with
    | .ok vs s2 => _
    | .trap s2 => _
    | .fuel => _
    | .stuck => _
  cases hc : callF N (machineOf H r.module.functions) L (d + 1) (copy i) ((φ xs).map .num) (s.setLib (⟨l1.free, m1⟩ : Lib).store) with
  | ok vs s2 =>
    rw [hc] at hres
    dsimp only
    intro ys l2 hvs hty hs2 ok2 hf2
    have hin2 : p + 8 * f.type.slots ≤ l2.mem.size := by
      have h1 := hP.alloc.free
      have h2 := ok2.free
      have h3 := hP.p_eq
      have hf2' : l2.free = l1.free := hf2
      split at h3 <;> omega
    obtain ⟨m2, e2, rs2, o2⟩ := hres.2 ys l2 hvs hty hs2 ok2 hin2
    obtain ⟨m3, e3, o3, a3, r3⟩ := hpost p ⟨l2.free, m2⟩ (s2.setLib (⟨l2.free, m2⟩ : Lib).store) (o2.ok ok2) rfl (by dsimp only; rw [o2.size]; exact hin2)
    dsimp only at r3
    rw [rs2] at r3
    rw [e2] at hans
    simp only [Res.toEff, pure, e3, Store.setLib_setLib] at hans
    have ok2' : (⟨l2.free, m2⟩ : Lib).Ok := o2.ok ok2
    have ok3 : (⟨l2.free, m3⟩ : Lib).Ok := Mem.OnlyIn.ok (l := ⟨l2.free, m2⟩) ok2' o3
    have hfin := hans ⟨l2.free, m3⟩ rfl ok3 hf2
    dsimp only at hfin
    rw [r3] at hfin
    refine ⟨⟨l.free, m3⟩, ?_, ⟨?_, ok.free', ok3.pages, ok3.limit⟩, rfl, o3.limit.trans o2.limit, fun k hk => ?_⟩
    · exact hfin
    · have := ok3.free
      have := hP.alloc.free
      dsimp only at *
      omega
    · dsimp only
      have hb := hbelow k hk
      rw [o3.bytes k (by omega)]
      refine o2.bytes k ?_
      have : f.type.slots = f.type.results.length + f.type.inputs.length := rfl
      omega
  | trap s2 =>
    rw [hc] at hres
    dsimp only [Resumed] at hres
    rw [hres] at hans
    exact hans
  | fuel =>
    rw [hc] at hres
    dsimp only [Resumed] at hres
    rw [hres] at hans
    exact hans
  | stuck =>
    rw [hc] at hres
    dsimp only [Resumed] at hres
    rw [hres] at hans
    exact hans

/-! ### A program meeting the hypotheses -/

/-- The example program, with function application instrumented. -/
def exApplied : Instrumented := ((instrument exChecker id id exIfaceApply none exModule).toOption).getD ⟨exModule, none⟩

theorem exApplied_instruments : Instruments exChecker exIfaceApply none exModule exApplied := by
  have h : (match instrument exChecker id id exIfaceApply none exModule with | .ok _ => true | .error _ => false) = true := by decide +kernel
  refine ⟨id, id, fun _ => .rfl, fun _ => .rfl, ?_⟩
  unfold exApplied
  split at h
  · rename_i r hr; rw [hr]; rfl
  · simp at h

theorem exIfaceApply_standard : exIfaceApply.StandardApply := by
  intro ge cb h
  simp only [exIfaceApply, Option.some.injEq] at h
  obtain ⟨rfl, rfl⟩ := Prod.mk.inj h
  exact ⟨rfl, rfl, rfl, rfl, by decide +kernel⟩

/-- The link with the library generated for the example. -/
def exLink : LibLink := ⟨libNum, (exApplied.librarySignatures).getD [], 65537, 5⟩

theorem exLink_good : exLink.Good := ⟨libNum_stack, by decide, by decide⟩

/-- A library that has not been used yet. -/
def exLib : Lib := ⟨0, ⟨1, 16, fun _ => 0⟩⟩

theorem exLib_ok : exLib.Ok := ⟨by decide, by decide, by decide, by decide⟩

/-- The state after instantiating the example. -/
def exApplyStore : Store (World Unit Unit) where
  globals := []
  mems := [⟨1, 16, fun _ => 0⟩]
  tables := [⟨.funcRef, [none, none], 10⟩,
    ⟨.funcRef, (exApplied.module.elements.flatMap (·.init)).map fun e => match e with | [.refFunc f, .fin] => some f | _ => none, 3⟩]
  datas := []
  elems := []
  world := ((), (), exLib.store)

theorem exApplyStore_intact : SegmentsIntact exModule exApplied exApplyStore := by
  have h : exApplied.module.elements = [⟨.funcRef, [[.refFunc 37, .fin], [.refFunc 39, .fin], [.refFunc 41, .fin]], .active 1 [.const (.i32 0), .fin]⟩] := by
    decide +kernel
  have ht : exApplyStore.tables = [⟨.funcRef, [none, none], 10⟩, ⟨.funcRef, [some 37, some 39, some 41], 3⟩] := by
    simp only [exApplyStore, h]; rfl
  rw [SegmentsIntact, h, ht]
  intro el hel tbl hm k f hk
  simp only [exModule, List.length_nil, List.drop_zero, List.mem_singleton] at hel
  subst hel
  cases hm
  refine ⟨_, rfl, ?_⟩
  dsimp only at hk ⊢
  match k with
  | 0 | 1 | 2 => simpa using hk
  | k + 3 => simp at hk

/-- The embedder: the stack library, and an analysis that changes the argument to 5 and the result to 1. -/
def exInterceptor : Imports (World Unit Unit) := fun ns name =>
  if ns = stackModule then libHost exLink.N exLink.sigs exLink.L exLink.d name
  else if ns = analysisModule ∧ name = interfaceGenericApply.1.name then
    around exLink 42 (fun args _ => exLink.setArg args (BitVec.ofNat 32 0) (.i32 5)) (fun _ ress => exLink.setRes ress (BitVec.ofNat 32 0) (.i32 1))
  else fun _ _ s => .ok [] s

/-- The hypotheses of C24 and C25 hold of the example: three functions are intercepted, and function 2 takes an `i32` to an `i32`. -/
example : applyTargets exModule none = [0, 1, 2] ∧ exIfaceApply.generic = some interfaceGenericApply ∧ exApplied.librarySignatures = some exLink.sigs ∧ SmallSigs exLink.sigs ∧
    HasLib exLink exInterceptor ∧ exApplyStore.getLib = exLib.store ∧ ¬ Full exLib (12 * FuncType.slots ⟨[.i32], [.i32]⟩) ∧
    exModule.functions[2]?.map (·.type) = some ⟨[.i32], [.i32]⟩ := by
  refine ⟨by decide +kernel, rfl, by decide +kernel, ?_, fun name => rfl, rfl, by simp [Full, exLib, FuncType.slots], by decide +kernel⟩
  have : exLink.sigs = [⟨[.i32], []⟩, ⟨[.i32, .i32], [.i32]⟩, ⟨[.i32], [.i32]⟩] := by decide +kernel
  rw [this]
  intro t ht
  simp only [List.mem_cons, List.not_mem_nil, or_false] at ht
  obtain rfl | rfl | rfl := ht <;> decide

example : exInterceptor analysisModule interfaceGenericApply.1.name = around exLink 42 (fun args _ => exLink.setArg args (BitVec.ofNat 32 0) (.i32 5)) (fun _ ress => exLink.setRes ress (BitVec.ofNat 32 0) (.i32 1)) ∧
    (exApplied.module.functions[42]?.map (·.exports)) = some ["call_base"] ∧
    (∀ p, Edits (W := Unit) (A := Unit) ⟨[.i32], [.i32]⟩ p (exLink.setArg (handle ⟨[.i32], [.i32]⟩ p) (BitVec.ofNat 32 0) (.i32 5)) (·.set 0 (.i32 5)) id) ∧
    (∀ p, Edits (W := Unit) (A := Unit) ⟨[.i32], [.i32]⟩ p (exLink.setRes (handle ⟨[.i32], [.i32]⟩ p) (BitVec.ofNat 32 0) (.i32 1)) id (·.set 0 (.i32 1))) :=
  ⟨rfl, by decide +kernel, fun p => Edits.setArg exLink_good (by decide) rfl, fun p => Edits.setRes exLink_good (by decide) rfl⟩

end Wastrum
