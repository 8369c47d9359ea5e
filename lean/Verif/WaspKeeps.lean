import Verif.CallScripts
import Verif.StandardArithmetic
/-!
# Analyses written in Wasp leave the stack allocator alone (C27)

`BalanceThms` shows that the analyses written with the Rust library are as C27 assumes. Here the same is shown for the library of Wasp analyses, whose `get`, `getType` and `set` are other code
(`AsValues`).
-/

set_option linter.unusedSimpArgs false
set_option linter.unusedVariables false

namespace Wastrum

variable {W A : Type}

/-! ## What the `apply` advice of a Wasp analysis can do -/

/-- The generic `apply` advice of a Wasp analysis, by what it asks of the library (`std_analysis_lib_gen_apply.ts` 115-187): the type of an argument or result, its value at some type, setting it,
resuming the call. In between it can use its own state, or stop. The first argument says whether the arguments or the results are meant. Simplification: the statements of the language are given by
what they ask for. -/
inductive WaspScript (A : Type) where
  | done
  | panic
  | getType (args : Bool) (i : BitVec 32) (k : BitVec 32 → WaspScript A)
  | get (args : Bool) (T : AsType) (i : BitVec 32) (k : Val → WaspScript A)
  | set (args : Bool) (T : AsType) (i : BitVec 32) (x : Val) (k : WaspScript A)
  | resume (k : WaspScript A)
  | state (g : A → A) (k : A → WaspScript A)

/-- Run it, with the two objects made for the call: `assemblyscript/src/generate/analysis/mod.rs` 157-198. -/
def WaspScript.run (K : LibLink) (call : Act (World W A) Unit) (args ress : DynValues) : WaspScript A → Act (World W A) Unit
  | .done => pure ()
  | .panic => Act.panic
  | .getType b i k => do (k (← K.getType i (if b then args else ress))).run K call args ress
  | .get b T i k => do (k (← K.get T i (if b then args else ress))).run K call args ress
  | .set b T i x k => do K.set T i x (if b then args else ress); k.run K call args ress
  | .resume k => do call; k.run K call args ress
  | .state g k => do
    let a ← fun s => .ok s.world.2.1 { s with world := (s.world.1, g s.world.2.1, s.world.2.2) }
    (k a).run K call args ress

/-- The generic `apply` of such an analysis, which can also look at the function called. -/
def WaspScript.host (K : LibLink) (base : Nat) (σ : AsFunction → WaspScript A) : Host (World W A) :=
  asApplyAdvice base fun func call args ress => (σ func).run K call args ress

section
variable {m : Module} {r : Instrumented} {T : Nat → Option Table} {t : FuncType} {p F : Nat} {K : LibLink} {d : DynValues}

theorem inside_of {c : Nat} (hc : c < 2 ^ 31) (b : BitVec 32) : (∃ i < c, b = BitVec.ofNat 32 i) ∨ b.toInt < 0 ∨ c ≤ b.toInt := by
  by_cases h : b.toNat < c
  · exact .inl ⟨b.toNat, h, by simp⟩
  · exact .inr (outside_of hc h)

theorem Tidy.asGet (hK : K.Good) (hn : t.slots < 8192) (hp : p + 8 * t.slots ≤ F) {q : Nat} (hd : d.Of t p q) (V : AsType) (i : BitVec 32) : Tidy (W := W) (A := A) m r T t p F (K.get V i d) := by
  intro s l hs hl ok hf
  have hb := hd.bound
  rcases inside_of (c := (d.at t).2.length) (by omega) i with ⟨n, hn', rfl⟩ | ho
  · rw [(hd.access (W := W) (A := A) (K := K) hn hn').1 V]
    cases hv : V.accessor with
    | none => simp only [LibLink.asLoad, hv, Act.panic]
    | some v =>
      rw [LibLink.asLoad_ok hK ok hl hv (by have := ok.free; omega)]
      exact ⟨hs, Kept.refl _ _⟩
  · rw [(hd.outside (K := K) hn ho s).1 V]; trivial

theorem Tidy.asGetType (hK : K.Good) (hn : t.slots < 8192) {q : Nat} (hq : q + 4 * t.slots ≤ F) (hd : d.Of t p q) (i : BitVec 32) : Tidy (W := W) (A := A) m r T t p F (K.getType i d) := by
  intro s l hs hl ok hf
  have hb := hd.bound
  rcases inside_of (c := (d.at t).2.length) (by omega) i with ⟨n, hn', rfl⟩ | ho
  · rw [(hd.access (W := W) (A := A) (K := K) hn hn').2.2, LibLink.asLoadType_ok hK ok hl (by have := ok.free; omega)]
    exact ⟨hs, Kept.refl _ _⟩
  · rw [(hd.outside (K := K) hn ho s).2.2]; trivial

theorem Tidy.asSet (hK : K.Good) (hn : t.slots < 8192) (hp : p + 8 * t.slots ≤ F) {q : Nat} (hd : d.Of t p q) (V : AsType) (i : BitVec 32) (x : Val) :
    Tidy (W := W) (A := A) m r T t p F (K.set V i x d) := by
  intro s l hs hl ok hf
  have hb := hd.bound
  rcases inside_of (c := (d.at t).2.length) (by omega) i with ⟨n, hn', rfl⟩ | ho
  · rw [(hd.access (W := W) (A := A) (K := K) hn hn').2.1 V x]
    cases hv : V.accessor with
    | none => simp only [LibLink.asStore, hv, Act.panic]
    | some v =>
      by_cases hx : x.type = v
      · subst hx
        rw [LibLink.asStore_ok hK ok hl hv (by have := ok.free; omega)]
        exact keeps_onlyIn hs hl ok ((Mem.put_onlyIn _ _ _ _).mono (by omega) (by omega))
      · simp only [LibLink.asStore, hv, if_neg hx, Act.stuck]
  · rw [(hd.outside (K := K) hn ho s).2.1 V x]; trivial

theorem WaspScript.tidy (hK : K.Good) (hn : t.slots < 8192) (hp : p + 8 * t.slots ≤ F) {q : Nat} (hq : q + 4 * t.slots ≤ F) {call : Act (World W A) Unit} (hc : Tidy m r T t p F call) (a : WaspScript A) :
    Tidy m r T t p F (a.run K call (.args (asHandle t p q)) (.ress (asHandle t p q))) := by
  have hd : ∀ b : Bool, DynValues.Of t p q (if b then .args (asHandle t p q) else .ress (asHandle t p q)) := by
    intro b; cases b
    · exact .inr rfl
    · exact .inl rfl
  induction a with
  | done => exact Tidy.pure _
  | panic => exact Tidy.panic
  | getType b i k ih => exact Tidy.bind (Tidy.asGetType hK hn hq (hd b) i) ih
  | get b V i k ih => exact Tidy.bind (Tidy.asGet hK hn hp (hd b) V i) ih
  | set b V i x k ih => exact Tidy.bind (Tidy.asSet hK hn hp (hd b) V i x) fun _ => ih
  | resume k ih => exact Tidy.bind hc fun _ => ih
  | state g k ih =>
    refine Tidy.bind ?_ ih
    intro s l hs hl ok hf
    exact ⟨⟨hs.globals, hs.tables, hs.elems, hs.frozen, ⟨l, hl, ok⟩⟩, fun l' hl' ok' => ⟨l', hl', ok', rfl, rfl, fun _ _ _ => rfl⟩⟩

/-- C27: nor does any analysis written in Wasp, whatever it reads, at whatever type, and whatever it sets; so `C27_allocator_restored` applies to it. -/
theorem C27_wasp_analyses_keep (hK : K.Good) (base : Nat) (σ : AsFunction → WaspScript A) : AdviceKeeps (W := W) m r base (WaspScript.host K base σ) := by
  intro T call hcall j i f present l0 l xs p q s hf hr hn hP hs hl hres
  have hpf : p + 8 * f.type.slots ≤ l.free := by
    have h1 := hP.p_eq
    have h2 := hP.alloc.free
    split at h1 <;> omega
  have hqf : q + 4 * f.type.slots ≤ l.free := by
    have h1 := hP.q_eq
    have h2 := hP.alloc.free
    split at h1 <;> omega
  have ht : Tidy m r T f.type p l.free ((σ ⟨BitVec.ofNat 32 j, BitVec.ofNat 32 i, BitVec.ofNat 32 p⟩).run K
      (AsFunction.apply ⟨BitVec.ofNat 32 j, BitVec.ofNat 32 i, BitVec.ofNat 32 p⟩ base call) (.args (asHandle f.type p q)) (.ress (asHandle f.type p q))) := by
    refine WaspScript.tidy hK hn hpf hqf ?_ _
    refine Tidy.bind (α := List RVal) ?_ ?_
    · intro s' l' hs' hl' ok' hf'
      have := hres s' l' hs' hl' ok' hf'
      dsimp only
      cases hc : call base [.i32 (BitVec.ofNat 32 j), .i32 (BitVec.ofNat 32 p)] s' with
      | ok vs s2 => rw [hc] at this; simp only [Res.toEff]; exact this.2
      | _ => trivial
    · intro vs
      cases vs with
      | nil => exact Tidy.pure _
      | cons v vs => exact fun s l hs hl ok hf => trivial
  have := ht s l hs hl hP.alloc.ok rfl
  simp only [asHandle] at this
  simp only [WaspScript.host, asApplyAdvice, applyQuestion, RVal.i32]
  generalize (σ _).run K _ _ _ s = x at this ⊢
  cases x with
  | ok u s' => exact ⟨by simp, this⟩
  | _ => trivial

end

/-! ### A program meeting the hypotheses -/

/-- A Wasp analysis that counts calls and stops at the hundredth. If the first argument of the function called is an `i32`, it adds one to it; it reads it as an `f64` as well, which gets whatever
is there; then it resumes the call, twice for function 2. -/
def exWaspScript (func : AsFunction) : WaspScript Nat := .state (· + 1) fun n => if n = 100 then .panic else
  .getType true 0 fun c => .get true .f64 0 fun _ => if c = 0 then
    .get true .i32 0 fun x => .set true .i32 0 (match x with | .i32 b => .i32 (b + 1) | x => x) <| .resume <| if func.instr_f_idx = 2 then .resume .done else .done
  else .resume .done

/-- The embedder with that analysis. -/
def exWaspScripted (base : Nat) : Imports (World Unit Nat) := fun ns name =>
  if ns = stackModule then libHost exLink.N exLink.sigs exLink.L exLink.d name
  else if ns = analysisModule ∧ name = interfaceGenericApply.1.name then WaspScript.host exLink base exWaspScript
  else if ns = analysisModule ∧ name = Trap.binaryI32I32ToI32.exportName then fun _ args s => match args with
    | .num (.i32 a) :: .num (.i32 b) :: _ => .ok [.i32 (a * b)] s
    | _ => .stuck
  else if ns = analysisModule ∧ name = Trap.ifThenElseTrap.exportName then fun _ args s => .ok (args.take 1) s
  else fun _ _ s => .ok [] s

theorem exWaspScripted_keeps (base : Nat) {ns name : String} (h1 : ns ≠ stackModule) (h2 : ¬ (ns = analysisModule ∧ name = interfaceGenericApply.1.name)) :
    HostKeeps exModule exApplied (exWaspScripted base ns name) := by
  intro T call hc args s ha hs
  simp only [exWaspScripted, if_neg h1, if_neg h2]
  split
  · dsimp only
    split
    · exact ⟨by simp [RVal.i32, RVal.In], hs, Kept.refl _ _⟩
    · trivial
  · split
    · exact ⟨fun v hv => ha v (List.mem_of_mem_take hv), hs, Kept.refl _ _⟩
    · exact ⟨by simp, hs, Kept.refl _ _⟩

theorem exApplied_closed : Closed exModule ∧ Reserved exIfaceApply exModule interfaceGenericApply.1 := by
  refine ⟨?_, ?_, ?_⟩
  · intro f hf c hc
    have : ∀ f ∈ exModule.functions, (match f.code with | .present c => decide (∀ i ∈ c.body, i.Within exModule) | _ => true) = true := by decide +kernel
    have := this f hf
    rw [hc] at this
    exact of_decide_eq_true this
  · intro f hf ns name hc
    have : ∀ f ∈ exModule.functions, (match f.code with | .imported ns _ => decide (ns ≠ stackModule ∧ ns ≠ analysisModule) | _ => true) = true := by decide +kernel
    have := this f hf
    rw [hc] at this
    have := of_decide_eq_true this
    exact ⟨this.1, fun h => this.2 h.1⟩
  · intro t e h
    have : ∀ t, (match exIfaceApply.trap t with | some e => decide (e.name ≠ interfaceGenericApply.1.name) | none => true) = true := by
      intro t; cases t <;> decide +kernel
    have := this t
    rw [h] at this
    exact of_decide_eq_true this

theorem exScriptStore_in : exScriptStore.In (ownRealm exModule exApplied (exScriptStore.tables[·]?)) := by
  refine ⟨?_, ?_, ?_, fun _ _ => rfl, ⟨exLib, rfl, exLib_ok⟩⟩
  · intro v hv; cases hv
  · intro i T hi hT a ha
    match i, hi with
    | 0, _ =>
      cases hT
      simp at ha
  · intro e u he; exact absurd he (by simp [ownRealm, exModule])

theorem exScriptStore_intact : SegmentsIntact exModule exApplied exScriptStore := by
  have h : exApplied.module.elements = [⟨.funcRef, [[.refFunc 37, .fin], [.refFunc 39, .fin], [.refFunc 41, .fin]], .active 1 [.const (.i32 0), .fin]⟩] := by
    decide +kernel
  rw [SegmentsIntact, h]
  intro el hel tbl hm k f hk
  simp only [exModule, List.length_nil, List.drop_zero, List.mem_singleton] at hel
  subst hel
  cases hm
  refine ⟨_, rfl, ?_⟩
  dsimp only at hk ⊢
  match k with
  | 0 | 1 | 2 => simpa using hk
  | k + 3 => simp at hk

-- C27: with that analysis, `main(-1, 5)` becomes `main(0, 5)`, which calls function 2 with 7; that becomes 8, and is resumed twice. So `main` returns 64, after four intercepted calls (`main`, function 2
-- and twice the imported function that function 2 calls) ...
example : (match callF libNum (machineOf (exWaspScripted 42) exApplied.module.functions) 100 25 1 [.i32 (-1), .i32 5] exScriptStore with
    | .ok [.num (.i32 b)] s => some (b, s.world.2.1)
    | _ => none) = some (64, 4) := by decide +kernel
-- ... and whenever it returns, the allocator is where it was, at 0.
example : ∃ base, ∀ d vs s', callF libNum (machineOf (exWaspScripted base) exApplied.module.functions) 100 d 1 [.i32 (-1), .i32 5] exScriptStore = .ok vs s' →
    ∃ l' : Lib, s'.getLib = l'.store ∧ l'.free = 0 := by
  obtain ⟨base, _, h⟩ := C27_allocator_restored exModule_small exIfaceApply_standard exApplied_instruments (ge := interfaceGenericApply.1) (cb := interfaceGenericApply.2) rfl exApplied_closed.1 exApplied_closed.2
  refine ⟨base, fun d vs s' hrun => ?_⟩
  have hsm : SmallSigs exLink.sigs := by
    have : exLink.sigs = [⟨[.i32], []⟩, ⟨[.i32, .i32], [.i32]⟩, ⟨[.i32], [.i32]⟩] := by decide +kernel
    rw [this]
    intro t ht
    simp only [List.mem_cons, List.not_mem_nil, or_false] at ht
    obtain rfl | rfl | rfl := ht <;> decide
  obtain ⟨l', h1, _, h3, _⟩ := h Unit Nat (exWaspScripted base) exLink libNum 100 (by decide +kernel) hsm exLink_good (fun _ => rfl) (fun _ _ => exWaspScripted_keeps base)
    (by exact C27_wasp_analyses_keep exLink_good base exWaspScript) d 1 _ _ exScriptStore exLib vs s' rfl rfl (by intro v hv; simp only [List.mem_cons, List.not_mem_nil, or_false] at hv; obtain rfl | rfl := hv <;> simp [RVal.i32, RVal.In])
    exScriptStore_in exScriptStore_intact rfl exLib_ok hrun
  exact ⟨l', h1, h3⟩

end Wastrum
