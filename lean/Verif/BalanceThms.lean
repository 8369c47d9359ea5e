import Verif.Balance
/-!
# The stack allocator is restored by every call (C27)
-/

set_option linter.unusedSimpArgs false
set_option linter.unusedVariables false

namespace Wastrum

variable {W A : Type}

/-- C27. When function application is instrumented, a call of any function of the program (intercepted or not, to any depth `d` of nesting) that returns
leaves the stack allocator where it found it. Moreover, what earlier calls have put into their buffers is still there.

The state is one that a run of the program can be in: references to functions held in globals, tables and element segments are references to functions of
the program. The tables the tool added hold what they were initialised with. About the embedder and the analysis it is assumed that they do not themselves move the allocator
(`HostKeeps`, `AdviceKeeps`); the analysis can use the buffer of the call it is asked about, and resume that call, as often as it likes. -/
theorem C27_allocator_restored {C iface ts m r ge cb} (hs : SmallModule m) (hsa : iface.StandardApply) (h : Instruments C iface ts m r)
    (hg : iface.generic = some (ge, cb)) (hcl : Closed m) (hre : Reserved iface m ge) :
    ∃ base, (∃ f, r.module.functions[base]? = some f ∧ f.exports = [cb.name]) ∧
      ∀ (W A : Type) (H : Imports (World W A)) (K : LibLink) (N : Num) (L : Nat), r.librarySignatures = some K.sigs → SmallSigs K.sigs → K.Good → HasLib K H →
        (∀ ns name, ns ≠ stackModule → ¬ (ns = analysisModule ∧ name = ge.name) → HostKeeps m r (H ns name)) → AdviceKeeps m r base (H analysisModule ge.name) →
        ∀ (d i : Nat) (f : Func) (args : List RVal) (s : Store (World W A)) (l : Lib) (vs : List RVal) (s' : Store (World W A)), m.functions[i]? = some f →
          args.map RVal.type = f.type.inputs → (∀ v ∈ args, v.In (ownRealm (W := W) (A := A) m r (s.tables[·]?))) → s.In (ownRealm m r (s.tables[·]?)) → SegmentsIntact m r s →
          s.getLib = l.store → l.Ok → callF N (machineOf H r.module.functions) L d i args s = .ok vs s' →
          ∃ l' : Lib, s'.getLib = l'.store ∧ l'.Ok ∧ l'.free = l.free ∧ ∀ a < l.free, l'.mem.bytes a = l.mem.bytes a := by
  obtain ⟨order, fs, sigs, hooks, copy, hA⟩ := applied hs h hg
  have hst := hsa ge cb hg
  refine ⟨copy + 2 * order.length, ⟨_, hA.at.callBase, rfl⟩, ?_⟩
  intro W A H K N L hsig hsm hK hlib hhost hadv d i f args s l vs s' hf hty ha hin hseg hl ok hrun
  have hsigs : sigs = K.sigs := by have := hA.sigs_eq; rw [hsig] at this; exact (Option.some.inj this).symm
  subst hsigs
  have hsz : order.length < 2 ^ 32 := by
    have := hA.count
    have := hs.functions
    omega
  obtain ⟨g, hg', hgt, _⟩ := hA.own hf
  have hi := (List.getElem?_eq_some_iff.1 hg').1
  have hft : (r.module.functions[i]?.map (·.type)) = some f.type := by
    by_cases ho : i ∈ order
    · obtain ⟨j, hj⟩ := List.getElem?_of_mem ho
      rw [(hA.at.target j i g hj hg').2.2.1, Option.map_some, ← hgt]; rfl
    · rw [hA.at.untouched i g ho hg', Option.map_some, hgt]
  have hk := calls_keep (N := N) (L := L) (T := fun i => s.tables[i]?) hA hcl hre hhost ⟨hst.1, hst.2.1⟩ ⟨hst.2.2.1, hst.2.2.2.1⟩ hst.2.2.2.2 hsz hK hsm hlib hseg (fun _ _ => rfl) hadv d i (.inl hi) args s
    (fun ty h => by
      simp only [ownRealm] at h
      rw [hft, Option.some.injEq] at h
      rw [← h]; exact hty) ha hin
  rw [hrun] at hk
  obtain ⟨_, _, hk⟩ := hk
  obtain ⟨l', h1, h2, h3, _, h5⟩ := hk l hl ok
  exact ⟨l', h1, h2, h3, fun a ha => h5 a ha (by simp)⟩

/-! ## Analyses -/

/-- What an analysis' generic `apply` can do with the library the tool ships, its own state and the call: read and write arguments and results, resume the call, consult and change its state
(`A`), panic; in any order, any number of times, depending on what it has seen so far. -/
inductive Script (A : Type) where
  | done
  | panic
  | getArg (i : BitVec 32) (k : Val → Script A)
  | getRes (i : BitVec 32) (k : Val → Script A)
  | setArg (i : BitVec 32) (x : Val) (k : Script A)
  | setRes (i : BitVec 32) (x : Val) (k : Script A)
  | resume (k : Script A)
  | state (g : A → A) (k : A → Script A)

/-- Run it. `call` resumes the call, `rv` is the handle for arguments and results. -/
def Script.run (K : LibLink) (call : Act (World W A) Unit) (rv : RuntimeValues) : Script A → Act (World W A) Unit
  | .done => pure ()
  | .panic => Act.panic
  | .getArg i k => do (k (← K.getArg rv i)).run K call rv
  | .getRes i k => do (k (← K.getRes rv i)).run K call rv
  | .setArg i x k => do K.setArg rv i x; k.run K call rv
  | .setRes i x k => do K.setRes rv i x; k.run K call rv
  | .resume k => do call; k.run K call rv
  | .state g k => do
    let a ← fun s => .ok s.world.2.1 { s with world := (s.world.1, g s.world.2.1, s.world.2.2) }
    (k a).run K call rv

/-- The generic `apply` of such an analysis. -/
def Script.host (K : LibLink) (base : Nat) (a : Script A) : Host (World W A) := applyAdvice K base fun _ call args _ => a.run K call args

section
variable {m : Module} {r : Instrumented} {T : Nat → Option Table} {t : FuncType} {p F : Nat} {α β : Type}

/-- The action keeps to the call's buffer. -/
def Tidy (m : Module) (r : Instrumented) (T : Nat → Option Table) (t : FuncType) (p F : Nat) (a : Act (World W A) α) : Prop :=
  ∀ (s : Store (World W A)) (l : Lib), s.In (ownRealm m r T) → s.getLib = l.store → l.Ok → l.free = F →
    match a s with
    | .ok _ s' => s'.In (ownRealm m r T) ∧ Kept (InBuffer p t) s.world s'.world
    | _ => True

theorem Tidy.pure (x : α) : Tidy (W := W) (A := A) m r T t p F (pure x) := fun s l hs hl ok hf => ⟨hs, Kept.refl _ _⟩

theorem Tidy.bind {a : Act (World W A) α} {k : α → Act (World W A) β} (ha : Tidy m r T t p F a) (hk : ∀ x, Tidy m r T t p F (k x)) : Tidy m r T t p F (a >>= k) := by
  intro s l hs hl ok hf
  have h1 := ha s l hs hl ok hf
  simp only [Bind.bind, Act.bind]
  cases he : a s with
  | ok x s1 =>
    rw [he] at h1
    obtain ⟨hs1, hk1⟩ := h1
    obtain ⟨l1, hl1, ok1, hf1, _⟩ := hk1 l hl ok
    have h2 := hk x s1 l1 hs1 hl1 ok1 (hf1.trans hf)
    dsimp only
    cases he2 : k x s1 with
    | ok y s2 => rw [he2] at h2; exact ⟨h2.1, Kept.trans _ _ _ hk1 h2.2⟩
    | _ => trivial
  | _ => trivial

theorem Tidy.panic : Tidy (W := W) (A := A) (α := α) m r T t p F Act.panic := fun s l hs hl ok hf => trivial

theorem inBounds_nat {c : Nat} {b : BitVec 32} (hc : c < 2 ^ 31) (h : RuntimeValues.inBounds (BitVec.ofNat 32 c) b = true) : ∃ i < c, b = BitVec.ofNat 32 i := by
  simp only [RuntimeValues.inBounds, toInt_small hc, Bool.decide_and, Bool.and_eq_true, decide_eq_true_eq] at h
  refine ⟨b.toNat, ?_, by simp⟩
  have := BitVec.toInt_eq_toNat_cond b
  split at this <;> omega

variable {K : LibLink}

theorem Tidy.getArg (hK : K.Good) (hr : t.RefFree) (hn : t.slots < 8192) (hp : p + 8 * t.slots ≤ F) (i : BitVec 32) : Tidy (W := W) (A := A) m r T t p F (K.getArg (handle t p) i) := by
  intro s l hs hl ok hf
  by_cases hb : RuntimeValues.inBounds (BitVec.ofNat 32 t.inputs.length) i = true
  · obtain ⟨n, hn', rfl⟩ := inBounds_nat (by simp only [FuncType.slots] at hn; omega) hb
    have : (l.mem.args t p)[n]? = some _ := List.getElem?_eq_getElem (by simpa [Mem.args, Mem.vals_length] using hn')
    rw [LibLink.getArg_ok hK ok hl hr.both hn (by have := ok.free; omega) this]
    exact ⟨hs, Kept.refl _ _⟩
  · have : K.getArg (W := W) (A := A) (handle t p) i = Act.panic := by
      unfold LibLink.getArg; exact if_neg hb
    rw [this]; trivial

theorem Tidy.getRes (hK : K.Good) (hr : t.RefFree) (hn : t.slots < 8192) (hp : p + 8 * t.slots ≤ F) (i : BitVec 32) : Tidy (W := W) (A := A) m r T t p F (K.getRes (handle t p) i) := by
  intro s l hs hl ok hf
  by_cases hb : RuntimeValues.inBounds (BitVec.ofNat 32 t.results.length) i = true
  · obtain ⟨n, hn', rfl⟩ := inBounds_nat (by simp only [FuncType.slots] at hn; omega) hb
    have : (l.mem.ress t p)[n]? = some _ := List.getElem?_eq_getElem (by simpa [Mem.ress, Mem.vals_length] using hn')
    rw [LibLink.getRes_ok hK ok hl hr.both hn (by have := ok.free; omega) this]
    exact ⟨hs, Kept.refl _ _⟩
  · have : K.getRes (W := W) (A := A) (handle t p) i = Act.panic := by
      unfold LibLink.getRes; exact if_neg hb
    rw [this]; trivial

theorem keeps_onlyIn {s : Store (World W A)} {l : Lib} (hs : s.In (ownRealm m r T)) (hl : s.getLib = l.store) (ok : l.Ok) {m' : Mem} (ho : l.mem.OnlyIn m' p (p + 8 * t.slots)) :
    (s.setLib (⟨l.free, m'⟩ : Lib).store).In (ownRealm m r T) ∧ Kept (InBuffer p t) s.world (s.setLib (⟨l.free, m'⟩ : Lib).store).world := by
  refine ⟨hs.setLib (ho.ok ok), ?_⟩
  intro l' hl' ok'
  have e : l' = l := Lib.store_inj ok' ok (hl'.symm.trans hl)
  subst e
  refine ⟨⟨l'.free, m'⟩, rfl, ho.ok ok, rfl, ho.limit, fun a ha hna => ho.bytes a ?_⟩
  simp only [InBuffer] at hna
  omega

theorem Tidy.setArg (hK : K.Good) (hn : t.slots < 8192) (hp : p + 8 * t.slots ≤ F) (i : BitVec 32) (x : Val) : Tidy (W := W) (A := A) m r T t p F (K.setArg (handle t p) i x) := by
  intro s l hs hl ok hf
  by_cases hb : RuntimeValues.inBounds (BitVec.ofNat 32 t.inputs.length) i = true
  · obtain ⟨n, hn', rfl⟩ := inBounds_nat (by simp only [FuncType.slots] at hn; omega) hb
    rw [LibLink.setArg_ok hK ok hl hn (by have := ok.free; omega) x hn']
    exact keeps_onlyIn hs hl ok ((Mem.put_onlyIn _ _ _ _).mono (by omega) (by simp only [FuncType.slots]; omega))
  · have : K.setArg (W := W) (A := A) (handle t p) i x = Act.panic := by
      unfold LibLink.setArg; exact if_neg hb
    rw [this]; trivial

theorem Tidy.setRes (hK : K.Good) (hn : t.slots < 8192) (hp : p + 8 * t.slots ≤ F) (i : BitVec 32) (x : Val) : Tidy (W := W) (A := A) m r T t p F (K.setRes (handle t p) i x) := by
  intro s l hs hl ok hf
  by_cases hb : RuntimeValues.inBounds (BitVec.ofNat 32 t.results.length) i = true
  · obtain ⟨n, hn', rfl⟩ := inBounds_nat (by simp only [FuncType.slots] at hn; omega) hb
    rw [LibLink.setRes_ok hK ok hl hn (by have := ok.free; omega) x hn']
    exact keeps_onlyIn hs hl ok ((Mem.put_onlyIn _ _ _ _).mono (by omega) (by simp only [FuncType.slots]; omega))
  · have : K.setRes (W := W) (A := A) (handle t p) i x = Act.panic := by
      unfold LibLink.setRes; exact if_neg hb
    rw [this]; trivial

theorem Script.tidy (hK : K.Good) (hr : t.RefFree) (hn : t.slots < 8192) (hp : p + 8 * t.slots ≤ F) {call : Act (World W A) Unit} (hc : Tidy m r T t p F call) (a : Script A) :
    Tidy m r T t p F (a.run K call (handle t p)) := by
  induction a with
  | done => exact Tidy.pure _
  | panic => exact Tidy.panic
  | getArg i k ih => exact Tidy.bind (Tidy.getArg hK hr hn hp i) ih
  | getRes i k ih => exact Tidy.bind (Tidy.getRes hK hr hn hp i) ih
  | setArg i x k ih => exact Tidy.bind (Tidy.setArg hK hn hp i x) fun _ => ih
  | setRes i x k ih => exact Tidy.bind (Tidy.setRes hK hn hp i x) fun _ => ih
  | resume k ih => exact Tidy.bind hc fun _ => ih
  | state g k ih =>
    refine Tidy.bind ?_ ih
    intro s l hs hl ok hf
    exact ⟨⟨hs.globals, hs.tables, hs.elems, hs.frozen, ⟨l, hl, ok⟩⟩, fun l' hl' ok' => ⟨l', hl', ok', rfl, rfl, fun _ _ _ => rfl⟩⟩

/-- C27: no analysis written with the shipped library moves the allocator by itself. -/
theorem C27_analyses_keep (hK : K.Good) (base : Nat) (a : Script A) : AdviceKeeps (W := W) m r base (a.host K base) := by
  intro T call hcall j i f present l0 l xs p q s hf hr hn hP hs hl hres
  have hrv := LibLink.runtimeValues_ok (W := W) (A := A) (s := s) (p := p) hK hP.alloc.ok hl hr.both hn hP.types hP.types_in
  have hpf : p + 8 * f.type.slots ≤ l.free := by
    have h1 := hP.p_eq
    have h2 := hP.alloc.free
    split at h1 <;> omega
  have ht : Tidy m r T f.type p l.free (a.run K (WasmFunction.apply ⟨BitVec.ofNat 32 j, BitVec.ofNat 32 i, BitVec.ofNat 32 p, present⟩ base call) (handle f.type p)) := by
    refine Script.tidy hK hr hn hpf ?_ a
    refine Tidy.bind (α := List RVal) ?_ ?_
    · intro s' l' hs' hl' ok' hf'
      have := hres s' l' hs' hl' ok' hf'
      dsimp only
      cases hc : call base [.i32 (BitVec.ofNat 32 j), .i32 (BitVec.ofNat 32 p)] s' with
      | ok vs s2 => rw [hc] at this; simp only [Res.toEff]; exact this.2
      | _ => trivial
    · intro vs
      cases vs with
      | nil => exact Tidy.pure _
      | cons v vs => exact fun s l hs hl ok hf => trivial
  have := ht s l hs hl hP.alloc.ok rfl
  simp only [Script.host, applyAdvice, applyQuestion, RVal.i32, Bind.bind, Act.bind, hrv]
  split
  · rename_i u s' he
    rw [he] at this
    exact ⟨by simp, this⟩
  all_goals trivial

end

/-! ### A program meeting the hypotheses -/

/-- An analysis that counts calls; it sets the first argument to one more than it is, resumes the call twice, and panics after 100 calls. -/
def exScript : Script Nat := .state (· + 1) fun n => if n = 100 then .panic else
  .getArg 0 fun x => .setArg 0 (match x with | .i32 b => .i32 (b + 1) | x => x) <| .resume <| .resume .done

/-- The embedder with that analysis. -/
def exScripted : Imports (World Unit Nat) := fun ns name =>
  if ns = stackModule then libHost exLink.N exLink.sigs exLink.L exLink.d name
  else if ns = analysisModule ∧ name = interfaceGenericApply.1.name then exScript.host exLink 42
  else fun _ _ s => .ok [] s

def exScriptStore : Store (World Unit Nat) where
  globals := []
  mems := [⟨1, 16, fun _ => 0⟩]
  tables := [⟨.funcRef, [none, none], 10⟩, ⟨.funcRef, [some 37, some 39, some 41], 3⟩]
  datas := []
  elems := []
  world := ((), 0, exLib.store)

instance (m : Module) : DecidablePred (LInstr.Within m) := fun i => by cases i <;> simp only [LInstr.Within] <;> infer_instance

/-- The hypotheses of C27 hold of the example. -/
example : Closed exModule ∧ Reserved exIfaceApply exModule interfaceGenericApply.1 ∧ HasLib exLink exScripted ∧
    (∀ ns name, ns ≠ stackModule → ¬ (ns = analysisModule ∧ name = interfaceGenericApply.1.name) → HostKeeps exModule exApplied (exScripted ns name)) ∧
    AdviceKeeps exModule exApplied 42 (exScripted analysisModule interfaceGenericApply.1.name) ∧ (exApplied.module.functions[42]?.map (·.exports)) = some ["call_base"] ∧
    exScriptStore.In (ownRealm exModule exApplied (exScriptStore.tables[·]?)) ∧ exScriptStore.getLib = exLib.store := by
  refine ⟨?_, ⟨?_, ?_⟩, fun _ => rfl, ?_, C27_analyses_keep exLink_good 42 exScript, by decide +kernel, ⟨?_, ?_, ?_, fun _ _ => rfl, ⟨exLib, rfl, exLib_ok⟩⟩, rfl⟩
  · intro f hf c hc
    have : ∀ f ∈ exModule.functions, (match f.code with | .present c => decide (∀ i ∈ c.body, i.Within exModule) | _ => true) = true := by decide +kernel
    have := this f hf
    rw [hc] at this
    exact of_decide_eq_true this
  · intro f hf ns name hc
    have : ∀ f ∈ exModule.functions, (match f.code with | .imported ns _ => decide (ns ≠ stackModule ∧ ns ≠ analysisModule) | _ => true) = true := by decide +kernel
    have := this f hf
    rw [hc] at this
    have := of_decide_eq_true this
    exact ⟨this.1, fun h => this.2 h.1⟩
  · intro t e h
    have : ∀ t, (match exIfaceApply.trap t with | some e => decide (e.name ≠ interfaceGenericApply.1.name) | none => true) = true := by
      intro t; cases t <;> decide +kernel
    have := this t
    rw [h] at this
    exact of_decide_eq_true this
  · intro ns name h1 h2
    have : exScripted ns name = fun _ _ s => .ok [] s := by
      unfold exScripted; rw [if_neg h1, if_neg h2]
    rw [this]
    exact fun T call hc args s ha hs => ⟨by simp, hs, Kept.refl _ _⟩
  · intro v hv; cases hv
  · intro i T hi hT a ha
    match i, hi with
    | 0, _ =>
      cases hT
      simp at ha
  · intro e u he; exact absurd he (by simp [ownRealm, exModule])

end Wastrum
