/-
Supporting lemmas for C55: a program whose pure functions are memoised runs in step with the original program.
-/
import Verif.MemoLemmas

set_option linter.unusedSimpArgs false
set_option linter.unusedVariables false

namespace Wastrum

variable {W : Type}

/-! ## What the cache holds -/

/-- Every result in the cache is the one the original program computes: whenever an entry matches a call of a target `i` with arguments `xs`,
the original program (whose calls are `original`, with a bound on the call depth), called with them in any state whatsoever, returns the stored
results and leaves the state as it is. -/
def CacheCorrect (m : Module) (ts : Option (List Nat)) (original : Nat → CallFn W) (c : MemoState) : Prop :=
  ∀ e ∈ c.cache, ∀ i ∈ applyTargets m ts, ∀ f, m.functions[i]? = some f → ∀ xs : List Val, xs.map Val.type = f.type.inputs →
    e.1 = ⟨BitVec.ofNat 32 i, xs.map bitPattern⟩ → e.2.map Val.type = f.type.results ∧ ∃ d, ∀ s, original d i (xs.map .num) s = .ok (e.2.map .num) s

/-- The cache is full. -/
def MemoState.IsFull (c : MemoState) : Prop := c.cache.length = cacheCapacity

theorem CacheCorrect.empty (m : Module) (ts : Option (List Nat)) (original : Nat → CallFn W) (hits : BitVec 32) : CacheCorrect m ts original ⟨[], hits⟩ := by
  intro e he
  simp at he

theorem bitPattern_inj {x y : Val} (ht : x.type = y.type) (h : bitPattern x = bitPattern y) : x = y := by
  have lt : ∀ v : Val, v.bits < 2 ^ 64 := by
    intro v
    cases v <;> simp only [Val.bits] <;> omega
  have h' := congrArg BitVec.toNat h
  simp only [bitPattern, BitVec.toNat_ofNat] at h'
  rw [Nat.mod_eq_of_lt (lt x), Nat.mod_eq_of_lt (lt y)] at h'
  rw [← ofBits_bits x, ← ofBits_bits y, ht, h']

theorem bitPatterns_inj {xs ys : List Val} (ht : xs.map Val.type = ys.map Val.type) (h : xs.map bitPattern = ys.map bitPattern) : xs = ys := by
  induction xs generalizing ys with
  | nil => cases ys with | nil => rfl | cons y ys => simp at h
  | cons x xs ih =>
    cases ys with
    | nil => simp at h
    | cons y ys =>
      simp only [List.map_cons, List.cons.injEq] at ht h
      rw [bitPattern_inj ht.1 h.1, ih ht.2 h.2]

theorem lookup_mem {α β : Type} [BEq α] [LawfulBEq α] {l : List (α × β)} {k : α} {v : β} (h : l.lookup k = some v) : (k, v) ∈ l := by
  induction l with
  | nil => simp at h
  | cons a l ih =>
    obtain ⟨a, b⟩ := a
    simp only [List.lookup] at h
    split at h
    · rename_i e
      rw [beq_iff_eq] at e
      cases h; subst e
      exact List.mem_cons_self
    · exact List.mem_cons_of_mem _ (ih h)

theorem insert_mem {c c' : MemoState} {key : MemoKey} {ys : List Val} (h : c.insert key ys = some c') {e : MemoKey × List Val} (he : e ∈ c'.cache) :
    e ∈ c.cache ∨ e = (key, ys) := by
  unfold MemoState.insert at h
  split at h
  · cases h
    simp only [List.mem_map] at he
    obtain ⟨e', h1, rfl⟩ := he
    split
    · exact .inr rfl
    · exact .inl h1
  · split at h
    · cases h
    · cases h
      simpa using he

theorem insert_find {c c' : MemoState} {key : MemoKey} {ys : List Val} (h : c.insert key ys = some c') : c'.find key = some ys := by
  unfold MemoState.insert at h
  split at h
  · rename_i hs
    cases h
    obtain ⟨cache, hits⟩ := c
    simp only [MemoState.find] at hs ⊢
    induction cache with
    | nil => simp at hs
    | cons e es ih =>
      by_cases he : e.1 = key
      · simp [he]
      · have hne : (key == e.1) = false := by simpa using fun h => he h.symm
        simp only [List.lookup, hne] at hs
        simp only [List.map, if_neg he, List.lookup, hne]
        exact ih hs
  · rename_i hs
    split at h
    · cases h
    · cases h
      simp only [MemoState.find, Option.not_isSome_iff_eq_none] at hs ⊢
      rw [List.lookup_append, hs]
      simp

theorem insert_none {c : MemoState} {key : MemoKey} {ys : List Val} (h : c.insert key ys = none) : c.IsFull := by
  unfold MemoState.insert at h
  split at h
  · cases h
  · split at h
    · assumption
    · cases h

section
variable {C : Checker} {iface : Interface} {ts : Option (List Nat)} {m : Module} {r : Instrumented} {ge : WasmExport} {cb : WasmImport}
  {order : List Nat} {fs : List Func} {hooks : FuncType → StackHooks} {copy : Nat} {K : LibLink} {H : Imports (World W MemoState)} {N : Num} {L : Nat}

/-- A memoised call keeps the executions in step if the call of the copy does, if the cache holds nothing wrong (`J`), and if what is added to it is right. -/
theorem memo_agrees (hA : Applied C iface ts m r ge cb order fs K.sigs hooks copy) (hge : ge.args = [.i32, .i32, .i32, .i32, .i32, .i32, .i32] ∧ ge.results = [])
    (hcb : cb.args = [.i32, .i32] ∧ cb.results = []) (hsz : order.length < 2 ^ 32)
    (hK : K.Good) (hsm : SmallSigs K.sigs) (hlib : HasLib K H) (hH : H analysisModule ge.name = memoHost K (copy + 2 * order.length))
    {j i : Nat} {f : Func} (hj : order[j]? = some i) (hf : m.functions[i]? = some f)
    {T X} {F M : Nat} {fl fr : Bool} {d : Nat} {o : Res W} {xs : List Val} (hr : f.type.RefFree) (hx : xs.map Val.type = f.type.inputs)
    (hcap : F + 12 * f.type.slots ≤ M * 65536 ∧ F + 12 * f.type.slots ≤ 65535 * 65536) {s : Store W} {s' : Store (World W MemoState)} (hseg : SegmentsIntact m r s')
    {J P TR : MemoState → Prop} (hskip : ∀ c, s'.world.2.1.skips f.type = true → J c → P c)
    (hhits : ∀ c n ys, J c → c.skips f.type = false → c.find (memoKey i xs) = some ys → (o = .fuel ∧ fl = true ∨ o = .ok (ys.map .num) s) → P { c with hits := n })
    (hhit : ∀ c ys, J c → c.skips f.type = false → c.find (memoKey i xs) = some ys → ys.map Val.type = f.type.results ∧ (o = .fuel ∧ fl = true ∨ o = .ok (ys.map .num) s))
    (hins : ∀ a c c' ys s1, J a → a.skips f.type = false → J c → o = .ok (ys.map .num) s1 → ys.map Val.type = f.type.results → c.insert (memoKey i xs) ys = some c' → P c')
    (hTR : (∀ a c : MemoState, J a → a.skips f.type = false → c.IsFull → TR c) ∨ (3 ≤ d → ∀ s vs s1, callF N (machineOf H r.module.functions) L (d - 2) (copy + 2 * j) (xs.map .num) s = .ok vs s1 → s1 = s))
    (hS : (besideLib m.ctx T X (fun c st => J c ∧ LibAt F M st) TR fl fr).S s s') (hfr : fr = true ∨ 3 ≤ d)
    (hcopy : 3 ≤ d → ∀ s', (besideLib m.ctx T X (fun c st => J c ∧ LibAt (F + 12 * f.type.slots) M st) TR fl fr).S s s' →
      (besideLib m.ctx T X (fun c st => J c ∧ LibAt (F + 12 * f.type.slots) M st) TR fl fr).Ress m.ctx f.type.results o
        (callF N (machineOf H r.module.functions) L (d - 2) (copy + 2 * j) (xs.map .num) s')) :
    (besideLib m.ctx T X (fun c st => P c ∧ LibAt F M st) TR fl fr).Ress m.ctx f.type.results o
      (callF N (machineOf H r.module.functions) L (d + 2) i (xs.map .num) s') := by
  obtain ⟨h1, ⟨w, a, st⟩, ⟨h2, hJ, l, rfl, ok, rfl, rfl, hpg⟩, rfl⟩ := hS
  dsimp only at hJ
  have hfull : ¬ Full l (12 * f.type.slots) := by
    rintro (h | h | h)
    · omega
    · omega
    · omega
  obtain ⟨lc, okc, hfc, hlc, hpc, hhit', hmiss⟩ := memo_call (N := N) (L := L) hA hge hcb hsz hK hsm hlib hH hj hf ok (s := s.extend T X (w, a, l.store)) rfl hseg hx hfull hpg d
  have hst : (s.extend T X (w, a, l.store)).setLib lc.store = s.extend T X (w, a, lc.store) := rfl
  have han : (s.extend T X (w, a, l.store)).world.2.1 = a := rfl
  rw [hst] at hmiss
  rw [han] at hhit' hmiss
  by_cases hc : a.skips f.type = false ∧ (a.find (memoKey i xs)).isSome
  · obtain ⟨hsk, hsome⟩ := hc
    obtain ⟨ys, hys⟩ := Option.isSome_iff_exists.1 hsome
    obtain ⟨hty, ho⟩ := hhit a ys hJ hsk hys
    obtain ⟨l3, e, hback, hp3⟩ := hhit' hsk ys hys hty
    have hP := hhits a (a.hits + 1) ys hJ hsk hys ho
    rcases ho with ⟨rfl, hfl⟩ | rfl
    · exact .fuelL hfl
    · rw [e]
      refine .ok ⟨?_, ?_⟩ ⟨h1, (w, { a with hits := a.hits + 1 }, l3.store), ⟨h2, hP, l3, rfl, hback.ok, hback.free, hback.limit, hp3⟩, rfl⟩
      · rw [← hty, List.map_map]; rfl
      · intro v hv
        obtain ⟨y, _, rfl⟩ := List.mem_map.1 hv
        simp [RVal.OK]
  · have hm : a.skips f.type = true ∨ a.find (memoKey i xs) = none := by
      by_cases hsk : a.skips f.type = true
      · exact .inl hsk
      · rw [Bool.not_eq_true] at hsk
        right
        cases hfi : a.find (memoKey i xs) with
        | none => rfl
        | some ys => exact absurd ⟨hsk, by rw [hfi]; rfl⟩ hc
    have hres := hmiss hm
    by_cases hd : 3 ≤ d
    · rw [if_pos hd] at hres
      have := hcopy hd (s.extend T X (w, a, lc.store)) ⟨h1, (w, a, lc.store), ⟨h2, hJ, lc, rfl, okc, hfc, hlc, hpc⟩, rfl⟩
      have hq := hTR.imp_right fun hq => hq hd (s.extend T X (w, a, lc.store))
      generalize callF N (machineOf H r.module.functions) L (d - 2) (copy + 2 * j) (xs.map .num) (s.extend T X (w, a, lc.store)) = o' at this hres hq
      cases this with
      | @ok vs s1 s1' hv hs1 =>
        obtain ⟨g1, ⟨w1, a1, st1⟩, ⟨g2, gJ, l2, rfl, ok2, hf2, hl2, hp2⟩, rfl⟩ := hs1
        obtain ⟨ys, rfl, hy⟩ := args_nums hv.1 hr.results
        have hr2 := hres ys l2 rfl hy rfl ok2 (by rw [hf2, hfc])
        split at hr2
        · rename_i hsk
          obtain ⟨l3, e, ok3, hf3, hl3, hp3⟩ := hr2
          rw [e]
          exact .ok hv ⟨g1, (w1, a1, l3.store), ⟨g2, hskip _ hsk gJ, l3, rfl, ok3, hf3, by rw [hl3, hl2], by rw [hp3]; exact hp2⟩, rfl⟩
        · rename_i hsk
          have han1 : (s1.extend T X (w1, a1, l2.store)).world.2.1 = a1 := rfl
          rw [han1] at hr2
          cases hi : a1.insert (memoKey i xs) ys with
          | none =>
            rw [hi] at hr2
            obtain ⟨l3, e⟩ := hr2
            rw [e]
            rcases hq with hq | hq
            · exact .trapR (hq _ _ hJ (by rwa [Bool.not_eq_true] at hsk) (insert_none hi))
            · exfalso
              have e : a1 = a := congrArg (fun s : Store (World W MemoState) => s.world.2.1) (hq _ _ rfl)
              apply hsk
              have := insert_none hi
              rw [e] at this
              simp [MemoState.skips, MemoState.bypass, show a.cache.length = cacheCapacity from this]
          | some c' =>
            rw [hi] at hr2
            obtain ⟨l3, e, ok3, hf3, hl3, hp3⟩ := hr2
            rw [e]
            exact .ok hv ⟨g1, (w1, c', l3.store), ⟨g2, hins _ _ _ _ _ hJ (by rwa [Bool.not_eq_true] at hsk) gJ rfl hy hi, l3, rfl, ok3, hf3, by rw [hl3, hl2], by rw [hp3]; exact hp2⟩, rfl⟩
      | trap hs1 =>
        rw [hres]
        obtain ⟨g1, w1, ⟨g2, _⟩, rfl⟩ := hs1
        exact .trapT ⟨g1, w1, g2, rfl⟩
      | fuel => rw [hres]; exact .fuel
      | fuelL h => exact .fuelL h
      | fuelR h => rw [hres]; exact .fuelR h
      | trapL h => cases h
      | trapT h => rw [hres]; exact .trapT h
      | trapR h => rw [hres]; exact .trapR h
    · rw [if_neg hd] at hres
      rw [hres]
      exact .fuelR (hfr.resolve_right hd)

/-! ## The two directions -/

/-- The assumptions about the linked program, the analysis and the stack library. -/
structure Memoizing (C : Checker) (iface : Interface) (ts : Option (List Nat)) (m : Module) (r : Instrumented) (ge : WasmExport) (K : LibLink) (N : Num) (base : Nat)
    (T : List Table) (X : List (RefType × List (Option Nat))) (B : Nat) (H : Imports W) (H' : Imports (World W MemoState)) : Prop where
  /-- the stack library linked is the one generated for the instrumented module -/
  sigs : r.librarySignatures = some K.sigs
  small : SmallSigs K.sigs
  good : K.Good
  lib : HasLib K H'
  /-- the analysis' export is the memoization advice -/
  memo : H' analysisModule ge.name = memoHost K base
  /-- the program's imports do the same beside the analysis and the library, and their outcome rests on finitely many calls back -/
  imports : ImportsAgreeBeside m T X H H'
  steady : SteadyImports m H
  /-- no frame takes more than `B` bytes -/
  frame : ∀ t ∈ K.sigs, 12 * t.slots ≤ B

/-- Pure functions: what one call of one returns, all calls do. -/
theorem pure_everywhere {Cp : Checker} {fuel : Nat} {answer : List Nat} (h : immutableFunctions Cp m fuel = .ok answer) {i : Nat} (hi : i ∈ answer) {G : Imports W} {d : Nat} {args vs : List RVal}
    {s s1 : Store W} (e : callF N (machineOf G m.functions) L d i args s = .ok vs s1) (s' : Store W) : callF N (machineOf G m.functions) L d i args s' = .ok vs s' := by
  have := C39_purity_sound Cp m fuel answer h i hi N L d G G args s s'
  rw [e] at this
  cases h' : callF N (machineOf G m.functions) L d i args s' with
  | ok vs' t' => rw [h'] at this; obtain ⟨rfl, _, rfl⟩ := this; rfl
  | _ => rw [h'] at this; exact this.elim

/-- What is inserted is correct. -/
theorem CacheCorrect.inserted {c c' : MemoState} {G : Imports W} (hc : CacheCorrect m ts (callF N (machineOf G m.functions) L) c) (hm : m.functions.length < 2 ^ 32)
    {i : Nat} {f : Func} (hf : m.functions[i]? = some f) {xs ys : List Val} (hx : xs.map Val.type = f.type.inputs) (hy : ys.map Val.type = f.type.results)
    (hins : c.insert (memoKey i xs) ys = some c') (h : ∃ d, ∀ s, callF N (machineOf G m.functions) L d i (xs.map .num) s = .ok (ys.map .num) s) :
    CacheCorrect m ts (callF N (machineOf G m.functions) L) c' := by
  intro e he i' hi' f' hf' xs' hx' hkey
  rcases insert_mem hins he with he | rfl
  · exact hc e he i' hi' f' hf' xs' hx' hkey
  · simp only [memoKey, MemoKey.mk.injEq] at hkey
    have h1 := congrArg BitVec.toNat hkey.1
    have l1 := (List.getElem?_eq_some_iff.1 hf).1
    have l2 := (List.getElem?_eq_some_iff.1 hf').1
    rw [BitVec.toNat_ofNat, BitVec.toNat_ofNat, Nat.mod_eq_of_lt (by omega), Nat.mod_eq_of_lt (by omega)] at h1
    subst h1
    rw [hf] at hf'; cases hf'
    have := bitPatterns_inj (by rw [hx, hx']) hkey.2
    subst this
    exact ⟨hy, h⟩

theorem CacheCorrect.found {c : MemoState} {G : Imports W} (hc : CacheCorrect m ts (callF N (machineOf G m.functions) L) c) {i : Nat} (hi : i ∈ applyTargets m ts) {f : Func}
    (hf : m.functions[i]? = some f) {xs ys : List Val} (hx : xs.map Val.type = f.type.inputs) (h : c.find (memoKey i xs) = some ys) :
    ys.map Val.type = f.type.results ∧ ∃ d, ∀ s, callF N (machineOf G m.functions) L d i (xs.map .num) s = .ok (ys.map .num) s :=
  hc _ (lookup_mem h) i hi f hf xs hx rfl

/-- With no instruction-level hook selected, the bodies are left alone. -/
theorem hookless (hs : SmallModule m) (hnone : ∀ t, iface.trap t = none) (hA : Applied C iface ts m r ge cb order fs K.sigs hooks copy) : fs = m.functions := by
  obtain ⟨r0, h0, e⟩ := hA.without
  have := (C08_nothing_selected hs h0 rfl hnone).1
  rw [e] at this
  exact List.append_cancel_right (congrArg Module.functions this)

/-- The bodies, which are left alone, keep the executions in step. -/
theorem plain_runs (hA : Applied C iface ts m r ge cb order m.functions K.sigs hooks copy) (hv : ValidModule m) {V V' : Type} {R : Rel V V'} {T X} {Q : V → V' → Prop}
    (hS : R.S = SameState m.ctx T X Q) {G : Imports V} {G' : Imports V'}
    (hhost : ∀ f ∈ m.functions, ∀ ns name, f.code = .imported ns name → HostsAgree R m.ctx f.type (G ns name) (G' ns name))
    {i k : Nat} {f : Func} {es : List String} (hf : m.functions[i]? = some f) (hk : r.module.functions[k]? = some { f with exports := es })
    {E : Env V} (hEn : E.num = N) (hEL : E.loopFuel = L) (hEt : E.ftype = fun k => m.functions[k]?.map (·.type)) {D : Nat} (hc : CallsAgree R m.ctx E.callF (callF N (machineOf G' r.module.functions) L D))
    {args : List RVal} {s s'} (ha : ValsOK m.ctx args f.type.inputs) (hss : R.S s s') :
    R.Ress m.ctx f.type.results (runImpl E f.type (implOf G f) args s) (callF N (machineOf G' r.module.functions) L (D + 1) k args s') := by
  have hm := List.mem_of_getElem? hf
  have hE : R.Envs m.ctx E (envAt N (machineOf G' r.module.functions) L D) := by
    refine ⟨hEn.symm, hEL.symm, ?_, hc⟩
    intro f' ty hty
    rw [envAt_types, hEt]
    refine ⟨hty, ?_⟩
    simp only [Module.ctx, Option.map_eq_some_iff] at hty
    obtain ⟨f0, hf0, rfl⟩ := hty
    dsimp only
    by_cases ho : f' ∈ order
    · obtain ⟨j, hj⟩ := List.getElem?_of_mem ho
      rw [(hA.at.target j f' f0 hj hf0).2.2.1]
      rfl
    · rw [hA.at.untouched f' f0 ho hf0]
      rfl
  cases hcode : f.code with
  | imported ns name =>
    rw [callF_import hk hcode]
    simp only [runImpl, implOf, hcode]
    exact hhost f hm ns name hcode _ _ hc _ _ _ ha hss
  | present c =>
    simp only [runImpl, implOf, hcode]
    rw [callF_code hk hcode]
    exact runBody_sim (fun cfg cfg' hcc => plain_body_agrees hS hE (hv.functions _ hm c hcode) hcc) ha hss

/-- Calls of the copies leave everything alone, the analysis' state included. -/
def Quiet (r : Instrumented) (order : List Nat) (copy : Nat) (N : Num) (L : Nat) (H : Imports (World W MemoState)) : Prop :=
  ∀ j < order.length, ∀ d args s vs s1, callF N (machineOf H r.module.functions) L d (copy + 2 * j) args s = .ok vs s1 → s1 = s

/-- An invariant of the cache, in a program whose calls are `original`. -/
structure CacheInv (m : Module) (ts : Option (List Nat)) (original : Nat → CallFn W) (J : MemoState → Prop) : Prop where
  hits : ∀ c n, ∀ i ∈ applyTargets m ts, ∀ f, m.functions[i]? = some f → J c → c.skips f.type = false → J { c with hits := n }
  hit : ∀ c ys, ∀ i ∈ applyTargets m ts, ∀ f, m.functions[i]? = some f → ∀ xs : List Val, xs.map Val.type = f.type.inputs →
    J c → c.skips f.type = false → c.find (memoKey i xs) = some ys → ys.map Val.type = f.type.results ∧ ∃ d, ∀ s, original d i (xs.map .num) s = .ok (ys.map .num) s
  insert : ∀ a c c' ys, ∀ i ∈ applyTargets m ts, ∀ f, m.functions[i]? = some f → ∀ xs : List Val, xs.map Val.type = f.type.inputs →
    J a → a.skips f.type = false → J c → ys.map Val.type = f.type.results → c.insert (memoKey i xs) ys = some c' →
    ∀ d s s1, original d i (xs.map .num) s = .ok (ys.map .num) s1 → J c'

/-- With the caches in which a result may fail to be stored, the memoised program may trap. -/
def FullTraps (m : Module) (ts : Option (List Nat)) (J TR : MemoState → Prop) : Prop :=
  ∀ a c, ∀ i ∈ applyTargets m ts, ∀ f, m.functions[i]? = some f → J a → a.skips f.type = false → c.IsFull → TR c

/-- The caches of pure targets stay correct. -/
theorem CacheInv.correct {Cp : Checker} {fuel : Nat} {answer : List Nat} (hs : m.functions.length < 2 ^ 32) (hpure : immutableFunctions Cp m fuel = .ok answer)
    (hin : ∀ i ∈ applyTargets m ts, i ∈ answer) (G : Imports W) :
    CacheInv m ts (callF N (machineOf G m.functions) L) (CacheCorrect m ts (callF N (machineOf G m.functions) L)) where
  hits := fun c n i hi f hf h _ => h
  hit := fun c ys i hi f hf xs hx h _ hfi => h.found hi hf hx hfi
  insert := fun a c c' ys i hi f hf xs hx _ _ hc hy hins d s s1 e => hc.inserted hs hf hx hy hins ⟨d, pure_everywhere hpure (hin i hi) e⟩

/-- A cache that is skipped for every intercepted function is not used. -/
theorem CacheInv.skipped {c : MemoState} (hc : ∀ i ∈ applyTargets m ts, ∀ f, m.functions[i]? = some f → c.skips f.type = true) (original : Nat → CallFn W) :
    CacheInv m ts original (· = c) := by
  have skip : ∀ {a : MemoState} {i f}, i ∈ applyTargets m ts → m.functions[i]? = some f → a = c → a.skips f.type = false → False := by
    rintro a i f hi hf rfl h
    rw [hc i hi f hf] at h
    cases h
  exact ⟨fun a n i hi f hf h hs => (skip hi hf h hs).elim, fun a ys i hi f hf xs hx h hs => (skip hi hf h hs).elim,
    fun a c' c'' ys i hi f hf xs hx h hs => (skip hi hf h hs).elim⟩

theorem FullTraps.skipped {c : MemoState} (hc : ∀ i ∈ applyTargets m ts, ∀ f, m.functions[i]? = some f → c.skips f.type = true) (TR : MemoState → Prop) :
    FullTraps m ts (· = c) TR := by
  rintro a c' i hi f hf rfl h
  rw [hc i hi f hf] at h
  cases h

/-- A full cache is skipped. -/
theorem MemoState.IsFull.skips {c : MemoState} (hc : c.IsFull) (t : FuncType) : c.skips t = true := by
  simp [MemoState.skips, MemoState.bypass, show c.cache.length = cacheCapacity from hc]

section
variable {G : Imports W} {T : List Table} {X : List (RefType × List (Option Nat))} {B : Nat} {J TR : MemoState → Prop}

/-- The memoised program keeps up with the original. -/
theorem memo_forward (hs : SmallModule m)
    (hA : Applied C iface ts m r ge cb order m.functions K.sigs hooks copy) (hge : ge.args = [.i32, .i32, .i32, .i32, .i32, .i32, .i32] ∧ ge.results = [])
    (hcb : cb.args = [.i32, .i32] ∧ cb.results = []) (hsz : order.length < 2 ^ 32) (hv : ValidModule m)
    (hR : Memoizing C iface ts m r ge K N (copy + 2 * order.length) T X B G H) (hseg : ∀ s : Store (World W MemoState), s.tables[m.tables.length]? = T[0]? → SegmentsIntact m r s)
    (hJ : CacheInv m ts (callF N (machineOf G m.functions) L) J) (hTR : FullTraps m ts J TR ∨ Quiet r order copy N L H) {M : Nat} :
    ∀ d D F, 5 * d + 1 ≤ D → F + d * B ≤ M * 65536 → F + d * B ≤ 65535 * 65536 →
      CallsAgree (besideLib m.ctx T X (fun c st => J c ∧ LibAt F M st) TR true false) m.ctx
        (callF N (machineOf G m.functions) L d) (callF N (machineOf H r.module.functions) L D) := by
  intro d
  induction d with
  | zero => intro D F _ _ _ f ty args s s' _ _ _; exact .fuelL rfl
  | succ d ih =>
    intro D F hD hc1 hc2 i ty args s s' hf ha hS
    have hseg' : SegmentsIntact m r s' := by
      obtain ⟨h1, w, _, rfl⟩ := hS
      apply hseg
      have hl : s.tables.length = m.tables.length := tables_length h1
      simp only [Store.extend]
      rw [List.getElem?_append_right (by omega)]
      simp [hl]
    simp only [Module.ctx, Option.map_eq_some_iff] at hf
    obtain ⟨f, hf, rfl⟩ := hf
    rw [Nat.add_mul, Nat.one_mul] at hc1 hc2
    by_cases ho : i ∈ order
    · obtain ⟨j, hj⟩ := List.getElem?_of_mem ho
      obtain ⟨hmem, _, _, hcp, _⟩ := hA.at.target j i f hj hf
      have hb : 12 * f.type.slots ≤ B := hR.frame _ hmem
      obtain ⟨D', rfl⟩ : ∃ D', D = D' + 3 + 2 := ⟨D - 5, by omega⟩
      have hr := applyTarget_refFree hA hj hf
      obtain ⟨xs, rfl, hx⟩ := args_nums ha.1 hr.inputs
      have hit := (hA.mem i).1 ho
      refine memo_agrees hA hge hcb hsz hR.good hR.small hR.lib hR.memo hj hf hr hx ⟨by omega, by omega⟩ hseg' (J := J) (P := J) (fun _ _ h => h)
        (fun c n _ h h' _ _ => hJ.hits c n i hit f hf h h') ?_ ?_ (hTR.imp (fun hq a c => hq a c i hit f hf) fun hq _ => hq j (List.getElem?_eq_some_iff.1 hj).1 _ _) hS (.inr (by omega)) fun _ s'' hS'' => ?_
      · intro c ys hc hsk hfi
        obtain ⟨hty, d0, hd0⟩ := hJ.hit c ys i hit f hf xs hx hc hsk hfi
        refine ⟨hty, ?_⟩
        by_cases hfu : callF N (machineOf G m.functions) L (d + 1) i (xs.map .num) s = .fuel
        · exact .inl ⟨hfu, rfl⟩
        · right
          rw [← callLim_eq hR.steady hfu, callLim_eq (d := d0) hR.steady (by rw [hd0]; simp), hd0]
      · intro a c c' ys s1 ha' hsk hc ho hy hi
        exact hJ.insert a c c' ys i hit f hf xs hx ha' hsk hc hy hi _ _ _ ho
      · exact (callF_runImpl (G := G) (N := N) (L := L) hf d _ _).symm ▸ plain_runs hA hv (besideLib_S _ _ _ _ _ _ _) (fun f hf ns name hc => hR.imports f hf ns name hc _ _ _ _ _) hf hcp rfl rfl (envAt_types _ _ _) (ih D' _ (by omega) (by omega) (by omega)) ha hS''
    · obtain ⟨D', rfl⟩ : ∃ D', D = D' + 1 := ⟨D - 1, by omega⟩
      exact (callF_runImpl (G := G) (N := N) (L := L) hf d _ _).symm ▸ plain_runs hA hv (besideLib_S _ _ _ _ _ _ _) (fun f hf ns name hc => hR.imports f hf ns name hc _ _ _ _ _) hf (es := f.exports) (hA.at.untouched i f ho hf) rfl rfl (envAt_types _ _ _)
        (ih D' F (by omega) (by omega) (by omega)) ha hS

/-- A body run in the limit is a call in the limit. -/
theorem lim_agrees (hst : SteadyImports m G) {V' : Type} {R : Rel W V'} {i : Nat} {f : Func} (hf : m.functions[i]? = some f) {ts' : List ValType} {args : List RVal} {s : Store W} {o' : Res V'}
    (hfl : R.fl = false) (hfr : R.fr = true)
    (hr : R.Ress m.ctx ts' (runImpl (envLim N G m.functions L) f.type (implOf G f) args s) o') : R.Ress m.ctx ts' (callLim N G m.functions L i args s) o' := by
  by_cases hfu : runImpl (envLim N G m.functions L) f.type (implOf G f) args s = .fuel
  · rw [hfu] at hr
    cases hr with
    | fuel => exact .fuelR hfr
    | fuelL h => rw [hfl] at h; cases h
    | fuelR h => exact .fuelR h
    | trapR h => exact .trapR h
  · rw [runImpl_lim hst hf hfu]
    exact hr

/-- The original, with no bound on the depth of calls, keeps up with the memoised program. -/
theorem memo_backward (hs : SmallModule m)
    (hA : Applied C iface ts m r ge cb order m.functions K.sigs hooks copy) (hge : ge.args = [.i32, .i32, .i32, .i32, .i32, .i32, .i32] ∧ ge.results = [])
    (hcb : cb.args = [.i32, .i32] ∧ cb.results = []) (hsz : order.length < 2 ^ 32) (hv : ValidModule m)
    (hR : Memoizing C iface ts m r ge K N (copy + 2 * order.length) T X B G H) (hseg : ∀ s : Store (World W MemoState), s.tables[m.tables.length]? = T[0]? → SegmentsIntact m r s)
    (hJ : CacheInv m ts (callF N (machineOf G m.functions) L) J) (hTR : FullTraps m ts J TR ∨ Quiet r order copy N L H) {M : Nat} :
    ∀ D F, F + D * B ≤ M * 65536 → F + D * B ≤ 65535 * 65536 →
      CallsAgree (besideLib m.ctx T X (fun c st => J c ∧ LibAt F M st) TR false true) m.ctx
        (callLim N G m.functions L) (callF N (machineOf H r.module.functions) L D) := by
  intro D
  induction D using Nat.strongRecOn with
  | ind D ih =>
    intro F hc1 hc2 i ty args s s' hf ha hS
    match D, ih with
    | 0, _ => exact .fuelR rfl
    | D + 1, ih =>
    have hseg' : SegmentsIntact m r s' := by
      obtain ⟨h1, w, _, rfl⟩ := hS
      apply hseg
      have hl : s.tables.length = m.tables.length := tables_length h1
      simp only [Store.extend]
      rw [List.getElem?_append_right (by omega)]
      simp [hl]
    simp only [Module.ctx, Option.map_eq_some_iff] at hf
    obtain ⟨f, hf, rfl⟩ := hf
    by_cases ho : i ∈ order
    · obtain ⟨j, hj⟩ := List.getElem?_of_mem ho
      obtain ⟨hmem, _, _, hcp, _⟩ := hA.at.target j i f hj hf
      have hb : 12 * f.type.slots ≤ B := hR.frame _ hmem
      have hr := applyTarget_refFree hA hj hf
      obtain ⟨xs, rfl, hx⟩ := args_nums ha.1 hr.inputs
      have hit := (hA.mem i).1 ho
      rw [Nat.add_mul, Nat.one_mul] at hc1 hc2
      match D, ih, hc1, hc2 with
      | 0, _, _, _ =>
        rw [call_shallow_one (N := N) (L := L) (H := H) hA hj hf hx]
        exact .fuelR rfl
      | D + 1, ih, hc1, hc2 =>
      refine memo_agrees (d := D) hA hge hcb hsz hR.good hR.small hR.lib hR.memo hj hf hr hx ⟨by omega, by omega⟩ hseg' (J := J) (P := J) (fun _ _ h => h)
        (fun c n _ h h' _ _ => hJ.hits c n i hit f hf h h') ?_ ?_ (hTR.imp (fun hq a c => hq a c i hit f hf) fun hq _ => hq j (List.getElem?_eq_some_iff.1 hj).1 _ _) hS (.inl rfl) fun h3 s'' hS'' => ?_
      · intro c ys hc hsk hfi
        obtain ⟨hty, d0, hd0⟩ := hJ.hit c ys i hit f hf xs hx hc hsk hfi
        refine ⟨hty, .inr ?_⟩
        rw [callLim_eq (d := d0) hR.steady (by rw [hd0]; simp), hd0]
      · intro a c c' ys s1 ha' hsk hc ho hy hi
        obtain ⟨d0, hd0⟩ := callLim_spec (N := N) (L := L) (m := m) (H := G) i (xs.map .num) s
        rw [hd0] at ho
        exact hJ.insert a c c' ys i hit f hf xs hx ha' hsk hc hy hi _ _ _ ho
      · obtain ⟨D', rfl⟩ : ∃ D', D = D' + 3 := ⟨D - 3, by omega⟩
        rw [Nat.add_mul, Nat.add_mul] at hc1 hc2
        exact lim_agrees hR.steady hf rfl rfl (plain_runs hA hv (besideLib_S _ _ _ _ _ _ _) (fun f hf ns name hc => hR.imports f hf ns name hc _ _ _ _ _) hf hcp rfl rfl rfl (ih D' (by omega) _ (by omega) (by omega)) ha hS'')
    · rw [Nat.add_mul, Nat.one_mul] at hc1 hc2
      exact lim_agrees hR.steady hf rfl rfl (plain_runs hA hv (besideLib_S _ _ _ _ _ _ _) (fun f hf ns name hc => hR.imports f hf ns name hc _ _ _ _ _) hf (es := f.exports) (hA.at.untouched i f ho hf)
        rfl rfl rfl (ih D (by omega) F (by omega) (by omega)) ha hS)

/-- After a memoised call of a target that returned, starting with a cache that did not rule it out, the results are in the cache. -/
theorem memo_stored (hs : SmallModule m)
    (hA : Applied C iface ts m r ge cb order m.functions K.sigs hooks copy) (hge : ge.args = [.i32, .i32, .i32, .i32, .i32, .i32, .i32] ∧ ge.results = [])
    (hcb : cb.args = [.i32, .i32] ∧ cb.results = []) (hsz : order.length < 2 ^ 32) (hv : ValidModule m)
    (hR : Memoizing C iface ts m r ge K N (copy + 2 * order.length) T X B G H) (hseg : ∀ s : Store (World W MemoState), s.tables[m.tables.length]? = T[0]? → SegmentsIntact m r s)
    (hJ : CacheInv m ts (callF N (machineOf G m.functions) L) J) {D F M : Nat} (hc1 : F + (D + 2) * B ≤ M * 65536) (hc2 : F + (D + 2) * B ≤ 65535 * 65536)
    {j i : Nat} {f : Func} (hj : order[j]? = some i) (hf : m.functions[i]? = some f) {xs : List Val} (hx : xs.map Val.type = f.type.inputs) {s : Store W} {s' : Store (World W MemoState)}
    (hsk : s'.world.2.1.skips f.type = false) (hS : (besideLib m.ctx T X (fun c st => J c ∧ LibAt F M st) (fun _ => True) false true).S s s') :
    (besideLib m.ctx T X (fun c st => (∃ ys s1, callLim N G m.functions L i (xs.map .num) s = .ok (ys.map .num) s1 ∧ ys.map Val.type = f.type.results ∧ c.find (memoKey i xs) = some ys) ∧ LibAt F M st) (fun _ => True) false true).Ress m.ctx f.type.results
      (callLim N G m.functions L i (xs.map .num) s) (callF N (machineOf H r.module.functions) L (D + 2) i (xs.map .num) s') := by
  have hseg' : SegmentsIntact m r s' := by
    obtain ⟨h1, w, _, rfl⟩ := hS
    apply hseg
    have hl : s.tables.length = m.tables.length := tables_length h1
    simp only [Store.extend]
    rw [List.getElem?_append_right (by omega)]
    simp [hl]
  obtain ⟨hmem, _, _, hcp, _⟩ := hA.at.target j i f hj hf
  have hb : 12 * f.type.slots ≤ B := hR.frame _ hmem
  have hr := applyTarget_refFree hA hj hf
  have ha : ValsOK m.ctx (xs.map .num) f.type.inputs := by
    refine ⟨?_, ?_⟩
    · rw [← hx, List.map_map]; rfl
    · intro v hv
      obtain ⟨y, _, rfl⟩ := List.mem_map.1 hv
      simp [RVal.OK]
  have hit := (hA.mem i).1 (List.mem_of_getElem? hj)
  rw [Nat.add_mul] at hc1 hc2
  refine memo_agrees (d := D) hA hge hcb hsz hR.good hR.small hR.lib hR.memo hj hf hr hx ⟨by omega, by omega⟩ hseg' (J := J)
    (fun _ h => by rw [hsk] at h; cases h) ?_ ?_ ?_ (.inl fun _ _ _ _ _ => trivial) hS (.inl rfl) fun h3 s'' hS'' => ?_
  · intro c n ys hc hsk hfi ho
    obtain ⟨hty, _⟩ := hJ.hit c ys i hit f hf xs hx hc hsk hfi
    rcases ho with ⟨_, h⟩ | h
    · cases h
    · exact ⟨ys, s, h, hty, hfi⟩
  · intro c ys hc hsk hfi
    obtain ⟨hty, d0, hd0⟩ := hJ.hit c ys i hit f hf xs hx hc hsk hfi
    refine ⟨hty, .inr ?_⟩
    rw [callLim_eq (d := d0) hR.steady (by rw [hd0]; simp), hd0]
  · intro a c c' ys s1 ha' hsk hc ho hy hi
    exact ⟨ys, s1, ho, hy, insert_find hi⟩
  · obtain ⟨D', rfl⟩ : ∃ D', D = D' + 3 := ⟨D - 3, by omega⟩
    rw [Nat.add_mul] at hc1 hc2
    exact lim_agrees hR.steady hf rfl rfl (plain_runs hA hv (besideLib_S _ _ _ _ _ _ _) (fun f hf ns name hc => hR.imports f hf ns name hc _ _ _ _ _) hf hcp rfl rfl rfl
      (memo_backward hs hA hge hcb hsz hv hR hseg hJ (.inl fun _ _ _ _ _ _ _ _ _ => trivial) D' _ (by omega) (by omega)) ha hS'')

end

end

end Wastrum
