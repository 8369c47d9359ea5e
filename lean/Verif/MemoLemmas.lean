/-
Supporting lemmas for C55: calls intercepted by the memoization analysis.
-/
import Verif.Memo

set_option linter.unusedSimpArgs false
set_option linter.unusedVariables false

namespace Wastrum

variable {W A : Type}

/-! ## Writing all results -/

/-- `xs` with the values from `i` on replaced by `vs`. -/
def setFrom : Nat → List Val → List Val → List Val
  | _, [], xs => xs
  | i, v :: vs, xs => setFrom (i + 1) vs (xs.set i v)

theorem setFrom_get (vs : List Val) : ∀ (i : Nat) (xs : List Val) (k : Nat), i + vs.length ≤ xs.length →
    (setFrom i vs xs)[k]? = if i ≤ k ∧ k < i + vs.length then vs[k - i]? else xs[k]? := by
  induction vs with
  | nil => intro i xs k h; simp only [setFrom, List.length_nil]; rw [if_neg (by omega)]
  | cons v vs ih =>
    intro i xs k h
    simp only [List.length_cons] at h
    rw [setFrom, ih (i + 1) (xs.set i v) k (by rw [List.length_set]; omega), List.getElem?_set]
    simp only [List.length_cons]
    by_cases h1 : i = k
    · subst h1
      rw [if_neg (by omega), if_pos rfl, if_pos (by omega), if_pos (by omega), Nat.sub_self]
      rfl
    · rw [if_neg h1]
      by_cases h2 : i + 1 ≤ k ∧ k < i + 1 + vs.length
      · rw [if_pos h2, if_pos (by omega), show k - i = (k - (i + 1)) + 1 by omega, List.getElem?_cons_succ]
      · rw [if_neg h2, if_neg (by omega)]

theorem setFrom_all {vs xs : List Val} (h : vs.length = xs.length) : setFrom 0 vs xs = vs := by
  apply List.ext_getElem?
  intro k
  rw [setFrom_get vs 0 xs k (by omega)]
  by_cases hk : k < vs.length
  · rw [if_pos (by omega), Nat.sub_zero]
  · rw [if_neg (by omega), List.getElem?_eq_none (by omega), List.getElem?_eq_none (by omega)]

theorem Edits.setRess {K : LibLink} {t : FuncType} {p : Nat} (hK : K.Good) (hn : t.slots < 8192) (vs : List Val) : ∀ (i : Nat), (∀ k v, vs[k]? = some v → t.results[i + k]? = some v.type) →
    Edits (W := W) (A := A) t p (K.setRess (handle t p) i vs) id (setFrom i vs) := by
  induction vs with
  | nil => intro i _; exact Edits.nothing
  | cons v vs ih =>
    intro i h
    have h1 := Edits.setRes (W := W) (A := A) (p := p) hK hn (i := i) (x := v) (h 0 v rfl)
    have h2 := ih (i + 1) (fun k w hk => by rw [show i + 1 + k = i + (k + 1) by omega]; exact h (k + 1) w hk)
    exact h1.seq h2

/-! ## One call -/

section
variable {C : Checker} {iface : Interface} {ts : Option (List Nat)} {m : Module} {r : Instrumented} {ge : WasmExport} {cb : WasmImport}
  {order : List Nat} {fs : List Func} {hooks : FuncType → StackHooks} {copy : Nat} {K : LibLink} {H : Imports (World W MemoState)} {N : Num} {L : Nat}

/-- The key under which the results of a call are stored. -/
def memoKey (i : Nat) (xs : List Val) : MemoKey := ⟨BitVec.ofNat 32 i, xs.map bitPattern⟩

/-- Whether calls of functions of type `t` bypass the cache. -/
def MemoState.skips (c : MemoState) (t : FuncType) : Bool := c.bypass (BitVec.ofNat 32 t.inputs.length) (BitVec.ofNat 32 t.results.length)

/-- The library, after a call: sound and where it was. -/
structure Lib.Back (l l3 : Lib) : Prop where
  ok : l3.Ok
  free : l3.free = l.free
  limit : l3.mem.limit = l.mem.limit

theorem memo_call (hA : Applied C iface ts m r ge cb order fs K.sigs hooks copy) (hge : ge.args = [.i32, .i32, .i32, .i32, .i32, .i32, .i32] ∧ ge.results = [])
    (hcb : cb.args = [.i32, .i32] ∧ cb.results = []) (hsz : order.length < 2 ^ 32)
    (hK : K.Good) (hsm : SmallSigs K.sigs) (hlib : HasLib K H) (hH : H analysisModule ge.name = memoHost K (copy + 2 * order.length))
    {j i : Nat} {f : Func} (hj : order[j]? = some i) (hf : m.functions[i]? = some f)
    {l : Lib} (ok : l.Ok) {s : Store (World W MemoState)} (hs : s.getLib = l.store) (hseg : SegmentsIntact m r s) {xs : List Val} (hx : xs.map Val.type = f.type.inputs)
    (hfull : ¬ Full l (12 * f.type.slots)) (hpg : l.mem.pages < 65536) (d : Nat) :
    ∃ lc : Lib, lc.Ok ∧ lc.free = l.free + 12 * f.type.slots ∧ lc.mem.limit = l.mem.limit ∧ lc.mem.pages < 65536 ∧
      (s.world.2.1.skips f.type = false → ∀ ys, s.world.2.1.find (memoKey i xs) = some ys → ys.map Val.type = f.type.results →
        ∃ l3 : Lib, callF N (machineOf H r.module.functions) L (d + 2) i (xs.map .num) s =
          .ok (ys.map .num) ((s.setAnalysis { s.world.2.1 with hits := s.world.2.1.hits + 1 }).setLib l3.store) ∧ l.Back l3 ∧ l3.mem.pages < 65536) ∧
      (s.world.2.1.skips f.type = true ∨ s.world.2.1.find (memoKey i xs) = none →
        match (if 3 ≤ d then callF N (machineOf H r.module.functions) L (d - 2) (copy + 2 * j) (xs.map .num) (s.setLib lc.store) else .fuel) with
        | .ok vs s2 => ∀ (ys : List Val) (l2 : Lib), vs = ys.map .num → ys.map Val.type = f.type.results → s2.getLib = l2.store → l2.Ok → l2.free = lc.free →
            if s.world.2.1.skips f.type then
              ∃ l3 : Lib, callF N (machineOf H r.module.functions) L (d + 2) i (xs.map .num) s = .ok vs (s2.setLib l3.store) ∧ l3.Ok ∧ l3.free = l.free ∧
                l3.mem.limit = l2.mem.limit ∧ l3.mem.pages = l2.mem.pages
            else match s2.world.2.1.insert (memoKey i xs) ys with
              | some c' => ∃ l3 : Lib, callF N (machineOf H r.module.functions) L (d + 2) i (xs.map .num) s = .ok vs ((s2.setAnalysis c').setLib l3.store) ∧ l3.Ok ∧ l3.free = l.free ∧
                l3.mem.limit = l2.mem.limit ∧ l3.mem.pages = l2.mem.pages
              | none => ∃ l3 : Lib, callF N (machineOf H r.module.functions) L (d + 2) i (xs.map .num) s = .trap (s2.setLib l3.store)
        | .trap s2 => callF N (machineOf H r.module.functions) L (d + 2) i (xs.map .num) s = .trap s2
        | .fuel => callF N (machineOf H r.module.functions) L (d + 2) i (xs.map .num) s = .fuel
        | .stuck => callF N (machineOf H r.module.functions) L (d + 2) i (xs.map .num) s = .stuck) := by
  obtain ⟨g, hg, hgt, hgp⟩ := hA.own hf
  have hr := applyTarget_refFree hA hj hf
  have hn : f.type.slots < 8192 := by rw [← hgt]; exact hsm _ (hA.at.target j i g hj hg).1
  rcases call_intercepted (N := N) (L := L) hA hge hK hsm hlib hj hf ok hs hx d with ⟨hfl, _⟩ | ⟨p, q, l1, hP, hans⟩
  · exact absurd hfl hfull
  refine ⟨l1, hP.alloc.ok, hP.alloc.free, hP.alloc.limit, hP.alloc.room hpg, ?_⟩
  have hrv := LibLink.runtimeValues_ok (W := W) (A := MemoState) (s := s.setLib l1.store) (p := p) hK hP.alloc.ok (Store.getLib_setLib _ _) hr.both hn hP.types hP.types_in
  rw [hH] at hans
  simp only [memoHost, applyAdvice, applyQuestion, RVal.i32, bind, Act.bind, hrv] at hans
  have hinner : Resumed f.type p (if 3 ≤ d then callF N (machineOf H r.module.functions) L (d - 2) (copy + 2 * j) (xs.map .num) (s.setLib l1.store) else .fuel)
      (callF N (machineOf H r.module.functions) L d (copy + 2 * order.length) [.i32 (BitVec.ofNat 32 j), .i32 (BitVec.ofNat 32 p)] (s.setLib l1.store)) := by
    by_cases hd : 3 ≤ d
    · obtain ⟨d', rfl⟩ : ∃ d', d = d' + 3 := ⟨d - 3, by omega⟩
      rw [if_pos hd]
      have := call_resumed (N := N) (L := L) hA hcb hsz hK hlib hj hf hP.alloc.ok (s := s.setLib l1.store) (Store.getLib_setLib _ _) hseg hP.values_in d'
      rw [hP.args] at this
      exact this
    · rw [if_neg hd]
      exact base_shallow (N := N) (L := L) (H := H) hA hcb hsz hj hf (s := s.setLib l1.store) hseg (p := p) (d := d) (by omega)
  have hargs : K.iterate (handle f.type p) (handle f.type p).resc.toInt.toNat (handle f.type p).argc.toInt.toNat (s.setLib l1.store) = .ok xs (s.setLib l1.store) := by
    have h1 : f.type.results.length < 2 ^ 31 := by simp only [FuncType.slots] at hn; omega
    have h2 : f.type.inputs.length < 2 ^ 31 := by simp only [FuncType.slots] at hn; omega
    have := LibLink.iterate_ok (W := W) (A := MemoState) hK hP.alloc.ok (s := s.setLib l1.store) (Store.getLib_setLib _ _) hr.both hn hP.values_in f.type.inputs.length f.type.results.length (by simp only [FuncType.slots]; omega)
    simp only [handle, toInt_small h1, toInt_small h2, Int.toNat_natCast]
    simp only [handle] at this
    rw [this, List.drop_left, List.take_length]
    exact congrArg (Eff.ok · _) hP.args
  have hst : (s.setLib l1.store).world.2.1 = s.world.2.1 := rfl
  have hkey : (⟨BitVec.ofNat 32 i, xs.map bitPattern⟩ : MemoKey) = memoKey i xs := rfl
  have hby : s.world.2.1.bypass (handle f.type p).argc (handle f.type p).resc = s.world.2.1.skips f.type := rfl
  constructor
  · intro hsk ys hfind hty
    have hlen : ys.length = f.type.results.length := mapTypes hty
    obtain ⟨m', e1, o1, _, r1⟩ := Edits.setRess (W := W) (A := MemoState) (p := p) hK hn ys 0 (fun k v hk => by
      rw [Nat.zero_add, ← hty, List.getElem?_map, hk]; rfl) l1 ((s.setLib l1.store).setAnalysis { s.world.2.1 with hits := s.world.2.1.hits + 1 }) hP.alloc.ok rfl hP.values_in
    simp only [memoAdvice, getState, bind, Act.bind, hst, hby, hsk, Bool.false_eq_true, if_false, hargs, hkey, hfind, updateState, e1] at hans
    have ok3 : (⟨l1.free, m'⟩ : Lib).Ok := o1.ok hP.alloc.ok
    have hfin := hans ⟨l1.free, m'⟩ rfl ok3 rfl
    dsimp only at hfin
    rw [r1, setFrom_all (by rw [hlen]; simp [Mem.ress, Mem.vals_length])] at hfin
    refine ⟨⟨l.free, m'⟩, hfin, ⟨⟨?_, ok.free', ok3.pages, ok3.limit⟩, rfl, ?_⟩, ?_⟩
    · have := ok3.free
      have := hP.alloc.free
      dsimp only at *
      omega
    · exact o1.limit.trans hP.alloc.limit
    · dsimp only; rw [o1.pages]; exact hP.alloc.room hpg
  · intro hmiss
    generalize hin : (if 3 ≤ d then callF N (machineOf H r.module.functions) L (d - 2) (copy + 2 * j) (xs.map .num) (s.setLib l1.store) else .fuel) = inner at hinner ⊢
    have hadv : ∀ (e : Eff (World W MemoState) Unit), (∀ v s2, e = .ok v s2 → False) →
        WasmFunction.apply ⟨BitVec.ofNat 32 j, BitVec.ofNat 32 i, BitVec.ofNat 32 p, codePresent f⟩ (copy + 2 * order.length) (callF N (machineOf H r.module.functions) L d) (s.setLib l1.store) = e →
        memoAdvice K ⟨BitVec.ofNat 32 j, BitVec.ofNat 32 i, BitVec.ofNat 32 p, codePresent f⟩
          (WasmFunction.apply ⟨BitVec.ofNat 32 j, BitVec.ofNat 32 i, BitVec.ofNat 32 p, codePresent f⟩ (copy + 2 * order.length) (callF N (machineOf H r.module.functions) L d))
          (handle f.type p) (handle f.type p) (s.setLib l1.store) = e := by
      intro e hne he
      by_cases hsk : s.world.2.1.skips f.type = true
      · simp only [memoAdvice, getState, bind, Act.bind, hst, hby, hsk, if_true, he]
      · have hfind := hmiss.resolve_left hsk
        rw [Bool.not_eq_true] at hsk
        simp only [memoAdvice, getState, bind, Act.bind, hst, hby, hsk, Bool.false_eq_true, if_false, hargs, hkey, hfind, he]
        cases e with
        | ok v s2 => exact (hne v s2 rfl).elim
        | _ => rfl
    cases inner with
    | trap s2 =>
      have happ : WasmFunction.apply ⟨BitVec.ofNat 32 j, BitVec.ofNat 32 i, BitVec.ofNat 32 p, codePresent f⟩ (copy + 2 * order.length) (callF N (machineOf H r.module.functions) L d) (s.setLib l1.store) = .trap s2 := by
        dsimp only [Resumed, RVal.i32] at hinner
        simp only [WasmFunction.apply, bind, Act.bind, RVal.i32, hinner, Res.toEff]
      rw [hadv _ (by simp) happ] at hans
      exact hans
    | fuel =>
      have happ : WasmFunction.apply ⟨BitVec.ofNat 32 j, BitVec.ofNat 32 i, BitVec.ofNat 32 p, codePresent f⟩ (copy + 2 * order.length) (callF N (machineOf H r.module.functions) L d) (s.setLib l1.store) = .fuel := by
        dsimp only [Resumed, RVal.i32] at hinner
        simp only [WasmFunction.apply, bind, Act.bind, RVal.i32, hinner, Res.toEff]
      rw [hadv _ (by simp) happ] at hans
      exact hans
    | stuck =>
      have happ : WasmFunction.apply ⟨BitVec.ofNat 32 j, BitVec.ofNat 32 i, BitVec.ofNat 32 p, codePresent f⟩ (copy + 2 * order.length) (callF N (machineOf H r.module.functions) L d) (s.setLib l1.store) = .stuck := by
        dsimp only [Resumed, RVal.i32] at hinner
        simp only [WasmFunction.apply, bind, Act.bind, RVal.i32, hinner, Res.toEff]
      rw [hadv _ (by simp) happ] at hans
      exact hans
    | ok vs s2 =>
      dsimp only
      intro ys l2 hvs hty hs2 ok2 hf2
      have hin2 : p + 8 * f.type.slots ≤ l2.mem.size := by
        have h1 := hP.alloc.free
        have h2 := ok2.free
        have h3 := hP.p_eq
        split at h3 <;> omega
      obtain ⟨m2, e2, rs2, o2⟩ := hinner.2 ys l2 hvs hty hs2 ok2 hin2
      have ok3 : (⟨l2.free, m2⟩ : Lib).Ok := o2.ok ok2
      have hback : (⟨l.free, m2⟩ : Lib).Ok := by
        refine ⟨?_, ok.free', ok3.pages, ok3.limit⟩
        have := ok3.free
        have := hP.alloc.free
        dsimp only at *
        omega
      have happ : WasmFunction.apply ⟨BitVec.ofNat 32 j, BitVec.ofNat 32 i, BitVec.ofNat 32 p, codePresent f⟩ (copy + 2 * order.length) (callF N (machineOf H r.module.functions) L d) (s.setLib l1.store) =
          .ok () (s2.setLib (⟨l2.free, m2⟩ : Lib).store) := by
        simp only [RVal.i32] at e2
        simp only [WasmFunction.apply, bind, Act.bind, RVal.i32, e2, Res.toEff, pure]
      by_cases hsk : s.world.2.1.skips f.type = true
      · rw [if_pos hsk]
        have : memoAdvice K ⟨BitVec.ofNat 32 j, BitVec.ofNat 32 i, BitVec.ofNat 32 p, codePresent f⟩
          (WasmFunction.apply ⟨BitVec.ofNat 32 j, BitVec.ofNat 32 i, BitVec.ofNat 32 p, codePresent f⟩ (copy + 2 * order.length) (callF N (machineOf H r.module.functions) L d))
          (handle f.type p) (handle f.type p) (s.setLib l1.store) = .ok () (s2.setLib (⟨l2.free, m2⟩ : Lib).store) := by
          simp only [memoAdvice, getState, bind, Act.bind, hst, hby, hsk, if_true, happ]
        rw [this] at hans
        have hfin := hans ⟨l2.free, m2⟩ rfl ok3 hf2
        dsimp only at hfin
        rw [rs2, ← hvs] at hfin
        exact ⟨⟨l.free, m2⟩, hfin, hback, rfl, o2.limit, o2.pages⟩
      · rw [if_neg hsk]
        have hfind := hmiss.resolve_left hsk
        rw [Bool.not_eq_true] at hsk
        have h1 : f.type.results.length < 2 ^ 31 := by simp only [FuncType.slots] at hn; omega
        have hres : K.iterate (handle f.type p) 0 (handle f.type p).resc.toInt.toNat (s2.setLib (⟨l2.free, m2⟩ : Lib).store) = .ok ys (s2.setLib (⟨l2.free, m2⟩ : Lib).store) := by
          have := LibLink.iterate_ok (W := W) (A := MemoState) hK ok3 (s := s2.setLib (⟨l2.free, m2⟩ : Lib).store) (Store.getLib_setLib _ _) hr.both hn (p := p) (by dsimp only; rw [o2.size]; exact hin2) f.type.results.length 0 (by simp only [FuncType.slots]; omega)
          simp only [handle, toInt_small h1, Int.toNat_natCast]
          simp only [handle] at this
          rw [this, List.drop_zero, List.take_left]
          exact congrArg (Eff.ok · _) rs2
        have hlen : ys.length = (handle f.type p).resc.toInt.toNat := by
          simp only [handle, toInt_small h1, Int.toNat_natCast]; exact mapTypes hty
        have hst2 : (s2.setLib (⟨l2.free, m2⟩ : Lib).store).world.2.1 = s2.world.2.1 := rfl
        cases hins : s2.world.2.1.insert (memoKey i xs) ys with
        | none =>
          simp only [memoAdvice, getState, bind, Act.bind, hst, hby, hsk, Bool.false_eq_true, if_false, hargs, hkey, hfind, happ, LibLink.cacheInsert, hres, hlen, ne_eq, not_true, hst2, hins, Act.panic] at hans
          exact ⟨_, hans⟩
        | some c' =>
          simp only [memoAdvice, getState, bind, Act.bind, hst, hby, hsk, Bool.false_eq_true, if_false, hargs, hkey, hfind, happ, LibLink.cacheInsert, hres, hlen, ne_eq, not_true, hst2, hins, updateState] at hans
          have hfin := hans ⟨l2.free, m2⟩ rfl ok3 hf2
          dsimp only at hfin
          rw [rs2, ← hvs] at hfin
          exact ⟨⟨l.free, m2⟩, hfin, hback, rfl, o2.limit, o2.pages⟩

end

end Wastrum
