import Verif.ApplyRun
/-!
# Calls of intercepted functions in the linked program

What the instrumented module consists of when function application is instrumented, and what calling its functions does when it
is linked with the generated stack library.
-/

set_option linter.unusedSimpArgs false
set_option linter.unusedVariables false

namespace Wastrum

variable {W A : Type}

/-- The imports from the stack library are provided by the library. -/
def HasLib (K : LibLink) (H : Imports (World W A)) : Prop := ∀ name, H stackModule name = libHost K.N K.sigs K.L K.d name

/-- The tables hold what the element segments added by the tool put into them. -/
def SegmentsIntact (m : Module) (r : Instrumented) (s : Store W) : Prop :=
  ∀ el ∈ r.module.elements.drop m.elements.length, ∀ tbl, el.mode = .active tbl [.const (.i32 0), .fin] →
    ∀ (k f : Nat), el.init[k]? = some [.refFunc f, .fin] → ∃ T, s.tables[tbl]? = some T ∧ T.elems[k]? = some (some f)

/-- What an instrumented module with intercepted function applications consists of. `order` lists the intercepted functions in
the order in which they are processed, `fs` are the functions before that. -/
structure Applied (C : Checker) (iface : Interface) (ts : Option (List Nat)) (m : Module) (r : Instrumented) (ge : WasmExport) (cb : WasmImport)
    (order : List Nat) (fs : List Func) (sigs : List FuncType) (hooks : FuncType → StackHooks) (copy : Nat) : Prop where
  nodup : order.Nodup
  mem : ∀ i, i ∈ order ↔ i ∈ applyTargets m ts
  count : order.length ≤ m.functions.length
  bodies : ∃ targets bs, (∀ i, i ∈ targets ↔ i ∈ bodyTargets m ts) ∧ BodiesDesc C iface targets m fs bs
  raised : ∀ i ∈ bodyTargets m ts, raiseTarget C m i = .ok (bodyOf C m i)
  without : ∃ r0, Instruments C { iface with generic := none } ts m r0 ∧ r0.module = { m with functions := fs ++ memoryFunctions m.memories.isEmpty }
  desc : ∃ m2, ApplyDesc order ge cb { m with functions := fs } m2 sigs hooks copy ∧
    r.module = { m2 with functions := m2.functions ++ memoryFunctions m.memories.isEmpty }
  sigs_eq : r.librarySignatures = some sigs

theorem installHooks_generic (iface : Interface) (g) : ∀ (ts : List (Trap × TargetKind)) (fs : List Func),
    installHooks { iface with generic := g } ts fs = installHooks iface ts fs := by
  intro ts
  induction ts with
  | nil => intro fs; rfl
  | cons p ts ih =>
    intro fs
    obtain ⟨t, k⟩ := p
    simp only [installHooks, ih]

theorem applied {C iface ts m r ge cb} (hs : SmallModule m) (h : Instruments C iface ts m r) (hg : iface.generic = some (ge, cb)) :
    ∃ order fs sigs hooks copy, Applied C iface ts m r ge cb order fs sigs hooks copy := by
  obtain ⟨ord, ord', ho, ho', h⟩ := h
  obtain ⟨hmem, hraised, fs, bs, hb, hd, _, happ⟩ := instrument_desc' ho ho' hs h
  obtain ⟨m2, sigs, hooks, copy, ha, hsig, hr⟩ := happ ge cb hg
  refine ⟨ord' (applyTargets m ts), fs, sigs, hooks, copy, (ho' _).nodup_iff.2 (applyTargets_nodup m ts), fun i => (ho' _).mem_iff, ?_,
    ⟨_, bs, fun i => (ho _).mem_iff, hd⟩, hraised, ?_, ⟨m2, ha, hr⟩, hsig⟩
  · rw [(ho' _).length_eq]
    unfold applyTargets
    refine Nat.le_trans (List.length_filter_le _ _) ?_
    rw [List.length_map]
    exact Nat.le_trans (List.length_filter_le _ _) (by simp)
  have hb' : instrumentBodies C { iface with generic := none } (ord (bodyTargets m ts)) m = .ok fs := by
    rw [← hb]
    simp only [instrumentBodies, installHooks_generic]
  refine ⟨⟨{ m with functions := fs ++ memoryFunctions m.memories.isEmpty }, none⟩, ⟨ord, ord', ho, ho', ?_⟩, rfl⟩
  unfold instrument
  simp only [hb', bind, Except.bind, injectMemory_eq, hmem, if_true, pure, Except.pure]

section
variable {C : Checker} {iface : Interface} {ts : Option (List Nat)} {m : Module} {r : Instrumented} {ge : WasmExport} {cb : WasmImport}
  {order : List Nat} {fs : List Func} {sigs : List FuncType} {hooks : FuncType → StackHooks} {copy : Nat}

theorem Applied.own (hA : Applied C iface ts m r ge cb order fs sigs hooks copy) {i : Nat} {f : Func} (hf : m.functions[i]? = some f) :
    ∃ g, fs[i]? = some g ∧ g.type = f.type ∧ codePresent g = codePresent f := by
  obtain ⟨targets, bs, ht, hd⟩ := hA.bodies
  have h1 := hd.own i (List.getElem?_eq_some_iff.1 hf).1
  rw [hf, Option.map_some] at h1
  refine ⟨_, h1, ?_, ?_⟩
  · split
    · exact withBody_type _ _
    · rfl
  · split
    · cases hc : f.code <;> simp [Func.withBody, codePresent, Func.hasCode, hc]
    · rfl

theorem Applied.length_le (hA : Applied C iface ts m r ge cb order fs sigs hooks copy) : m.functions.length ≤ fs.length := by
  obtain ⟨targets, bs, ht, hd⟩ := hA.bodies
  have := hd.length
  omega

/-- The functions of the instrumented module that function application is responsible for. -/
structure AppliedAt (m : Module) (r : Instrumented) (ge : WasmExport) (cb : WasmImport) (order : List Nat) (fs : List Func) (sigs : List FuncType)
    (hooks : FuncType → StackHooks) (copy : Nat) : Prop where
  generic : r.module.functions[fs.length]? = some (genericApplyImport ge)
  callBase : r.module.functions[copy + 2 * order.length]? = some (callBaseFunc cb m.tables.length)
  stack : ∀ (k : Nat) f, fs.length < k → k < copy → r.module.functions[k]? = some f → ∃ ty name, f = stackImport ty name
  length : r.module.functions.length = copy + 2 * order.length + 1 + (memoryFunctions m.memories.isEmpty).length
  copy_gt : fs.length < copy
  untouched : ∀ (i : Nat) f, i ∉ order → fs[i]? = some f → r.module.functions[i]? = some f
  last : ∀ (k : Nat) f, copy + 2 * order.length < k → r.module.functions[k]? = some f → f ∈ memoryFunctions m.memories.isEmpty
  target : ∀ (j i : Nat) f, order[j]? = some i → fs[i]? = some f → f.type ∈ sigs ∧
    Linked fs.length r.module.functions f.type (hooks f.type) ∧
    r.module.functions[i]? = some (trampolineFunc f (hooks f.type) fs.length j i) ∧
    r.module.functions[copy + 2 * j]? = some { f with exports := [] } ∧
    r.module.functions[copy + 2 * j + 1]? = some (applyFunc (hooks f.type) (copy + 2 * j))
  intact : ∀ {W : Type} {s : Store W}, SegmentsIntact m r s → order ≠ [] → ∃ T, s.tables[m.tables.length]? = some T ∧
    ∀ j < order.length, T.elems[j]? = some (some (copy + 2 * j + 1))

theorem Applied.at (hA : Applied C iface ts m r ge cb order fs sigs hooks copy) : AppliedAt m r ge cb order fs sigs hooks copy := by
  obtain ⟨m2, ha, hr⟩ := hA.desc
  have hlen := ha.length
  have hup : ∀ (k : Nat) f, m2.functions[k]? = some f → r.module.functions[k]? = some f := by
    intro k f hf
    rw [hr]
    dsimp only
    rw [List.getElem?_append_left (List.getElem?_eq_some_iff.1 hf).1]; exact hf
  have hdown : ∀ (k : Nat) f, k < m2.functions.length → r.module.functions[k]? = some f → m2.functions[k]? = some f := by
    intro k f hk hf
    rw [hr] at hf
    dsimp only at hf
    rwa [List.getElem?_append_left hk] at hf
  have hgt := ha.copy_ge
  have heq := ha.copy_eq
  dsimp only at hgt heq
  refine ⟨hup _ _ ha.generic, hup _ _ ha.callBase, ?_, ?_, hgt, fun i f hi hf => hup _ _ (ha.untouched i f hi hf), ?_, ?_, ?_⟩
  · intro k f h1 h2 hf
    have hk := hdown k f (by omega) hf
    obtain ⟨g, hg⟩ : ∃ g, (sigs.flatMap stackImports)[k - (fs.length + 1)]? = some g := ⟨_, List.getElem?_eq_getElem (by omega)⟩
    have := ha.imports _ g hg
    dsimp only at this
    rw [show fs.length + 1 + (k - (fs.length + 1)) = k by omega, hk, Option.some.injEq] at this
    subst this
    obtain ⟨t, _, hm⟩ := List.mem_flatMap.1 (List.mem_of_getElem? hg)
    simp only [stackImports, List.mem_append, List.mem_cons, List.mem_mapIdx, List.not_mem_nil, or_false] at hm
    rcases hm with (((((rfl | rfl | rfl | rfl) | ⟨_, _, rfl⟩) | ⟨_, _, rfl⟩) | ⟨_, _, rfl⟩) | ⟨_, _, rfl⟩) | rfl <;> exact ⟨_, _, rfl⟩
  · rw [hr]; dsimp only; rw [List.length_append, hlen]
  · intro k f hk hf
    rw [hr] at hf
    dsimp only at hf
    rw [List.getElem?_append_right (by omega)] at hf
    exact List.mem_of_getElem? hf
  · intro j i f hj hf
    obtain ⟨h1, h2, h3, h4⟩ := ha.target j i f hj hf
    refine ⟨(ha.sigs_iff _).2 ⟨i, List.mem_of_getElem? hj, f, hf, rfl⟩, ?_, hup _ _ h2, hup _ _ h3, hup _ _ h4⟩
    exact h1.mono fun k ty name h => ⟨h.1, hup _ _ h.2⟩
  · intro W s hi hne
    have hel : r.module.elements.drop m.elements.length = [⟨.funcRef, (List.range order.length).map fun j => [.refFunc (copy + 2 * j + 1), .fin],
        .active m.tables.length [.const (.i32 0), .fin]⟩] := by
      rw [hr]; dsimp only; rw [ha.elements]; dsimp only; rw [List.drop_left]
    have := hi _ (by rw [hel]; exact List.mem_singleton.2 rfl) m.tables.length rfl
    have hz : 0 < order.length := List.length_pos_iff.2 hne
    obtain ⟨T, hT, _⟩ := this 0 (copy + 1) (by simp [hz])
    refine ⟨T, hT, fun j hj => ?_⟩
    obtain ⟨T', hT', h'⟩ := this j (copy + 2 * j + 1) (by simp [hj])
    rw [hT, Option.some.injEq] at hT'
    subst hT'
    exact h'

/-! ## Calls -/

variable {K : LibLink} {H : Imports (World W A)} {N : Num} {L : Nat}

theorem wired (hlib : HasLib K H) (fs : List Func) (d : Nat) : Wired K fs (envAt N (machineOf H fs) L (d + 1)) where
  ftype k f hf := by simp [envAt, machineOf, hf]
  call k ty name args s hk := by
    simp only [envAt, callF, machineOf, hk, Option.map_some, implOf, stackImport, hlib name, libHost]

/-- Calling a function with code. -/
theorem callF_code {fs : List Func} {k : Nat} {f : Func} {c : Code} (hk : fs[k]? = some f) (hc : f.code = .present c) (d : Nat) (args : List RVal) (s : Store W) (H : Imports W) :
    callF N (machineOf H fs) L (d + 1) k args s = runBody f.type c.locals (denFlat (envAt N (machineOf H fs) L d) c.body) args s := by
  simp only [callF, machineOf, hk, Option.map_some, implOf, hc, envAt]

/-- Calling an imported function. -/
theorem callF_import {fs : List Func} {k : Nat} {f : Func} {ns name : String} (hk : fs[k]? = some f) (hc : f.code = .imported ns name) (d : Nat) (args : List RVal) (s : Store W) (H : Imports W) :
    callF N (machineOf H fs) L (d + 1) k args s = H ns name (callF N (machineOf H fs) L d) args s := by
  simp only [callF, machineOf, hk, Option.map_some, implOf, hc]

/-- How the outcome `run` of resuming a call relates to the outcome `inner` of the function resumed: its results are put into the
buffer at `p`; traps propagate. (Functions of valid modules return values of the right types.) -/
def Resumed (t : FuncType) (p : Nat) (inner run : Res (World W A)) : Prop :=
  match inner with
  | .ok vs s2 => (vs.map RVal.type ≠ t.results → run = .stuck) ∧ ∀ (xs : List Val) (l2 : Lib), vs = xs.map .num → xs.map Val.type = t.results → s2.getLib = l2.store → l2.Ok → p + 8 * t.slots ≤ l2.mem.size →
      ∃ m', run = .ok [] (s2.setLib (⟨l2.free, m'⟩ : Lib).store) ∧ m'.ress t p = xs ∧ l2.mem.OnlyIn m' p (p + 8 * t.results.length)
  | .trap s2 => run = .trap s2
  | .fuel => run = .fuel
  | .stuck => run = .stuck

/-- How the outcome `run` of a call relates to the outcome `asked` of asking the analysis: the results are those in the buffer at
`p` when the analysis returns, and the library's free pointer is set back to `free`; traps propagate. -/
def Answered (t : FuncType) (p : Nat) (free : Nat) (l1 : Lib) (asked run : Res (World W A)) : Prop :=
  match asked with
  | .ok [] s2 => ∀ (l2 : Lib), s2.getLib = l2.store → l2.Ok → l2.free = l1.free →
      run = .ok ((l2.mem.ress t p).map .num) (s2.setLib (⟨free, l2.mem⟩ : Lib).store)
  | .ok (_ :: _) _ => run = .stuck
  | .trap s2 => run = .trap s2
  | .fuel => run = .fuel
  | .stuck => run = .stuck

theorem applyTarget_refFree (hA : Applied C iface ts m r ge cb order fs sigs hooks copy) {j i : Nat} {f : Func} (hj : order[j]? = some i) (hf : m.functions[i]? = some f) :
    f.type.RefFree := by
  obtain ⟨f', hf', hu, _⟩ := mem_applyTargets.1 ((hA.mem i).1 (List.mem_of_getElem? hj))
  rw [hf, Option.some.injEq] at hf'
  subst hf'
  exact usesReferenceTypes_false.1 hu

/-- Calling an intercepted function. -/
theorem call_intercepted (hA : Applied C iface ts m r ge cb order fs K.sigs hooks copy) (hge : ge.args = [.i32, .i32, .i32, .i32, .i32, .i32, .i32] ∧ ge.results = [])
    (hK : K.Good) (hsm : SmallSigs K.sigs) (hlib : HasLib K H) {j i : Nat} {f : Func} (hj : order[j]? = some i) (hf : m.functions[i]? = some f)
    {l : Lib} (ok : l.Ok) {s : Store (World W A)} (hs : s.getLib = l.store) {xs : List Val} (hx : xs.map Val.type = f.type.inputs) (d : Nat) :
    let run := callF N (machineOf H r.module.functions) L (d + 2) i (xs.map .num) s
    (Full l (12 * f.type.slots) ∧ ∃ l' : Lib, run = .trap (s.setLib l'.store) ∧ l'.Ok ∧ l'.mem.limit = l.mem.limit) ∨
    ∃ p q l1, Prepared l f.type xs p q l1 ∧ Answered f.type p l.free l1
      (H analysisModule ge.name (callF N (machineOf H r.module.functions) L d) (applyQuestion j i f.type p q (codePresent f)) (s.setLib l1.store)) run := by
  intro run
  obtain ⟨g, hg, hgt, hgp⟩ := hA.own hf
  obtain ⟨hmem, hlk, htr, hcp, hap⟩ := hA.at.target j i g hj hg
  have hr := applyTarget_refFree hA hj hf
  have hW := wired (N := N) (L := L) hlib r.module.functions d
  have hgen := hA.at.generic
  have hrun : run = runBody g.type [.i32, .i32] (denFlat (envAt N (machineOf H r.module.functions) L (d + 1)) (applyTrampoline g.type (hooks g.type) fs.length (BitVec.ofNat 32 j) (BitVec.ofNat 32 i)
      (BitVec.ofNat 32 g.type.inputs.length) (BitVec.ofNat 32 g.type.results.length) (codePresent g))) (xs.map .num) s := callF_code htr rfl (d + 1) _ _ _
  rw [← hgt] at hr hx ⊢
  have hga : (envAt N (machineOf H r.module.functions) L (d + 1)).ftype fs.length = some ⟨[.i32, .i32, .i32, .i32, .i32, .i32, .i32], []⟩ := by
    rw [hW.ftype _ _ hgen]; simp [genericApplyImport, hge.1, hge.2]
  have hcall : ∀ args s, (envAt N (machineOf H r.module.functions) L (d + 1)).callF fs.length args s = H analysisModule ge.name (callF N (machineOf H r.module.functions) L d) args s :=
    fun args s => callF_import (ns := analysisModule) (name := ge.name) hgen rfl d args s H
  have := run_trampoline hW hK hmem hr (hsm _ hmem) hlk hga j i (codePresent g) ok hs hx
  dsimp only at this
  rw [← hrun] at this
  simp only [hcall, hgp] at this
  rcases this with h | ⟨p, q, l1, hP, h1, h2, h3, h4, h5⟩
  · exact .inl h
  · refine .inr ⟨p, q, l1, hP, ?_⟩
    unfold Answered
    split
    · rename_i s2 he; exact fun l2 a b c => h1 s2 l2 he a b c
    · rename_i v vs s2 he; exact h5 v vs s2 he
    · rename_i s2 he; exact h2 s2 he
    · rename_i he; exact h3 he
    · rename_i he; exact h4 he

/-- Resuming an intercepted call. -/
theorem call_resumed (hA : Applied C iface ts m r ge cb order fs K.sigs hooks copy) (hcb : cb.args = [.i32, .i32] ∧ cb.results = [])
    (hsz : order.length < 2 ^ 32) (hK : K.Good) (hlib : HasLib K H) {j i : Nat} {f : Func} (hj : order[j]? = some i) (hf : m.functions[i]? = some f)
    {l : Lib} (ok : l.Ok) {s : Store (World W A)} (hs : s.getLib = l.store) (hseg : SegmentsIntact m r s) {p : Nat} (hin : p + 8 * f.type.slots ≤ l.mem.size) (d : Nat) :
    Resumed f.type p (callF N (machineOf H r.module.functions) L (d + 1) (copy + 2 * j) ((l.mem.args f.type p).map .num) s)
      (callF N (machineOf H r.module.functions) L (d + 3) (copy + 2 * order.length) [.i32 (BitVec.ofNat 32 j), .i32 (BitVec.ofNat 32 p)] s) := by
  obtain ⟨g, hg, hgt, hgp⟩ := hA.own hf
  obtain ⟨hmem, hlk, htr, hcp, hap⟩ := hA.at.target j i g hj hg
  have hr := applyTarget_refFree hA hj hf
  have hjl := (List.getElem?_eq_some_iff.1 hj).1
  obtain ⟨T, hT, hel⟩ := hA.at.intact hseg (by intro e; simp [e] at hjl)
  rw [← hgt] at hr hin ⊢
  let E0 := envAt N (machineOf H r.module.functions) L (d + 1)
  let E1 := envAt N (machineOf H r.module.functions) L (d + 2)
  have hW : Wired K r.module.functions E0 := wired hlib r.module.functions d
  have hW1 : Wired K r.module.functions E1 := wired hlib r.module.functions (d + 1)
  have hbase : callF N (machineOf H r.module.functions) L (d + 3) (copy + 2 * order.length) [.i32 (BitVec.ofNat 32 j), .i32 (BitVec.ofNat 32 p)] s =
      runBody ⟨[.i32, .i32], []⟩ [] (denFlat E1 (callBaseBody m.tables.length)) [.i32 (BitVec.ofNat 32 j), .i32 (BitVec.ofNat 32 p)] s := by
    have := callF_code (N := N) (L := L) hA.at.callBase (c := ⟨[], callBaseBody m.tables.length⟩) rfl (d + 2) [.i32 (BitVec.ofNat 32 j), .i32 (BitVec.ofNat 32 p)] s H
    rw [this]
    simp only [callBaseFunc, hcb.1, hcb.2]
    rfl
  have hjb : (BitVec.ofNat 32 j).toNat = j := by rw [BitVec.toNat_ofNat, Nat.mod_eq_of_lt (by omega)]
  rw [hbase, run_callBase hT (k := copy + 2 * j + 1) (by rw [hjb]; exact hel j hjl) (by rw [hW1.ftype _ _ hap]; rfl) rfl]
  have happ : E1.callF (copy + 2 * j + 1) [.i32 (BitVec.ofNat 32 p)] s =
      runBody ⟨[.i32], []⟩ [.i32] (denFlat E0 (baseApplyBody (hooks g.type) (copy + 2 * j))) [.i32 (BitVec.ofNat 32 p)] s :=
    callF_code (N := N) (L := L) hap (c := ⟨[.i32], baseApplyBody (hooks g.type) (copy + 2 * j)⟩) rfl (d + 1) _ s H
  rw [happ]
  obtain ⟨h1, h2, h3, h4, h5⟩ := run_applyFunc hW hK hmem hr hlk (un := copy + 2 * j) (by rw [hW.ftype _ _ hcp]) ok hs hin
  have hE : E0.callF (copy + 2 * j) = callF N (machineOf H r.module.functions) L (d + 1) (copy + 2 * j) := rfl
  rw [hE] at h1 h2 h3 h4 h5
  cases hc : callF N (machineOf H r.module.functions) L (d + 1) (copy + 2 * j) ((l.mem.args g.type p).map .num) s with
  | ok vs s2 =>
    simp only [Resumed]
    refine ⟨fun hne => by rw [h2 vs s2 hc hne], ?_⟩
    rintro xs l2 rfl hxs hs2 ok2 hin2
    rw [h1 xs s2 l2 hc hxs hs2 ok2 hin2]
    refine ⟨_, rfl, ?_, ?_⟩
    · have := Mem.vals_puts l2.mem p 0 xs
      rw [hxs] at this
      exact this
    · have := Mem.puts_onlyIn l2.mem p 8 (xs.map Val.bits)
      rw [List.length_map, mapTypes hxs] at this
      exact this
  | trap s2 => simp only [Resumed]; rw [h3 s2 hc]
  | fuel => simp only [Resumed]; rw [h4 hc]
  | stuck => simp only [Resumed]; rw [h5 hc]

end

end Wastrum
