/-
Supporting lemmas for C23: a program whose calls are intercepted by an analysis that resumes them runs in step with the
original program.
-/
import Verif.ApplyThms
import Verif.Balance
import Verif.TransparencyThms

set_option linter.unusedSimpArgs false
set_option linter.unusedVariables false

namespace Wastrum

variable {W A : Type}

/-! ## Vocabulary -/

/-- The state in which the analysis has state `a`. -/
def Store.setAnalysis (s : Store (World W A)) (a : A) : Store (World W A) := { s with world := (s.world.1, a, s.world.2.2) }

/-- A piece of the analysis' code, run on the buffers (`p` for the values, `q` for the types) of a call of a function of type `t`, that only
looks: it may read what it likes and change the analysis' own state, but changes nothing else and returns. -/
def Looks {α : Type} (t : FuncType) (p q : Nat) (act : Act (World W A) α) : Prop :=
  ∀ (l : Lib) (s : Store (World W A)), l.Ok → s.getLib = l.store → p + 8 * t.slots ≤ l.mem.size → q + 4 * t.slots ≤ l.mem.size →
    ∃ x a, act s = .ok x (s.setAnalysis a)

/-- The answer of an exported function without results. -/
def Eff.done {W α : Type} : Eff W α → Res W
  | .ok _ s => .ok [] s
  | .trap s => .trap s
  | .stuck => .stuck
  | .fuel => .fuel

/-- An `apply` advice that runs `pre`, resumes the call and runs `post`; both may look at the function and at the buffers. -/
def SurroundsEach (base : Nat) (pre post : WasmFunction → FuncType → Nat → Nat → Act (World W A) Unit) (advice : Host (World W A)) : Prop :=
  ∀ (call : Nat → List RVal → Store (World W A) → Res (World W A)) (t : FuncType) (j i p q : Nat) (present : BitVec 32) (l l1 : Lib) (xs : List Val) (s : Store (World W A)),
    t.RefFree → t.slots < 8192 → Prepared l t xs p q l1 → s.getLib = l1.store →
    advice call (applyQuestion j i t p q present) s =
      ((do pre ⟨BitVec.ofNat 32 j, BitVec.ofNat 32 i, BitVec.ofNat 32 p, present⟩ t p q
           WasmFunction.apply ⟨BitVec.ofNat 32 j, BitVec.ofNat 32 i, BitVec.ofNat 32 p, present⟩ base call
           post ⟨BitVec.ofNat 32 j, BitVec.ofNat 32 i, BitVec.ofNat 32 p, present⟩ t p q : Act (World W A) Unit) s).done

/-- An `apply` advice that runs `pre`, resumes the call and runs `post`, whatever the function. -/
abbrev Surrounds (base : Nat) (pre post : FuncType → Nat → Nat → Act (World W A) Unit) (advice : Host (World W A)) : Prop :=
  SurroundsEach base (fun _ => pre) (fun _ => post) advice

/-- `around` does. -/
theorem around_surrounds {K : LibLink} (hK : K.Good) (base : Nat) (pre post : RuntimeValues → RuntimeValues → Act (World W A) Unit) :
    Surrounds base (fun t p _ => pre (handle t p) (handle t p)) (fun t p _ => post (handle t p) (handle t p)) (around K base pre post) := by
  intro call t j i p q present l l1 xs s hr hn hP hs
  have hrv := LibLink.runtimeValues_ok (W := W) (A := A) (s := s) (p := p) hK hP.alloc.ok hs hr.both hn hP.types hP.types_in
  have e : ∀ body : RuntimeValues → RuntimeValues → Act (World W A) Unit,
      (do let args ← K.runtimeValues (BitVec.ofNat 32 t.inputs.length) (BitVec.ofNat 32 t.results.length) (BitVec.ofNat 32 p) (BitVec.ofNat 32 q)
          let ress ← K.runtimeValues (BitVec.ofNat 32 t.inputs.length) (BitVec.ofNat 32 t.results.length) (BitVec.ofNat 32 p) (BitVec.ofNat 32 q)
          body args ress : Act (World W A) Unit) s = body (handle t p) (handle t p) s := by
    intro body
    simp only [bind, Act.bind, hrv]
  simp only [around, applyAdvice, applyQuestion, RVal.i32]
  rw [e]
  generalize (do pre (handle t p) (handle t p); _ : Act (World W A) Unit) s = x
  cases x <;> rfl

/-- Program states agree, and the states of the analysis and of the stack library satisfy `I`; `T` and `X` are the tables and element segments
the tool has added. After a trap, program states agree and nothing is said about the stack library. The instrumented program may trap on its own
with the analysis in a state that satisfies `TR`. With `tl`, nothing is claimed once the original has trapped. -/
def besideLib (Γ : Ctx) (T : List Table) (X : List (RefType × List (Option Nat))) (I : A → Store Unit → Prop) (TR : A → Prop) (fl fr : Bool) (tl : Bool := false) :
    Rel W (World W A) :=
  ⟨SameState Γ T X (fun w w' => w = w'.1 ∧ I w'.2.1 w'.2.2), fl, fr, tl, SameState Γ T X (fun w w' => w = w'.1), fun s' => TR s'.world.2.1⟩

theorem besideLib_S (Γ : Ctx) (T : List Table) (X : List (RefType × List (Option Nat))) (I : A → Store Unit → Prop) (TR : A → Prop) (fl fr : Bool) (tl : Bool := false) :
    (besideLib (W := W) (A := A) Γ T X I TR fl fr tl).S = SameState Γ T X (fun w w' => w = w'.1 ∧ I w'.2.1 w'.2.2) := rfl

/-- Nothing. -/
abbrev never (_ : A) : Prop := False

theorem tables_length {m : Module} {s : Store W} (h : StoreOK m.ctx s) : s.tables.length = m.tables.length := by
  have := congrArg List.length h.tables
  simpa [Module.ctx] using this

/-- The stack allocator is at `F`. -/
def LibAt (F M : Nat) (st : Store Unit) : Prop := ∃ l : Lib, st = l.store ∧ l.Ok ∧ l.free = F ∧ l.mem.limit = M ∧ l.mem.pages < 65536

/-! ## One call -/

section
variable {C : Checker} {iface : Interface} {ts : Option (List Nat)} {m : Module} {r : Instrumented} {ge : WasmExport} {cb : WasmImport}
  {order : List Nat} {fs : List Func} {hooks : FuncType → StackHooks} {copy : Nat} {K : LibLink} {H : Imports (World W A)} {N : Num} {L : Nat}

theorem envAt_types (fs : List Func) (d : Nat) (H : Imports W) : (envAt N (machineOf H fs) L d).ftype = fun k => fs[k]?.map (·.type) := by
  funext k
  simp only [envAt, machineOf, Option.map_map]
  rfl

/-- The function that resumes a call, with no call depth left. -/
theorem applyBody_shallow {H : Imports (World W A)} {fs' : List Func} {lo : Nat} {t : FuncType} {hk : StackHooks} (hlk : Linked lo fs' t hk)
    {un : Nat} {f : Func} (hcp : fs'[un]? = some f) (hft : f.type = t) {p : RVal} (hp : p.type = .i32) {s : Store (World W A)} :
    runBody ⟨[.i32], []⟩ [.i32] (denFlat (envAt N (machineOf H fs') L 0) (baseApplyBody hk un)) [p] s = .fuel := by
  have hcode : denFlat (envAt N (machineOf H fs') L 0) (baseApplyBody hk un) =
      runs (envAt N (machineOf H fs') L 0) (.loc .get 0 :: ((hk.argLoad.flatMap fun l => [Basic.loc .get 0, .call l]) ++ [.call un, .call hk.retStoreAll])) := by
    funext c
    rw [← denFlat_straight]
    congr 1
    simp [baseApplyBody, flatMap_toL, Basic.toL]
  rw [runBody_eq, hcode]
  show (runs _ _ ⟨[], [p, .i32 0], s⟩).result 0 = .fuel
  rw [runs_get (v := p) rfl]
  have hlen := hlk.argLoadLen
  cases hl : hk.argLoad with
  | nil =>
    have hin : t.inputs = [] := by
      rw [hl] at hlen
      exact List.length_eq_zero_iff.1 hlen.symm
    have hty : (envAt N (machineOf H fs') L 0).ftype un = some t := by
      rw [envAt_types]; simp only [hcp, Option.map_some, hft]
    have := runs_call (bs := [.call hk.retStoreAll]) (args := []) (st := [p]) (lo := [p, .i32 0]) (s := s) hty (by rw [hin]; rfl)
    simp only [List.flatMap_nil, List.nil_append, List.reverse_nil] at this ⊢
    rw [this]
    rfl
  | cons k ks =>
    rw [hl] at hlen
    cases hi : t.inputs with
    | nil => rw [hi] at hlen; simp at hlen
    | cons v vs =>
      have hk0 := (hlk.argLoad 0 v k (by rw [hi]; rfl) (by rw [hl]; rfl)).2
      have hty : (envAt N (machineOf H fs') L 0).ftype k = some ⟨[.i32], [v]⟩ := by
        rw [envAt_types]; simp only [hk0, Option.map_some, stackImport]
      simp only [List.flatMap_cons, List.cons_append, List.nil_append, List.append_assoc]
      rw [runs_get (v := p) rfl]
      have := runs_call (bs := (ks.flatMap fun l => [Basic.loc .get 0, .call l]) ++ [.call un, .call hk.retStoreAll]) (args := [p]) (st := [p]) (lo := [p, .i32 0]) (s := s) hty (by simp [hp])
      simp only [List.reverse_cons, List.reverse_nil, List.nil_append, List.cons_append] at this
      rw [this]
      rfl

/-- What the interception of a call amounts to when the analysis looks, resumes and looks again. -/
theorem call_looked (hA : Applied C iface ts m r ge cb order fs K.sigs hooks copy) (hge : ge.args = [.i32, .i32, .i32, .i32, .i32, .i32, .i32] ∧ ge.results = [])
    (hcb : cb.args = [.i32, .i32] ∧ cb.results = []) (hsz : order.length < 2 ^ 32)
    (hK : K.Good) (hsm : SmallSigs K.sigs) (hlib : HasLib K H) {pre post : WasmFunction → FuncType → Nat → Nat → Act (World W A) Unit}
    (hH : SurroundsEach (copy + 2 * order.length) pre post (H analysisModule ge.name))
    {j i : Nat} {f : Func} (hj : order[j]? = some i) (hf : m.functions[i]? = some f)
    (hpre : ∀ w p q, Looks f.type p q (pre w f.type p q)) (hpost : ∀ w p q, Looks f.type p q (post w f.type p q))
    {l : Lib} (ok : l.Ok) {s : Store (World W A)} (hs : s.getLib = l.store) (hseg : SegmentsIntact m r s) {xs : List Val} (hx : xs.map Val.type = f.type.inputs)
    (hfull : ¬ Full l (12 * f.type.slots)) (hpg : l.mem.pages < 65536) (d : Nat) :
    ∃ (lc : Lib) (a : A), lc.Ok ∧ lc.free = l.free + 12 * f.type.slots ∧ lc.mem.limit = l.mem.limit ∧ lc.mem.pages < 65536 ∧
      match callF N (machineOf H r.module.functions) L (d + 1) (copy + 2 * j) (xs.map .num) ((s.setAnalysis a).setLib lc.store) with
      | .ok vs s2 => ∀ (ys : List Val) (l2 : Lib), vs = ys.map .num → ys.map Val.type = f.type.results → s2.getLib = l2.store → l2.Ok → l2.free = lc.free →
          ∃ (l3 : Lib) (a' : A), callF N (machineOf H r.module.functions) L (d + 5) i (xs.map .num) s = .ok vs ((s2.setAnalysis a').setLib l3.store) ∧ l3.Ok ∧ l3.free = l.free ∧
            l3.mem.limit = l2.mem.limit ∧ l3.mem.pages = l2.mem.pages
      | .trap s2 => callF N (machineOf H r.module.functions) L (d + 5) i (xs.map .num) s = .trap s2
      | .fuel => callF N (machineOf H r.module.functions) L (d + 5) i (xs.map .num) s = .fuel
      | .stuck => callF N (machineOf H r.module.functions) L (d + 5) i (xs.map .num) s = .stuck := by
  obtain ⟨g, hg, hgt, hgp⟩ := hA.own hf
  have hr := applyTarget_refFree hA hj hf
  have hn : f.type.slots < 8192 := by rw [← hgt]; exact hsm _ (hA.at.target j i g hj hg).1
  rcases call_intercepted (N := N) (L := L) hA hge hK hsm hlib hj hf ok hs hx (d + 3) with ⟨hfl, _⟩ | ⟨p, q, l1, hP, hans⟩
  · exact absurd hfl hfull
  obtain ⟨⟨⟩, a, e1⟩ := hpre ⟨BitVec.ofNat 32 j, BitVec.ofNat 32 i, BitVec.ofNat 32 p, codePresent f⟩ p q l1 (s.setLib l1.store) hP.alloc.ok (Store.getLib_setLib _ _) hP.values_in hP.types_in
  refine ⟨l1, a, hP.alloc.ok, hP.alloc.free, hP.alloc.limit, hP.alloc.room hpg, ?_⟩
  have hres := call_resumed (N := N) (L := L) hA hcb hsz hK hlib hj hf hP.alloc.ok (s := (s.setAnalysis a).setLib l1.store) (Store.getLib_setLib _ _) hseg hP.values_in d
  rw [hP.args] at hres
  have hask : H analysisModule ge.name (callF N (machineOf H r.module.functions) L (d + 3)) (applyQuestion j i f.type p q (codePresent f)) (s.setLib l1.store) =
      ((WasmFunction.apply ⟨BitVec.ofNat 32 j, BitVec.ofNat 32 i, BitVec.ofNat 32 p, codePresent f⟩ (copy + 2 * order.length) (callF N (machineOf H r.module.functions) L (d + 3)) >>= fun _ => post ⟨BitVec.ofNat 32 j, BitVec.ofNat 32 i, BitVec.ofNat 32 p, codePresent f⟩ f.type p q)
        ((s.setAnalysis a).setLib l1.store)).done := by
    rw [hH _ _ _ _ _ _ _ _ _ _ _ hr hn hP (Store.getLib_setLib _ _)]
    simp only [bind, Act.bind, e1]
    rfl
  rw [hask] at hans
  clear hask
  simp only [WasmFunction.apply, bind, Act.bind] at hans
  show match callF N (machineOf H r.module.functions) L (d + 1) (copy + 2 * j) (xs.map .num) ((s.setAnalysis a).setLib l1.store) with
    | .ok vs s2 => _
    | .trap s2 => _
    | .fuel => _
    | .stuck => _
  cases hc : callF N (machineOf H r.module.functions) L (d + 1) (copy + 2 * j) (xs.map .num) ((s.setAnalysis a).setLib l1.store) with
  | ok vs s2 =>
    rw [hc] at hres
    dsimp only
    intro ys l2 hvs hty hs2 ok2 hf2
    have hin2 : p + 8 * f.type.slots ≤ l2.mem.size := by
      have h1 := hP.alloc.free
      have h2 := ok2.free
      have h3 := hP.p_eq
      split at h3 <;> omega
    obtain ⟨m2, e2, rs2, o2⟩ := hres.2 ys l2 hvs hty hs2 ok2 hin2
    have hin3 : q + 4 * f.type.slots ≤ l2.mem.size := by
      have h1 := hP.alloc.free
      have h2 := ok2.free
      have h3 := hP.q_eq
      split at h3 <;> omega
    have ok3 : (⟨l2.free, m2⟩ : Lib).Ok := o2.ok ok2
    obtain ⟨⟨⟩, a', e3⟩ := hpost ⟨BitVec.ofNat 32 j, BitVec.ofNat 32 i, BitVec.ofNat 32 p, codePresent f⟩ p q ⟨l2.free, m2⟩ (s2.setLib (⟨l2.free, m2⟩ : Lib).store) ok3 rfl (by dsimp only; rw [o2.size]; exact hin2) (by dsimp only; rw [o2.size]; exact hin3)
    rw [e2] at hans
    simp only [Res.toEff, pure, e3, Store.setLib_setLib, Eff.done] at hans
    have hfin := hans ⟨l2.free, m2⟩ rfl ok3 hf2
    dsimp only at hfin
    rw [rs2, ← hvs] at hfin
    refine ⟨⟨l.free, m2⟩, a', hfin, ⟨?_, ok.free', ok3.pages, ok3.limit⟩, rfl, o2.limit, o2.pages⟩
    have := ok3.free
    have := hP.alloc.free
    dsimp only at *
    omega
  | trap s2 =>
    rw [hc] at hres
    dsimp only [Resumed] at hres
    rw [hres] at hans
    exact hans
  | fuel =>
    rw [hc] at hres
    dsimp only [Resumed] at hres
    rw [hres] at hans
    exact hans
  | stuck =>
    rw [hc] at hres
    dsimp only [Resumed] at hres
    rw [hres] at hans
    exact hans

/-- With a call depth of one, an intercepted call runs out of it. -/
theorem call_shallow_one (hA : Applied C iface ts m r ge cb order fs K.sigs hooks copy)
    {j i : Nat} {f : Func} (hj : order[j]? = some i) (hf : m.functions[i]? = some f) {s : Store (World W A)} {xs : List Val} (hx : xs.map Val.type = f.type.inputs) :
    callF N (machineOf H r.module.functions) L 1 i (xs.map .num) s = .fuel := by
  obtain ⟨g, hg, hgt, hgp⟩ := hA.own hf
  obtain ⟨hmem, hlk, htr, hcp, hap⟩ := hA.at.target j i g hj hg
  rw [callF_code htr rfl]
  have hlen : xs.length = g.type.inputs.length := by rw [hgt]; exact mapTypes hx
  have hft : (envAt N (machineOf H r.module.functions) L 0).ftype (hooks g.type).allocateValues = some ⟨g.type.inputs, [.i32]⟩ := by
    have := hlk.allocateValues.2
    simp only [envAt, machineOf, this, Option.map_some, stackImport]
  rw [runBody_eq]
  have hcode : denFlat (envAt N (machineOf H r.module.functions) L 0) (applyTrampoline g.type (hooks g.type) fs.length (BitVec.ofNat 32 j) (BitVec.ofNat 32 i) (BitVec.ofNat 32 g.type.inputs.length)
      (BitVec.ofNat 32 g.type.results.length) (codePresent g)) = runs (envAt N (machineOf H r.module.functions) L 0) ((List.range g.type.inputs.length).map (Basic.loc .get) ++ (.call (hooks g.type).allocateValues ::
        ([.loc .set g.type.inputs.length, .call (hooks g.type).allocateTypes, .loc .set (g.type.inputs.length + 1),
  .const (.i32 (BitVec.ofNat 32 j)), .const (.i32 (BitVec.ofNat 32 i)), .const (.i32 (BitVec.ofNat 32 g.type.inputs.length)), .const (.i32 (BitVec.ofNat 32 g.type.results.length)),
  .loc .get g.type.inputs.length, .loc .get (g.type.inputs.length + 1), .const (.i32 (codePresent g)), .call fs.length] ++ (((hooks g.type).retLoad.flatMap fun l => [.loc .get g.type.inputs.length, .call l]) ++ [.loc .get g.type.inputs.length, .call (hooks g.type).freeValues, .loc .get (g.type.inputs.length + 1), .call (hooks g.type).freeTypes])))) := by
    funext c
    rw [← denFlat_straight]
    congr 1
    simp only [applyTrampoline, List.map_append, List.map_map, flatMap_toL, List.map_cons, List.map_nil, List.append_assoc, Basic.toL, List.cons_append, List.nil_append]
    rfl
  have hfirst := runs_gets (E := envAt N (machineOf H r.module.functions) L 0) (bs := .call (hooks g.type).allocateValues ::
        ([.loc .set g.type.inputs.length, .call (hooks g.type).allocateTypes, .loc .set (g.type.inputs.length + 1),
  .const (.i32 (BitVec.ofNat 32 j)), .const (.i32 (BitVec.ofNat 32 i)), .const (.i32 (BitVec.ofNat 32 g.type.inputs.length)), .const (.i32 (BitVec.ofNat 32 g.type.results.length)),
  .loc .get g.type.inputs.length, .loc .get (g.type.inputs.length + 1), .const (.i32 (codePresent g)), .call fs.length] ++ (((hooks g.type).retLoad.flatMap fun l => [.loc .get g.type.inputs.length, .call l]) ++ [.loc .get g.type.inputs.length, .call (hooks g.type).freeValues, .loc .get (g.type.inputs.length + 1), .call (hooks g.type).freeTypes])))
    (s := s) (xs.map RVal.num) [] [.i32 0, .i32 0] []
  simp only [List.length_nil, List.length_map, hlen, ← List.range_eq_range', List.nil_append] at hfirst
  have hz : denFlat (envAt N (machineOf H r.module.functions) L 0) (applyTrampoline g.type (hooks g.type) fs.length (BitVec.ofNat 32 j) (BitVec.ofNat 32 i) (BitVec.ofNat 32 g.type.inputs.length)
      (BitVec.ofNat 32 g.type.results.length) (codePresent g)) ⟨[], xs.map .num ++ [ValType.i32, ValType.i32].map ValType.zero, s⟩ = .fuel := by
    rw [hcode]
    refine hfirst.trans ?_
    rw [runs_call hft (by rw [types_nums, hx, hgt])]
    rfl
  have : (trampolineFunc g (hooks g.type) fs.length j i).type = g.type := rfl
  rw [this, hz]
  rfl

/-- With a call depth below three, resuming a call runs out of it. -/
theorem base_shallow (hA : Applied C iface ts m r ge cb order fs K.sigs hooks copy) (hcb : cb.args = [.i32, .i32] ∧ cb.results = []) (hsz : order.length < 2 ^ 32)
    {j i : Nat} {f : Func} (hj : order[j]? = some i) (hf : m.functions[i]? = some f) {s : Store (World W A)} (hseg : SegmentsIntact m r s) {p d : Nat} (hd : d < 3) :
    callF N (machineOf H r.module.functions) L d (copy + 2 * order.length) [.i32 (BitVec.ofNat 32 j), .i32 (BitVec.ofNat 32 p)] s = .fuel := by
  obtain ⟨g, hg, hgt, hgp⟩ := hA.own hf
  obtain ⟨hmem, hlk, htr, hcp, hap⟩ := hA.at.target j i g hj hg
  have hjl := (List.getElem?_eq_some_iff.1 hj).1
  obtain ⟨T, hT, hel⟩ := hA.at.intact hseg (by intro e; simp [e] at hjl)
  match d, hd with
  | 0, _ => rfl
  | d + 1, hd =>
    have := callF_code (N := N) (L := L) hA.at.callBase (c := ⟨[], callBaseBody m.tables.length⟩) rfl d [.i32 (BitVec.ofNat 32 j), .i32 (BitVec.ofNat 32 p)] s H
    rw [this]
    simp only [callBaseFunc, hcb.1, hcb.2]
    have hjb : (BitVec.ofNat 32 j).toNat = j := by rw [BitVec.toNat_ofNat, Nat.mod_eq_of_lt (by omega)]
    have hft : (envAt N (machineOf H r.module.functions) L d).ftype (copy + 2 * j + 1) = some ⟨[.i32], []⟩ := by
      rw [envAt_types]; simp only [hap, Option.map_some]; rfl
    refine (run_callBase hT (k := copy + 2 * j + 1) (by rw [hjb]; exact hel j hjl) hft rfl).trans ?_
    have : (envAt N (machineOf H r.module.functions) L d).callF (copy + 2 * j + 1) [.i32 (BitVec.ofNat 32 p)] s = .fuel := by
      match d, hd with
      | 0, _ => rfl
      | 1, _ =>
        show callF N (machineOf H r.module.functions) L 1 _ _ _ = _
        rw [callF_code hap (c := ⟨[.i32], baseApplyBody (hooks g.type) (copy + 2 * j)⟩) rfl 0]
        exact applyBody_shallow hlk hcp rfl rfl
    rw [this]

/-- With hardly any call depth left, an intercepted call runs out of it. -/
theorem call_shallow (hA : Applied C iface ts m r ge cb order fs K.sigs hooks copy) (hge : ge.args = [.i32, .i32, .i32, .i32, .i32, .i32, .i32] ∧ ge.results = [])
    (hcb : cb.args = [.i32, .i32] ∧ cb.results = []) (hsz : order.length < 2 ^ 32)
    (hK : K.Good) (hsm : SmallSigs K.sigs) (hlib : HasLib K H) {pre post : WasmFunction → FuncType → Nat → Nat → Act (World W A) Unit}
    (hH : SurroundsEach (copy + 2 * order.length) pre post (H analysisModule ge.name))
    {j i : Nat} {f : Func} (hj : order[j]? = some i) (hf : m.functions[i]? = some f)
    (hpre : ∀ w p q, Looks f.type p q (pre w f.type p q))
    {l : Lib} (ok : l.Ok) {s : Store (World W A)} (hs : s.getLib = l.store) (hseg : SegmentsIntact m r s) {xs : List Val} (hx : xs.map Val.type = f.type.inputs)
    (hfull : ¬ Full l (12 * f.type.slots)) {d : Nat} (hd : d < 5) :
    callF N (machineOf H r.module.functions) L d i (xs.map .num) s = .fuel := by
  obtain ⟨g, hg, hgt, hgp⟩ := hA.own hf
  have hr := applyTarget_refFree hA hj hf
  obtain ⟨hmem, hlk, htr, hcp, hap⟩ := hA.at.target j i g hj hg
  have hn : f.type.slots < 8192 := by rw [← hgt]; exact hsm _ hmem
  match d, hd with
  | 0, _ => rfl
  | 1, _ => exact call_shallow_one hA hj hf hx
  | d + 2, hd =>
    rcases call_intercepted (N := N) (L := L) hA hge hK hsm hlib hj hf ok hs hx d with ⟨hfl, _⟩ | ⟨p, q, l1, hP, hans⟩
    · exact absurd hfl hfull
    obtain ⟨⟨⟩, a, e1⟩ := hpre ⟨BitVec.ofNat 32 j, BitVec.ofNat 32 i, BitVec.ofNat 32 p, codePresent f⟩ p q l1 (s.setLib l1.store) hP.alloc.ok (Store.getLib_setLib _ _) hP.values_in hP.types_in
    have hbase := base_shallow (N := N) (L := L) (H := H) hA hcb hsz hj hf (s := (s.setAnalysis a).setLib l1.store) hseg (p := p) (d := d) (by omega)
    rw [hH _ _ _ _ _ _ _ _ _ _ _ hr hn hP (Store.getLib_setLib _ _)] at hans
    simp only [bind, Act.bind, e1] at hans
    have e2 : (s.setLib l1.store).setAnalysis a = (s.setAnalysis a).setLib l1.store := rfl
    rw [e2] at hans
    simp only [WasmFunction.apply, bind, Act.bind, hbase, Res.toEff, Eff.done] at hans
    exact hans

/-! ## The hooks and the bodies -/

/-- The tables added by the tool do not change, so they are intact in all related states if they are in one. -/
theorem intact_of (hA : Applied C iface ts m r ge cb order fs K.sigs hooks copy) {V V' : Type} {s0 : Store V} {s : Store V'} (h0 : SegmentsIntact m r s0)
    (hT : s.tables[m.tables.length]? = s0.tables[m.tables.length]?) : SegmentsIntact m r s := by
  intro el hel tbl hm k f hk
  obtain ⟨T', hT', he⟩ := h0 el hel tbl hm k f hk
  refine ⟨T', ?_, he⟩
  obtain ⟨m2, ha, hr⟩ := hA.desc
  rw [hr] at hel
  dsimp only at hel
  rw [ha.elements] at hel
  dsimp only at hel
  rw [List.drop_left, List.mem_singleton] at hel
  subst hel
  cases hm
  rw [← hT', ← hT]

/-- The hooks of a forwarding analysis that leaves the stack library alone keep the executions in step. -/
theorem resuming_hooks (hs : SmallModule m) (h : Instruments C iface ts m r) {P : Trap → List RVal → A × Store Unit → A × Store Unit → Prop} (hF : Forwards N iface P H)
    {I : A → Store Unit → Prop} (hP : ∀ t args a a', P t args a a' → I a.1 a.2 → I a'.1 a'.2) {TR : A → Prop} {T X} {fl fr : Bool} {D : Nat} (hk : fr = true ∨ 1 ≤ D) {E : Env W} (hE : E.num = N) :
    (besideLib m.ctx T X I TR fl fr).Hooks m.ctx (fun _ => True) (hookSel iface m.functions.length) (fun _ _ w => w) E (envAt N (machineOf H r.module.functions) L D) := by
  have hook : ∀ {t : Trap} {k : Nat}, hookSel iface m.functions.length t = some k → ∃ e, iface.trap t = some e ∧
      ∀ d args s, callF N (machineOf H r.module.functions) L (d + 1) k args s = H "WASTRUMENTATION_ANALYSIS" e.name (callF N (machineOf H r.module.functions) L d) args s := by
    intro t k hk
    cases he : iface.trap t with
    | none => rw [hookSel_none_iff.2 he] at hk; cases hk
    | some e =>
      obtain ⟨k', h1, h2, h3⟩ := hook_installed hs h he
      rw [hk] at h1; cases h1
      exact ⟨e, rfl, fun d args s => callF_import h3 rfl d args s H⟩
  refine ⟨fun t ht args s s' hS => hS, ?_, ?_⟩
  · intro t i hσ ho hpre args s s' hty hS
    obtain ⟨e, he, hcall⟩ := hook hσ
    simp only [envAt]
    cases D with
    | zero => exact ⟨_, .refl _ _, .fuelR (by rcases hk with hk | hk; exact hk; omega)⟩
    | succ d' =>
      rw [hcall]
      obtain ⟨h1, ⟨w, a⟩, ⟨h2, h3⟩, rfl⟩ := hS
      obtain ⟨vs, a', hsame, hp, hh⟩ := hF.shown t e he ho (callF N (machineOf H r.module.functions) L d') args (s.extend T X w) a hty
      have e1 : (s.extend T X w).withAnalysis a = s.extend T X (w, a) := rfl
      rw [e1] at hh
      rw [hh]
      have hvt : vs.map RVal.type = t.results := by rw [hsame.types, List.map_take, hty, hpre]
      refine ⟨vs, hsame, .ok ⟨hvt, ?_⟩ ⟨h1, (w, a'), ⟨h2, ?_⟩, rfl⟩⟩
      · intro v hv f hf
        have : v.type ∈ t.results := by rw [← hvt]; exact List.mem_map_of_mem hv
        rw [hf] at this
        rw [← hpre] at this
        exact absurd (List.mem_of_mem_take this) (t.args_num _)
      · exact hP _ _ _ _ hp h3
  · intro b t j info i hd hσ hB hm ops loc s s' hops hloc hty hS
    obtain ⟨e, he, hcall⟩ := hook hσ
    simp only [envAt]
    cases D with
    | zero => exact .fuelR (by rcases hk with hk | hk; exact hk; omega)
    | succ d' =>
      rw [hcall]
      obtain ⟨h1, ⟨w, a⟩, ⟨h2, h3⟩, rfl⟩ := hS
      obtain ⟨a', hp, hh⟩ := hF.performed t e he b j info hd (callF N (machineOf H r.module.functions) L d') ops loc (s.extend T X w) a hops hloc hty
      have e1 : (s.extend T X w).withAnalysis a = s.extend T X (w, a) := rfl
      rw [e1] at hh
      rw [hh, execInstr_execute E hd, hE]
      have := execute_sim (Γ := m.ctx) (N := N) (T := T) (X := X) (s := note (fun _ _ w => w) t (ops ++ info ++ loc) s) (s' := s.extend T X w) hd rfl hm hops hloc hty
        ⟨h1.world rfl rfl rfl rfl rfl, w, ⟨rfl, rfl⟩, rfl⟩
      have lift : ∀ {s1 : Store W} {s1' : Store W}, SameState m.ctx T X (fun v v' => v = (note (fun _ _ w => w) t (ops ++ info ++ loc) s).world ∧ v' = (s.extend T X w).world) s1 s1' →
          SameState m.ctx T X (fun v (v' : World W A) => v = v'.1 ∧ I v'.2.1 v'.2.2) s1 (s1'.withAnalysis a') := by
        rintro s1 s1' ⟨g1, w1, ⟨g2, g3⟩, rfl⟩
        refine ⟨g1, (w1, a'), ⟨?_, ?_⟩, rfl⟩
        · rw [g2, g3]; exact h2
        · exact hP _ _ _ _ hp h3
      generalize execute N b ops (note (fun _ _ w => w) t (ops ++ info ++ loc) s) = o at this ⊢
      generalize execute N b ops _ = o' at this ⊢
      cases this with
      | ok hv hS => exact .ok hv (lift hS)
      | trap hS => exact .trap (lift hS)
      | fuel => exact .fuel
      | fuelL h => cases h
      | fuelR h => cases h
      | trapL h => cases h
      | trapT h => cases h
      | trapR h => cases h

/-- An implementation of a function of type `ty`, called in an environment. -/
def runImpl {V : Type} (E : Env V) (ty : FuncType) : Impl V → List RVal → Store V → Res V
  | .host h, args, s => h E.callF args s
  | .code locals b, args, s => runBody ty locals (b E) args s

theorem callF_runImpl {V : Type} {fs : List Func} {G : Imports V} {i : Nat} {f : Func} (hf : fs[i]? = some f) (d : Nat) (args : List RVal) (s : Store V) :
    callF N (machineOf G fs) L (d + 1) i args s = runImpl (envAt N (machineOf G fs) L d) f.type (implOf G f) args s := by
  simp only [callF, machineOf, hf, Option.map_some, implOf]
  cases f.code <;> rfl

/-- The body of a function of the program, with the hooks of the analysis in it, keeps the executions in step. -/
theorem body_runs (hs : SmallModule m) (hst : iface.Standard) (hA : Applied C iface ts m r ge cb order fs K.sigs hooks copy) (hv : ValidModule m)
    (hB : ∀ i ∈ bodyTargets m ts, ∀ f, m.functions[i]? = some f → WellAnnotated m f (bodyOf C m i)) {V V' : Type} {R : Rel V V'} {T X} {Q : V → V' → Prop}
    (hS : R.S = SameState m.ctx T X Q) {G : Imports V} {G' : Imports V'}
    (hhost : ∀ f ∈ m.functions, ∀ ns name, f.code = .imported ns name → HostsAgree R m.ctx f.type (G ns name) (G' ns name))
    {i k : Nat} {f g : Func} {es : List String} (hf : m.functions[i]? = some f) (hg : fs[i]? = some g) (hk : r.module.functions[k]? = some { g with exports := es })
    {E : Env V} (hEn : E.num = N) (hEL : E.loopFuel = L) (hEt : E.ftype = fun k => m.functions[k]?.map (·.type)) {D : Nat} (hc : CallsAgree R m.ctx E.callF (callF N (machineOf G' r.module.functions) L D))
    {B : Basic → Prop} (hO : ∀ i ∈ bodyTargets m ts, ∀ f c, m.functions[i]? = some f → f.code = .present c → OnlyCode B c.body)
    (hH : R.Hooks m.ctx B (hookSel iface m.functions.length) (fun _ _ w => w) E (envAt N (machineOf G' r.module.functions) L D))
    {args : List RVal} {s s'} (ha : ValsOK m.ctx args f.type.inputs) (hss : R.S s s') :
    R.Ress m.ctx f.type.results (runImpl E f.type (implOf G f) args s) (callF N (machineOf G' r.module.functions) L (D + 1) k args s') := by
  obtain ⟨targets, bs, ht, hd⟩ := hA.bodies
  have hm := List.mem_of_getElem? hf
  have hE : R.Envs m.ctx E (envAt N (machineOf G' r.module.functions) L D) := by
    refine ⟨hEn.symm, hEL.symm, ?_, hc⟩
    intro f' ty hty
    rw [envAt_types, hEt]
    refine ⟨hty, ?_⟩
    simp only [Module.ctx, Option.map_eq_some_iff] at hty
    obtain ⟨f0, hf0, rfl⟩ := hty
    obtain ⟨g0, hg0, ht0, _⟩ := hA.own hf0
    dsimp only
    by_cases ho : f' ∈ order
    · obtain ⟨j, hj⟩ := List.getElem?_of_mem ho
      rw [(hA.at.target j f' g0 hj hg0).2.2.1, ← ht0]
      rfl
    · rw [hA.at.untouched f' g0 ho hg0, ← ht0]
      rfl
  have hown := hd.own i (List.getElem?_eq_some_iff.1 hf).1
  rw [hg, hf, Option.map_some, Option.some.injEq] at hown
  cases hcode : f.code with
  | imported ns name =>
    have hgc : g.code = .imported ns name ∧ g.type = f.type := by
      rw [hown]; split
      · simp [Func.withBody, hcode]
      · exact ⟨hcode, rfl⟩
    rw [callF_import hk hgc.1]
    simp only [runImpl, implOf, hcode]
    exact hhost f hm ns name hcode _ _ hc _ _ _ ha hss
  | present c =>
    simp only [runImpl, implOf, hcode]
    by_cases hi : i ∈ bodyTargets m ts
    · have hit := (ht i).2 hi
      rw [if_pos hit] at hown
      obtain ⟨b, hb⟩ : ∃ b, raiseTarget C m i = .ok b := ⟨_, hA.raised i hi⟩
      have eb : bodyOf C m i = b := by simp [bodyOf, hb]
      have hI : Interposes r.module.functions (hookSel iface m.functions.length) (fun k' => if k' = k then some (bodyOf C m i) else none) := by
        refine hd.interposes hst (fun i hi => hA.raised i ((ht i).1 hi)) ?_ ?_
        · intro k' f' hk' hf'
          refine hA.at.untouched k' f' ?_ hf'
          intro ho
          obtain ⟨g0, hg0, _⟩ := mem_applyTargets.1 ((hA.mem k').1 ho)
          have := (List.getElem?_eq_some_iff.1 hg0).1
          omega
        · intro k' b' hb'
          split at hb'
          · rename_i hkk
            subst hkk
            cases hb'
            exact ⟨i, _, hit, rfl, hk, g, hg, rfl⟩
          · cases hb'
      have hgc : g.code = .present ⟨c.locals, lowerTyped (expandL (hookSel iface m.functions.length) (bs i) (bodyOf C m i))⟩ ∧ g.type = f.type := by
        rw [hown]; simp [Func.withBody, hcode]
      have e1 : ∀ D, callF N (machineOf G' r.module.functions) L D = _ := fun D => callF_interposed hI N G' L D
      have henv : envAt N (interposed (hookSel iface m.functions.length) (fun k' => if k' = k then some (bodyOf C m i) else none) (machineOf G' r.module.functions)) L D =
          envAt N (machineOf G' r.module.functions) L D := by
        simp only [envAt, interposed_type, ← e1]
      rw [e1]
      have e2 : interposed (hookSel iface m.functions.length) (fun k' => if k' = k then some (bodyOf C m i) else none) (machineOf G' r.module.functions) k =
          some (f.type, .code c.locals fun E => hdenL E (hookSel iface m.functions.length) (bodyOf C m i)) := by
        have : machineOf G' r.module.functions k = some (f.type, .code c.locals fun E => denFlat E (lowerTyped (expandL (hookSel iface m.functions.length) (bs i) (bodyOf C m i)))) := by
          simp only [machineOf, hk, Option.map_some, hgc.2, implOf, hgc.1]
        simp only [interposed, if_true, this]
      have e3 : callF N (interposed (hookSel iface m.functions.length) (fun k' => if k' = k then some (bodyOf C m i) else none) (machineOf G' r.module.functions)) L (D + 1) k args s' =
          runBody f.type c.locals (hdenL (envAt N (machineOf G' r.module.functions) L D) (hookSel iface m.functions.length) (bodyOf C m i)) args s' := by
        rw [← henv]
        simp only [callF, e2]
        rfl
      rw [e3]
      refine runBody_sim (fun cfg cfg' hcc => ?_) ha hss
      obtain ⟨f', c', hf', hc', hr⟩ := raiseTarget_present hb
      rw [hf] at hf'; cases hf'
      rw [hcode] at hc'; cases hc'
      have hO' : OnlyCode B (TI.lowerL (bodyOf C m i)) := (hO i hi f c hf hcode).mono fun x hx => by
        rw [eb] at hx
        rw [← C02_lowerTyped_raiseFunction _ _ _ _ _ hr]
        exact List.mem_append_left _ hx
      have := hooked_body_agrees hS hE hH (b := bodyOf C m i) hO' (hB i hi f hf c hcode) hcc
      rw [noting_nothing, eb, (gden_plain _).2, ← denFlat_lowerTyped, C02_lowerTyped_raiseFunction _ _ _ _ _ hr] at this
      rw [eb]
      exact this
    · have hit : i ∉ targets := fun hh => hi ((ht i).1 hh)
      rw [if_neg hit] at hown
      subst hown
      rw [callF_code hk hcode]
      exact runBody_sim (fun cfg cfg' hcc => plain_body_agrees hS hE (hv.functions _ hm c hcode) hcc) ha hss

/-- `body_runs` for calls of the original program. -/
theorem body_agrees (hs : SmallModule m) (hst : iface.Standard) (hA : Applied C iface ts m r ge cb order fs K.sigs hooks copy) (hv : ValidModule m)
    (hB : ∀ i ∈ bodyTargets m ts, ∀ f, m.functions[i]? = some f → WellAnnotated m f (bodyOf C m i)) {V V' : Type} {R : Rel V V'} {T X} {Q : V → V' → Prop}
    (hS : R.S = SameState m.ctx T X Q) {G : Imports V} {G' : Imports V'}
    (hhost : ∀ f ∈ m.functions, ∀ ns name, f.code = .imported ns name → HostsAgree R m.ctx f.type (G ns name) (G' ns name))
    {i k : Nat} {f g : Func} {es : List String} (hf : m.functions[i]? = some f) (hg : fs[i]? = some g) (hk : r.module.functions[k]? = some { g with exports := es })
    {d D : Nat} (hc : CallsAgree R m.ctx (callF N (machineOf G m.functions) L d) (callF N (machineOf G' r.module.functions) L D))
    {B : Basic → Prop} (hO : ∀ i ∈ bodyTargets m ts, ∀ f c, m.functions[i]? = some f → f.code = .present c → OnlyCode B c.body)
    (hH : R.Hooks m.ctx B (hookSel iface m.functions.length) (fun _ _ w => w) (envAt N (machineOf G m.functions) L d) (envAt N (machineOf G' r.module.functions) L D))
    {args : List RVal} {s s'} (ha : ValsOK m.ctx args f.type.inputs) (hss : R.S s s') :
    R.Ress m.ctx f.type.results (callF N (machineOf G m.functions) L (d + 1) i args s) (callF N (machineOf G' r.module.functions) L (D + 1) k args s') := by
  rw [callF_runImpl hf]
  exact body_runs hs hst hA hv hB hS hhost hf hg hk rfl rfl (envAt_types _ _ _) hc hO hH ha hss

/-! ## The two directions -/

/-- The program's imports do the same beside the analysis and the stack library, and leave both alone (provided the functions of the
program that they call back do). -/
def ImportsAgreeBeside (m : Module) (T : List Table) (X : List (RefType × List (Option Nat))) (H : Imports W) (H' : Imports (World W A)) : Prop :=
  ∀ f ∈ m.functions, ∀ ns name, f.code = .imported ns name → ∀ I TR fl fr tl, HostsAgree (besideLib m.ctx T X I TR fl fr tl) m.ctx f.type (H ns name) (H' ns name)

/-- An intercepted call keeps the executions in step if the call of the copy does. -/
theorem intercepted_agrees (hA : Applied C iface ts m r ge cb order fs K.sigs hooks copy) (hge : ge.args = [.i32, .i32, .i32, .i32, .i32, .i32, .i32] ∧ ge.results = [])
    (hcb : cb.args = [.i32, .i32] ∧ cb.results = []) (hsz : order.length < 2 ^ 32)
    (hK : K.Good) (hsm : SmallSigs K.sigs) (hlib : HasLib K H) {pre post : WasmFunction → FuncType → Nat → Nat → Act (World W A) Unit}
    (hH : SurroundsEach (copy + 2 * order.length) pre post (H analysisModule ge.name))
    {j i : Nat} {f : Func} (hj : order[j]? = some i) (hf : m.functions[i]? = some f)
    (hpre : ∀ w p q, Looks f.type p q (pre w f.type p q)) (hpost : ∀ w p q, Looks f.type p q (post w f.type p q))
    {T X} {F M : Nat} {fl fr tl : Bool} {d : Nat} {o : Res W} {args : List RVal} (hr : f.type.RefFree) (ha : ValsOK m.ctx args f.type.inputs)
    (hcap : F + 12 * f.type.slots ≤ M * 65536 ∧ F + 12 * f.type.slots ≤ 65535 * 65536) {s : Store W} {s' : Store (World W A)} (hseg : SegmentsIntact m r s')
    (hS : (besideLib m.ctx T X (fun _ => LibAt F M) never fl fr tl).S s s')
    (hcopy : ∀ s', (besideLib m.ctx T X (fun _ => LibAt (F + 12 * f.type.slots) M) never fl fr tl).S s s' →
      (besideLib m.ctx T X (fun _ => LibAt (F + 12 * f.type.slots) M) never fl fr tl).Ress m.ctx f.type.results o (callF N (machineOf H r.module.functions) L (d + 1) (copy + 2 * j) args s')) :
    (besideLib m.ctx T X (fun _ => LibAt F M) never fl fr tl).Ress m.ctx f.type.results o (callF N (machineOf H r.module.functions) L (d + 5) i args s') := by
  obtain ⟨xs, rfl, hx⟩ := args_nums ha.1 hr.inputs
  obtain ⟨h1, ⟨w, a, st⟩, ⟨h2, l, rfl, ok, rfl, rfl, hpg⟩, rfl⟩ := hS
  have hfull : ¬ Full l (12 * f.type.slots) := by
    rintro (h | h | h)
    · omega
    · omega
    · omega
  obtain ⟨lc, a', okc, hfc, hlc, hpc, hres⟩ := call_looked (N := N) (L := L) hA hge hcb hsz hK hsm hlib hH hj hf hpre hpost ok (s := s.extend T X (w, a, l.store)) rfl hseg hx hfull hpg d
  have hst : ((s.extend T X (w, a, l.store)).setAnalysis a').setLib lc.store = s.extend T X (w, a', lc.store) := rfl
  rw [hst] at hres
  have := hcopy (s.extend T X (w, a', lc.store)) ⟨h1, (w, a', lc.store), ⟨h2, lc, rfl, okc, hfc, hlc, hpc⟩, rfl⟩
  generalize callF N (machineOf H r.module.functions) L (d + 1) (copy + 2 * j) (xs.map .num) (s.extend T X (w, a', lc.store)) = o' at this hres
  cases this with
  | @ok vs s1 s1' hv hs1 =>
    obtain ⟨g1, ⟨w1, a1, st1⟩, ⟨g2, l2, rfl, ok2, hf2, hl2, hp2⟩, rfl⟩ := hs1
    obtain ⟨ys, rfl, hy⟩ := args_nums hv.1 hr.results
    obtain ⟨l3, a3, e, ok3, hf3, hl3, hp3⟩ := hres ys l2 rfl hy rfl ok2 (by rw [hf2, hfc])
    rw [e]
    exact .ok hv ⟨g1, (w1, a3, l3.store), ⟨g2, l3, rfl, ok3, hf3, by rw [hl3, hl2], by rw [hp3]; exact hp2⟩, rfl⟩
  | trap hs1 =>
    rw [hres]
    obtain ⟨g1, w1, ⟨g2, _⟩, rfl⟩ := hs1
    exact .trapT ⟨g1, w1, g2, rfl⟩
  | fuel => rw [hres]; exact .fuel
  | fuelL h => exact .fuelL h
  | fuelR h => rw [hres]; exact .fuelR h
  | trapL h => exact .trapL h
  | trapT h => rw [hres]; exact .trapT h
  | trapR h => exact absurd h id

/-- The assumptions about the linked program, the analysis and the stack library. -/
structure Resuming (C : Checker) (iface : Interface) (ts : Option (List Nat)) (m : Module) (r : Instrumented) (ge : WasmExport) (K : LibLink) (N : Num) (base : Nat)
    (T : List Table) (X : List (RefType × List (Option Nat))) (B : Nat) (H : Imports W) (H' : Imports (World W A)) : Prop where
  /-- the stack library linked is the one generated for the instrumented module -/
  sigs : r.librarySignatures = some K.sigs
  small : SmallSigs K.sigs
  good : K.Good
  lib : HasLib K H'
  /-- the instruction-level hooks forward, and leave the stack library alone -/
  forwards : ∃ P : Trap → List RVal → A × Store Unit → A × Store Unit → Prop, Forwards N iface P H' ∧ ∀ t args a a', P t args a a' → a'.2 = a.2
  /-- the `apply` advice resumes the call, looking at it before and after -/
  resumes : ∃ pre post : FuncType → Nat → Nat → Act (World W A) Unit, Surrounds base pre post (H' analysisModule ge.name) ∧
    ∀ i ∈ applyTargets m ts, ∀ f, m.functions[i]? = some f → ∀ p q, Looks f.type p q (pre f.type p q) ∧ Looks f.type p q (post f.type p q)
  imports : ImportsAgreeBeside m T X H H'
  /-- no frame takes more than `B` bytes -/
  frame : ∀ t ∈ K.sigs, 12 * t.slots ≤ B

section
variable {G : Imports W} {T : List Table} {X : List (RefType × List (Option Nat))} {B : Nat}

/-- The instrumented program keeps up with the original. -/
theorem looked_forward (hs : SmallModule m) (hst : iface.Standard) (h : Instruments C iface ts m r)
    (hA : Applied C iface ts m r ge cb order fs K.sigs hooks copy) (hge : ge.args = [.i32, .i32, .i32, .i32, .i32, .i32, .i32] ∧ ge.results = [])
    (hcb : cb.args = [.i32, .i32] ∧ cb.results = []) (hsz : order.length < 2 ^ 32) (hv : ValidModule m)
    (hB : ∀ i ∈ bodyTargets m ts, ∀ f, m.functions[i]? = some f → WellAnnotated m f (bodyOf C m i))
    (hK : K.Good) (hsm : SmallSigs K.sigs) (hlib : HasLib K H) {pre post : WasmFunction → FuncType → Nat → Nat → Act (World W A) Unit} (hH : SurroundsEach (copy + 2 * order.length) pre post (H analysisModule ge.name))
    (hlook : ∀ i ∈ applyTargets m ts, ∀ f, m.functions[i]? = some f → ∀ w p q, Looks f.type p q (pre w f.type p q) ∧ Looks f.type p q (post w f.type p q))
    (himp : ImportsAgreeBeside m T X G H) (hfr : ∀ t ∈ K.sigs, 12 * t.slots ≤ B) {P : Basic → Prop}
    (hO : ∀ i ∈ bodyTargets m ts, ∀ f c, m.functions[i]? = some f → f.code = .present c → OnlyCode P c.body) {tl : Bool} {q : Nat} {M : Nat}
    (hhk : ∀ (F : Nat) (fl fr : Bool) (D : Nat) (E : Env W), fr = true ∨ q ≤ D → E.num = N →
      (besideLib m.ctx T X (fun _ => LibAt F M) never fl fr tl).Hooks m.ctx P (hookSel iface m.functions.length) (fun _ _ w => w) E (envAt N (machineOf H r.module.functions) L D))
    (hseg : ∀ s : Store (World W A), s.tables[m.tables.length]? = T[0]? → SegmentsIntact m r s) :
    ∀ d D F, 5 * d + q ≤ D → F + d * B ≤ M * 65536 → F + d * B ≤ 65535 * 65536 →
      CallsAgree (besideLib m.ctx T X (fun _ => LibAt F M) never true false tl) m.ctx (callF N (machineOf G m.functions) L d) (callF N (machineOf H r.module.functions) L D) := by
  intro d
  induction d with
  | zero => intro D F _ _ _ f ty args s s' _ _ _; exact .fuelL rfl
  | succ d ih =>
    intro D F hD hc1 hc2 i ty args s s' hf ha hS
    have hseg' : SegmentsIntact m r s' := by
      obtain ⟨h1, w, _, rfl⟩ := hS
      apply hseg
      have hl : s.tables.length = m.tables.length := tables_length h1
      simp only [Store.extend]
      rw [List.getElem?_append_right (by omega)]
      simp [hl]
    simp only [Module.ctx, Option.map_eq_some_iff] at hf
    obtain ⟨f, hf, rfl⟩ := hf
    obtain ⟨g, hg, hgt, _⟩ := hA.own hf
    rw [Nat.add_mul, Nat.one_mul] at hc1 hc2
    by_cases ho : i ∈ order
    · obtain ⟨j, hj⟩ := List.getElem?_of_mem ho
      obtain ⟨hmem, _, _, hcp, _⟩ := hA.at.target j i g hj hg
      have hb : 12 * f.type.slots ≤ B := by rw [← hgt]; exact hfr _ hmem
      obtain ⟨D', rfl⟩ : ∃ D', D = D' + 5 := ⟨D - 5, by omega⟩
      have hlk := hlook i ((hA.mem i).1 ho) f hf
      refine intercepted_agrees hA hge hcb hsz hK hsm hlib hH hj hf (fun w p q => (hlk w p q).1) (fun w p q => (hlk w p q).2) (applyTarget_refFree hA hj hf) ha
        ⟨by omega, by omega⟩ hseg' hS fun s'' hS'' => ?_
      exact body_agrees hs hst hA hv hB (besideLib_S _ _ _ _ _ _ _ _) (fun f hf ns name hc => himp f hf ns name hc _ _ _ _ _) hf hg hcp (ih D' _ (by omega) (by omega) (by omega))
        hO (hhk _ _ _ _ _ (.inr (by omega)) rfl) ha hS''
    · obtain ⟨D', rfl⟩ : ∃ D', D = D' + 1 := ⟨D - 1, by omega⟩
      exact body_agrees hs hst hA hv hB (besideLib_S _ _ _ _ _ _ _ _) (fun f hf ns name hc => himp f hf ns name hc _ _ _ _ _) hf hg (es := g.exports) (hA.at.untouched i g ho hg)
        (ih D' F (by omega) (by omega) (by omega)) hO (hhk _ _ _ _ _ (.inr (by omega)) rfl) ha hS

/-- The original keeps up with the instrumented program. -/
theorem looked_backward (hs : SmallModule m) (hst : iface.Standard) (h : Instruments C iface ts m r)
    (hA : Applied C iface ts m r ge cb order fs K.sigs hooks copy) (hge : ge.args = [.i32, .i32, .i32, .i32, .i32, .i32, .i32] ∧ ge.results = [])
    (hcb : cb.args = [.i32, .i32] ∧ cb.results = []) (hsz : order.length < 2 ^ 32) (hv : ValidModule m)
    (hB : ∀ i ∈ bodyTargets m ts, ∀ f, m.functions[i]? = some f → WellAnnotated m f (bodyOf C m i))
    (hK : K.Good) (hsm : SmallSigs K.sigs) (hlib : HasLib K H) {pre post : WasmFunction → FuncType → Nat → Nat → Act (World W A) Unit} (hH : SurroundsEach (copy + 2 * order.length) pre post (H analysisModule ge.name))
    (hlook : ∀ i ∈ applyTargets m ts, ∀ f, m.functions[i]? = some f → ∀ w p q, Looks f.type p q (pre w f.type p q) ∧ Looks f.type p q (post w f.type p q))
    (himp : ImportsAgreeBeside m T X G H) (hfr : ∀ t ∈ K.sigs, 12 * t.slots ≤ B) {P : Basic → Prop}
    (hO : ∀ i ∈ bodyTargets m ts, ∀ f c, m.functions[i]? = some f → f.code = .present c → OnlyCode P c.body) {tl : Bool} {q : Nat} {M : Nat}
    (hhk : ∀ (F : Nat) (fl fr : Bool) (D : Nat) (E : Env W), fr = true ∨ q ≤ D → E.num = N →
      (besideLib m.ctx T X (fun _ => LibAt F M) never fl fr tl).Hooks m.ctx P (hookSel iface m.functions.length) (fun _ _ w => w) E (envAt N (machineOf H r.module.functions) L D))
    (hseg : ∀ s : Store (World W A), s.tables[m.tables.length]? = T[0]? → SegmentsIntact m r s) :
    ∀ D d F, D ≤ d → F + D * B ≤ M * 65536 → F + D * B ≤ 65535 * 65536 →
      CallsAgree (besideLib m.ctx T X (fun _ => LibAt F M) never false true tl) m.ctx (callF N (machineOf G m.functions) L d) (callF N (machineOf H r.module.functions) L D) := by
  intro D
  induction D using Nat.strongRecOn with
  | ind D ih =>
    intro d F hD hc1 hc2 i ty args s s' hf ha hS
    match D, ih with
    | 0, _ => exact .fuelR rfl
    | D + 1, ih =>
    obtain ⟨d, rfl⟩ : ∃ d', d = d' + 1 := ⟨d - 1, by omega⟩
    have hseg' : SegmentsIntact m r s' := by
      obtain ⟨h1, w, _, rfl⟩ := hS
      apply hseg
      have hl : s.tables.length = m.tables.length := tables_length h1
      simp only [Store.extend]
      rw [List.getElem?_append_right (by omega)]
      simp [hl]
    simp only [Module.ctx, Option.map_eq_some_iff] at hf
    obtain ⟨f, hf, rfl⟩ := hf
    obtain ⟨g, hg, hgt, _⟩ := hA.own hf
    by_cases ho : i ∈ order
    · obtain ⟨j, hj⟩ := List.getElem?_of_mem ho
      obtain ⟨hmem, _, _, hcp, _⟩ := hA.at.target j i g hj hg
      have hb : 12 * f.type.slots ≤ B := by rw [← hgt]; exact hfr _ hmem
      have hlk := hlook i ((hA.mem i).1 ho) f hf
      have hr := applyTarget_refFree hA hj hf
      rw [Nat.add_mul, Nat.one_mul] at hc1 hc2
      by_cases hlt : D + 1 < 5
      · obtain ⟨xs, rfl, hx⟩ := args_nums ha.1 hr.inputs
        obtain ⟨h1, ⟨w, a, st⟩, ⟨h2, l, rfl, ok, rfl, rfl, hpg⟩, rfl⟩ := hS
        rw [call_shallow (N := N) (L := L) hA hge hcb hsz hK hsm hlib hH hj hf (fun w p q => (hlk w p q).1) ok (s := s.extend T X (w, a, l.store)) rfl hseg' hx
          (by rintro (h | h | h) <;> omega) hlt]
        exact .fuelR rfl
      · obtain ⟨D', rfl⟩ : ∃ D', D = D' + 4 := ⟨D - 4, by omega⟩
        rw [Nat.add_mul] at hc1 hc2
        refine intercepted_agrees hA hge hcb hsz hK hsm hlib hH hj hf (fun w p q => (hlk w p q).1) (fun w p q => (hlk w p q).2) hr ha
          ⟨by omega, by omega⟩ hseg' hS fun s'' hS'' => ?_
        exact body_agrees hs hst hA hv hB (besideLib_S _ _ _ _ _ _ _ _) (fun f hf ns name hc => himp f hf ns name hc _ _ _ _ _) hf hg hcp (ih D' (by omega) d _ (by omega) (by omega) (by omega))
          hO (hhk _ _ _ _ _ (.inl rfl) rfl) ha hS''
    · rw [Nat.add_mul, Nat.one_mul] at hc1 hc2
      exact body_agrees hs hst hA hv hB (besideLib_S _ _ _ _ _ _ _ _) (fun f hf ns name hc => himp f hf ns name hc _ _ _ _ _) hf hg (es := g.exports) (hA.at.untouched i g ho hg)
        (ih D (by omega) d F (by omega) (by omega) (by omega)) hO (hhk _ _ _ _ _ (.inl rfl) rfl) ha hS

/-- The instrumented program keeps up with the original. -/
theorem resumed_forward (hs : SmallModule m) (hst : iface.Standard) (h : Instruments C iface ts m r)
    (hA : Applied C iface ts m r ge cb order fs K.sigs hooks copy) (hge : ge.args = [.i32, .i32, .i32, .i32, .i32, .i32, .i32] ∧ ge.results = [])
    (hcb : cb.args = [.i32, .i32] ∧ cb.results = []) (hsz : order.length < 2 ^ 32) (hv : ValidModule m)
    (hB : ∀ i ∈ bodyTargets m ts, ∀ f, m.functions[i]? = some f → WellAnnotated m f (bodyOf C m i))
    (hR : Resuming C iface ts m r ge K N (copy + 2 * order.length) T X B G H) (hseg : ∀ s : Store (World W A), s.tables[m.tables.length]? = T[0]? → SegmentsIntact m r s) {M : Nat} :
    ∀ d D F, 5 * d + 1 ≤ D → F + d * B ≤ M * 65536 → F + d * B ≤ 65535 * 65536 →
      CallsAgree (besideLib m.ctx T X (fun _ => LibAt F M) never true false) m.ctx (callF N (machineOf G m.functions) L d) (callF N (machineOf H r.module.functions) L D) := by
  obtain ⟨P, hF, hP⟩ := hR.forwards
  have hP' : ∀ {F : Nat} t args (a a' : A × Store Unit), P t args a a' → LibAt F M a.2 → LibAt F M a'.2 := fun t args a a' hp hl => by rw [hP t args a a' hp]; exact hl
  obtain ⟨pre, post, hH, hlook⟩ := hR.resumes
  exact looked_forward hs hst h hA hge hcb hsz hv hB hR.good hR.small hR.lib hH (fun i hi f hf _ => hlook i hi f hf) hR.imports hR.frame (fun _ _ _ _ _ _ _ _ => trivial)
    (fun F fl fr D E hk hE => resuming_hooks hs h hF hP' hk hE) hseg

/-- The original keeps up with the instrumented program. -/
theorem resumed_backward (hs : SmallModule m) (hst : iface.Standard) (h : Instruments C iface ts m r)
    (hA : Applied C iface ts m r ge cb order fs K.sigs hooks copy) (hge : ge.args = [.i32, .i32, .i32, .i32, .i32, .i32, .i32] ∧ ge.results = [])
    (hcb : cb.args = [.i32, .i32] ∧ cb.results = []) (hsz : order.length < 2 ^ 32) (hv : ValidModule m)
    (hB : ∀ i ∈ bodyTargets m ts, ∀ f, m.functions[i]? = some f → WellAnnotated m f (bodyOf C m i))
    (hR : Resuming C iface ts m r ge K N (copy + 2 * order.length) T X B G H) (hseg : ∀ s : Store (World W A), s.tables[m.tables.length]? = T[0]? → SegmentsIntact m r s) {M : Nat} :
    ∀ D d F, D ≤ d → F + D * B ≤ M * 65536 → F + D * B ≤ 65535 * 65536 →
      CallsAgree (besideLib m.ctx T X (fun _ => LibAt F M) never false true) m.ctx (callF N (machineOf G m.functions) L d) (callF N (machineOf H r.module.functions) L D) := by
  obtain ⟨P, hF, hP⟩ := hR.forwards
  have hP' : ∀ {F : Nat} t args (a a' : A × Store Unit), P t args a a' → LibAt F M a.2 → LibAt F M a'.2 := fun t args a a' hp hl => by rw [hP t args a a' hp]; exact hl
  obtain ⟨pre, post, hH, hlook⟩ := hR.resumes
  exact looked_backward hs hst h hA hge hcb hsz hv hB hR.good hR.small hR.lib hH (fun i hi f hf _ => hlook i hi f hf) hR.imports hR.frame (fun _ _ _ _ _ _ _ _ => trivial) (q := 1)
    (fun F fl fr D E hk hE => resuming_hooks hs h hF hP' hk hE) hseg

end

end

end Wastrum
