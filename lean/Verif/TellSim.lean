import Verif.Tell
import Verif.ResumeThms
/-!
# Analyses that also watch calls: the two executions in step (supporting definitions and lemmas for C76)
-/

set_option linter.unusedSimpArgs false
set_option linter.unusedVariables false

namespace Wastrum

variable {W A : Type}

/-! ## What the analysis is told -/

/-- A watching analysis whose `apply` advice updates its state before (on the basis of the function and its arguments) and after (on the basis of the
function, its arguments and its results) it resumes the call; `none` is a panic. -/
structure CallWatcher (A : Type) extends Watcher A where
  enter : Nat → List Val → A → Option A
  leave : Nat → List Val → List Val → A → Option A

/-- What an analysis that watches calls is told. -/
inductive Tale where
  | adv (a : Advice)
  | enter (i : Nat) (args : List Val)
  | leave (i : Nat) (args results : List Val)

/-- What one tale does to the state of the analysis. -/
def CallWatcher.tell (w : CallWatcher A) : Tale → A → Option A
  | .adv a => w.step a
  | .enter i args => w.enter i args
  | .leave i args ress => w.leave i args ress

/-- What a sequence of tales does to the state of the analysis. -/
def CallWatcher.hear (w : CallWatcher A) : List Tale → A → Option A
  | [], x => some x
  | t :: ts, x => (w.tell t x).bind (w.hear ts)

/-- The numbers handed to or returned by a function (`none` if there is a reference). -/
def RVal.num? : RVal → Option Val
  | .num v => some v
  | .ref _ _ => none

/-- What the analysis is told about something that happens. -/
def Note.tale : Note → Option Tale
  | .instr t args => (stdEntry t args).map .adv
  | .enter i args => (args.mapM RVal.num?).map (.enter i)
  | .leave i args ress => (args.mapM RVal.num?).bind fun xs => (ress.mapM RVal.num?).map (.leave i xs)

/-- The analysis has a hook for what happens. -/
def Interface.hasHook (iface : Interface) : Note → Bool
  | .instr t _ => (iface.trap t).isSome
  | _ => true

/-- Of the story, the analysis with interface `iface` is told `tales`, in this order. -/
def Interface.Tells (iface : Interface) (st : Story) (tales : List Tale) : Prop := (st.filter iface.hasHook).map Note.tale = tales.map some

theorem CallWatcher.hear_append (w : CallWatcher A) (as bs : List Tale) (x : A) : w.hear (as ++ bs) x = (w.hear as x).bind (w.hear bs) := by
  induction as generalizing x with
  | nil => rfl
  | cons a as ih =>
    simp only [List.cons_append, CallWatcher.hear]
    cases w.tell a x with
    | none => rfl
    | some y => exact ih y

theorem nums_mapM (xs : List Val) : (xs.map RVal.num).mapM RVal.num? = some xs := by
  induction xs with
  | nil => rfl
  | cons x xs ih => simp [RVal.num?, ih]

theorem Interface.Tells.told {iface : Interface} {st : Story} {tales : List Tale} (h : iface.Tells st tales) {n : Note} (hn : iface.hasHook n = true) {t : Tale} (ht : n.tale = some t) :
    iface.Tells (st ++ [n]) (tales ++ [t]) := by
  unfold Interface.Tells at *
  simp only [List.filter_append, List.filter_cons, hn, if_true, List.filter_nil, List.map_append, h, List.map_cons, List.map_nil, ht]

theorem Interface.Tells.untold {iface : Interface} {st : Story} {tales : List Tale} (h : iface.Tells st tales) {n : Note} (hn : iface.hasHook n = false) : iface.Tells (st ++ [n]) tales := by
  unfold Interface.Tells at *
  simp only [List.filter_append, List.filter_cons, hn, Bool.false_eq_true, if_false, List.filter_nil, List.append_nil, h]

theorem tells_unique {iface : Interface} {st : Story} {as bs : List Tale} (h1 : iface.Tells st as) (h2 : iface.Tells st bs) : as = bs :=
  (List.map_inj_right (fun _ _ h => Option.some.inj h)).1 (h1.symm.trans h2)

/-- Of a beginning of a story, a beginning is told. -/
theorem Interface.Tells.of_prefix {iface : Interface} {st F : Story} {tales talesF : List Tale} (h : iface.Tells st tales) (hF : iface.Tells F talesF) (hp : st <+: F) : tales <+: talesF := by
  obtain ⟨rest, rfl⟩ := hp
  unfold Interface.Tells at *
  rw [List.filter_append, List.map_append, h] at hF
  have h1 : talesF.map some = tales.map some ++ (talesF.drop tales.length).map some := by
    rw [← hF]
    congr 1
    rw [List.map_drop, ← hF, List.drop_append_of_le_length (by simp)]
    simp
  rw [← List.map_append] at h1
  have := (List.map_inj_right (fun _ _ h => Option.some.inj h)).1 h1
  exact ⟨_, this.symm⟩

theorem CallWatcher.hear_prefix {w : CallWatcher A} {as bs : List Tale} (h : as <+: bs) {a b : A} (hb : w.hear bs a = some b) : ∃ x, w.hear as a = some x := by
  obtain ⟨cs, rfl⟩ := h
  rw [CallWatcher.hear_append] at hb
  cases hx : w.hear as a with
  | none => rw [hx] at hb; cases hb
  | some x => exact ⟨x, rfl⟩

/-- The story and the state of the analysis after it. -/
def Knows (iface : Interface) (w : CallWatcher A) (a0 : A) (st : Story) (a : A) : Prop := ∃ tales, iface.Tells st tales ∧ w.hear tales a0 = some a

theorem Knows.told {iface : Interface} {w : CallWatcher A} {a0 a a' : A} {st : Story} (h : Knows iface w a0 st a) {n : Note} (hn : iface.hasHook n = true) {t : Tale} (ht : n.tale = some t)
    (hw : w.tell t a = some a') : Knows iface w a0 (st ++ [n]) a' := by
  obtain ⟨tales, h1, h2⟩ := h
  refine ⟨tales ++ [t], h1.told hn ht, ?_⟩
  rw [CallWatcher.hear_append, h2]
  simp only [Option.bind_some, CallWatcher.hear, hw]

theorem Knows.untold {iface : Interface} {w : CallWatcher A} {a0 a : A} {st : Story} (h : Knows iface w a0 st a) {n : Note} (hn : iface.hasHook n = false) : Knows iface w a0 (st ++ [n]) a := by
  obtain ⟨tales, h1, h2⟩ := h
  exact ⟨tales, h1.untold hn, h2⟩

/-- As long as the story is a beginning of `F`, an analysis that survives `F` does not panic. -/
theorem Knows.survives {iface : Interface} {w : CallWatcher A} {a0 a aF : A} {st F : Story} {talesF : List Tale} (hF : iface.Tells F talesF) (hr : w.hear talesF a0 = some aF)
    (h : Knows iface w a0 st a) {n : Note} (hn : iface.hasHook n = true) {t : Tale} (ht : n.tale = some t) (hp : st ++ [n] <+: F) : w.tell t a ≠ none := by
  intro hw
  obtain ⟨tales, h1, h2⟩ := h
  obtain ⟨y, hy⟩ := CallWatcher.hear_prefix ((h1.told hn ht).of_prefix hF hp) hr
  rw [CallWatcher.hear_append, h2] at hy
  simp only [Option.bind_some, CallWatcher.hear, hw] at hy
  cases hy

/-! ## The hypotheses -/

/-- A program instrumented by an analysis written with the Rust library that watches instructions and calls, linked with it and the stack library
generated for it. `G` are the program's imports beside a story. -/
structure CallWatching (iface : Interface) (ts : Option (List Nat)) (m : Module) (r : Instrumented) (ge : WasmExport) (K : LibLink) (base : Nat) (T : List Table)
    (X : List (RefType × List (Option Nat))) (B : Nat) (N : Num) (w : CallWatcher A) (G : Imports (W × Story)) (H : Imports (World W A)) : Prop where
  sigs : r.librarySignatures = some K.sigs
  small : SmallSigs K.sigs
  good : K.Good
  lib : HasLib K H
  linked : LinkedTo iface (w.toWatcher.beside.body N r.module.exported) H
  advice : ∃ pre post, H analysisModule ge.name = telling K base pre post ∧
    ∀ i ∈ applyTargets m ts, ∀ f, m.functions[i]? = some f → f.type.RefFree → f.type.slots < 8192 → ∀ j p,
      Records f.type p (·.args f.type p) (pre ⟨BitVec.ofNat 32 j, BitVec.ofNat 32 i, BitVec.ofNat 32 p, codePresent f⟩ (handle f.type p) (handle f.type p)) (w.enter i) ∧
      Records f.type p (·.both f.type p) (post ⟨BitVec.ofNat 32 j, BitVec.ofNat 32 i, BitVec.ofNat 32 p, codePresent f⟩ (handle f.type p) (handle f.type p)) fun v => w.leave i v.1 v.2
  imports : ImportsTold m T X G H
  frame : ∀ t ∈ K.sigs, 12 * t.slots ≤ B

/-- The same of any analysis that watches instructions and calls, in whichever language it is written: its hooks show it the instructions, and its
`apply` advice resumes the call. -/
structure CallHearing (iface : Interface) (ts : Option (List Nat)) (m : Module) (r : Instrumented) (ge : WasmExport) (K : LibLink) (base : Nat) (T : List Table)
    (X : List (RefType × List (Option Nat))) (B : Nat) (N : Num) (w : CallWatcher A) (G : Imports (W × Story)) (H : Imports (World W A)) : Prop where
  sigs : r.librarySignatures = some K.sigs
  small : SmallSigs K.sigs
  good : K.Good
  lib : HasLib K H
  hooks : ∀ exact fr : Bool, (exact = true → ∀ a x, w.after a x = some x) → w.toWatcher.TellsHooks N iface m r exact fr H
  advice : ∃ pre post, SurroundsCalls base pre post (H analysisModule ge.name) ∧
    ∀ i ∈ applyTargets m ts, ∀ f, m.functions[i]? = some f → f.type.RefFree → f.type.slots < 8192 → ∀ j p,
      Records f.type p (·.args f.type p) (pre ⟨BitVec.ofNat 32 j, BitVec.ofNat 32 i, BitVec.ofNat 32 p, codePresent f⟩ f.type p) (w.enter i) ∧
      Records f.type p (·.both f.type p) (post ⟨BitVec.ofNat 32 j, BitVec.ofNat 32 i, BitVec.ofNat 32 p, codePresent f⟩ f.type p) fun v => w.leave i v.1 v.2
  imports : ImportsTold m T X G H
  frame : ∀ t ∈ K.sigs, 12 * t.slots ≤ B

/-- An analysis written with the Rust library is one of them. -/
theorem CallWatching.hearing {C : Checker} {iface : Interface} {ts : Option (List Nat)} {m : Module} {r : Instrumented} {ge : WasmExport} {K : LibLink} {base : Nat} {T : List Table}
    {X : List (RefType × List (Option Nat))} {B : Nat} {N : Num} {w : CallWatcher A} {G : Imports (W × Story)} {H : Imports (World W A)} (hs : SmallModule m) (hst : iface.Documented)
    (h : Instruments C iface ts m r) (hR : CallWatching iface ts m r ge K base T X B N w G H) : CallHearing iface ts m r ge K base T X B N w G H := by
  obtain ⟨pre, post, hadv, hrec⟩ := hR.advice
  exact ⟨hR.sigs, hR.small, hR.good, hR.lib, fun exact fr hq => Watcher.tellsHooks hs hst h hq hR.linked fr,
    ⟨_, _, hadv ▸ telling_surrounds hR.good base pre post, hrec⟩, hR.imports, hR.frame⟩

/-- Imports that do not call back do the same beside a story and beside the tool's tables, the analysis and the stack library. -/
theorem ImportsTold.plain {m : Module} {H : Imports W} {H' : Imports (World W A)} (T X)
    (hp : ∀ f ∈ m.functions, ∀ ns name, f.code = .imported ns name → PlainImport m.ctx f.type (H ns name) ∧ H' ns name = H.besideTool m.tables.length m.elements.length ns name) :
    ImportsTold m T X (H.beside Story) H' := by
  intro f hf ns name hc I J pn fl fr tl call call' _ args s s' ha hS
  obtain ⟨⟨h1, h2⟩, h3⟩ := hp f hf ns name hc
  obtain ⟨hok, ⟨w, a⟩, ⟨e, hI⟩, rfl⟩ := hS
  dsimp only at e
  subst e
  have hl := tables_length hok
  have hx : s.elems.length = m.elements.length := by
    have := congrArg List.length hok.elems
    simpa [Module.ctx] using this
  have e1 : (⟨(s.extend T X (s.world.1, a)).globals, (s.extend T X (s.world.1, a)).mems, (s.extend T X (s.world.1, a)).tables.take m.tables.length, (s.extend T X (s.world.1, a)).datas,
      (s.extend T X (s.world.1, a)).elems.take m.elements.length, (s.extend T X (s.world.1, a)).world.1⟩ : Store W) = ⟨s.globals, s.mems, s.tables, s.datas, s.elems, s.world.1⟩ := by
    simp only [Store.extend, ← hl, ← hx, List.take_left]
  have e2 : (s.extend T X (s.world.1, a)).tables.drop m.tables.length = T := by simp only [Store.extend, ← hl, List.drop_left]
  have e3 : (s.extend T X (s.world.1, a)).elems.drop m.elements.length = X := by simp only [Store.extend, ← hx, List.drop_left]
  rw [h3]
  simp only [Imports.besideTool, Imports.beside]
  rw [e1, e2, e3]
  have hok' : StoreOK m.ctx (⟨s.globals, s.mems, s.tables, s.datas, s.elems, s.world.1⟩ : Store W) := hok.world rfl rfl rfl rfl rfl
  rcases h2 (fun _ _ _ => .stuck) args _ ha hok' with ⟨vs, s1, e1, hv, hs1⟩ | ⟨s1, e1, hs1⟩
  · rw [e1]
    exact .ok hv ⟨hs1.world rfl rfl rfl rfl rfl, (s1.world, a), ⟨rfl, hI⟩, rfl⟩
  · rw [e1]
    exact .trap ⟨hs1.world rfl rfl rfl rfl rfl, (s1.world, a), ⟨rfl, hI⟩, rfl⟩

section
variable {C : Checker} {iface : Interface} {ts : Option (List Nat)} {m : Module} {r : Instrumented} {ge : WasmExport} {cb : WasmImport}
  {order : List Nat} {fs : List Func} {hooks : FuncType → StackHooks} {copy : Nat} {K : LibLink} {H : Imports (World W A)} {N : Num} {L : Nat}
  {G : Imports (W × Story)} {T : List Table} {X : List (RefType × List (Option Nat))} {B : Nat} {w : CallWatcher A}

/-- The analysis panics at this point of a story that `ρ` allows. -/
def Panics (iface : Interface) (w : CallWatcher A) (a0 : A) (ρ : Story → Prop) (pn : Prop) : Prop :=
  ∀ st a n t, Knows iface w a0 st a → iface.hasHook n = true → Note.tale n = some t → ρ (st ++ [n]) → w.tell t a = none → pn

theorem CallHearing.records (hA : Applied C iface ts m r ge cb order fs K.sigs hooks copy) {base : Nat} (hR : CallHearing iface ts m r ge K base T X B N w G H)
    {pre post : WasmFunction → FuncType → Nat → Act (World W A) Unit}
    (hrec : ∀ i ∈ applyTargets m ts, ∀ f, m.functions[i]? = some f → f.type.RefFree → f.type.slots < 8192 → ∀ j p,
      Records f.type p (·.args f.type p) (pre ⟨BitVec.ofNat 32 j, BitVec.ofNat 32 i, BitVec.ofNat 32 p, codePresent f⟩ f.type p) (w.enter i) ∧
      Records f.type p (·.both f.type p) (post ⟨BitVec.ofNat 32 j, BitVec.ofNat 32 i, BitVec.ofNat 32 p, codePresent f⟩ f.type p) fun v => w.leave i v.1 v.2)
    {j i : Nat} {f : Func} (hj : order[j]? = some i) (hf : m.functions[i]? = some f) (j' p : Nat) :
      Records f.type p (·.args f.type p) (pre ⟨BitVec.ofNat 32 j', BitVec.ofNat 32 i, BitVec.ofNat 32 p, codePresent f⟩ f.type p) (w.enter i) ∧
      Records f.type p (·.both f.type p) (post ⟨BitVec.ofNat 32 j', BitVec.ofNat 32 i, BitVec.ofNat 32 p, codePresent f⟩ f.type p) fun v => w.leave i v.1 v.2 := by
  obtain ⟨g, hg, hgt, _⟩ := hA.own hf
  have hn : f.type.slots < 8192 := by rw [← hgt]; exact hR.small _ (hA.at.target j i g hj hg).1
  exact hrec i ((hA.mem i).1 (List.mem_of_getElem? hj)) f hf (applyTarget_refFree hA hj hf) hn j' p

/-- The hooks keep the executions in step. -/
theorem call_hooks (hs : SmallModule m) (h : Instruments C iface ts m r) (hn : r.module.exportNames.Nodup) {exact : Bool}
    (hq : exact = true → ∀ a x, w.after a x = some x) {base : Nat} (hR : CallHearing iface ts m r ge K base T X B N w G H) {a0 : A} {ρ : Story → Prop} {pn : Prop}
    (hpn : Panics iface w a0 ρ pn) {F M : Nat} {μ : Nat → BitVec 8} {fl fr : Bool} (hfl : fl = true ∨ ∀ st, ρ st) {D : Nat} (hk : fr = true ∨ 2 ≤ D) {E : Env (W × Story)} (hE : E.num = N) :
    (toldAt m.ctx T X (Knows iface w a0) F M μ pn fl fr (!exact)).Judges true m.ctx (OffsetsAre iface (fun o => o.toNat < 2 ^ 31 ∧ (exact = true → o = 0))) (hookSel iface m.functions.length)
      (holding ρ) E (envAt N (machineOf H r.module.functions) L D) := by
  refine held_hooks hs h hn (w := w.toWatcher) (hR.hooks exact fr hq) ?_ ?_ ?_ hfl hk hE
  · rintro t args adv st a a' l ht he hst ⟨hz, hl⟩
    exact ⟨hz.told (n := .instr t args) ht (t := .adv adv) (by simp only [Note.tale, he, Option.map_some]) hst, hl⟩
  · rintro t args st a l ht ⟨hz, hl⟩
    exact ⟨hz.untold (n := .instr t args) (by simp only [Interface.hasHook, ht]; rfl), hl⟩
  · rintro t args adv st a l ht he ⟨hz, _⟩ hρ hst
    exact hpn st a (.instr t args) (.adv adv) hz ht (by simp only [Note.tale, he, Option.map_some]) hρ hst

/-- The instrumented program keeps up with the program that tells its story. -/
theorem held_forward (hs : SmallModule m) (hst : iface.Standard) (h : Instruments C iface ts m r) (hn : r.module.exportNames.Nodup)
    (hA : Applied C iface ts m r ge cb order fs K.sigs hooks copy) (hge : ge.args = [.i32, .i32, .i32, .i32, .i32, .i32, .i32] ∧ ge.results = [])
    (hcb : cb.args = [.i32, .i32] ∧ cb.results = []) (hsz : order.length < 2 ^ 32) (hv : ValidModule m)
    (hB : ∀ i ∈ bodyTargets m ts, ∀ f, m.functions[i]? = some f → WellAnnotated m f (bodyOf C m i)) {exact : Bool}
    (hoff : ∀ i ∈ bodyTargets m ts, ∀ f c, m.functions[i]? = some f → f.code = .present c → OnlyCode (OffsetsAre iface (fun o => o.toNat < 2 ^ 31 ∧ (exact = true → o = 0))) c.body)
    (hq : exact = true → ∀ a x, w.after a x = some x) (hR : CallHearing iface ts m r ge K (copy + 2 * order.length) T X B N w G H)
    {a0 : A} {ρ : Story → Prop} {pn : Prop} (hpn : Panics iface w a0 ρ pn)
    (hseg : ∀ s : Store (World W A), s.tables[m.tables.length]? = T[0]? → SegmentsIntact m r s) {M : Nat} :
    ∀ d D F μ, 5 * d + 2 ≤ D → F + d * B ≤ M * 65536 → F + d * B ≤ 65535 * 65536 →
      CallsAgree (toldAt m.ctx T X (Knows iface w a0) F M μ pn true false (!exact)) m.ctx
        (heldCall ρ C m (bodyTargets m ts) (applyTargets m ts) G N L d) (callF N (machineOf H r.module.functions) L D) := by
  obtain ⟨pre, post, hadv, hrec⟩ := hR.advice
  have hrec' := fun {j i f} => hR.records hA hrec (j := j) (i := i) (f := f)
  intro d
  induction d with
  | zero => intro D F μ _ _ _ f ty args s s' _ _ _; exact .fuelL rfl
  | succ d ih =>
    intro D F μ hD hc1 hc2 i ty args s s' hf ha hS
    have hseg' : SegmentsIntact m r s' := by
      obtain ⟨h1, w, _, rfl⟩ := hS
      apply hseg
      have hl : s.tables.length = m.tables.length := tables_length h1
      simp only [Store.extend]
      rw [List.getElem?_append_right (by omega)]
      simp [hl]
    simp only [Module.ctx, Option.map_eq_some_iff] at hf
    obtain ⟨f, hf, rfl⟩ := hf
    obtain ⟨g, hg, hgt, _⟩ := hA.own hf
    rw [Nat.add_mul, Nat.one_mul] at hc1 hc2
    simp only [heldCall, hf]
    by_cases ho : i ∈ order
    · rw [if_pos ((hA.mem i).1 ho)]
      obtain ⟨j, hj⟩ := List.getElem?_of_mem ho
      obtain ⟨hmem, _, _, hcp, _⟩ := hA.at.target j i g hj hg
      have hb : 12 * f.type.slots ≤ B := by rw [← hgt]; exact hR.frame _ hmem
      obtain ⟨D', rfl⟩ : ∃ D', D = D' + 5 := ⟨D - 5, by omega⟩
      refine held_agrees hA hge hcb hsz hR.good hR.small hR.lib hadv hj hf (fun p => (hrec' hj hf j p).1) (fun p => (hrec' hj hf j p).2) ?_ ?_ ?_ ?_ (.inl rfl)
        (applyTarget_refFree hA hj hf) ha ⟨by omega, by omega⟩ hseg' hS fun μ' s'' s3 hS'' => ?_
      · intro st a xs a' he hz
        exact hz.told (n := .enter i (xs.map .num)) rfl (t := .enter i xs) (by simp only [Note.tale, nums_mapM, Option.map_some]) he
      · intro st a xs ys a' he hz
        exact hz.told (n := .leave i (xs.map .num) (ys.map .num)) rfl (t := .leave i xs ys) (by simp only [Note.tale, nums_mapM, Option.map_some, Option.bind_some]) he
      · intro st xs a hz hρ he
        exact hpn st a (.enter i (xs.map .num)) (.enter i xs) hz rfl (by simp only [Note.tale, nums_mapM, Option.map_some]) hρ he
      · intro st xs ys a hz hρ he
        exact hpn st a (.leave i (xs.map .num) (ys.map .num)) (.leave i xs ys) hz rfl (by simp only [Note.tale, nums_mapM, Option.map_some, Option.bind_some]) hρ he
      · exact held_body_runs hs hst hA hv hB (toldRel_S _ _ _ _ _ _ _ _ _) (fun f hf ns name hc => hR.imports f hf ns name hc _ _ _ _ _ _) hf hg hcp rfl rfl rfl
          (ih D' _ _ (by omega) (by omega) (by omega)) hoff (call_hooks hs h hn hq hR hpn (.inl rfl) (.inr (by omega)) rfl) ha hS''
    · rw [if_neg (fun hh => ho ((hA.mem i).2 hh))]
      obtain ⟨D', rfl⟩ : ∃ D', D = D' + 1 := ⟨D - 1, by omega⟩
      exact held_body_runs hs hst hA hv hB (toldRel_S _ _ _ _ _ _ _ _ _) (fun f hf ns name hc => hR.imports f hf ns name hc _ _ _ _ _ _) hf hg (es := g.exports) (hA.at.untouched i g ho hg)
        rfl rfl rfl (ih D' F μ (by omega) (by omega) (by omega)) hoff (call_hooks hs h hn hq hR hpn (.inl rfl) (.inr (by omega)) rfl) ha hS

/-- The program that tells its story keeps up with the instrumented program. -/
theorem held_backward (hs : SmallModule m) (hst : iface.Standard) (h : Instruments C iface ts m r) (hn : r.module.exportNames.Nodup)
    (hA : Applied C iface ts m r ge cb order fs K.sigs hooks copy) (hge : ge.args = [.i32, .i32, .i32, .i32, .i32, .i32, .i32] ∧ ge.results = [])
    (hcb : cb.args = [.i32, .i32] ∧ cb.results = []) (hsz : order.length < 2 ^ 32) (hv : ValidModule m)
    (hB : ∀ i ∈ bodyTargets m ts, ∀ f, m.functions[i]? = some f → WellAnnotated m f (bodyOf C m i)) {exact : Bool}
    (hoff : ∀ i ∈ bodyTargets m ts, ∀ f c, m.functions[i]? = some f → f.code = .present c → OnlyCode (OffsetsAre iface (fun o => o.toNat < 2 ^ 31 ∧ (exact = true → o = 0))) c.body)
    (hq : exact = true → ∀ a x, w.after a x = some x) (hR : CallHearing iface ts m r ge K (copy + 2 * order.length) T X B N w G H)
    {a0 : A} {ρ : Story → Prop} {pn : Prop} (hpn : Panics iface w a0 ρ pn) {fl : Bool} (hfl : fl = true ∨ ∀ st, ρ st)
    (hseg : ∀ s : Store (World W A), s.tables[m.tables.length]? = T[0]? → SegmentsIntact m r s) {M : Nat} :
    ∀ D d F μ, D ≤ d → F + D * B ≤ M * 65536 → F + D * B ≤ 65535 * 65536 →
      CallsAgree (toldAt m.ctx T X (Knows iface w a0) F M μ pn fl true (!exact)) m.ctx
        (heldCall ρ C m (bodyTargets m ts) (applyTargets m ts) G N L d) (callF N (machineOf H r.module.functions) L D) := by
  obtain ⟨pre, post, hadv, hrec⟩ := hR.advice
  have hrec' := fun {j i f} => hR.records hA hrec (j := j) (i := i) (f := f)
  intro D
  induction D using Nat.strongRecOn with
  | ind D ih =>
    intro d F μ hD hc1 hc2 i ty args s s' hf ha hS
    match D, ih with
    | 0, _ => exact .fuelR rfl
    | D + 1, ih =>
    obtain ⟨d, rfl⟩ : ∃ d', d = d' + 1 := ⟨d - 1, by omega⟩
    have hseg' : SegmentsIntact m r s' := by
      obtain ⟨h1, w, _, rfl⟩ := hS
      apply hseg
      have hl : s.tables.length = m.tables.length := tables_length h1
      simp only [Store.extend]
      rw [List.getElem?_append_right (by omega)]
      simp [hl]
    simp only [Module.ctx, Option.map_eq_some_iff] at hf
    obtain ⟨f, hf, rfl⟩ := hf
    obtain ⟨g, hg, hgt, _⟩ := hA.own hf
    simp only [heldCall, hf]
    by_cases ho : i ∈ order
    · rw [if_pos ((hA.mem i).1 ho)]
      obtain ⟨j, hj⟩ := List.getElem?_of_mem ho
      obtain ⟨hmem, _, _, hcp, _⟩ := hA.at.target j i g hj hg
      have hb : 12 * f.type.slots ≤ B := by rw [← hgt]; exact hR.frame _ hmem
      have hr := applyTarget_refFree hA hj hf
      have hpe : ∀ st xs a, Knows iface w a0 st a → ρ (st ++ [.enter i (xs.map .num)]) → w.enter i xs a = none → pn := by
        intro st xs a hz hρ he
        exact hpn st a (.enter i (xs.map .num)) (.enter i xs) hz rfl (by simp only [Note.tale, nums_mapM, Option.map_some]) hρ he
      rw [Nat.add_mul, Nat.one_mul] at hc1 hc2
      by_cases hlt : D + 1 < 5
      · exact held_shallow hA hge hcb hsz hR.good hR.small hR.lib hadv hj hf (fun p => (hrec' hj hf j p).1) (fun p => (hrec' hj hf j p).2) hpe hfl hr ha
          ⟨by omega, by omega⟩ hseg' hS hlt
      · obtain ⟨D', rfl⟩ : ∃ D', D = D' + 4 := ⟨D - 4, by omega⟩
        rw [Nat.add_mul] at hc1 hc2
        refine held_agrees hA hge hcb hsz hR.good hR.small hR.lib hadv hj hf (fun p => (hrec' hj hf j p).1) (fun p => (hrec' hj hf j p).2) ?_ ?_ hpe ?_ hfl
          hr ha ⟨by omega, by omega⟩ hseg' hS fun μ' s'' s3 hS'' => ?_
        · intro st a xs a' he hz
          exact hz.told (n := .enter i (xs.map .num)) rfl (t := .enter i xs) (by simp only [Note.tale, nums_mapM, Option.map_some]) he
        · intro st a xs ys a' he hz
          exact hz.told (n := .leave i (xs.map .num) (ys.map .num)) rfl (t := .leave i xs ys) (by simp only [Note.tale, nums_mapM, Option.map_some, Option.bind_some]) he
        · intro st xs ys a hz hρ he
          exact hpn st a (.leave i (xs.map .num) (ys.map .num)) (.leave i xs ys) hz rfl (by simp only [Note.tale, nums_mapM, Option.map_some, Option.bind_some]) hρ he
        · exact held_body_runs hs hst hA hv hB (toldRel_S _ _ _ _ _ _ _ _ _) (fun f hf ns name hc => hR.imports f hf ns name hc _ _ _ _ _ _) hf hg hcp rfl rfl rfl
            (ih D' (by omega) d _ _ (by omega) (by omega) (by omega)) hoff (call_hooks hs h hn hq hR hpn hfl (.inl rfl) rfl) ha hS''
    · rw [if_neg (fun hh => ho ((hA.mem i).2 hh))]
      rw [Nat.add_mul, Nat.one_mul] at hc1 hc2
      exact held_body_runs hs hst hA hv hB (toldRel_S _ _ _ _ _ _ _ _ _) (fun f hf ns name hc => hR.imports f hf ns name hc _ _ _ _ _ _) hf hg (es := g.exports) (hA.at.untouched i g ho hg)
        rfl rfl rfl (ih D (by omega) d F μ (by omega) (by omega) (by omega)) hoff (call_hooks hs h hn hq hR hpn hfl (.inl rfl) rfl) ha hS

end

end Wastrum
