import Verif.SelectionThms
import Verif.MergeThms
import Verif.CheckedThms
import Verif.ForwardThms
import Verif.ExNan
/-!
# The command line tool, from its arguments to what it writes (C87)

Models `cli/src/main.rs` 105-148 on top of the pipeline (`Merge`), the selection of hooks (`Hooks`) and the instrumentation (`Instrument`).
-/

namespace Wastrum

/-! ## The model -/

/-- The arguments that matter: `cli/src/main.rs` 17-36 (`hooks`, `targets`). Paths are part of `CliWorld`. -/
structure CliArgs where
  hooks : Option (List CliHook)
  targets : Option (List Nat)

/-- Everything around the tool's own code: `Module::from_bytes` and `Module::to_bytes` of `wasabi_wasm` and its type checker, the iteration orders of the two
hash sets of functions, the Rust compiler on the analysis' manifest and on the library generated for given signatures, and the operating system as seen by the
merge. Reading the input, setting up the compilers and writing the output (`cli/src/main.rs` 115, 131-132, 145) are taken to work. -/
structure CliWorld (CE : Type) where
  decode : Bytes → Option Module
  encode : Module → Option Bytes
  checker : Checker
  ord : List Nat → List Nat
  ord' : List Nat → List Nat
  compileAnalysis : Except (Fail CE) Bytes
  compileLibrary : List FuncType → Except (Fail CE) Bytes
  merging : MergeWorld

/-- `InstrumentationError`: `wastrumentation/src/error.rs` 19-29. -/
inductive CliIError where
  | parseModule
  | attemptInnerInstrumentImport
  | lowToHigh (e : LowToHighError)
  | encode

/-- Which of the ways for instrumentation to fail are errors and which are panics: `InstrumentationError` in `wastrumentation/src/error.rs` 19-29. -/
def IError.fail : IError → Fail CliIError
  | .lowToHigh e => .error (.lowToHigh e)
  | .attemptInnerInstrumentImport => .error .attemptInnerInstrumentImport
  | _ => .panic

/-- `instrument::instrument` on bytes: `wastrumentation/src/instrument/mod.rs` 123-124 (decoding), 126-299 (`instrument`) and encoding at its end. -/
def instrumentBytes {CE : Type} (w : CliWorld CE) (iface : Interface) (targets : Option (List Nat)) (input : Bytes) :
    Except (Fail CliIError) (Bytes × Option (List FuncType)) :=
  match w.decode input with
  | none => .error (.error .parseModule)
  | some m => match instrument w.checker w.ord w.ord' iface targets m with
    | .error e => .error e.fail
    | .ok r => match w.encode r.module with
      | none => .error (.error .encode)
      | some bytes => .ok (bytes, r.librarySignatures)

/-- The pipeline the tool sets up: `cli/src/main.rs` 117-141. -/
def cliPipeline {CE : Type} (w : CliWorld CE) (a : CliArgs) (input : Bytes) : Pipeline (List FuncType) CE CliIError MergeError where
  compileAnalysis := w.compileAnalysis
  instrument := instrumentBytes w (interfaceFrom (selectHooks a.hooks)) a.targets input
  compileLibrary := w.compileLibrary
  merge o := match o.merge w.merging with
    | .error e => .error (.error e)
    | .ok b => .ok b

/-- `main`: `cli/src/main.rs` 105-148. `none` is the panic of `expect` (143), or a panic before it. -/
def cli {CE : Type} (w : CliWorld CE) (a : CliArgs) (input : Bytes) : Option Bytes :=
  match (wastrument (cliPipeline w a input) none).2 with
  | .error _ => none
  | .ok out => some out

/-! ## Specification -/

/-- The hook was asked for: all are if the option is not given. -/
def CliArgs.Asks (a : CliArgs) (h : CliHook) : Prop := ∀ l, a.hooks = some l → h ∈ l

/-- Loads (stores) that go through the analysis have offset 0. -/
def ZeroOffsets (a : CliArgs) (m : Module) : Prop :=
  ∀ f ∈ m.functions, ∀ c, f.code = .present c → ∀ ma : Memarg,
    (a.Asks .load → ∀ op, LInstr.load op ma ∈ c.body → ma.offset = 0) ∧ (a.Asks .store → ∀ op, LInstr.store op ma ∈ c.body → ma.offset = 0)

/-- The program keeps off the names the tool exports: `call_base` and those beginning with `instrumented_`. -/
def KeepsOff (m : Module) : Prop := ∀ name ∈ m.exportNames, name ≠ "call_base" ∧ ¬ "instrumented_".toList <+: name.toList

/-- The tools the command relies on do their work: the module it produces can be encoded, both compilers accept their input, and merging succeeds. -/
structure ToolsWork {CE : Type} (w : CliWorld CE) : Prop where
  encodes : ∀ m, ∃ b, w.encode m = some b
  analysis : ∃ b, w.compileAnalysis = .ok b
  library : ∀ sigs, ∃ b, w.compileLibrary sigs = .ok b
  merges : ∀ o : MergeOptions, ∃ b, o.merge w.merging = .ok b

/-- A set is visited in some order. -/
structure Orderly {CE : Type} (w : CliWorld CE) : Prop where
  bodies : ∀ l, (w.ord l).Perm l
  applications : ∀ l, (w.ord' l).Perm l

/-! ## Every selection is an interface the other theorems speak about -/

theorem interfaceFrom_documented (hs : List Hook) : (interfaceFrom hs).Documented := by
  intro t e h
  rw [(C34_selected_hooks_exact hs).1] at h
  split at h
  · exact (Option.some.inj h).symm
  · cases h

theorem interfaceFrom_generic {hs : List Hook} {ge cb} (h : (interfaceFrom hs).generic = some (ge, cb)) : (ge, cb) = interfaceGenericApply ∧ .genericApply ∈ hs := by
  rw [(C34_selected_hooks_exact hs).2] at h
  split at h
  · rename_i hm; exact ⟨(Option.some.inj h).symm, hm⟩
  · cases h

theorem interfaceFrom_standardApply (hs : List Hook) : (interfaceFrom hs).StandardApply := by
  intro ge cb h
  cases (interfaceFrom_generic h).1
  decide

theorem selectHooks_mem (a : CliArgs) (h : CliHook) : h.toHook ∈ selectHooks a.hooks ↔ a.Asks h := by
  unfold selectHooks CliArgs.Asks
  cases e : a.hooks with
  | none => simp; cases h <;> decide
  | some l =>
    simp only [Option.some.injEq, forall_eq', List.mem_map]
    constructor
    · rintro ⟨k, hk, e⟩; rwa [← C34_command_line.1 k h e]
    · exact fun h => ⟨_, h, rfl⟩

theorem interfaceFrom_trap (a : CliArgs) {t : Trap} (h : ((interfaceFrom (selectHooks a.hooks)).trap t).isSome) : t.hook ∈ selectHooks a.hooks := by
  rw [(C34_selected_hooks_exact _).1] at h
  split at h
  · assumption
  · cases h

theorem ZeroOffsets.code {a : CliArgs} {m : Module} (h : ZeroOffsets a m) {f : Func} {c} (hf : f ∈ m.functions) (hc : f.code = .present c) :
    OnlyCode (OffsetsAre (interfaceFrom (selectHooks a.hooks)) fun o => o = 0) c.body := by
  intro b hb t k info hd ht
  have ht := interfaceFrom_trap a ht
  cases b <;> first | trivial | skip
  case load op ma =>
    have e : t.hook = (CliHook.load).toHook := by
      revert hd; cases op <;> simp [delegation, loadTrap, LoadOp.ty] <;> (rintro rfl - -; rfl)
    exact (h f hf c hc ma).1 ((selectHooks_mem a _).1 (e ▸ ht)) op hb
  case store op ma =>
    have e : t.hook = (CliHook.store).toHook := by
      revert hd; cases op <;> simp [delegation, storeTrap, StoreOp.ty] <;> (rintro rfl - -; rfl)
    exact (h f hf c hc ma).2 ((selectHooks_mem a _).1 (e ▸ ht)) op hb

theorem KeepsOff.reserved {m : Module} (h : KeepsOff m) (hs : List Hook) : ∀ name ∈ (interfaceFrom hs).toolExports, name ∉ m.exportNames := by
  have key : ∀ name ∈ loadExports.map (·.1) ++ storeExports.map (·.1) ++ ["instrumented_memory_grow", "instrumented_memory_size"], "instrumented_".toList <+: name.toList := by
    decide +kernel
  intro name hn hm
  obtain ⟨h1, h2⟩ := h name hm
  unfold Interface.toolExports at hn
  cases e : (interfaceFrom hs).generic with
  | none =>
    rw [e] at hn
    exact h2 (key name (by simpa using hn))
  | some p =>
    obtain ⟨ge, cb⟩ := p
    have := (interfaceFrom_generic e).1
    cases this
    rw [e] at hn
    simp only [List.append_assoc, List.cons_append, List.nil_append, List.mem_cons] at hn
    rcases hn with rfl | hn
    · exact h1 rfl
    · exact h2 (key name (by simpa using hn))

theorem librarySignatures_iff {C ord ord' iface ts m r} (h : instrument C ord ord' iface ts m = .ok r) : r.librarySignatures = none ↔ iface.generic = none := by
  unfold instrument at h
  cases hb : instrumentBodies C iface (ord (bodyTargets m ts)) m with
  | error e => simp [hb, bind, Except.bind] at h
  | ok fs =>
    simp only [hb, bind, Except.bind] at h
    cases hg : iface.generic with
    | none =>
      simp only [hg] at h
      split at h
      · cases h
      · cases h; simp
    | some p =>
      simp only [hg] at h
      split at h
      · cases h
      · split at h
        · cases h
        · cases h; simp

/-! ## The theorems -/

/-- **C87 (exactly).** The command writes `out` exactly if the input can be read as a module, that module can be instrumented for the hooks and functions asked
for and written again, the analysis compiles, the library of the signatures involved compiles if calls are to be intercepted (and is not needed otherwise), and
merging succeeds with `out` on exactly the program, the library and the analysis in this order, under the names their imports refer to, with these options. -/
theorem C87_command_writes {CE : Type} (w : CliWorld CE) (a : CliArgs) (input out : Bytes) :
    cli w a input = some out ↔
      ∃ (m : Module) (r : Instrumented) (program analysis : Bytes) (o : MergeOptions), w.decode input = some m ∧ instrument w.checker w.ord w.ord' (interfaceFrom (selectHooks a.hooks)) a.targets m = .ok r ∧
        w.encode r.module = some program ∧ w.compileAnalysis = .ok analysis ∧
        ((¬ a.Asks .genericApply ∧ r.librarySignatures = none ∧
            o.modules = [⟨program, "instrumented_input"⟩, ⟨analysis, "WASTRUMENTATION_ANALYSIS"⟩]) ∨
          (a.Asks .genericApply ∧ ∃ sigs library, r.librarySignatures = some sigs ∧ w.compileLibrary sigs = .ok library ∧
            o.modules = [⟨program, "instrumented_input"⟩, ⟨library, "wastrumentation_stack"⟩, ⟨analysis, "WASTRUMENTATION_ANALYSIS"⟩])) ∧
        o.primary = none ∧ (∀ f, o.enabled f = true ↔ f ∈ [MergeOption.noValidate, .renameExportConflicts, .multimemory, .bulkMemory]) ∧
        o.merge w.merging = .ok out := by
  have hgen : (interfaceFrom (selectHooks a.hooks)).generic = none ↔ ¬ a.Asks .genericApply := by
    rw [(C34_selected_hooks_exact _).2, ← selectHooks_mem]
    by_cases h : Hook.genericApply ∈ selectHooks a.hooks <;> simp [h, CliHook.toHook]
  have hcli : cli w a input = some out ↔ (wastrument (cliPipeline w a input) none).2 = .ok out := by
    unfold cli; split <;> rename_i h <;> simp [h]
  rw [hcli, C38_success_iff]
  have hmerge : ∀ o : MergeOptions, (cliPipeline w a input).merge o = .ok out ↔ o.merge w.merging = .ok out := by
    intro o; simp only [cliPipeline]; split <;> rename_i h <;> simp [h]
  have hopts : ∀ f, (match f with | MergeOption.noValidate | .renameExportConflicts | .multimemory | .bulkMemory => true | _ => false) = true ↔
      f ∈ [MergeOption.noValidate, .renameExportConflicts, .multimemory, .bulkMemory] := by intro f; cases f <;> decide
  constructor
  · rintro ⟨analysis, program, library, lib, ha, hi, hl, hm⟩
    rw [hmerge] at hm
    simp only [cliPipeline, instrumentBytes] at ha hi hl
    split at hi
    · cases hi
    · rename_i m hd
      split at hi
      · cases hi
      · rename_i r hr
        split at hi
        · cases hi
        · rename_i bytes hb
          cases hi
          refine ⟨m, r, program, analysis, _, hd, hr, hb, ha, ?_, rfl, hopts, hm⟩
          cases hs : r.librarySignatures with
          | none =>
            rw [hs] at hl
            cases hl
            exact .inl ⟨hgen.1 ((librarySignatures_iff hr).1 hs), rfl, rfl⟩
          | some sigs =>
            rw [hs] at hl
            obtain ⟨b, hb', rfl⟩ := hl
            refine .inr ⟨?_, sigs, b, rfl, hb', rfl⟩
            apply Classical.byContradiction
            intro hn
            have := (librarySignatures_iff hr).2 (hgen.2 hn)
            rw [hs] at this; cases this
  · rintro ⟨m, r, program, analysis, o, hd, hr, hb, ha, hl, hp, ho, hm⟩
    have hi : (cliPipeline w a input).instrument = .ok (program, r.librarySignatures) := by simp [cliPipeline, instrumentBytes, hd, hr, hb]
    have eo : o.enabled = fun f => match f with | MergeOption.noValidate | .renameExportConflicts | .multimemory | .bulkMemory => true | _ => false := by
      funext f
      have := (ho f).trans (hopts f).symm
      revert this
      cases o.enabled f <;> cases f <;> simp
    obtain ⟨pr, inputs, en⟩ := o
    simp only at hp eo
    subst hp eo
    simp only [MergeOptions.modules, Option.toList_none, List.nil_append] at hl
    rcases hl with ⟨_, hs, rfl⟩ | ⟨_, sigs, library, hs, hc, rfl⟩
    · exact ⟨analysis, program, _, none, ha, hi, by rw [hs]; rfl, (hmerge _).2 hm⟩
    · exact ⟨analysis, program, _, some library, ha, hi, by rw [hs]; exact ⟨library, hc, rfl⟩, (hmerge _).2 hm⟩

/-- **C87 (no valid program is turned down).** If the tools it relies on work, the command writes its output for every valid program with at most one memory, and
panics for every valid program with more, whatever hooks and functions are asked for. -/
theorem C87_valid_programs_are_accepted {CE : Type} {w : CliWorld CE} (hw : ToolsWork w) (ho : Orderly w) {input : Bytes} {m : Module} (hd : w.decode input = some m)
    (hv : ValidModule m) (hl : m.WithinLimits) (hC : w.checker.Right m) (a : CliArgs) :
    (∃ out, cli w a input = some out) ↔ m.memories.length ≤ 1 := by
  rw [← C82_valid_programs_are_instrumented hv hl hC (interfaceFrom (selectHooks a.hooks)) a.targets ho.bodies ho.applications]
  constructor
  · rintro ⟨out, h⟩
    obtain ⟨m', r, _, _, _, hd', hr, _⟩ := (C87_command_writes w a input out).1 h
    rw [hd] at hd'; cases hd'
    exact ⟨r, hr⟩
  · rintro ⟨r, hr⟩
    obtain ⟨program, hp⟩ := hw.encodes r.module
    obtain ⟨analysis, ha⟩ := hw.analysis
    have hgen : r.librarySignatures = none ↔ ¬ a.Asks .genericApply := by
      rw [librarySignatures_iff hr, (C34_selected_hooks_exact _).2, ← selectHooks_mem]
      by_cases h : Hook.genericApply ∈ selectHooks a.hooks <;> simp [h, CliHook.toHook]
    have hopts : ∀ f, decide (f ∈ [MergeOption.noValidate, .renameExportConflicts, .multimemory, .bulkMemory]) = true ↔
      f ∈ [MergeOption.noValidate, .renameExportConflicts, .multimemory, .bulkMemory] := fun f => by simp
    have key : ∀ o : MergeOptions, (_ ∨ _) → o.primary = none → (∀ f, o.enabled f = true ↔ _) → ∃ out, cli w a input = some out := fun o h1 h2 h3 => by
      obtain ⟨out, hout⟩ := hw.merges o
      exact ⟨out, (C87_command_writes w a input out).2 ⟨m, r, program, analysis, o, hd, hr, hp, ha, h1, h2, h3, hout⟩⟩
    cases hs : r.librarySignatures with
    | none => exact key ⟨none, [⟨program, "instrumented_input"⟩, ⟨analysis, "WASTRUMENTATION_ANALYSIS"⟩], _⟩ (.inl ⟨hgen.1 hs, hs, rfl⟩) rfl hopts
    | some sigs =>
      obtain ⟨library, hlib⟩ := hw.library sigs
      refine key ⟨none, [⟨program, "instrumented_input"⟩, ⟨library, "wastrumentation_stack"⟩, ⟨analysis, "WASTRUMENTATION_ANALYSIS"⟩], _⟩
        (.inr ⟨Classical.byContradiction fun hn => ?_, sigs, library, hs, hlib, rfl⟩) rfl hopts
      rw [hgen.2 hn] at hs; cases hs

/-- **C87 (what is merged behaves the same).** Let the command write its output for a valid program, without `generic-apply`. Then the program it has merged behaves
like the original when the analysis is the shipped forwarding one: every call returns the same results in the same state, traps in the same state, or does not end,
as in the original program; provided loads and stores that go through the analysis have offset 0 and the program keeps off the tool's names. -/
theorem C87_forwarded_programs_behave_the_same {CE : Type} {w : CliWorld CE} (ho : Orderly w) {a : CliArgs} {input out : Bytes} (h : cli w a input = some out)
    {m : Module} (hd : w.decode input = some m) (hv : ValidModule m) (hl : m.WithinLimits) (hC : w.checker.Right m) (hk : KeepsOff m) (hz : ZeroOffsets a m)
    (hg : ¬ a.Asks .genericApply) :
    ∃ (r : Instrumented) (program analysis : Bytes) (o : MergeOptions),
      instrument w.checker w.ord w.ord' (interfaceFrom (selectHooks a.hooks)) a.targets m = .ok r ∧ w.encode r.module = some program ∧ w.compileAnalysis = .ok analysis ∧
      o.modules = [⟨program, "instrumented_input"⟩, ⟨analysis, "WASTRUMENTATION_ANALYSIS"⟩] ∧ o.merge w.merging = .ok out ∧ ValidModule r.module ∧
      ∀ {W A : Type} {N : Num} {H : Imports W} {H' : Imports (W × A)},
        LinkedTo (interfaceFrom (selectHooks a.hooks)) (forwardBody N r.module.exported) H' → ImportsAgree m (fun w (p : W × A) => w = p.1) H H' →
        ∀ {f : Nat} {ty : FuncType} {args : List RVal} {s : Store W}, m.ctx.ftype f = some ty → ValsOK m.ctx args ty.inputs → StoreOK m.ctx s → ∀ x : A,
          (∀ vs s1, (∃ L d, callF N (machineOf H m.functions) L d f args s = .ok vs s1) ↔
            ∃ L d x1, callF N (machineOf H' r.module.functions) L d f args (s.withAnalysis x) = .ok vs (s1.withAnalysis x1)) ∧
          (∀ s1, (∃ L d, callF N (machineOf H m.functions) L d f args s = .trap s1) ↔
            ∃ L d x1, callF N (machineOf H' r.module.functions) L d f args (s.withAnalysis x) = .trap (s1.withAnalysis x1)) ∧
          ((∀ L d, callF N (machineOf H m.functions) L d f args s = .fuel) ↔
            ∀ L d, callF N (machineOf H' r.module.functions) L d f args (s.withAnalysis x) = .fuel) := by
  obtain ⟨m', r, program, analysis, o, hd', hr, hp, ha, hm, _, _, hout⟩ := (C87_command_writes w a input out).1 h
  rw [hd] at hd'; cases hd'
  have hmods : o.modules = [⟨program, "instrumented_input"⟩, ⟨analysis, "WASTRUMENTATION_ANALYSIS"⟩] := by
    rcases hm with ⟨_, _, e⟩ | ⟨hy, _⟩
    · exact e
    · exact absurd hy hg
  have hgen : (interfaceFrom (selectHooks a.hooks)).generic = none := by
    rw [(C34_selected_hooks_exact _).2, if_neg]
    exact fun hm => hg ((selectHooks_mem a .genericApply).1 hm)
  have hI : Instruments w.checker (interfaceFrom (selectHooks a.hooks)) a.targets m r := ⟨_, _, ho.bodies, ho.applications, hr⟩
  have hmem : m.memories.length ≤ 1 := (C82_valid_programs_are_instrumented hv hl hC _ a.targets ho.bodies ho.applications).1 ⟨r, hr⟩
  refine ⟨r, program, analysis, o, hr, hp, ha, hmods, hout, ?_, ?_⟩
  · exact (C82_valid_to_valid hv hl hC hmem (interfaceFrom_documented _).standard (interfaceFrom_standardApply _) a.targets (hk.reserved _)).2 r hI
  intro W A N H H' hL hA f ty args s hf hargs hok x
  have key := fun L d => C48_shipped_forwarding_transparent (hl.small hv) (interfaceFrom_documented _) hgen hI hv (fun i _ f hf => wellAnnotated_of hv hC i f hf)
    (hk.reserved _) (fun i _ f c hf hc => hz.code (List.mem_of_getElem? hf) hc) hL hA hf hargs hok x L d
  have inj : ∀ {s1 s2 : Store W} {a1 a2 : A}, s1.withAnalysis a1 = s2.withAnalysis a2 → s1 = s2 := by
    intro s1 s2 a1 a2 e
    simp only [Store.withAnalysis, Store.mk.injEq, Prod.mk.injEq] at e
    obtain ⟨h1, h2, h3, h4, h5, h6, _⟩ := e
    cases s1; cases s2; simp_all
  refine ⟨?_, ?_, ?_⟩
  · intro vs s1
    constructor
    · rintro ⟨L, d, e⟩
      obtain ⟨a1, e'⟩ := (key L d).1 vs s1 e
      exact ⟨L, d + 2, a1, e'⟩
    · rintro ⟨L, d, a1, e⟩
      obtain ⟨s2, a2, e1, e2⟩ := (key L d).2.2.1 _ _ e
      exact ⟨L, d, by rw [e1, inj e2]⟩
  · intro s1
    constructor
    · rintro ⟨L, d, e⟩
      obtain ⟨a1, e'⟩ := (key L d).2.1 s1 e
      exact ⟨L, d + 2, a1, e'⟩
    · rintro ⟨L, d, a1, e⟩
      obtain ⟨s2, a2, e1, e2⟩ := (key L d).2.2.2.1 _ e
      exact ⟨L, d, by rw [e1, inj e2]⟩
  · constructor
    · intro e L d
      cases ho : callF N (machineOf H' r.module.functions) L d f args (s.withAnalysis x) with
      | fuel => rfl
      | stuck => exact absurd ho (key L d).2.2.2.2.2
      | ok vs s1 => obtain ⟨s2, a2, e1, _⟩ := (key L d).2.2.1 _ _ ho; rw [e] at e1; cases e1
      | trap s1 => obtain ⟨s2, a2, e1, _⟩ := (key L d).2.2.2.1 _ ho; rw [e] at e1; cases e1
    · intro e L d
      cases ho : callF N (machineOf H m.functions) L d f args s with
      | fuel => rfl
      | stuck => exact absurd ho (key L d).2.2.2.2.1
      | ok vs s1 => obtain ⟨a1, e1⟩ := (key L d).1 _ _ ho; rw [e] at e1; cases e1
      | trap s1 => obtain ⟨a1, e1⟩ := (key L d).2.1 _ ho; rw [e] at e1; cases e1

/-- **C87 (intercepting calls).** The same with `generic-apply`, with the generated library merged as well: as long as the library has room for the buffers of `d` nested
calls, a call behaves as in the original program up to that depth, and leaves the library's stack as it was. -/
theorem C87_intercepted_programs_behave_the_same {CE : Type} {w : CliWorld CE} (ho : Orderly w) {a : CliArgs} {input out : Bytes} (h : cli w a input = some out)
    {m : Module} (hd : w.decode input = some m) (hv : ValidModule m) (hl : m.WithinLimits) (hC : w.checker.Right m) (hk : KeepsOff m) (hz : ZeroOffsets a m)
    (hg : a.Asks .genericApply) :
    ∃ (r : Instrumented) (sigs : List FuncType) (program library analysis : Bytes) (o : MergeOptions),
      instrument w.checker w.ord w.ord' (interfaceFrom (selectHooks a.hooks)) a.targets m = .ok r ∧ w.encode r.module = some program ∧
      r.librarySignatures = some sigs ∧ w.compileLibrary sigs = .ok library ∧ w.compileAnalysis = .ok analysis ∧
      o.modules = [⟨program, "instrumented_input"⟩, ⟨library, "wastrumentation_stack"⟩, ⟨analysis, "WASTRUMENTATION_ANALYSIS"⟩] ∧ o.merge w.merging = .ok out ∧
      ValidModule r.module ∧
      ∃ base : Nat, (∃ f, r.module.functions[base]? = some f ∧ f.exports = ["call_base"]) ∧
        ∀ (W A : Type) (K : LibLink) (N : Num) (T : List Table) (X : List (RefType × List (Option Nat))) (B : Nat) (H : Imports W) (H' : Imports (World W A)),
          Deployed (interfaceFrom (selectHooks a.hooks)) m r interfaceGenericApply.1 K base T X B (forwardBody N r.module.exported) forwardIdle forwardIdle H H' →
          ∀ (f : Nat) (ty : FuncType) (args : List RVal) (s : Store W) (x : A) (l : Lib),
            m.ctx.ftype f = some ty → ValsOK m.ctx args ty.inputs → StoreOK m.ctx s →
            l.Ok → l.mem.pages < 65536 → SegmentsIntact m r (s.extend T X (s.world, x, l.store)) →
          ∀ (L d : Nat), l.free + d * B ≤ l.mem.limit * 65536 → l.free + d * B ≤ 65535 * 65536 →
            let original := callF N (machineOf H m.functions) L
            let instrumented := callF N (machineOf H' r.module.functions) L
            let s' := s.extend T X (s.world, x, l.store)
            (∀ vs s1, original d f args s = .ok vs s1 →
              ∃ x1 l1, instrumented (5 * d + 2) f args s' = .ok vs (s1.extend T X (s1.world, x1, l1.store)) ∧ Lib.Ok l1 ∧ l1.free = l.free ∧ l1.mem.limit = l.mem.limit) ∧
            (∀ s1, original d f args s = .trap s1 → ∃ x1 st1, instrumented (5 * d + 2) f args s' = .trap (s1.extend T X (s1.world, x1, st1))) ∧
            (∀ vs s1', instrumented d f args s' = .ok vs s1' →
              ∃ s1 x1 l1, original d f args s = .ok vs s1 ∧ s1' = s1.extend T X (s1.world, x1, l1.store) ∧ Lib.Ok l1 ∧ l1.free = l.free ∧ l1.mem.limit = l.mem.limit) ∧
            (∀ s1', instrumented d f args s' = .trap s1' → ∃ s1 x1 st1, original d f args s = .trap s1 ∧ s1' = s1.extend T X (s1.world, x1, st1)) ∧
            original d f args s ≠ .stuck ∧ instrumented d f args s' ≠ .stuck := by
  obtain ⟨m', r, program, analysis, o, hd', hr, hp, ha, hm, _, _, hout⟩ := (C87_command_writes w a input out).1 h
  rw [hd] at hd'; cases hd'
  obtain ⟨hn, _⟩ | ⟨_, sigs, library, hs, hc, hmods⟩ := hm
  · exact absurd hg hn
  have hgen : (interfaceFrom (selectHooks a.hooks)).generic = some (interfaceGenericApply.1, interfaceGenericApply.2) := by
    rw [(C34_selected_hooks_exact _).2, if_pos]
    exact (selectHooks_mem a .genericApply).2 hg
  have hI : Instruments w.checker (interfaceFrom (selectHooks a.hooks)) a.targets m r := ⟨_, _, ho.bodies, ho.applications, hr⟩
  have hmem : m.memories.length ≤ 1 := (C82_valid_programs_are_instrumented hv hl hC _ a.targets ho.bodies ho.applications).1 ⟨r, hr⟩
  refine ⟨r, sigs, program, library, analysis, o, hr, hp, hs, hc, ha, hmods, hout, ?_, ?_⟩
  · exact (C82_valid_to_valid hv hl hC hmem (interfaceFrom_documented _).standard (interfaceFrom_standardApply _) a.targets (hk.reserved _)).2 r hI
  exact C71_shipped_forward_transparent (hl.small hv) (interfaceFrom_documented _) (interfaceFrom_standardApply _) hI hgen hv (fun i _ f hf => wellAnnotated_of hv hC i f hf)
    (hk.reserved _) (fun i _ f c hf hc => hz.code (List.mem_of_getElem? hf) hc)

/-! ## Two runs of the command -/

/-- Surroundings in which the input `[1]` is read as the program `m`, and everything else works. -/
def exCli (m : Module) (C : Checker) : CliWorld Unit where
  decode b := if b = [1] then some m else none
  encode _ := some [2]
  checker := C
  ord := id
  ord' := id
  compileAnalysis := .ok [3]
  compileLibrary _ := .ok [4]
  merging := ⟨fun _ => .ok "/tmp/in", fun _ _ => .ok (), .ok "/tmp/out", fun _ files => .ok ⟨0, [], .ok (files.flatMap (·.2))⟩⟩

theorem exCli_works (m : Module) (C : Checker) : ToolsWork (exCli m C) where
  encodes _ := ⟨_, rfl⟩
  analysis := ⟨_, rfl⟩
  library _ := ⟨_, rfl⟩
  merges o := by
    have key : ∀ (l : List InputModule) k, ∃ x, tempFiles (exCli m C).merging k l = .ok x := by
      intro l
      induction l with
      | nil => exact fun k => ⟨_, rfl⟩
      | cons i l ih => intro k; obtain ⟨x, hx⟩ := ih (k + 1); exact ⟨_, by simp only [tempFiles, hx]; rfl⟩
    obtain ⟨x, hx⟩ := key o.modules 0
    exact ⟨_, by simp only [MergeOptions.merge, hx]; rfl⟩

theorem exCli_orderly (m : Module) (C : Checker) : Orderly (exCli m C) := ⟨fun _ => .rfl, fun _ => .rfl⟩

/-- `--hooks if-then-else call-pre call-post`. -/
def exArgs : CliArgs := ⟨some [.ifThenElse, .callPre, .callPost], none⟩

theorem exModule_keepsOff : KeepsOff exModule := by unfold KeepsOff; decide +kernel

theorem exModule_zero : ZeroOffsets exArgs exModule := by
  intro f hf c hc ma
  simp only [exModule, List.mem_cons, List.not_mem_nil, or_false] at hf
  rcases hf with rfl | rfl | rfl | rfl <;> cases hc <;> simp

-- The command turns the example program into the program, the analysis and nothing else; and what it merges behaves as the program does.
example : cli (exCli exModule lookupChecker) exArgs [1] = some [2, 3] := by cbv

example : ∃ r, instrument lookupChecker id id (interfaceFrom (selectHooks exArgs.hooks)) none exModule = .ok r ∧
    ∃ L d log, callF exNum (machineOf (exAnalysis r.module.exported false) r.module.functions) L d 1 [.i32 0, .i32 5] (exStore.withAnalysis []) =
      .ok [.i32 49] (Store.withAnalysis { exStore with world := [.i32 7] } log) := by
  obtain ⟨out, h⟩ := (C87_valid_programs_are_accepted (exCli_works exModule lookupChecker) (exCli_orderly _ _) (input := [1]) rfl exModule_valid exModule_limits (C82_right_checker_exists _) exArgs).2 (by decide)
  obtain ⟨r, _, _, _, hr, _, _, _, _, _, hall⟩ := C87_forwarded_programs_behave_the_same (exCli_orderly _ _) h rfl exModule_valid exModule_limits (C82_right_checker_exists _)
    exModule_keepsOff exModule_zero (fun hn => by have := hn _ rfl; revert this; decide)
  refine ⟨r, hr, ?_⟩
  refine ((hall ?_ (exImports_agree _ _) (f := 1) rfl (ValsOK.nil.cons rfl (by simp [RVal.OK]) |>.cons rfl (by simp [RVal.OK])) exStore_ok []).1 _ _).1 ⟨10, 10, exModule_runs⟩
  intro t ht
  refine exAnalysis_linked _ t ?_
  have := interfaceFrom_trap exArgs ht
  revert this
  clear ht
  cases t <;> decide

/-- `--hooks generic-apply unary binary const local global load store`. -/
def exNanArgs : CliArgs := ⟨some [.genericApply, .unary, .binary, .const, .locals, .globals, .load, .store], none⟩

theorem exNanArgs_iface : interfaceFrom (selectHooks exNanArgs.hooks) = denanIface := by
  have e : (interfaceFrom (selectHooks exNanArgs.hooks)).trap = denanIface.trap := by
    funext t
    rw [(C34_selected_hooks_exact _).1]
    cases t <;> rfl
  calc interfaceFrom (selectHooks exNanArgs.hooks) = ⟨(interfaceFrom (selectHooks exNanArgs.hooks)).generic, (interfaceFrom (selectHooks exNanArgs.hooks)).trap⟩ := rfl
    _ = denanIface := by rw [e]; rfl

theorem exNan_limits : exNan.WithinLimits where
  functions := by decide
  tables := by decide
  arity := by decide
  length := by
    simp only [exNan, List.mem_cons, List.not_mem_nil, or_false, forall_eq]
    simp
  blocks := by
    simp only [exNan, List.mem_cons, List.not_mem_nil, or_false, forall_eq]
    simp

theorem exNanChecker_right : exNanChecker.Right exNan := by
  intro f hf c hc _
  simp only [exNan, List.mem_cons, List.not_mem_nil, or_false] at hf
  subst hf
  cases hc
  refine ⟨_, _, rfl, ?_, _, _, rfl, ?_, _, _, rfl, trivial, _, _, rfl, ?_, _, _, rfl, trivial, _, _, rfl, trivial, trivial⟩
  all_goals intro t ht; cases ht; rfl

theorem exNan_keepsOff : KeepsOff exNan := by unfold KeepsOff; decide +kernel

theorem exNan_zero : ZeroOffsets exNanArgs exNan := by
  intro f hf c hc ma
  simp only [exNan, List.mem_cons, List.not_mem_nil, or_false] at hf
  subst hf
  cases hc
  simp only [List.mem_cons, List.not_mem_nil, or_false]
  refine ⟨fun _ op h => ?_, fun _ op h => ?_⟩
  · simp at h; exact h.2 ▸ rfl
  · simp at h; exact h.2 ▸ rfl

-- With `generic-apply` the library is merged as well. The call, the store and the load go through the analysis, and `main(8, NaN)` returns the bits of the NaN.
example : cli (exCli exNan exNanChecker) exNanArgs [1] = some [2, 4, 3] := by cbv

example : ∃ (base : Nat) (s1 : Store Unit) (l1 : Lib), callF exNum (machineOf (exNanHost (forwardBody exNum exNanned.module.exported) forwardIdle forwardIdle base) exNanned.module.functions) 10 52 0
      [.i32 8, .num (.f32 0x7fc00001)] (exMemStore.extend [exNanTable] [] ((), (), exLib.store)) =
    .ok [.i32 0x7fc00001] (Store.extend s1 [exNanTable] [] ((), (), Lib.store l1)) ∧ l1.free = 0 := by
  obtain ⟨out, h⟩ := (C87_valid_programs_are_accepted (exCli_works exNan exNanChecker) (exCli_orderly _ _) (input := [1]) rfl exNan_valid exNan_limits exNanChecker_right exNanArgs).2 (by decide)
  obtain ⟨r, _, _, _, _, _, hr, _, _, _, _, _, _, _, base, _, h⟩ := C87_intercepted_programs_behave_the_same (exCli_orderly _ _) h rfl exNan_valid exNan_limits exNanChecker_right
    exNan_keepsOff exNan_zero (fun l hl => by cases hl; decide)
  have hr : r = exNanned := by
    rw [exNanArgs_iface] at hr
    change instrument exNanChecker id id denanIface none exNan = .ok r at hr
    unfold exNanned
    rw [hr]; rfl
  rw [hr, exNanArgs_iface] at h
  have h := h _ _ _ _ _ _ _ _ _ (exNanHost_deployed (forwardBody exNum exNanned.module.exported) forwardIdle forwardIdle base) 0 _ [.i32 8, .num (.f32 0x7fc00001)] exMemStore () exLib rfl
    (ValsOK.nil.cons rfl (by simp [RVal.OK]) |>.cons rfl (by simp [RVal.OK])) exNanStore_ok exLib_ok (by decide) (exNanned_intact _) 10 10 (by decide) (by decide)
  have hr := exNan_runs
  split at hr
  · rename_i vs s1 he
    cases hr
    obtain ⟨a1, l1, e, _, e1, _⟩ := h.1 _ _ he
    exact ⟨base, s1, l1, e, e1⟩
  · cases hr

end Wastrum
