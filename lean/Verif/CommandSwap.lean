import Verif.CommandLog
import Verif.SwapAll
/-!
# The command line tool with an analysis that performs other operations (C95)
-/

set_option linter.unusedSimpArgs false
set_option linter.unusedVariables false

namespace Wastrum

instance (a : CliArgs) (h : CliHook) : Decidable (a.Asks h) :=
  match e : a.hooks with
  | none => isTrue fun l hl => by rw [e] at hl; cases hl
  | some l => decidable_of_iff (h ∈ l) ⟨fun hm k hk => by rw [e] at hk; cases hk; exact hm, fun hm => hm l e⟩

/-- **Specification.** What an analysis with these choices performs: in place of the instructions whose hook was selected on the command line, the chosen ones. -/
def chosen (a : CliArgs) (c : Choices) : Swap := fun f i b =>
  let selected := match b with
    | .unary _ => a.Asks .unary
    | .binary _ => a.Asks .binary
    | .load _ _ => a.Asks .load
    | .store _ _ => a.Asks .store
    | _ => False
  have : Decidable selected := by cases b <;> infer_instance
  if selected then c.instead (.new (.ofNat 64 f) (.ofNat 64 i)) b else b

/-- Every unary operation has a trap, and it is one of the `unary` hook. -/
theorem unaryTrap_hook (op : UnaryOp) : ∃ t, unaryTrap op.sig = some t ∧ t.hook = .unary := by
  cases op <;> exact ⟨_, rfl, rfl⟩

theorem binaryTrap_hook (op : BinaryOp) : ∃ t, binaryTrap op.sig = some t ∧ t.hook = .binary := by
  cases op <;> exact ⟨_, rfl, rfl⟩

theorem loadTrap_hook (op : LoadOp) : ∃ t, loadTrap op.ty = some t ∧ t.hook = .load := by
  cases op <;> exact ⟨_, rfl, rfl⟩

theorem storeTrap_hook (op : StoreOp) : ∃ t, storeTrap op.ty = some t ∧ t.hook = .store := by
  cases op <;> exact ⟨_, rfl, rfl⟩

theorem chosen_eq (a : CliArgs) (c : Choices) : c.replaced (interfaceFrom (selectHooks a.hooks)) = chosen a c := by
  have sel : ∀ (t : Trap) (k : CliHook), t.hook = k.toHook → (((interfaceFrom (selectHooks a.hooks)).trap t).isSome ↔ a.Asks k) := by
    intro t k e
    rw [(C34_selected_hooks_exact _).1, ← selectHooks_mem, ← e]
    split <;> simp_all
  funext f i b
  cases b
  case unary op =>
    obtain ⟨t, h1, h2⟩ := unaryTrap_hook op
    simp only [Choices.replaced, chosen, delegation, h1, Option.map_some, sel t .unary h2]
  case binary op =>
    obtain ⟨t, h1, h2⟩ := binaryTrap_hook op
    simp only [Choices.replaced, chosen, delegation, h1, Option.map_some, sel t .binary h2]
  case load op ma =>
    obtain ⟨t, h1, h2⟩ := loadTrap_hook op
    simp only [Choices.replaced, chosen, delegation, h1, Option.map_some, sel t .load h2]
  case store op ma =>
    obtain ⟨t, h1, h2⟩ := storeTrap_hook op
    simp only [Choices.replaced, chosen, delegation, h1, Option.map_some, sel t .store h2]
  all_goals simp [Choices.replaced, chosen, delegation, Choices.instead]

/-- **C95.** Let the command write its output for a valid program, without `generic-apply`, and let the `unary`, `binary`, `load` and `store` advice of the analysis perform an operation chosen from the
operator and the location, with the same types as the one handed. The merged program behaves exactly like the original program in which, in the targets, the operations whose hooks were selected have been
replaced by the chosen ones: same results, same traps, same program states, and one runs forever exactly if the other does. (Loads and stores, if their hooks are selected, have offset zero.) -/
theorem C95_command_rewrites {CE : Type} {w : CliWorld CE} (ho : Orderly w) {a : CliArgs} {input out : Bytes} (h : cli w a input = some out)
    {m : Module} (hd : w.decode input = some m) (hv : ValidModule m) (hl : m.WithinLimits) (hC : w.checker.Right m) (hk : KeepsOff m) (hz : ZeroOffsets a m) (hg : ¬ a.Asks .genericApply) :
    ∃ (r : Instrumented) (program analysis : Bytes) (o : MergeOptions),
      instrument w.checker w.ord w.ord' (interfaceFrom (selectHooks a.hooks)) a.targets m = .ok r ∧ w.encode r.module = some program ∧ w.compileAnalysis = .ok analysis ∧
      o.modules = [⟨program, "instrumented_input"⟩, ⟨analysis, "WASTRUMENTATION_ANALYSIS"⟩] ∧ o.merge w.merging = .ok out ∧
      ∀ {W A : Type} {N : Num} {c : Choices}, c.Typed → ∀ {H : Imports W} {H' : Imports (W × A)},
        LinkedTo (interfaceFrom (selectHooks a.hooks)) (choosingBody N c r.module.exported) H' → ImportsAgree m (fun w (p : W × A) => w = p.1) H H' →
        ∀ {f : Nat} {ty : FuncType} {args : List RVal} {s : Store W}, m.ctx.ftype f = some ty → ValsOK m.ctx args ty.inputs → StoreOK m.ctx s → ∀ x : A,
          let rewritten := fun L d => callF N (machineOf H (m.rewritten w.checker (bodyTargets m a.targets) .nothing (chosen a c)).functions) L d f args s
          let merged := fun L d => callF N (machineOf H' r.module.functions) L d f args (s.withAnalysis x)
          (∀ vs s1, (∃ L d, rewritten L d = .ok vs s1) ↔ ∃ L d x1, merged L d = .ok vs (s1.withAnalysis x1)) ∧
          (∀ s1, (∃ L d, rewritten L d = .trap s1) ↔ ∃ L d x1, merged L d = .trap (s1.withAnalysis x1)) ∧
          ((∀ L d, rewritten L d = .fuel) ↔ ∀ L d, merged L d = .fuel) := by
  obtain ⟨m', r, program, analysis, o, hd', hr, hp, ha, hmm, _, _, hout⟩ := (C87_command_writes w a input out).1 h
  rw [hd] at hd'; cases hd'
  have hmods : o.modules = [⟨program, "instrumented_input"⟩, ⟨analysis, "WASTRUMENTATION_ANALYSIS"⟩] := by
    rcases hmm with ⟨_, _, e⟩ | ⟨hy, _⟩
    · exact e
    · exact absurd hy hg
  have hgen : (interfaceFrom (selectHooks a.hooks)).generic = none := by
    rw [(C34_selected_hooks_exact _).2, if_neg]
    exact fun hm => hg ((selectHooks_mem a .genericApply).1 hm)
  have hI : Instruments w.checker (interfaceFrom (selectHooks a.hooks)) a.targets m r := ⟨_, _, ho.bodies, ho.applications, hr⟩
  refine ⟨r, program, analysis, o, hr, hp, ha, hmods, hout, ?_⟩
  intro W A N c hc H H' hL hT f ty args s hf hargs hok x
  rw [← chosen_eq]
  exact C89_library_rewrites_memory_accesses (hl.small hv) (interfaceFrom_documented _) hgen hI hv (fun i _ f hf => wellAnnotated_of hv hC i f hf) (hk.reserved _)
    (fun i _ f c hf hc => hz.code (List.mem_of_getElem? hf) hc) hc hL hT hf hargs hok x

/-! ## Example: `--hooks binary`, multiplications performed as additions -/

/-- The command line. -/
def exSwapArgs : CliArgs := ⟨some [.binary], none⟩

/-- The traps of the `binary` hook. -/
def exBinaryTraps : List Trap :=
  [.binaryI32I32ToI32, .binaryI64I64ToI32, .binaryF32F32ToI32, .binaryF64F64ToI32, .binaryI64I64ToI64, .binaryF32F32ToF32, .binaryF64F64ToF64]

/-- Multiplications are performed as additions; everything else as it is. -/
def exSums : Choices := ⟨fun op _ => op, exSwap, fun op _ => op, fun op _ => op⟩

theorem exSums_typed : exSums.Typed :=
  ⟨fun _ _ => rfl, fun op l => by show BinaryOp.sig (exSwap op l) = _; unfold exSwap; split <;> simp_all [BinaryOp.sig], fun _ _ => rfl, fun _ _ => rfl⟩

/-- The analysis, linked with the example program. -/
def exSwapBinaries (base : String → Option Nat) : Imports (List RVal × Unit) := fun ns name call args s =>
  if ns = "WASTRUMENTATION_ANALYSIS" then
    match exBinaryTraps.find? fun t => t.exportName == name with
    | some t => stdHook (choosingBody exNum exSums base) t call args s
    | none => .stuck
  else exImports.beside Unit ns name call args s

theorem exSwapBinaries_linked (base) : LinkedTo (interfaceFrom (selectHooks exSwapArgs.hooks)) (choosingBody exNum exSums base) (exSwapBinaries base) := by
  intro t ht
  rw [C49_library_exports_what_is_imported]
  have hx : t.hook = .binary := by
    have := interfaceFrom_trap exSwapArgs ht
    simpa [selectHooks, exSwapArgs, CliHook.toHook] using this
  have e : exBinaryTraps.find? (fun u => u.exportName == t.exportName) = some t := by
    clear ht
    cases t <;> first | (cases hx; done) | decide +kernel
  funext call args s
  show (match exBinaryTraps.find? (fun u => u.exportName == t.exportName) with
    | some t => stdHook (choosingBody exNum exSums base) t call args s
    | none => .stuck) = _
  rw [e]

-- C95: `main(0, 5)` prints 7 and returns 49 in the original program; after the command, with the analysis of C89, it prints 7 and returns 14.
example : ∃ r L d, instrument exTypedChecker id id (interfaceFrom (selectHooks exSwapArgs.hooks)) none exModule = .ok r ∧
    callF exNum (machineOf (exSwapBinaries r.module.exported) r.module.functions) L d 1 [.i32 0, .i32 5] (exStore.withAnalysis ()) =
      .ok [.i32 14] (Store.withAnalysis { exStore with world := [.i32 7] } ()) := by
  obtain ⟨out, h⟩ := (C87_valid_programs_are_accepted (exCli_works exModule exTypedChecker) (exCli_orderly _ _) (input := [1]) rfl exModule_valid exModule_limits exTypedChecker_right exSwapArgs).2 (by decide)
  have no : ∀ k, k ≠ CliHook.binary → ¬ exSwapArgs.Asks k := fun k hk hn => hk (by simpa using hn _ rfl)
  obtain ⟨r, _, _, _, hr, _, _, _, _, hall⟩ := C95_command_rewrites (exCli_orderly _ _) h rfl exModule_valid exModule_limits exTypedChecker_right
    exModule_keepsOff (fun _ _ _ _ _ => ⟨fun h => (no _ (by decide) h).elim, fun h => (no _ (by decide) h).elim⟩) (no _ (by decide))
  have hT : ImportsAgree exModule (fun w (p : List RVal × Unit) => w = p.1) exImports (exSwapBinaries r.module.exported) := by
    refine .plain fun f hf ns name hc => ?_
    simp only [exModule, List.mem_cons, List.not_mem_nil, or_false] at hf
    rcases hf with rfl | rfl | rfl | rfl <;> cases hc
    exact ⟨⟨fun _ _ => rfl, fun call args s ha hs => .inl ⟨_, _, rfl, .nil, hs.world rfl rfl rfl rfl rfl⟩⟩, rfl⟩
  obtain ⟨L, d, x, e⟩ := ((hall exSums_typed (exSwapBinaries_linked _) hT (f := 1) (ty := ⟨[.i32, .i32], [.i32]⟩) (args := [.i32 0, .i32 5]) rfl
    (ValsOK.nil.cons rfl (by simp [RVal.OK]) |>.cons rfl (by simp [RVal.OK])) exStore_ok ()).1 [.i32 14] { exStore with world := [.i32 7] }).1 ⟨10, 10, rfl⟩
  exact ⟨r, L, d, hr, e⟩

end Wastrum
