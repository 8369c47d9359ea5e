import Verif.HookThms
import Verif.NullThms
import Verif.SrcThms
import Verif.WaspTextThms
import Verif.CallScriptsThms
import Verif.NestingThms
import Verif.MemoryThms
import Verif.StackNames
import Verif.ShippedForward
import Verif.MergeThms
import Verif.PurityThms
/-!
# Concrete cases

The theorems about the tool's passes, the instrumented module and the stack library, each applied to a concrete program (further cases are beside the theorems).
-/

namespace Wastrum

/-! ## Nesting (C01 to C05) -/

/-- A flat body, and what the tool nests it to. -/
def caseFlat : List LInstr := [.nop, .block ⟨[], []⟩, .ite ⟨[], []⟩, .nop, .els, .drop, .fin, .fin, .ret, .fin]
def caseNested : List TI := (raiseFunction (fun (_ : Unit) _ => some ((), .unreachable)) () 7 caseFlat).toOption.getD []
theorem caseNested_eq : raiseFunction (fun (_ : Unit) _ => some ((), .unreachable)) () 7 caseFlat = .ok caseNested := rfl

-- C01: the body is the only one that is lowered to what it is lowered to.
example : ∃ b', raiseTyped ((lowerTyped caseNested).map fun i => ⟨7, 0, .unreachable, i⟩) = .ok b' ∧ TI.eraseL b' = TI.eraseL caseNested :=
  C01_raiseTyped_lowerTyped caseNested _ (by rw [List.map_map]; exact List.map_id _)
-- C02: nesting and lowering gives the flat body back.
example : lower [.block ⟨[], []⟩ [.ifElse ⟨[], []⟩ [.basic .nop] [.basic .drop]]] = [.block ⟨[], []⟩, .ite ⟨[], []⟩, .nop, .els, .drop, .fin, .fin, .fin] := C02_lower_raise _ _ rfl
example : lowerTyped caseNested = caseFlat := C02_lowerTyped_raiseFunction _ _ _ _ _ caseNested_eq
-- C03: an accepted body, and one rejected for each reason.
example : ∃ b, raise [.block ⟨[], []⟩, .ite ⟨[], []⟩, .nop, .els, .drop, .fin, .fin, .fin] = .ok b :=
  (C03_accepted_iff _).2 ((C03_accepted_iff _).1 ⟨_, rfl⟩)
example : ¬ ∃ p, [LInstr.nop, .drop] = p ++ [.fin] := (C03_nonEnd_iff _).1 rfl
example : ∃ q r ks, [LInstr.loop ⟨[], []⟩, .els, .fin] = q ++ .els :: r ∧ Incomplete ks q ∧ ks.head? ≠ some .ifThen := (C03_strayElse_iff _).1 rfl
example : ∃ q r, [LInstr.nop, .fin] = q ++ .fin :: r ∧ Balanced q := (C03_excessiveEnd_iff _).1 rfl
example : ∃ k ks, Incomplete (k :: ks) [LInstr.block ⟨[], []⟩] := (C03_panic_iff _).1 rfl
-- C04: the places that are recorded.
example : TI.locsL caseNested = headPositions 7 caseFlat := C04_locations _ _ _ _ _ caseNested_eq
example : 7 = 7 ∧ false = false ∧ caseFlat[5]? = some .drop := C04_location_points_to_itself _ _ _ _ _ caseNested_eq 7 5 false .drop (by decide +kernel)
-- C05: all passes run on it.
example (fs : List Func) : ∃ r, runPasses (toolPasses exSel) caseNested fs = .ok r :=
  C05_passes_complete _ _ _ _ _ caseNested_eq (by decide) (by intro i hi; simp [caseFlat] at hi; rcases hi with rfl | rfl | rfl | rfl | rfl | rfl | rfl | rfl | rfl | rfl <;> simp [LInstr.Small]) exSel fs
-- C07: taking out what was inserted gives the program, without the instructions that the analysis performs.
example : TI.stripL (expandL exSel 200 exBody) = TI.undelegatedL exSel exBody := C07_erasing_inserted_code _ _ _ (by simp [exBody, Pristine, TI.locsL, TI.locs])

/-! ## The instrumented module (C08, C09, C19, C20, C30, C33, C37, C43) -/

/-- The example, instrumented with four hooks; only function 2 is selected. -/
theorem case_selected : ∃ r, Instruments exChecker exIface (some [2]) exModule r :=
  instruments_of_ok (by decide) exModule_small (by
    have h : bodyTargets exModule (some [2]) = [2] := by decide +kernel
    rw [h]
    intro i hi
    simp only [List.mem_cons, List.not_mem_nil, or_false] at hi
    subst hi
    exact ⟨_, rfl⟩)

-- C08: `main` has not been selected.
example : ∃ r, Instruments exChecker exIface (some [2]) exModule r ∧ r.module.functions[1]? = exModule.functions[1]? := by
  obtain ⟨r, h⟩ := case_selected
  exact ⟨r, h, C08_untargeted_function_unchanged exModule_small h 1 (by decide) (.inl (by decide +kernel))⟩
-- C09: the hook for calls is the function the analysis exports under that name.
example : ∃ r, Instruments exChecker exIface none exModule r ∧ ∃ k, hookSel exIface exModule.functions.length .preTrapCall = some k ∧
    machineOf exImports r.module.functions k = some (⟨[.i32, .i64, .i64], []⟩, .host (exImports "WASTRUMENTATION_ANALYSIS" "specialized_call_pre")) := by
  obtain ⟨r, h⟩ := instruments_of_ok (iface := exIface) (by decide) exModule_small exModule_raises
  obtain ⟨k, h1, _, h2⟩ := (C09_hooks_are_the_analysis exModule_small h exImports .preTrapCall).1 _ rfl
  exact ⟨r, h, k, h1, h2⟩
-- C09: running the instrumented example is running the example under the analysis.
example : ∃ r, Instruments exChecker exIface none exModule r ∧ callF exNum (machineOf exImports r.module.functions) 10 10 1 [.i32 0, .i32 5] exStore =
    callF exNum (underAnalysis exChecker exModule (bodyTargets exModule none) exImports (hookSel exIface exModule.functions.length) (r.module.functions.drop exModule.functions.length))
      10 10 1 [.i32 0, .i32 5] exStore := by
  obtain ⟨r, h⟩ := instruments_of_ok (iface := exIface) (by decide) exModule_small exModule_raises
  exact ⟨r, h, C09_instrumented_is_interposed exModule_small exIface_documented.standard rfl h _ _ _ _ _ _ _⟩
-- C19: loading at 1000 with offset 24 through the exported function; and an address that wraps around to 4.
example : ∃ r, Instruments exChecker exIface none exModule r ∧ ∃ k, ExportedAs r LoadOp.i32Load.baseName ⟨[.i32, .i32], [.i32]⟩ k ∧
    ∀ E : Env (List RVal), Returns r k [.i32 1000, .i32 24] exStore (execInstr E (.load .i32Load ⟨24, 2⟩) [.i32 1000] exStore) := by
  obtain ⟨r, h⟩ := instruments_of_ok (iface := exIface) (by decide) exModule_small exModule_raises
  obtain ⟨k, h1, h2⟩ := C19_base_load_partial exModule_small h (by decide) .i32Load
  exact ⟨r, h, k, h1, fun E => h2 _ E 1000 ⟨24, 2⟩ exStore (by decide)⟩
example : ∃ r, Instruments exChecker exIface none exModule r ∧ ∃ k, ExportedAs r StoreOp.i32Store.baseName ⟨[.i32, .i32, .i32], []⟩ k ∧
    ∀ E : Env (List RVal), Returns r k [.i32 1000, .i32 7, .i32 24] exStore (execInstr E (.store .i32Store ⟨24, 2⟩) [.i32 1000, .i32 7] exStore) := by
  obtain ⟨r, h⟩ := instruments_of_ok (iface := exIface) (by decide) exModule_small exModule_raises
  obtain ⟨k, h1, h2⟩ := C19_base_store_partial exModule_small h (by decide) .i32Store
  exact ⟨r, h, k, h1, fun E => h2 _ E 1000 (.i32 7) ⟨24, 2⟩ exStore (by decide)⟩
example (E : Env (List RVal)) : ∃ r, Instruments exChecker exIface none exModule r ∧ ∃ k, ExportedAs r LoadOp.i32Load.baseName ⟨[.i32, .i32], [.i32]⟩ k ∧
    ∃ vs s', execInstr E (.load .i32Load ⟨24, 2⟩) [.i32 1000] exStore = .ok vs s' ∧ Returns r k [.i32 1000, .i32 24] exStore (.ok vs s') := by
  obtain ⟨r, h⟩ := instruments_of_ok (iface := exIface) (by decide) exModule_small exModule_raises
  obtain ⟨k, h1, h2⟩ := C19_base_load_of_success exModule_small h (by decide) .i32Load
  exact ⟨r, h, k, h1, _, _, rfl, h2 _ E 1000 ⟨24, 2⟩ exStore _ _ (by simp [exStore]) rfl⟩
example (E : Env (List RVal)) : ∃ r, Instruments exChecker exIface none exModule r ∧ ∃ k, ExportedAs r StoreOp.i32Store.baseName ⟨[.i32, .i32, .i32], []⟩ k ∧
    ∃ vs s', execInstr E (.store .i32Store ⟨24, 2⟩) [.i32 1000, .i32 7] exStore = .ok vs s' ∧ Returns r k [.i32 1000, .i32 7, .i32 24] exStore (.ok vs s') := by
  obtain ⟨r, h⟩ := instruments_of_ok (iface := exIface) (by decide) exModule_small exModule_raises
  obtain ⟨k, h1, h2⟩ := C19_base_store_of_success exModule_small h (by decide) .i32Store
  exact ⟨r, h, k, h1, _, _, rfl, h2 _ E 1000 (.i32 7) ⟨24, 2⟩ exStore _ _ (by simp [exStore]) rfl⟩
example : ∃ r, Instruments exChecker exIface none exModule r ∧ ∃ k, ExportedAs r LoadOp.i32Load.baseName ⟨[.i32, .i32], [.i32]⟩ k ∧
    ∀ E : Env (List RVal), execInstr E (.load .i32Load ⟨5, 2⟩) [.i32 0xffffffff] exStore = .trap exStore ∧ ∃ v : Val, Returns r k [.i32 0xffffffff, .i32 5] exStore (.ok [.num v] exStore) := by
  obtain ⟨r, h⟩ := instruments_of_ok (iface := exIface) (by decide) exModule_small exModule_raises
  obtain ⟨k, h1, h2⟩ := C19_load_wraps_instead_of_trapping exModule_small h (by decide) .i32Load
  exact ⟨r, h, k, h1, fun E => h2 _ E 0xffffffff ⟨5, 2⟩ exStore _ rfl (by decide) (by decide) (by decide)⟩
-- C20: growing and the size, and a module with two memories.
example : ∃ r, Instruments exChecker exIface none exModule r ∧ ∃ k, ExportedAs r "instrumented_memory_grow" ⟨[.i32, .i32], [.i32]⟩ k ∧
    ∀ E : Env (List RVal), Returns r k [.i32 2, .i32 0] exStore (execInstr E (.memoryGrow 0) [.i32 2] exStore) := by
  obtain ⟨r, h⟩ := instruments_of_ok (iface := exIface) (by decide) exModule_small exModule_raises
  obtain ⟨⟨k, h1, h2⟩, _⟩ := C20_grow_and_size exModule_small h (by decide)
  exact ⟨r, h, k, h1, fun E => h2 _ E 2 0 exStore⟩
example (r : Instrumented) : ¬ Instruments exChecker exIface none { exModule with memories := [⟨1, none, none, []⟩, ⟨1, none, none, []⟩] } r :=
  C20_refuses_several_memories (m := { exModule with memories := [⟨1, none, none, []⟩, ⟨1, none, none, []⟩] }) ⟨exModule_small.functions, exModule_small.arity, exModule_small.length, exModule_small.body⟩ (by decide) r
theorem exModule_imports {f : Func} (hf : f ∈ exModule.functions) {ns name} (hc : f.code = .imported ns name) : ns = "env" := by
  simp only [exModule, List.mem_cons, List.not_mem_nil, or_false] at hf
  rcases hf with rfl | rfl | rfl | rfl <;> cases hc
  rfl
-- C30: the library generated for the example provides what the example imports from it.
example : ∀ f ∈ exResumed.module.functions, ∀ name, f.code = .imported "wastrumentation_stack" name →
    ∃ g ∈ generateLib exResumeLink.sigs, g.type = f.type ∧ name ∈ g.exps := by
  intro f hf name hc
  obtain ⟨sigs, h1, g, h2, h3, h4, _⟩ := C30_library_provides_every_import exModule_small exResumed_instruments (fun f hf name hc => absurd (exModule_imports hf hc) (by decide)) f name hf hc
  have e : sigs = exResumeLink.sigs := by
    have : exResumed.librarySignatures = some exResumeLink.sigs := by decide +kernel
    rw [this] at h1; exact (Option.some.inj h1).symm
  subst e
  exact ⟨g, h2, h3, h4⟩
-- C33: the hooks and nothing else are imported from the analysis.
example : (⟨⟨[.i32, .i64, .i64], []⟩, .imported "WASTRUMENTATION_ANALYSIS" "specialized_call_pre", []⟩ : Func) ∈ exResumed.module.functions :=
  (C33_every_hook_imported exModule_small exResumed_instruments).1 .preTrapCall _ rfl
example : ∀ f ∈ exResumed.module.functions, ∀ name, f.code = .imported "WASTRUMENTATION_ANALYSIS" name → ∃ e, ((∃ t, exIfaceApply.trap t = some e) ∨ ∃ cb, exIfaceApply.generic = some (e, cb)) ∧
    f = ⟨⟨e.args, e.results⟩, .imported "WASTRUMENTATION_ANALYSIS" e.name, []⟩ :=
  fun f hf name hc => C33_only_hooks_imported exModule_small exResumed_instruments (fun f hf name hc => absurd (exModule_imports hf hc) (by decide)) f name hf hc
-- C43: `main` is still function 1.
example : ∃ f', exResumed.module.functions[1]? = some f' ∧ f'.type = ⟨[.i32, .i32], [.i32]⟩ ∧ f'.exports = ["main"] :=
  (C43_indices_stay_valid exModule_small exResumed_instruments).1 1 _ rfl

/-! ## Purity (C40, C41) -/

-- C40: the rounds stop at a fixed point of the example.
example : ∃ ts out, purityInit exChecker exPurity = some ts ∧ purityLoop 8 ts = .ok out ∧ purityRound out = some out := by
  obtain ⟨ts, hts⟩ := init_isSome exPurity_raises
  have h := exPurity_answer
  rw [immutableFunctions, hts] at h
  cases ho : purityLoop 8 ts with
  | error e => simp [ho] at h
  | ok out => exact ⟨ts, out, hts, ho, (C40_purity_fixed_point _ _ _ _ _ hts ho).1⟩
-- C41: functions 3 and 4 call each other and are not reported.
example : 3 ∉ [1, 2] :=
  C41_mutual_recursion_not_reported exChecker exPurity 8 _ exPurity_calls exPurity_answer 3 4
    ⟨by decide, _, ⟨_, _, rfl, rfl, rfl⟩, by simp⟩ (.single ⟨by decide, _, ⟨_, _, rfl, rfl, rfl⟩, by simp⟩)

/-! ## Hooks around structured instructions and calls (C13, C14, C45, C47) -/

/-- A selection of hooks for blocks, loops, conditionals, selections and calls. -/
def caseSel : Sel
  | .preBlock | .preLoop => some 9
  | .postBlock | .postLoop | .ifThenPostTrap | .ifThenElsePostTrap => some 8
  | .ifThenTrap | .ifThenElseTrap => some 10
  | .brIfTrap | .preTrapCallIndirect => some 7
  | .select => some 6
  | .preTrapCall | .postTrapCall | .postTrapCallIndirect => some 5
  | _ => none

/-- An environment whose hooks note what they are told; a hook that is asked always answers 1. -/
def caseEnv : Env (List (Nat × List RVal)) where
  num := hookNum
  ftype k := match k with
    | 10 => some ⟨[.i32, .i32, .i32, .i64, .i64], [.i32]⟩
    | 9 => some ⟨[.i32, .i32, .i64, .i64], []⟩
    | 8 => some ⟨[.i64, .i64], []⟩
    | 7 => some ⟨[.i32, .i32, .i64, .i64], [.i32]⟩
    | 6 => some ⟨[.i32, .i64, .i64], [.i32]⟩
    | 5 => some ⟨[.i32, .i64, .i64], []⟩
    | _ => none
  callF k args s := .ok (if k = 10 ∨ k = 7 ∨ k = 6 then [.i32 1] else []) { s with world := s.world ++ [(k, args)] }
  loopFuel := 10

theorem caseEnv_hooks : HooksInstalled caseEnv caseSel := by
  intro t k h; unfold caseSel at h; split at h <;> cases h <;> rfl

/-- Place 5 of function 3. -/
def casePlace : Meta := ⟨3, 5, .unreachable, false⟩

theorem case_runs {body : List TI} (hp : Pristine body) (hf : TI.FitsL body) : Runs caseEnv caseSel body (hdenL caseEnv caseSel body) :=
  .of (n := 0) hp hf caseEnv_hooks (fun h => absurd rfl h)

/-- A constant. -/
def caseConst : TI := .basic ⟨3, 6, .unreachable, false⟩ (.const (.i32 42))

/-- A configuration with an empty store: the condition 0 and two values on the stack. -/
def caseCfg : Cfg (List (Nat × List RVal)) := ⟨[.i32 0, .i32 8, .i32 9], [], ⟨[], [], [], [], [], []⟩⟩

-- C47, C13, C14: the block.
example : ∃ inner, Runs caseEnv caseSel [caseConst] inner ∧ hdenL caseEnv caseSel [.block casePlace ⟨[], [.i32]⟩ [caseConst]] = inBlock ⟨[], [.i32]⟩ fun c =>
    (notify caseEnv (some 9) [.i32 0, .i32 1, .i64 3, .i64 5] c).bind fun c => (inner c).bind (notify caseEnv (some 8) [.i64 3, .i64 5]) :=
  C47_block (case_runs (body := [.block casePlace ⟨[], [.i32]⟩ [caseConst]]) (by simp [Pristine, casePlace, caseConst, TI.locsL, TI.locs]) (by simp [casePlace, caseConst, TI.FitsL, TI.Fits]))
example : ∃ inner, Runs caseEnv caseSel [caseConst] inner ∧ ∀ c1,
    (notify caseEnv (some 9) [.i32 0, .i32 1, .i64 3, .i64 5] (inside ⟨[], [.i32]⟩ caseCfg)).bind inner = .norm c1 →
    hdenL caseEnv caseSel [.block casePlace ⟨[], [.i32]⟩ [caseConst]] caseCfg = leave ⟨[], [.i32]⟩ caseCfg (notify caseEnv (some 8) [.i64 3, .i64 5] c1) := by
  obtain ⟨inner, h1, h2⟩ := C13_block_post (case_runs (body := [.block casePlace ⟨[], [.i32]⟩ [caseConst]]) (by simp [Pristine, casePlace, caseConst, TI.locsL, TI.locs]) (by simp [casePlace, caseConst, TI.FitsL, TI.Fits]))
  exact ⟨inner, h1, (h2 caseCfg (by decide)).1⟩
example : ∃ rest, hdenL caseEnv caseSel [.block casePlace ⟨[], [.i32]⟩ [caseConst]] caseCfg =
    leave ⟨[], [.i32]⟩ caseCfg ((notify caseEnv (some 9) [.i32 0, .i32 1, .i64 3, .i64 5] (inside ⟨[], [.i32]⟩ caseCfg)).bind rest) := by
  obtain ⟨rest, _, h⟩ := C14_block_pre (case_runs (body := [.block casePlace ⟨[], [.i32]⟩ [caseConst]]) (by simp [Pristine, casePlace, caseConst, TI.locsL, TI.locs]) (by simp [casePlace, caseConst, TI.FitsL, TI.Fits])) rfl
  exact ⟨rest, h caseCfg (by decide)⟩
-- C47, C13, C14: the loop.
example : ∃ inner, Runs caseEnv caseSel [caseConst] inner ∧ hdenL caseEnv caseSel [.loop casePlace ⟨[], [.i32]⟩ [caseConst]] = inLoop ⟨[], [.i32]⟩ (fun c =>
    (notify caseEnv (some 9) [.i32 0, .i32 1, .i64 3, .i64 5] c).bind fun c => (inner c).bind (notify caseEnv (some 8) [.i64 3, .i64 5])) 10 :=
  C47_loop (case_runs (body := [.loop casePlace ⟨[], [.i32]⟩ [caseConst]]) (by simp [Pristine, casePlace, caseConst, TI.locsL, TI.locs]) (by simp [casePlace, caseConst, TI.FitsL, TI.Fits]))
example : ∃ inner turn, Runs caseEnv caseSel [caseConst] inner ∧ hdenL caseEnv caseSel [.loop casePlace ⟨[], [.i32]⟩ [caseConst]] = inLoop ⟨[], [.i32]⟩ turn 10 ∧
    ∀ c1, (notify caseEnv (some 9) [.i32 0, .i32 1, .i64 3, .i64 5] caseCfg).bind inner = .norm c1 → turn caseCfg = notify caseEnv (some 8) [.i64 3, .i64 5] c1 := by
  obtain ⟨inner, turn, h1, h2, h3⟩ := C13_loop_post (case_runs (body := [.loop casePlace ⟨[], [.i32]⟩ [caseConst]]) (by simp [Pristine, casePlace, caseConst, TI.locsL, TI.locs]) (by simp [casePlace, caseConst, TI.FitsL, TI.Fits]))
  exact ⟨inner, turn, h1, h2, (h3 caseCfg).1⟩
example : ∃ turn, ∀ heads o, Turns turn 0 heads (inside ⟨[], [.i32]⟩ caseCfg) o → heads.length ≤ 10 →
    hdenL caseEnv caseSel [.loop casePlace ⟨[], [.i32]⟩ [caseConst]] caseCfg = leave ⟨[], [.i32]⟩ caseCfg o := by
  obtain ⟨rest, _, h⟩ := C14_loop_pre (case_runs (body := [.loop casePlace ⟨[], [.i32]⟩ [caseConst]]) (by simp [Pristine, casePlace, caseConst, TI.locsL, TI.locs]) (by simp [casePlace, caseConst, TI.FitsL, TI.Fits])) rfl
  exact ⟨_, (h caseCfg (by decide)).1⟩
-- C47, C13, C45: the conditional without an else arm. The hook turns the condition 0 into 1.
example : ∃ inner, Runs caseEnv caseSel [.basic ⟨3, 6, .unreachable, false⟩ .nop] inner ∧
    hdenL caseEnv caseSel [.ifThen casePlace ⟨[], []⟩ [.basic ⟨3, 6, .unreachable, false⟩ .nop]] = fun c =>
      (query caseEnv (some 10) [.i32 0, .i32 0, .i64 3, .i64 5] c).bind
        (branchOn (inBlock ⟨[], []⟩ fun c => (inner c).bind (notify caseEnv (some 8) [.i64 3, .i64 5])) (inBlock ⟨[], []⟩ (notify caseEnv (some 8) [.i64 3, .i64 5]))) :=
  C47_if_then (case_runs (body := [.ifThen casePlace ⟨[], []⟩ [.basic ⟨3, 6, .unreachable, false⟩ .nop]]) (by simp [Pristine, casePlace, TI.locsL, TI.locs]) (by simp [casePlace, TI.FitsL, TI.Fits]))
example : ∃ inner thenArm elseArm, Runs caseEnv caseSel [.basic ⟨3, 6, .unreachable, false⟩ .nop] inner ∧
    (hdenL caseEnv caseSel [.ifThen casePlace ⟨[], []⟩ [.basic ⟨3, 6, .unreachable, false⟩ .nop]] = fun c =>
      (query caseEnv (some 10) [.i32 0, .i32 0, .i64 3, .i64 5] c).bind (branchOn thenArm elseArm)) ∧
    elseArm caseCfg = leave ⟨[], []⟩ caseCfg (notify caseEnv (some 8) [.i64 3, .i64 5] (inside ⟨[], []⟩ caseCfg)) := by
  obtain ⟨inner, a, b, h1, h2, h3⟩ := C13_if_then_post (case_runs (body := [.ifThen casePlace ⟨[], []⟩ [.basic ⟨3, 6, .unreachable, false⟩ .nop]]) (by simp [Pristine, casePlace, TI.locsL, TI.locs]) (by simp [casePlace, TI.FitsL, TI.Fits]))
  exact ⟨inner, a, b, h1, h2, (h3 caseCfg (by decide)).2.2⟩
example : ∃ inner, Runs caseEnv caseSel [.basic ⟨3, 6, .unreachable, false⟩ .nop] inner ∧
    hdenL caseEnv caseSel [.ifThen casePlace ⟨[], []⟩ [.basic ⟨3, 6, .unreachable, false⟩ .nop]] caseCfg =
      inBlock ⟨[], []⟩ (fun c => (inner c).bind (notify caseEnv (some 8) [.i64 3, .i64 5]))
        ⟨[.i32 8, .i32 9], [], { caseCfg.store with world := [(10, [.i32 0, .i32 0, .i32 0, .i64 3, .i64 5])] }⟩ := by
  obtain ⟨inner, h1, h2⟩ := C45_if_then (case_runs (body := [.ifThen casePlace ⟨[], []⟩ [.basic ⟨3, 6, .unreachable, false⟩ .nop]]) (by simp [Pristine, casePlace, TI.locsL, TI.locs]) (by simp [casePlace, TI.FitsL, TI.Fits])) rfl
  exact ⟨inner, h1, h2 caseCfg 0 _ 1 _ rfl rfl⟩
-- C47, C13, C45: the conditional with two arms.
example : ∃ innerT innerE, Runs caseEnv caseSel [caseConst] innerT ∧ Runs caseEnv caseSel [.basic casePlace .unreachable] innerE ∧
    hdenL caseEnv caseSel [.ifElse casePlace ⟨[], [.i32]⟩ [caseConst] [.basic casePlace .unreachable]] = fun c =>
      (query caseEnv (some 10) [.i32 0, .i32 1, .i64 3, .i64 5] c).bind
        (branchOn (inBlock ⟨[], [.i32]⟩ fun c => (innerT c).bind (notify caseEnv (some 8) [.i64 3, .i64 5]))
          (inBlock ⟨[], [.i32]⟩ fun c => (innerE c).bind (notify caseEnv (some 8) [.i64 3, .i64 5]))) :=
  C47_if_then_else (case_runs (body := [.ifElse casePlace ⟨[], [.i32]⟩ [caseConst] [.basic casePlace .unreachable]])
    (by simp [Pristine, casePlace, caseConst, TI.locsL, TI.locs]) (by simp [casePlace, caseConst, TI.FitsL, TI.Fits]))
example : ∃ innerT innerE thenArm elseArm, Runs caseEnv caseSel [caseConst] innerT ∧ Runs caseEnv caseSel [.basic casePlace .unreachable] innerE ∧
    (hdenL caseEnv caseSel [.ifElse casePlace ⟨[], [.i32]⟩ [caseConst] [.basic casePlace .unreachable]] = fun c =>
      (query caseEnv (some 10) [.i32 0, .i32 1, .i64 3, .i64 5] c).bind (branchOn thenArm elseArm)) ∧
    (¬ (innerE (inside ⟨[], [.i32]⟩ caseCfg)).IsNorm → elseArm caseCfg = leave ⟨[], [.i32]⟩ caseCfg (innerE (inside ⟨[], [.i32]⟩ caseCfg))) := by
  obtain ⟨i, j, a, b, h1, h2, h3, h4⟩ := C13_if_then_else_post (case_runs (body := [.ifElse casePlace ⟨[], [.i32]⟩ [caseConst] [.basic casePlace .unreachable]])
    (by simp [Pristine, casePlace, caseConst, TI.locsL, TI.locs]) (by simp [casePlace, caseConst, TI.FitsL, TI.Fits]))
  exact ⟨i, j, a, b, h1, h2, h3, (h4 caseCfg (by decide)).2.2.2⟩
example : ∃ inner, Runs caseEnv caseSel [caseConst] inner ∧
    hdenL caseEnv caseSel [.ifElse casePlace ⟨[], [.i32]⟩ [caseConst] [.basic casePlace .unreachable]] caseCfg =
      inBlock ⟨[], [.i32]⟩ (fun c => (inner c).bind (notify caseEnv (some 8) [.i64 3, .i64 5]))
        ⟨[.i32 8, .i32 9], [], { caseCfg.store with world := [(10, [.i32 0, .i32 0, .i32 1, .i64 3, .i64 5])] }⟩ := by
  obtain ⟨inner, _, h1, _, h2⟩ := C45_if_then_else (case_runs (body := [.ifElse casePlace ⟨[], [.i32]⟩ [caseConst] [.basic casePlace .unreachable]])
    (by simp [Pristine, casePlace, caseConst, TI.locsL, TI.locs]) (by simp [casePlace, caseConst, TI.FitsL, TI.Fits])) rfl
  exact ⟨inner, h1, h2 caseCfg 0 _ 1 _ rfl rfl⟩
-- C45: the conditional branch is taken, and the first of the two values selected, although the condition is 0.
example : hdenL caseEnv caseSel [.basic casePlace (.brIf 1)] caseCfg =
    .br 1 ⟨[.i32 8, .i32 9], [], { caseCfg.store with world := [(7, [.i32 0, .i32 1, .i64 3, .i64 5])] }⟩ :=
  C45_br_if (k := 1) (case_runs (body := [.basic casePlace (.brIf 1)]) (by simp [Pristine, casePlace, TI.locsL, TI.locs]) (by simp [casePlace, TI.FitsL, TI.Fits])) rfl rfl rfl
example : hdenL caseEnv caseSel [.basic casePlace .select] caseCfg =
    .norm ⟨[.i32 9], [], { caseCfg.store with world := [(6, [.i32 0, .i64 3, .i64 5])] }⟩ :=
  C45_select (k := 1) (.inl rfl) (case_runs (body := [.basic casePlace .select]) (by simp [Pristine, casePlace, TI.locsL, TI.locs]) (by simp [casePlace, TI.FitsL, TI.Fits])) rfl rfl rfl
-- C45: without hooks, the condition 0 selects the second value.
example : step caseEnv .select caseCfg = .norm { caseCfg with stack := [.i32 8] } :=
  (C45_own_choice caseEnv 0 _ caseCfg rfl).2.2.2 (.i32 8) (.i32 9) [] rfl
-- C47: calls.
example : hdenL caseEnv caseSel [.basic casePlace (.call 2)] = fun c => (notify caseEnv (some 5) [.i32 2, .i64 3, .i64 5] c).bind fun c =>
    (step caseEnv (.call 2) c).bind (notify caseEnv (some 5) [.i32 2, .i64 3, .i64 5]) :=
  C47_call (case_runs (body := [.basic casePlace (.call 2)]) (by simp [Pristine, casePlace, TI.locsL, TI.locs]) (by simp [casePlace, TI.FitsL, TI.Fits]))
example : hdenL caseEnv caseSel [.basic casePlace (.callIndirect ⟨[], []⟩ 0)] = fun c => (query caseEnv (some 7) [.i32 0, .i64 3, .i64 5] c).bind fun c =>
    (step caseEnv (.callIndirect ⟨[], []⟩ 0) c).bind (notify caseEnv (some 5) [.i32 0, .i64 3, .i64 5]) :=
  C47_call_indirect (case_runs (body := [.basic casePlace (.callIndirect ⟨[], []⟩ 0)]) (by simp [Pristine, casePlace, TI.locsL, TI.locs]) (by simp [casePlace, TI.FitsL, TI.Fits]))

/-! ## The stack library (C26, C29) -/

/-- A history with two live buffers, the lower of which belongs to the first signature. -/
theorem case_reachable : ∃ p r s, Reachable libNum exSigs 65537 5 16 ([⟨false, ⟨[], [.f32, .f32]⟩, r⟩, ⟨false, ⟨[.i32, .f64], [.i64]⟩, p⟩], s) := by
  have h0 : Reachable libNum exSigs 65537 (0 + 5) 16 ([], libStart 16) := .start
  obtain ⟨⟨p, s1, e1⟩ | ⟨s1, e1⟩, _⟩ := C26_allocation_succeeds_or_traps (args := [.i32 7, .f64 9]) libNum_stack (Nat.le_refl _) exSigs_small (by decide) (by decide) h0
    (t := ⟨[.i32, .f64], [.i64]⟩) (by simp [exSigs]) rfl
  rotate_left
  · have := (C26_traps_only_when_full libNum_stack (Nat.le_refl _) exSigs_small (by decide) (by decide) h0 (by simp [exSigs]) rfl).1 e1
    simp [FuncType.slots] at this
  have r1 := Reachable.step h0 (.allocateValues (by simp [exSigs]) rfl e1)
  obtain ⟨⟨r, s3, e3⟩ | ⟨s3, e3⟩, _⟩ := C26_allocation_succeeds_or_traps (args := []) libNum_stack (Nat.le_refl _) exSigs_small (by decide) (by decide) r1
    (t := ⟨[], [.f32, .f32]⟩) (by simp [exSigs]) rfl
  · exact ⟨p, r, s3, .step r1 (.allocateValues (args := []) (by simp [exSigs]) rfl e3)⟩
  · have := (C26_traps_only_when_full libNum_stack (Nat.le_refl _) exSigs_small (by decide) (by decide) r1 (by simp [exSigs]) rfl).1 e3
    simp [FuncType.slots, Buffer.size] at this

-- C26: the two buffers do not overlap, the upper one can be released, and a further allocation traps only without room.
example : ∃ p r s, Buffer.disjoint ⟨false, ⟨[], [.f32, .f32]⟩, r⟩ ⟨false, ⟨[.i32, .f64], [.i64]⟩, p⟩ ∧
    (∃ s', LibStep libNum exSigs 65537 5 .free ([⟨false, ⟨[], [.f32, .f32]⟩, r⟩, ⟨false, ⟨[.i32, .f64], [.i64]⟩, p⟩], s) ([⟨false, ⟨[.i32, .f64], [.i64]⟩, p⟩], s')) ∧
    ∀ s', lib libNum exSigs 65537 5 ("allocate_types_" ++ mangledName ⟨[], [.f32, .f32]⟩) [] s = .trap s' → s.mems.map Mem.pages = [65536] := by
  obtain ⟨p, r, s, h⟩ := case_reachable
  refine ⟨p, r, s, ?_, C26_release_succeeds (d := 0) libNum_stack (Nat.le_refl _) exSigs_small (by decide) (by decide) h, fun s' hs => ?_⟩
  · have := (C26_buffers_disjoint_and_inside (d := 0) libNum_stack (Nat.le_refl _) exSigs_small (by decide) (by decide) h).1
    simp only [List.pairwise_cons, List.mem_singleton, forall_eq] at this
    exact this.1
  · have := (C26_trap_causes (d := 0) (args := []) libNum_stack (Nat.le_refl _) exSigs_small (by decide) (by decide) h (t := ⟨[], [.f32, .f32]⟩) (by simp [exSigs]) rfl).2 hs
    simpa [Buffer.size, FuncType.slots] using this
-- C29: an argument of the lower buffer is written and read back, the upper buffer keeps its values, and results are stored.
example : ∃ (p r : BitVec 32) (s s' : Store Unit), lib libNum exSigs 65537 5 ("store_" ++ Side.arg.asStr ++ Nat.repr 1 ++ "_" ++ mangledName ⟨[.i32, .f64], [.i64]⟩) [.i32 p, .num (.f64 3)] s = .ok [] s' ∧
    lib libNum exSigs 65537 5 ("load_" ++ Side.arg.asStr ++ Nat.repr 1 ++ "_" ++ mangledName ⟨[.i32, .f64], [.i64]⟩) [.i32 p] s' = .ok [.num (.f64 3)] s' ∧
    (∃ x, lib libNum exSigs 65537 5 ("load_" ++ Side.ret.asStr ++ Nat.repr 0 ++ "_" ++ mangledName ⟨[], [.f32, .f32]⟩) [.i32 r] s = .ok [x] s ∧
      lib libNum exSigs 65537 5 ("load_" ++ Side.ret.asStr ++ Nat.repr 0 ++ "_" ++ mangledName ⟨[], [.f32, .f32]⟩) [.i32 r] s' = .ok [x] s') := by
  obtain ⟨p, r, s, h⟩ := case_reachable
  obtain ⟨s', h1, h2⟩ := C29_round_trip (d := 0) libNum_stack (Nat.le_refl _) exSigs_small (by decide) (by decide) h (t := ⟨[.i32, .f64], [.i64]⟩) (p := p)
    (by simp) (side := .arg) (i := 1) (v := .f64 3) rfl
  exact ⟨p, r, s, s', h1, h2, C29_other_slots_unchanged (d := 0) libNum_stack (Nat.le_refl _) exSigs_small (by decide) (by decide) h (n := 1) rfl (side := .arg) (i := 1) (v := .f64 3) rfl h1
    (n' := 0) rfl (side' := .ret) (j := 0) (w := .f32) rfl (by simp) (by decide)⟩
example : ∃ (r : BitVec 32) (s s' : Store Unit), lib libNum exSigs 65537 5 ("store_rets_" ++ mangledName ⟨[], [.f32, .f32]⟩) [.i32 r, .num (.f32 1), .num (.f32 2)] s = .ok [] s' ∧
    lib libNum exSigs 65537 5 ("load_ret" ++ Nat.repr 1 ++ "_" ++ mangledName ⟨[], [.f32, .f32]⟩) [.i32 r] s' = .ok [.num (.f32 2)] s' := by
  obtain ⟨p, r, s, h⟩ := case_reachable
  obtain ⟨s', h1, h2⟩ := C29_results_arrive (d := 0) libNum_stack (Nat.le_refl _) exSigs_small (by decide) (by decide) h (t := ⟨[], [.f32, .f32]⟩) (p := r) (by simp) (vs := [.f32 1, .f32 2]) rfl
  exact ⟨r, s, s', h1, h2 1 _ rfl⟩
example : ∃ (p : BitVec 32) (s : Store Unit), lib libNum exSigs 65537 5 (typedName .f64) [.i32 p, .i32 2] s =
    lib libNum exSigs 65537 5 ("load_" ++ Side.arg.asStr ++ Nat.repr 1 ++ "_" ++ mangledName ⟨[.i32, .f64], [.i64]⟩) [.i32 p] s := by
  obtain ⟨p, r, s, h⟩ := case_reachable
  exact ⟨p, s, (C29_accessors_agree (d := 0) libNum_stack (Nat.le_refl _) exSigs_small (by decide) (by decide) h (t := ⟨[.i32, .f64], [.i64]⟩) (p := p) (by simp) (side := .arg) (i := 1) (v := .f64 3) rfl
    (slot := 2) rfl).1⟩

example : ∃ (p : BitVec 32) (s : Store Unit), lib libNum exSigs 65537 5 ("allocate_" ++ mangledName ⟨[.i32, .f64], [.i64]⟩) [.i32 7, .num (.f64 9)] (libStart 16) = .ok [.i32 p] s ∧
    lib libNum exSigs 65537 5 ("load_arg" ++ Nat.repr 1 ++ "_" ++ mangledName ⟨[.i32, .f64], [.i64]⟩) [.i32 p] s = .ok [.num (.f64 9)] s := by
  have h0 : Reachable libNum exSigs 65537 (0 + 5) 16 ([], libStart 16) := .start
  obtain ⟨⟨p, s1, e1⟩ | ⟨s1, e1⟩, _⟩ := C26_allocation_succeeds_or_traps (args := [.i32 7, .f64 9]) libNum_stack (Nat.le_refl _) exSigs_small (by decide) (by decide) h0
    (t := ⟨[.i32, .f64], [.i64]⟩) (by simp [exSigs]) rfl
  · exact ⟨p, s1, e1, C29_arguments_arrive (d := 0) libNum_stack (Nat.le_refl _) exSigs_small (by decide) (by decide) h0 (t := ⟨[.i32, .f64], [.i64]⟩) (by simp [exSigs]) (args := [.i32 7, .f64 9]) rfl e1 (i := 1) rfl⟩
  · have := (C26_traps_only_when_full libNum_stack (Nat.le_refl _) exSigs_small (by decide) (by decide) h0 (by simp [exSigs]) rfl).1 e1
    simp [FuncType.slots] at this

/-! ## Transparency (C10, C46) -/

-- C10, C46: `main(0, 5)` returns 49 and prints 7 under some budget, and so does the instrumented program; one more level of calls is enough.
example : ∃ r, Instruments exTypedChecker exIface none exModule r ∧
    (∃ L d a1, callF exNum (machineOf (exAnalysis r.module.exported false) r.module.functions) L d 1 [.i32 0, .i32 5] (exStore.withAnalysis []) =
      .ok [.i32 49] (Store.withAnalysis { exStore with world := [.i32 7] } a1)) ∧
    callF exNum (machineOf (exAnalysis r.module.exported false) r.module.functions) 10 11 1 [.i32 0, .i32 5] (exStore.withAnalysis []) ≠ .fuel := by
  obtain ⟨r, hr⟩ := instruments_of_ok (C := exTypedChecker) (iface := exIface) (ts := none) (m := exModule) (by decide) exModule_small exModule_raises_typed
  refine ⟨r, hr, ?_, ?_⟩
  · exact ((C10_same_behaviour exModule_small exIface_documented.standard rfl hr exModule_valid exModule_annotated
      (exAnalysis_forwards r.module.exported false) (exImports_agree _ _) (f := 1) rfl (ValsOK.nil.cons rfl (by simp [RVal.OK]) |>.cons rfl (by simp [RVal.OK]))
      exStore_ok []).1 _ _).1 ⟨10, 10, exModule_runs⟩
  · exact (C46_bounds_preserved exModule_small exIface_documented.standard rfl hr exModule_valid exModule_annotated
      (exAnalysis_forwards r.module.exported false) (exImports_agree _ _) (f := 1) rfl (ValsOK.nil.cons rfl (by simp [RVal.OK]) |>.cons rfl (by simp [RVal.OK]))
      exStore_ok [] 10 10).1 (by rw [exModule_runs]; exact fun h => by cases h)

/-! ## Merging and the three stack libraries (C37, C52, C53, C54) -/

-- C37: the import of `allocate` for calls of `square` is provided by a module of the merge.
example (program analysis lib : Bytes) (f : Func) (ns name : String) (hf : f ∈ exResumed.module.functions) (hc : f.code = .imported ns name) (hn : ns ≠ "env") :
    ∃ im ∈ (mergePlan (some .target) program analysis (some lib)).modules, im.nmspace = ns :=
  C37_imports_provided exModule_small exResumed_instruments f ns name hf hc (fun g hg h => hn (exModule_imports hg h)) _ _ _ _
    (by have : exResumed.librarySignatures = some exResumeLink.sigs := by decide +kernel
        simp [this])
-- C53: the libraries in Rust and AssemblyScript for the signatures of the example compile.
example : compiles rustTypes rustPrimSigs (rustLib exResumeLink.sigs) ∧ compiles asTypesKnown asPrimSigs (asLib exResumeLink.sigs) :=
  C53_reported_signatures_compile exModule_small exResumed_instruments _ (by decide +kernel)

theorem faceRefFree : ∀ t ∈ faceSigs, t.RefFree := by
  intro t ht; simp only [faceSigs, List.mem_cons, List.not_mem_nil, or_false] at ht; rcases ht with rfl | rfl | rfl <;> simp [FuncType.RefFree]

-- C52, C54: the history of two nested calls on each of the libraries.
example : FailsSafely (execRun (watFace libNum faceSigs 65537 5) faceOps [] (libStart 1)) faceSeen :=
  faceSpec.elim fun _ h => C54_wat_fails_safely_partial (d := 0) libNum_stack faceSmall faceRefFree (Nat.le_refl _) (by decide) (by decide) _ _ _ h
example : FailsSafely (execRun (asFace faceSigs) faceOps [] (asStart 1 1)) faceSeen :=
  faceSpec.elim fun _ h => C54_assemblyscript_fails_safely_partial faceSmall (by decide) (by decide) (by decide) _ _ _ h
example : execRun (rustFace bumpAllocator (fun _ _ => 99) faceSigs) faceOps [] ⟨8, ⟨1, 1, fun _ => 0⟩⟩ = .seen faceSeen ∨
    RunsOut (rustFace bumpAllocator (fun _ _ => 99) faceSigs) (rustFull bumpAllocator) faceOps [] ⟨8, ⟨1, 1, fun _ => 0⟩⟩ :=
  faceSpec.elim fun _ h => C52_rust_history bump_ok _ faceSmall (.inl rfl) (by simp [BumpInv, Mem.size]) h
example : execRun (watFace libNum faceSigs 65537 5) faceOps [] (libStart 1) = .seen faceSeen ∨
    execRun (watFace libNum faceSigs 65537 5) faceOps [] (libStart 1) = .trap ∧ RunsOut (watFace libNum faceSigs 65537 5) watFull faceOps [] (libStart 1) :=
  faceSpec.elim fun _ h => C52_wat_history (d := 0) libNum_stack faceSmall faceRefFree (Nat.le_refl _) (by decide) (by decide) h
-- C52: with one page of memory and nothing else, the library in AssemblyScript has run out.
example : RunsOut (asFace faceSigs) asFull faceOps [] (asStart 1 1) :=
  faceSpec.elim fun _ h => ((C52_assemblyscript_history faceSmall (by decide) (by decide) (by decide) h).resolve_left (by
    have : execRun (asFace faceSigs) faceOps [] (asStart 1 1) = .trap := by decide +kernel
    rw [this]; exact fun h => by cases h)).2
-- C54: what the library in Rust does when its allocator has nothing to give.
example : rustCall bumpAllocator (fun _ _ => 0) [⟨[.i32], []⟩] (allocateTypesName ⟨[.i32], []⟩) [] ⟨65536, ⟨1, 1, fun _ => 0⟩⟩ = .ub :=
  C54_rust_null_types (by simp) (by decide) (by decide) (by decide +kernel)
example : ∃ s', rustCall bumpAllocator (fun _ _ => 0) [⟨[], [.i32]⟩] (allocateValuesName ⟨[], [.i32]⟩) [] ⟨65536, ⟨1, 1, fun _ => 0⟩⟩ = .ok (.num (.i32 0)) s' :=
  C54_rust_null_handed_out (by simp) rfl (by decide) (by decide) (by decide +kernel)
example : rustCall { bumpAllocator with zero := false } (fun _ _ => 0) [⟨[], []⟩] (allocateTypesName ⟨[], []⟩) [] ⟨8, ⟨1, 1, fun _ => 0⟩⟩ = .ub :=
  C54_rust_zero_size (by simp) rfl rfl _

/-! ## Texts of Wasp programs (C50, C73) -/

section
open Wasp
-- C50: the hooks of the example are the ones its interface lists.
example : ∃ i, interface exWasp = some i ∧ ∃ x, .func x ∈ program exWasp ∧ x.Implements Trap.brIfTrap.export :=
  ⟨_, rfl, (C50_generated_hooks_match exWasp _ rfl).1 .brIfTrap _ rfl⟩
-- C73: two ways of writing the sample program.
theorem case_texts : parse sampleText = .ok sampleProgram ∧
    parse "(aspect(global>>>GUEST>>> let n = 0; <<<GUEST<<<)(advice apply(f WasmFunction)(a I32)(r F64)>>>GUEST>>>n += 1;<<<GUEST<<<))" = .ok sampleProgram :=
  ⟨by cbv, by cbv⟩
example : compile sampleText = compile "(aspect(global>>>GUEST>>> let n = 0; <<<GUEST<<<)(advice apply(f WasmFunction)(a I32)(r F64)>>>GUEST>>>n += 1;<<<GUEST<<<))" :=
  C73_layout_does_not_matter ((C73_accepts_exactly_the_programs _ _).1 case_texts.1).1 ((C73_accepts_exactly_the_programs _ _).1 case_texts.2).1
    ((C73_accepts_exactly_the_programs _ _).1 case_texts.1).2
example (l : List PestAdvice) (h : Reads (programToks l) sampleText.toList) (hl : ∀ a ∈ l, a.Nonempty) : l = sampleProgram :=
  C73_a_text_is_one_program h ((C73_accepts_exactly_the_programs _ _).1 case_texts.1).1 hl ((C73_accepts_exactly_the_programs _ _).1 case_texts.1).2
example : ∃ l, Reads (programToks l) (render [.plain (.brIf "c" "l") "x"]).toList ∧ ∃ r j, root l = .ok r ∧ compile (render [.plain (.brIf "c" "l") "x"]) = .ok (r, j) := by
  have h : ∃ x, compile (render [.plain (.brIf "c" "l") "x"]) = .ok x := ⟨_, by cbv⟩
  obtain ⟨⟨r, j⟩, h⟩ := h
  obtain ⟨l, h1, _, h2, _⟩ := (C73_compiles_exactly _ r j).1 h
  exact ⟨l, h1, r, j, h2, h⟩
end

/-! ## Declined calls (C85) -/

-- C85: advice that answers 7 without resuming does so whatever the function would have done.
example (call call' : List RVal → Store (Unit × Nat) → Res (Unit × Nat)) (xs : List Val) (s : Store (Unit × Nat)) :
    (Script.setRes 0 (.i32 7) .done : Script Nat).decision 1 call xs s = (Script.setRes 0 (.i32 7) .done : Script Nat).decision 1 call' xs s :=
  C85_declined_functions_do_not_run (by trivial) 1 call call' xs s

end Wastrum
