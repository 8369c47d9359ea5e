import Verif.Merge
import Verif.StackNames
/-!
# Theorems about merging and the pipeline (C37, C38, C44)
-/

set_option linter.unusedSimpArgs false
set_option linter.unusedVariables false

namespace Wastrum

/-! ## Words of a command (specification) -/

/-- The words of a text, split at spaces: what a shell passes to a command if the text has no characters with a special
meaning. `cur` is the word being read, reversed. -/
def wordsFrom (cur : List Char) : List Char → List (List Char)
  | [] => if cur = [] then [] else [cur.reverse]
  | c :: l => if c = ' ' then (if cur = [] then [] else [cur.reverse]) ++ wordsFrom [] l else wordsFrom (c :: cur) l

/-- The words of a text. -/
def words (s : String) : List String := (wordsFrom [] s.toList).map String.ofList

/-- A text that is one word and has no characters with a special meaning to a shell: letters, digits and `/ . - _`. -/
def PlainWord (s : String) : Prop := s ≠ "" ∧ ∀ c ∈ s.toList, c.isAlphanum = true ∨ c = '/' ∨ c = '.' ∨ c = '-' ∨ c = '_'

theorem wordsFrom_space (cur a b : List Char) : wordsFrom cur (a ++ ' ' :: b) = wordsFrom cur a ++ wordsFrom [] b := by
  induction a generalizing cur with
  | nil => simp [wordsFrom]
  | cons c a ih =>
    simp only [List.cons_append, wordsFrom]
    split
    · rw [ih, List.append_assoc]
    · exact ih _

theorem wordsFrom_word (cur w : List Char) (h : ∀ c ∈ w, c ≠ ' ') : wordsFrom cur w = if cur.reverse ++ w = [] then [] else [cur.reverse ++ w] := by
  induction w generalizing cur with
  | nil => simp [wordsFrom]
  | cons c w ih =>
    rw [wordsFrom, if_neg (h c (by simp)), ih _ fun d hd => h d (by simp [hd])]
    simp

theorem words_space (a b : String) : words (a ++ " " ++ b) = words a ++ words b := by
  have : (" " : String).toList = [' '] := by decide
  simp [words, String.toList_append, this, wordsFrom_space]

theorem words_empty : words "" = [] := by rfl

theorem PlainWord.noSpace {s : String} (h : PlainWord s) : ∀ c ∈ s.toList, c ≠ ' ' := by
  rintro c hc rfl
  have := h.2 _ hc
  revert this
  decide

theorem PlainWord.words {s : String} (h : PlainWord s) : words s = [s] := by
  have : s.toList ≠ [] := by simpa using h.1
  simp [Wastrum.words, wordsFrom_word _ _ h.noSpace, this, String.ofList_toList]

theorem words_space_left (b : String) : words (" " ++ b) = words b := by
  have := words_space "" b
  simpa [words_empty] using this

/-! ## C44 -/

instance (s : String) : Decidable (PlainWord s) := by unfold PlainWord; exact inferInstance

theorem MergeOption.plain (f : MergeOption) : PlainWord f.text := by cases f <;> decide +kernel

theorem words_bashArgs (o : MergeOptions) (l : List MergeOption) : words (bashArgs o l) = (l.filter o.enabled).map MergeOption.text := by
  induction l with
  | nil => rfl
  | cons f l ih =>
    have e : bashArgs o (f :: l) = " " ++ o.asOption f ++ " " ++ bashArgs o l := rfl
    rw [e, words_space, words_space_left, ih, List.filter_cons, MergeOptions.asOption]
    cases o.enabled f with
    | true => simp [f.plain.words]
    | false => simp [words_empty]

theorem bashArgumentOrder_all (f : MergeOption) : bashArgumentOrder.count f = 1 := by cases f <;> rfl

/-- **C44 (one flag per option).** Whatever options are enabled, the words passed to `wasm-merge` as options are exactly the
flags of the enabled options, each once. -/
theorem C44_flags_exact (o : MergeOptions) :
    (∀ w, w ∈ words o.asBashArguments ↔ ∃ f, o.enabled f = true ∧ f.text = w) ∧
    ∀ f, (words o.asBashArguments).count f.text = if o.enabled f then 1 else 0 := by
  have hinj : ∀ f g : MergeOption, f.text = g.text → f = g := by
    intro f g
    cases f <;> cases g <;> decide
  have hw : words o.asBashArguments = (bashArgumentOrder.filter o.enabled).map MergeOption.text := words_bashArgs o _
  constructor
  · intro w
    rw [hw, List.mem_map]
    constructor
    · rintro ⟨f, hf, rfl⟩
      exact ⟨f, (List.mem_filter.mp hf).2, rfl⟩
    · rintro ⟨f, hf, rfl⟩
      refine ⟨f, List.mem_filter.mpr ⟨List.count_pos_iff.mp ?_, hf⟩, rfl⟩
      rw [bashArgumentOrder_all]; omega
  · intro f
    rw [hw]
    have key : ∀ l : List MergeOption, ((l.filter o.enabled).map MergeOption.text).count f.text = if o.enabled f then l.count f else 0 := by
      intro l
      induction l with
      | nil => simp
      | cons g l ih =>
        rw [List.filter_cons]
        by_cases hfg : g = f
        · subst hfg
          cases hg : o.enabled g <;> simp [hg, ih] <;> simp [hg] at ih <;> simp [ih]
        · have hne : g.text ≠ f.text := fun e => hfg (hinj _ _ e)
          cases hg : o.enabled g
          · simp [hg, ih, List.count_cons, hfg]
          · simp [ih, List.count_cons, hfg, hne]
    rw [key, bashArgumentOrder_all]

/-- **C44 (the tool's own merge).** The tool's own merge always enables exactly these four options. -/
theorem C44_own_options (p : Option PrimaryTarget) (program analysis : Bytes) (lib : Option Bytes) (w : String) :
    w ∈ words (mergePlan p program analysis lib).asBashArguments ↔
      w ∈ ["--no-validation", "--rename-export-conflicts", "--enable-multimemory", "--enable-bulk-memory"] := by
  rw [(C44_flags_exact _).1]
  constructor
  · rintro ⟨f, hf, rfl⟩
    cases f <;> first | (simp [mergePlan] at hf; done) | simp [MergeOption.text]
  · intro h
    simp only [List.mem_cons, List.not_mem_nil, or_false] at h
    rcases h with rfl | rfl | rfl | rfl
    · exact ⟨.noValidate, rfl, rfl⟩
    · exact ⟨.renameExportConflicts, rfl, rfl⟩
    · exact ⟨.multimemory, rfl, rfl⟩
    · exact ⟨.bulkMemory, rfl, rfl⟩

-- Enabling two options passes their two flags.
example : words (MergeOptions.mk none [] fun f => f = .threads ∨ f = .gc).asBashArguments = ["--enable-threads", "--enable-gc"] := by decide +kernel

/-! ## C37 -/

/-- **C37.** Whatever primary module is selected, the program, the analysis and the stack library (if there is one) are merged
exactly once each, under three different names; the selected module comes first. -/
theorem C37_every_module_once (p : Option PrimaryTarget) (program analysis : Bytes) (lib : Option Bytes) :
    (mergePlan p program analysis lib).modules.Perm
      ([⟨program, "instrumented_input"⟩, ⟨analysis, "WASTRUMENTATION_ANALYSIS"⟩] ++ (lib.map fun l => ⟨l, "wastrumentation_stack"⟩).toList) ∧
    ((mergePlan p program analysis lib).modules.map (·.nmspace)).Nodup ∧
    (p = some .target → (mergePlan p program analysis lib).modules.head? = some ⟨program, "instrumented_input"⟩) ∧
    (p = some .analysis → (mergePlan p program analysis lib).modules.head? = some ⟨analysis, "WASTRUMENTATION_ANALYSIS"⟩) ∧
    (∀ l, p = some .instrumentation → lib = some l → (mergePlan p program analysis lib).modules.head? = some ⟨l, "wastrumentation_stack"⟩) ∧
    (p = none → (mergePlan p program analysis lib).modules.head? = some ⟨program, "instrumented_input"⟩) := by
  refine ⟨?_, ?_, ?_, ?_, ?_, ?_⟩
  · rcases p with _ | p <;> rcases lib with _ | l
    · exact .refl _
    · exact .cons _ (.swap _ _ _)
    · cases p
      · exact .refl _
      · exact .refl _
      · exact .swap _ _ _
    · cases p
      · exact ((List.Perm.swap _ _ _).trans (.cons _ (.swap _ _ _)))
      · exact .refl _
      · exact .swap _ _ _
  · rcases p with _ | p <;> rcases lib with _ | l
    · show (["instrumented_input", "WASTRUMENTATION_ANALYSIS"] : List String).Nodup; decide
    · show (["instrumented_input", "wastrumentation_stack", "WASTRUMENTATION_ANALYSIS"] : List String).Nodup; decide
    · cases p
      · show (["instrumented_input", "WASTRUMENTATION_ANALYSIS"] : List String).Nodup; decide
      · show (["instrumented_input", "WASTRUMENTATION_ANALYSIS"] : List String).Nodup; decide
      · show (["WASTRUMENTATION_ANALYSIS", "instrumented_input"] : List String).Nodup; decide
    · cases p
      · show (["wastrumentation_stack", "instrumented_input", "WASTRUMENTATION_ANALYSIS"] : List String).Nodup; decide
      · show (["instrumented_input", "WASTRUMENTATION_ANALYSIS", "wastrumentation_stack"] : List String).Nodup; decide
      · show (["WASTRUMENTATION_ANALYSIS", "instrumented_input", "wastrumentation_stack"] : List String).Nodup; decide
  · rintro rfl; rfl
  · rintro rfl; rfl
  · rintro l rfl rfl; rfl
  · rintro rfl; rfl

/-- **C37 (absent library).** If the stack library is selected as primary module but there is none, no module is primary and
the program comes first. -/
theorem C37_absent_primary (program analysis : Bytes) :
    (mergePlan (some .instrumentation) program analysis none).primary = none ∧
    (mergePlan (some .instrumentation) program analysis none).modules = [⟨program, "instrumented_input"⟩, ⟨analysis, "WASTRUMENTATION_ANALYSIS"⟩] :=
  ⟨rfl, rfl⟩

theorem words_joinSpaced (l : List String) : words (joinSpaced l) = l.flatMap words := by
  induction l with
  | nil => rfl
  | cons x l ih =>
    cases l with
    | nil => simp [joinSpaced]
    | cons y l => rw [joinSpaced, words_space, ih]; rfl

/-- The files given to `wasm-merge` are those of the modules to merge, in order. -/
theorem tempFiles_ok {w : MergeWorld} {k : Nat} {l : List InputModule} {r : List (InputModule × String)} (h : tempFiles w k l = .ok r) :
    r.map (·.1) = l ∧ ∀ (j : Nat) p, r[j]? = some p → w.tempInput (k + j) = .ok p.2 := by
  induction l generalizing k r with
  | nil => cases h; simp
  | cons im l ih =>
    rw [tempFiles] at h
    split at h
    · simp at h
    · rename_i path hp
      split at h
      · simp at h
      · split at h
        · simp at h
        · rename_i rest hr
          cases h
          obtain ⟨h1, h2⟩ := ih hr
          refine ⟨by simp [h1], ?_⟩
          intro j p hj
          cases j with
          | zero => simp at hj; subst hj; exact hp
          | succ j =>
            have := h2 j p (by simpa using hj)
            rw [← this]; congr 1; omega

/-- **C37 (command).** The words of the command that is run: the program's name, the flags, then for every module to merge, in
order, the file with its contents and its namespace, and last the output file; provided the names of the temporary files are
plain. -/
theorem C37_command (o : MergeOptions) (merges : List (InputModule × String)) (out : String)
    (hp : ∀ p ∈ merges, PlainWord p.2) (hn : ∀ p ∈ merges, PlainWord p.1.nmspace) (ho : PlainWord out) :
    words (mergeCommand o merges out) =
      "wasm-merge" :: ((bashArgumentOrder.filter o.enabled).map MergeOption.text ++
        (merges.flatMap fun p => [p.2, p.1.nmspace]) ++ ["-o", out]) := by
  have e : mergeCommand o merges out =
      "wasm-merge" ++ " " ++ (o.asBashArguments ++ " " ++ (nameCombinations merges ++ " " ++ ("-o" ++ " " ++ out))) := by
    have h1 : (" -o " : String) = " " ++ "-o" ++ " " := by decide
    rw [mergeCommand, h1]
    simp only [String.append_assoc]
  rw [e, words_space, words_space, words_space, words_space, ho.words]
  have h1 : PlainWord "wasm-merge" := by decide +kernel
  have h2 : PlainWord "-o" := by decide +kernel
  rw [h1.words, h2.words, MergeOptions.asBashArguments, words_bashArgs, nameCombinations, words_joinSpaced]
  have h3 : (merges.map fun p => p.2 ++ " " ++ p.1.nmspace).flatMap words = merges.flatMap fun p => [p.2, p.1.nmspace] := by
    clear e
    induction merges with
    | nil => rfl
    | cons p l ih =>
      rw [List.map_cons, List.flatMap_cons, List.flatMap_cons, words_space, (hp p (by simp)).words, (hn p (by simp)).words,
        ih (fun q hq => hp q (by simp [hq])) (fun q hq => hn q (by simp [hq]))]
      rfl
  rw [h3]
  simp

/-- **C37 (imports are provided).** Every import of the instrumented program that the program itself did not have is in the
namespace of a merged module: the analysis, or the stack library, which is then among the merged modules. -/
theorem C37_imports_provided {C iface ts m r} (hs : SmallModule m) (h : Instruments C iface ts m r) (f : Func) (ns name : String)
    (hf : f ∈ r.module.functions) (hc : f.code = .imported ns name) (hnew : ∀ g ∈ m.functions, g.code ≠ .imported ns name)
    (p : Option PrimaryTarget) (program analysis : Bytes) (lib : Option Bytes) (hlib : lib = none ↔ r.librarySignatures = none) :
    ∃ im ∈ (mergePlan p program analysis lib).modules, im.nmspace = ns := by
  have hperm := (C37_every_module_once p program analysis lib).1
  have key : ns = analysisModule ∨ (ns = stackModule ∧ r.librarySignatures ≠ none) := by
    obtain ⟨ord, ord', ho, ho', h⟩ := h
    obtain ⟨_, _, fs, base, hd, hn, hg⟩ := instrument_desc ho ho' hs h
    obtain ⟨k, hf⟩ := List.getElem?_of_mem hf
    have hfs : ∀ (k : Nat) f, fs[k]? = some f → f.code = .imported ns name → ns = analysisModule := by
      intro k f hf hc
      by_cases hk : k < m.functions.length
      · exfalso
        have h1 := hd.own k hk
        obtain ⟨f0, hf0⟩ : ∃ f, m.functions[k]? = some f := ⟨_, List.getElem?_eq_getElem hk⟩
        rw [hf0, hf, Option.map_some] at h1
        have hm := hnew f0 (List.mem_of_getElem? hf0)
        simp only [Option.some.injEq] at h1
        split at h1
        · subst h1
          unfold Func.withBody at hc
          split at hc
          · simp at hc
          · exact hm hc
        · subst h1; exact hm hc
      · have h1 := drop_get (j := k - m.functions.length) hd.added
        rw [show m.functions.length + (k - m.functions.length) = k by omega, hf] at h1
        have := List.mem_of_getElem? h1.symm
        rw [List.mem_append] at this
        rcases this with q | q
        · simp only [hookImports, List.mem_filterMap] at q
          obtain ⟨t, _, q⟩ := q
          cases ht : iface.trap t with
          | none => simp [ht] at q
          | some e =>
            simp only [ht, Option.map_some, Option.some.injEq] at q
            subst q
            simp only [hookImport, FuncCode.imported.injEq] at hc
            exact hc.1.symm
        · obtain ⟨i, _, hi⟩ := List.mem_flatMap.1 q
          obtain ⟨p, rfl⟩ := helpersFor_present hi
          simp [helperFunc] at hc
    cases hgen : iface.generic with
    | none =>
      rw [(hn hgen).2] at hf
      by_cases hk : k < fs.length
      · rw [List.getElem?_append_left hk] at hf
        exact .inl (hfs k f hf hc)
      · rw [List.getElem?_append_right (by omega)] at hf
        obtain ⟨c, hp⟩ := memoryFunctions_present (List.mem_of_getElem? hf)
        rw [hc] at hp; simp at hp
    | some p =>
      obtain ⟨m2, sigs, hooks, copy, ha, hsg, e⟩ := hg p.1 p.2 hgen
      have hol : ∀ i ∈ ord' (applyTargets m ts), i < fs.length := by
        intro i hi
        obtain ⟨g, hg, _⟩ := mem_applyTargets.1 ((ho' _).mem_iff.1 hi)
        have := (List.getElem?_eq_some_iff.1 hg).1
        have := hd.length
        omega
      rw [e] at hf
      by_cases hk : k < m2.functions.length
      · rw [List.getElem?_append_left hk] at hf
        rcases ha.cases hol hf with q | q | q | q | q | q | q
        · exact .inl (hfs k f q.2.2 hc)
        · obtain ⟨j, g, _, _, rfl⟩ := q; simp [trampolineFunc] at hc
        · obtain ⟨_, rfl⟩ := q
          simp only [genericApplyImport, FuncCode.imported.injEq] at hc
          exact .inl hc.1.symm
        · obtain ⟨_, ty, nm, rfl, _⟩ := q
          simp only [stackImport, FuncCode.imported.injEq] at hc
          exact .inr ⟨hc.1.symm, by rw [hsg]; simp⟩
        · obtain ⟨j, i, g, hj, hg, _, rfl⟩ := q
          exact .inl (hfs i g hg hc)
        · obtain ⟨j, i, g, _, _, _, rfl⟩ := q; simp [applyFunc] at hc
        · obtain ⟨_, rfl⟩ := q; simp [callBaseFunc] at hc
      · rw [List.getElem?_append_right (by omega)] at hf
        obtain ⟨c, hp⟩ := memoryFunctions_present (List.mem_of_getElem? hf)
        rw [hc] at hp; simp at hp
  rcases key with rfl | ⟨rfl, hl⟩
  · exact ⟨⟨analysis, "WASTRUMENTATION_ANALYSIS"⟩, hperm.mem_iff.mpr (by simp), rfl⟩
  · cases lib with
    | none => exact absurd (hlib.mp rfl) hl
    | some l => exact ⟨⟨l, "wastrumentation_stack"⟩, hperm.mem_iff.mpr (by simp), rfl⟩

/-- **C37 (a name nobody provides).** The interface declares that the analysis imports `call_base` from a namespace under which
no module is merged (the shipped libraries import it from `instrumented_input` instead, which is the program). -/
theorem C37_declared_namespace_missing (p : Option PrimaryTarget) (program analysis : Bytes) (lib : Option Bytes) :
    ∀ im ∈ (mergePlan p program analysis lib).modules, im.nmspace ≠ interfaceGenericApply.2.nmspace := by
  intro im him
  rw [(C37_every_module_once p program analysis lib).1.mem_iff] at him
  cases lib with
  | none =>
    simp only [Option.map_none, Option.toList_none, List.append_nil, List.mem_cons, List.not_mem_nil, or_false] at him
    rcases him with rfl | rfl <;> simp [interfaceGenericApply]
  | some l =>
    simp only [Option.map_some, Option.toList_some, List.cons_append, List.nil_append, List.mem_cons, List.not_mem_nil, or_false] at him
    rcases him with rfl | rfl | rfl <;> simp [interfaceGenericApply]

-- The library first.
example : (mergePlan (some .instrumentation) [1] [2] (some [3])).modules =
    [⟨[3], "wastrumentation_stack"⟩, ⟨[1], "instrumented_input"⟩, ⟨[2], "WASTRUMENTATION_ANALYSIS"⟩] := rfl
-- The command for a program and an analysis.
example : words (mergeCommand (mergePlan none [1] [2] none) [(⟨[1], "instrumented_input"⟩, "/tmp/a"), (⟨[2], "WASTRUMENTATION_ANALYSIS"⟩, "/tmp/b")] "/tmp/out") =
    ["wasm-merge", "--no-validation", "--rename-export-conflicts", "--enable-bulk-memory", "--enable-multimemory",
      "/tmp/a", "instrumented_input", "/tmp/b", "WASTRUMENTATION_ANALYSIS", "-o", "/tmp/out"] := by decide +kernel

/-! ## C38 -/

/-- The library that is merged: none if instrumentation asks for none, otherwise what its compiler produces. -/
def LibraryIs {Src CE IE ME : Type} (P : Pipeline Src CE IE ME) : Option Src → Option Bytes → Prop
  | none, lib => lib = none
  | some src, lib => ∃ b, P.compileLibrary src = .ok b ∧ lib = some b

/-- **C38 (success).** The pipeline succeeds exactly when compiling the analysis, instrumenting, compiling the library (if one
is asked for) and merging succeed, with the result of the merge. -/
theorem C38_success_iff {Src CE IE ME : Type} (P : Pipeline Src CE IE ME) (p : Option PrimaryTarget) (out : Bytes) :
    (wastrument P p).2 = .ok out ↔
      ∃ analysis program library lib, P.compileAnalysis = .ok analysis ∧ P.instrument = .ok (program, library) ∧
        LibraryIs P library lib ∧ P.merge (mergePlan p program analysis lib) = .ok out := by
  constructor
  · intro h
    unfold wastrument at h
    split at h
    · simp at h
    · rename_i a ha
      split at h
      · simp at h
      · rename_i program library hi
        split at h
        · rename_i src
          split at h
          · simp at h
          · rename_i l hl
            split at h
            · simp at h
            · rename_i b hm
              exact ⟨a, program, some src, some l, ha, hi, ⟨l, hl, rfl⟩, by simpa [hm] using h⟩
        · split at h
          · simp at h
          · rename_i b hm
            exact ⟨a, program, none, none, ha, hi, rfl, by simpa [hm] using h⟩
  · rintro ⟨a, program, library, lib, ha, hi, hl, hm⟩
    cases library with
    | none =>
      cases hl
      simp [wastrument, ha, hi, hm]
    | some src =>
      obtain ⟨l, hl, rfl⟩ := hl
      simp [wastrument, ha, hi, hl, hm]

/-- **C38 (first failure).** If the pipeline does not succeed, it gives the failure of the first stage that fails, and exactly
the stages up to that one are run: nothing is merged after a failing compilation, and so on. -/
theorem C38_first_failure {Src CE IE ME : Type} (P : Pipeline Src CE IE ME) (p : Option PrimaryTarget) :
    (∀ e, P.compileAnalysis = .error e →
      wastrument P p = ([.compileAnalysis], .error (e.lift .compilationErrorAnalysis))) ∧
    (∀ a e, P.compileAnalysis = .ok a → P.instrument = .error e →
      wastrument P p = ([.compileAnalysis, .instrument], .error (e.lift .instrumentationError))) ∧
    (∀ a program src e, P.compileAnalysis = .ok a → P.instrument = .ok (program, some src) → P.compileLibrary src = .error e →
      wastrument P p = ([.compileAnalysis, .instrument, .compileLibrary], .error (e.lift .compilationErrorInstrumentation))) ∧
    (∀ a program library lib e, P.compileAnalysis = .ok a → P.instrument = .ok (program, library) → LibraryIs P library lib →
      P.merge (mergePlan p program a lib) = .error e →
      (wastrument P p).2 = .error (e.lift .mergeError) ∧
      (wastrument P p).1 = [.compileAnalysis, .instrument] ++ (if library.isSome then [.compileLibrary] else []) ++ [.merge]) := by
  refine ⟨?_, ?_, ?_, ?_⟩
  · intro e h; simp [wastrument, h]
  · intro a e h h2; simp [wastrument, h, h2]
  · intro a program src e h h2 h3; simp [wastrument, h, h2, h3]
  · intro a program library lib e h h2 h3 h4
    cases library with
    | none =>
      cases h3
      simp [wastrument, h, h2, h4]
    | some src =>
      obtain ⟨b, hb, rfl⟩ := h3
      simp [wastrument, h, h2, hb, h4]

/-- The command and files that `merge` runs, if it gets that far. -/
def MergeRuns (w : MergeWorld) (o : MergeOptions) (r : Except String RunResult) : Prop :=
  ∃ merges out, tempFiles w 0 o.modules = .ok merges ∧ w.tempOutput = .ok out ∧
    r = w.run (mergeCommand o merges out) (merges.map fun p => (p.2, p.1.module))

/-- **C38 (merging, partial).** A merge succeeds exactly when the temporary files can be made, the program can be run, it
reports nothing on its error output, and the output file can be read; the result is then what is in that file.
What is missing for "succeeds iff the merge succeeds": the exit status of the program is not looked at, see
`C38_exit_status_ignored`. -/
theorem C38_merge_success_partial (w : MergeWorld) (o : MergeOptions) (bytes : Bytes) :
    o.merge w = .ok bytes ↔ ∃ r, MergeRuns w o (.ok r) ∧ r.stderr = [] ∧ r.output = .ok bytes := by
  unfold MergeOptions.merge MergeRuns
  cases ht : tempFiles w 0 o.modules with
  | error e => simp
  | ok merges =>
    cases ho : w.tempOutput with
    | error e => simp
    | ok out =>
      simp only [Except.ok.injEq, exists_and_left, exists_eq_left']
      cases hr : w.run (mergeCommand o merges out) (merges.map fun p => (p.2, p.1.module)) with
      | error e => simp
      | ok r =>
        simp only [Except.ok.injEq, exists_eq_left]
        by_cases hs : r.stderr = []
        · cases hout : r.output <;> simp [hs, hout]
        · simp [hs]

/-- **C38 (violation).** A `wasm-merge` that fails (its exit status is not zero) without writing to its error output counts as
successful: the result of the pipeline is the empty output file. -/
theorem C38_exit_status_ignored : ∃ (w : MergeWorld) (o : MergeOptions) (r : RunResult),
    MergeRuns w o (.ok r) ∧ r.exitCode ≠ 0 ∧ o.merge w = .ok [] := by
  refine ⟨⟨fun k => .ok "/tmp/x", fun _ _ => .ok (), .ok "/tmp/out", fun _ _ => .ok ⟨1, [], .ok []⟩⟩,
    mergePlan none [1] [2] none, ⟨1, [], .ok []⟩, ⟨_, _, rfl, rfl, rfl⟩, by decide, rfl⟩

-- A pipeline whose library does not compile; its merge is not reached.
example : wastrument (Src := Unit) (CE := String) (IE := String) (ME := MergeError)
    ⟨.ok [1], .ok ([2], some ()), fun _ => .error (.error "no such file"), fun _ => .ok [3]⟩ none =
    ([.compileAnalysis, .instrument, .compileLibrary], .error (.compilationErrorInstrumentation "no such file")) := rfl
-- A pipeline that succeeds without a library.
example : wastrument (Src := Unit) (CE := String) (IE := String) (ME := MergeError)
    ⟨.ok [1], .ok ([2], none), fun _ => .error .panic, fun o => .ok (o.modules.flatMap (·.module))⟩ (some .analysis) =
    ([.compileAnalysis, .instrument, .merge], .ok [1, 2]) := rfl

end Wastrum
