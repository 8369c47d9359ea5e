import Verif.StackHooks
/-!
# Merging and the pipeline

Models `wasm-merge/src/lib.rs`, `wasm-merge/src/options.rs` and `wastrumentation/src/lib.rs`. The `wasm-merge` program,
the file system and the compilers are parameters.
-/

namespace Wastrum

abbrev Bytes := List UInt8

/-! ## Options of `wasm-merge` -/

/-- The 23 option types declared with `option!`: `wasm-merge/src/options.rs` 25-72, in that order. -/
inductive MergeOption where
  | noValidate | renameExportConflicts
  | signExt | threads | mutableGlobals | nontrappingFloatToInt | simd | bulkMemory | bulkMemoryOpt | callIndirectOverlong
  | exceptionHandling | tailCall | referenceTypes | multivalue | gc | memory64 | relaxedSimd | extendedConst | strings
  | multimemory | typedContinuations | sharedEverything | fp16
  deriving DecidableEq, Repr

/-- The text of each option: `options.rs` 25-72. -/
def MergeOption.text : MergeOption → String
  | .noValidate => "--no-validation"
  | .renameExportConflicts => "--rename-export-conflicts"
  | .signExt => "--enable-sign-ext"
  | .threads => "--enable-threads"
  | .mutableGlobals => "--enable-mutable-globals"
  | .nontrappingFloatToInt => "--enable-nontrapping-float-to-int"
  | .simd => "--enable-simd"
  | .bulkMemory => "--enable-bulk-memory"
  | .bulkMemoryOpt => "--enable-bulk-memory-opt"
  | .callIndirectOverlong => "--enable-call-indirect-overlong"
  | .exceptionHandling => "--enable-exception-handling"
  | .tailCall => "--enable-tail-call"
  | .referenceTypes => "--enable-reference-types"
  | .multivalue => "--enable-multivalue"
  | .gc => "--enable-gc"
  | .memory64 => "--enable-memory64"
  | .relaxedSimd => "--enable-relaxed-simd"
  | .extendedConst => "--enable-extended-const"
  | .strings => "--enable-strings"
  | .multimemory => "--enable-multimemory"
  | .typedContinuations => "--enable-typed-continuations"
  | .sharedEverything => "--enable-shared-everything"
  | .fp16 => "--enable-fp16"

/-- `InputModule`: `wasm-merge/src/lib.rs` 22-26. -/
structure InputModule where
  module : Bytes
  nmspace : String
  deriving DecidableEq

/-- `MergeOptions`: `wasm-merge/src/lib.rs` 38-73. The 23 fields that are options are one function; `true` is `Enable`. -/
structure MergeOptions where
  primary : Option InputModule
  inputModules : List InputModule
  enabled : MergeOption → Bool

/-- `as_option`: `options.rs` 14-21. -/
def MergeOptions.asOption (o : MergeOptions) (f : MergeOption) : String :=
  match o.enabled f with
  | true => f.text
  | false => ""

/-- The fields passed to `as_bash_args!` in `as_bash_arguments`: `wasm-merge/src/lib.rs` 152-179. -/
def bashArgumentOrder : List MergeOption :=
  [.noValidate, .renameExportConflicts, .signExt, .threads, .mutableGlobals, .nontrappingFloatToInt, .simd, .bulkMemory,
   .bulkMemoryOpt, .callIndirectOverlong, .exceptionHandling, .tailCall, .referenceTypes, .multivalue, .gc, .memory64,
   .relaxedSimd, .extendedConst, .strings, .multimemory, .typedContinuations, .sharedEverything, .fp16]

/-- `as_bash_args!` (`wasm-merge/src/lib.rs` 28-37): `" {field} "` for each field. -/
def bashArgs (o : MergeOptions) : List MergeOption → String
  | [] => ""
  | f :: l => " " ++ o.asOption f ++ " " ++ bashArgs o l

/-- `as_bash_arguments`: `wasm-merge/src/lib.rs` 152-179. -/
def MergeOptions.asBashArguments (o : MergeOptions) : String := bashArgs o bashArgumentOrder

/-- `.join(" ")` (`wasm-merge/src/lib.rs` 110). -/
def joinSpaced : List String → String
  | [] => ""
  | [x] => x
  | x :: y :: l => x ++ " " ++ joinSpaced (y :: l)

/-! ## Running `wasm-merge` -/

/-- The modules to merge, in order: `wasm-merge/src/lib.rs` 88-92. -/
def MergeOptions.modules (o : MergeOptions) : List InputModule := o.primary.toList ++ o.inputModules

/-- `merge_name_combinations`: `wasm-merge/src/lib.rs` 104-110. -/
def nameCombinations (merges : List (InputModule × String)) : String :=
  joinSpaced (merges.map fun p => p.2 ++ " " ++ p.1.nmspace)

/-- `merge_command`: `wasm-merge/src/lib.rs` 115-124. -/
def mergeCommand (o : MergeOptions) (merges : List (InputModule × String)) (out : String) : String :=
  "wasm-merge" ++ " " ++ o.asBashArguments ++ " " ++ nameCombinations merges ++ " -o " ++ out

/-- What `Command::output` reports, and what is in the output file afterwards (or why it cannot be read). -/
structure RunResult where
  exitCode : Nat
  stderr : Bytes
  output : Except String Bytes

/-- The operating system as seen by `merge`: the path of the `k`-th temporary input file, whether writing it works, the path
of the output file, and what running a command does given the contents of the files. I/O errors are strings. -/
structure MergeWorld where
  tempInput : Nat → Except String String
  write : Nat → Bytes → Except String Unit
  tempOutput : Except String String
  run : String → List (String × Bytes) → Except String RunResult

/-- `wasm_merge::error::Error`: `wasm-merge/src/error.rs` 5-20. -/
inductive MergeError where
  | tempInputFileCreationFailed (e : String)
  | tempInputFileWriteFailed (e : String)
  | tempOutputFileCreationFailed (e : String)
  | mergeExecutionFailed (e : String)
  | mergeExecutionFailedReason (stderr : Bytes)
  | readFromOutputFileFailed (e : String)
  deriving DecidableEq

/-- The temporary files of the input modules, from the `k`-th on: `wasm-merge/src/lib.rs` 93-102. -/
def tempFiles (w : MergeWorld) : Nat → List InputModule → Except MergeError (List (InputModule × String))
  | _, [] => .ok []
  | k, im :: l => match w.tempInput k with
    | .error e => .error (.tempInputFileCreationFailed e)
    | .ok path => match w.write k im.module with
      | .error e => .error (.tempInputFileWriteFailed e)
      | .ok () => match tempFiles w (k + 1) l with
        | .error e => .error e
        | .ok rest => .ok ((im, path) :: rest)

/-- `MergeOptions::merge`: `wasm-merge/src/lib.rs` 81-150. -/
def MergeOptions.merge (w : MergeWorld) (o : MergeOptions) : Except MergeError Bytes :=
  match tempFiles w 0 o.modules with
  | .error e => .error e
  | .ok merges => match w.tempOutput with
    | .error e => .error (.tempOutputFileCreationFailed e)
    | .ok out => match w.run (mergeCommand o merges out) (merges.map fun p => (p.2, p.1.module)) with
      | .error e => .error (.mergeExecutionFailed e)
      | .ok r =>
        if r.stderr ≠ [] then .error (.mergeExecutionFailedReason r.stderr)
        else match r.output with
          | .error e => .error (.readFromOutputFileFailed e)
          | .ok bytes => .ok bytes

/-! ## The tool's own merge -/

/-- `PrimaryTarget`: `wastrumentation/src/lib.rs` 49-54. -/
inductive PrimaryTarget where
  | instrumentation | target | analysis
  deriving DecidableEq, Repr

/-- `flatten` of a list of options (`wastrumentation/src/lib.rs` 190). -/
def flattenOptions {α : Type} : List (Option α) → List α
  | [] => []
  | none :: l => flattenOptions l
  | some x :: l => x :: flattenOptions l

/-- `Wastrumenter::merge` up to running the merge: `wastrumentation/src/lib.rs` 146-200. -/
def mergePlan (primary : Option PrimaryTarget) (program analysis : Bytes) (lib : Option Bytes) : MergeOptions :=
  let inputAnalysis : Option InputModule := some ⟨analysis, analysisModule⟩
  let inputTarget : Option InputModule := some ⟨program, instrumentedModule⟩
  let inputInstrumentation : Option InputModule := lib.map fun l => ⟨l, stackModule⟩
  let (primary, inputs) := match primary with
    | some .analysis => (inputAnalysis, [inputTarget, inputInstrumentation])
    | some .target => (inputTarget, [inputAnalysis, inputInstrumentation])
    | some .instrumentation => (inputInstrumentation, [inputTarget, inputAnalysis])
    | none => (none, [inputTarget, inputInstrumentation, inputAnalysis])
  { primary
    inputModules := flattenOptions inputs
    enabled := fun f => match f with
      | .noValidate | .renameExportConflicts | .multimemory | .bulkMemory => true
      | _ => false }

/-! ## The pipeline -/

/-- The stages of `wastrument`. -/
inductive Stage where
  | compileAnalysis | instrument | compileLibrary | merge
  deriving DecidableEq, Repr

/-- How a stage fails: with an error, or with a panic. -/
inductive Fail (E : Type) where
  | error (e : E)
  | panic
  deriving DecidableEq

/-- What the pipeline is made of: the compiler of the analysis, the instrumentation of the program (which may ask for a
library), the compiler of the library, and the merge. -/
structure Pipeline (Src CE IE ME : Type) where
  compileAnalysis : Except (Fail CE) Bytes
  instrument : Except (Fail IE) (Bytes × Option Src)
  compileLibrary : Src → Except (Fail CE) Bytes
  merge : MergeOptions → Except (Fail ME) Bytes

/-- `Error`: `wastrumentation/src/error.rs` 7-17; `panic` when a stage panics. -/
inductive PipelineError (CE IE ME : Type) where
  | compilationErrorAnalysis (e : CE)
  | compilationErrorInstrumentation (e : CE)
  | mergeError (e : ME)
  | instrumentationError (e : IE)
  | panic
  deriving DecidableEq

/-- `map_err` with an error constructor, a panic staying a panic. -/
def Fail.lift {E CE IE ME : Type} (k : E → PipelineError CE IE ME) : Fail E → PipelineError CE IE ME
  | .error e => k e
  | .panic => .panic

/-- `Wastrumenter::wastrument`: `wastrumentation/src/lib.rs` 90-144, together with the stages that were run. -/
def wastrument {Src CE IE ME : Type} (P : Pipeline Src CE IE ME) (primary : Option PrimaryTarget) :
    List Stage × Except (PipelineError CE IE ME) Bytes :=
  -- 1. Compile analysis
  match P.compileAnalysis with
  | .error e => ([.compileAnalysis], .error (e.lift .compilationErrorAnalysis))
  | .ok analysis =>
    -- 2. Instrument the input program
    match P.instrument with
    | .error e => ([.compileAnalysis, .instrument], .error (e.lift .instrumentationError))
    | .ok (program, library) =>
      -- 3. Compile the instrumentation lib
      match library with
      | some src => match P.compileLibrary src with
        | .error e => ([.compileAnalysis, .instrument, .compileLibrary], .error (e.lift .compilationErrorInstrumentation))
        | .ok lib =>
          -- 4. Merge them all together
          match P.merge (mergePlan primary program analysis (some lib)) with
          | .error e => ([.compileAnalysis, .instrument, .compileLibrary, .merge], .error (e.lift .mergeError))
          | .ok out => ([.compileAnalysis, .instrument, .compileLibrary, .merge], .ok out)
      | none =>
        match P.merge (mergePlan primary program analysis none) with
        | .error e => ([.compileAnalysis, .instrument, .merge], .error (e.lift .mergeError))
        | .ok out => ([.compileAnalysis, .instrument, .merge], .ok out)

end Wastrum
