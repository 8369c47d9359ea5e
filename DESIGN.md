# Formal model of wastrumentation

Target: `aaronmunsters/wastrumentation` (Rust), source in `/repo`, read as text. The model and the theorems are
in `lean/Verif/` (build with `lake build` in `lean/`). `properties.jsonl` lists the properties, `MANIFEST.json`
maps them to theorems with their status, `seeded/LOG.jsonl` records the wrong-program experiments.

Conventions: a file `X.lean` holds model definitions (each citing the file and lines it models) or supporting
lemmas; the theorems of the properties are named `Cnn_...` and live in `...Thms.lean` (and a few files named in
section 4). A theorem named `..._partial` proves less than the property says; the missing part is then proved
*false of the code* by another theorem, with a witness, unless stated otherwise. Beside each group of theorems
`example`s show a concrete program meeting the hypotheses; `Cases.lean` and `MoreCases.lean` apply further theorems to concrete programs.

## 1. Trusted base

* **Lean 4.33.0's kernel.** No Mathlib module is imported; `Std.Data.String.ToNat` is the only import besides Lean's
  core library. There are no axioms of our own, no `sorry`, `native_decide`, `bv_decide`, `implemented_by` or `unsafe`.
* **Axioms.** The property theorems depend on `propext`, `Classical.choice` and `Quot.sound` at most (`#print axioms` on every
  theorem of `MANIFEST.json`); `C19_export_names_distinct` and `C49_library_exports_what_is_imported` on none.
* **The hand translation from Rust to Lean.** Every definition of the model cites file and lines and says what is simplified.
* **`wasabi_wasm`**, whose source is not in the sandbox. Assumed of it: one vector of imported and defined functions,
  `add_function`/`add_function_import` append and return the new index, `add_fresh_local` returns parameters + locals, parsing and
  encoding are inverse. Its `TypeChecker` is a parameter (`Checker`); theorems that need correct annotations assume them
  (`WellAnnotated`).
* **The semantics of WebAssembly** in `Semantics.lean`, which defines "behaviour": structured control, locals, globals, memories,
  tables, segments, calls (direct, indirect, to the host, and back). Arithmetic is a parameter (`Num`; the theorems hold for every
  deterministic choice, a few need `i32.eqz`/`i32.add`, or the integer operations the stack library uses, `StackNum`; WebAssembly's own arithmetic meets that, whatever its floating-point operators: `standardNum_stack` in `StandardArithmetic`). Loop iterations
  and call depth are bounded by arbitrary `L` and `d` (`Res.fuel` when exceeded); theorems quantify over all bounds. Memory growth is
  deterministic up to an arbitrary limit of at most 65536 pages. Not in it: threads, SIMD, exceptions, NaN nondeterminism, the stack
  overflow of an engine (call depth is unbounded), time.
* **`pest` and `from_pest`**, whose sources are not in the sandbox: `WaspText` follows their documentation (ordered choice, greedy
  repetition, implicit `WHITESPACE`/`COMMENT` between the elements of non-atomic rules, one pair per rule). Evaluated on the eleven
  `.wasp-test` files of the repository the model's parser yields exactly the recorded parse trees.
* **Rust's primitive operations and `libm`** in `Native`: after the Rust reference (overflow panics with overflow checks and wraps otherwise, shifts
  by the width or more likewise, `as` from float to integer saturates) and `libm`'s documentation (`Libm.Ok`: hypotheses of C79).
* **External programs** (`wasm-merge`, `rustc`, `asc`, the WAT compiler, the engine): parameters of the model (outcomes of stages), or the
  assumption that linking provides each import by the export of that name.

## 2. What is modelled

| Code in `/repo` | Model |
|---|---|
| `wastrumentation/src/parse_nesting/*` (nesting and lowering, typed and untyped, errors and panics) | `Syntax`, `Nesting` |
| `wastrumentation/src/analysis/mod.rs` (interface, 75 hooks, signatures) | `Interface` |
| `wastrumentation/src/instrument/{block_loop,branch_if,function_call_indirect,simple_operations,memory}.rs`, `branch_if/generate_branch_table.rs`, trap table and fold of `instrument/mod.rs` | `Passes`, `Instrument` |
| `instrument/mod.rs` 40-330 (targets, hook imports, order of stages), `inject_memory_*` | `Instrument` |
| `instrument/function_application.rs` (trampolines, copies, apply functions, `call_base`, table, element) | `Instrument` |
| `wastrumentation/src/stack_library.rs`, `wasm_constructs/mod.rs` (names, imports) | `StackHooks` |
| `supported-languages/webassembly/src/generate/instrumentation/mod.rs` (generated stack library in WAT) | `StackLib` (syntax tree of the text), executed by `Semantics` through `StackExec` |
| `supported-languages/rust/src/generate/instrumentation/mod.rs` (stack library in Rust, the one the CLI uses) | `SrcLib` (source language, its checks and execution), `RustLib`; the global allocator is a parameter with a contract (`AllocatorOk` in `FaceRust`) |
| `supported-languages/assemblyscript/src/generate/instrumentation/{mod.rs,lib_boilerplate.ts}` (stack library in AssemblyScript) | `SrcLib`, `AsLib` |
| `wastrumentation-instr-lib/tests/analyses/rust/wastrumentation-rs-stdlib` (operator codes, `advice!`, load/store, `Location`, continuation values, `WasmFunction`, `RuntimeValues`) and the `forward` analysis | `Stdlib`, `RuntimeValues` |
| `wastrumentation-instr-lib/tests/analyses/rust/pure-functions-memoization/src/lib.rs` (memoization analysis) | `Memo`; `heapless`' map is a list of entries with a capacity |
| `benchmarking-node/input-analyses/rust/{opcodes,cryptominer-detection,coverage-instruction,branches,coverage-branch,call-graph,loops,block-profiling,globals,icount}/src/lib.rs` | `Watchers` (state, update by one event, accessors; of `wastrumentation-instr-lib/tests/analyses/rust/call-stack` the call advice, its `apply` advice in `TellStack`); `std`'s maps and sets and `enum_collections`' map are lists |
| `benchmarking-node/input-analyses/rust/{memory-tracing,memstats}/src/lib.rs` | `MemWatchers`; the crate `circular_buffer` is trusted to be a queue that drops its oldest element; in `memstats` the number of counters that can be allocated is a parameter `cap` |
| `wastrumentation-instr-lib/tests/analyses/rust/safe-heap/src/lib.rs` (`benchmarking-node` has a copy) and `bounds_check`'s `base_memory_size` of the Rust library's `memory.rs` | `SafeHeap`; the panic of an `assert!` or of `strict_add` is a trap |
| `benchmarking-node/input-analyses/rust/denan/src/lib.rs`; the `apply` advice of `forward` | `Denan`; `f32::is_nan`, `f64::is_nan` on bit patterns |
| `benchmarking-node/input-analyses/rust/taint/src/lib.rs` | `Taint`; the size the mirror of the memory can have is a parameter `cap` |
| the library's `unary.rs` 83-142, `binary.rs` 85-160 outside `wasm32` (closures behind `REIFIED:`) | `Native`; `none` is a panic; overflow checks, float arithmetic and `libm` are parameters |
| `wastrumentation/src/lib.rs` (pipeline, merge plan), `wasm-merge/src/{lib,options}.rs` | `Merge` |
| `wastrumentation-static-analysis/src/lib.rs` (purity) | `Purity` |
| `wastrumentation-static-analysis/src/main.rs` (the command) | `PurityTool`; `serde_json`'s text of a list of numbers is trusted to be the compact one; iteration order of the set and bytes accepted by the output are parameters |
| `supported-languages/{rust,webassembly}/src/generate/analysis/mod.rs` (hook selection), CLI hook flags | `Hooks` |
| `cli/src/main.rs` 105-148 (the command), decoding and encoding around `instrument` | `CommandLine`; reading, writing and setting up the compilers are taken to work; decoder, encoder, compilers and merge are parameters |
| `wasp-compiler/src/{ast/wasp,ast/pest/mod,joinpoints,error}.rs` from the parse tree on; `supported-languages/assemblyscript/src/generate/analysis/*` | `Wasp`, `Alphabetic` |
| `supported-languages/assemblyscript/src/generate/analysis/{mod.rs,std_analysis_lib_*.ts}` as executed (accessors of arguments and results, conditions, exported functions around the guest code); `wastrumentation-instr-lib/tests/analyses/wasp-as/{forward,set_arg_ret_to_zero,call_stack,if-then-alter,if-then-else-alter,branch-if-alter,select-alter,br-table-alter,block,loop,call_chain_pre,call_chain_post,call_chain_pre_post,call_indirect,empty}.wasp` | `AsValues` (`block` to `call_chain_pre_post` in `WaspCount`, the last two, from their text, in `WaspFiles`); guest code is a parameter; AssemblyScript's allocation of the objects handed to the advice is left out |
| `wastrumentation-instr-lib/tests/analyses/rust/signatures-check/src/lib.rs` (state, `validate_call`, advice; the list of expectations is a parameter); `tests/analyses/wasp-as/signatures_check.wasp` | `SigCheck` |
| `wastrumentation-instr-lib/tests/analyses/rust/logging/src/lib.rs`, `Debug` derived for the library's types | `Logging`, the `apply` advice in `LoggingApply`; what Rust writes for floating point numbers is a parameter |
| advice written with `RuntimeValues` (Rust) or `WasmFunction`/`MutDynArgs`/`MutDynResults` (Wasp), as scripts of reads, writes, resumptions and state (`Script`, `Balance`); the specification of what they decide is not code of the repository | `CallScripts` |
| `wasp-compiler/wasp.pest` (grammar), `ast/pest/mod.rs` (conversion of pairs), `wasp-compiler/src/lib.rs` `compile` | `WaspText` |

Not modelled: the benchmark analyses `benchmarking-node/.../call-stack-eq-wasabi` and `call-stack-wastrumentation` (their `advice!` lacks the `Location` parameter every arm of the library's macro asks for, so they do not compile against it); decoding and encoding of binaries; the messages of Wasp's syntax errors; the text inside generated AssemblyScript advice functions (its effect is a parameter of `AsValues`); compilers (assumed to
preserve the meaning of the stack libraries' source where it has no undefined behaviour) and their caching; the implementation of `wee_alloc`; the benchmark and test suites; writing to the standard output (what has been printed is a text the logging analysis appends to); analyses
not named above.

## 3. Specifications

What the properties are stated against, independent of the model's helpers:

* `NestingSpec` (a grammar of well-bracketed bodies), `PassSpec` (one simultaneous rewrite; erasure of inserted code), `OpTypes` (types and
  mnemonics of operators), `Semantics`, `Typing` (declarative validity of modules), `Interpose` (the original program with the
  analysis interposed: `hdenL`), `Machine` (modules as machines), `TransparencyThms` (`Forwards`, `traced`), `StackNames` (`StackOp`), `Keeps`
  (what code can reach), `Resume` (`Looks`, `Resuming`), `Face` (`specRun`: what buffer operations show, with no addresses),
  `AdviceThms` (`toldCallF`: the original program with advice run at its instructions), `Watch` (`Watcher`: recording and forwarding; `Hears`:
  the events of a log as the library presents them), `WatchThms` (`Saw`), `Tell` (`toldCall`, `Story`: the same with functions entered and left;
  `CallWatcher`, `Tells`), `NumSpec` (the numerics of WebAssembly: integers as numbers and lists of bits, floats as signed multiples of the smallest
  positive number; rounded arithmetic is a parameter).
* Running beside an analysis: the world of the instrumented program is the program's world paired with the analysis' state; with the stack
  library, `World W A = W × A × Store Unit`. An analysis is an arbitrary host function; "forwarding", "looking", "editing" are predicates
  on what it does.

## 4. Properties

| Prop | File of the theorems | Statement and proof in a line |
|---|---|---|
| C01-C04 | `NestingThms` | round trips, exact acceptance and error classification, locations; induction over the nested form with a generalised machine state |
| C05-C08, C16, C18 | `PassThms` (C08 also `InstrumentThms`) | passes = one rewrite; erasure; unselected code untouched; induction over bodies and over the pass list |
| C09 | `InstrumentThms` | calls in the instrumented module = calls in the interposed machine, for all hosts and bounds |
| C10, C11, C46 | `TransparencyThms` | simulation (`Sim`, `Settle`, `StepSim`, `Forward`, `CallSim`) between program and instrumented program; a hook asked about a condition may answer any number that is as true as the one given (`SameAnswer`) |
| C12 | `BrTable` | induction over the table, executed by the semantics |
| C13, C14, C45, C47 | `HookThms` | equations for what the produced code does around each structured instruction |
| C15 | `ValidityThms` | typing of every generated function; frame lemmas |
| C17, C21, C22, C49 | `StdlibThms` | complete case analysis over operators; for codes over all 32-bit integers |
| C19, C20 | `MemoryThms` | execution of the injected exports |
| C23 | `ResumeThms` | two simulations by induction over call depth, with the allocator's position in the relation; each intercepted call is five levels deep |
| C24, C25 | `ApplyThms` | execution of trampoline, apply function and `call_base` linked with the generated library |
| C26, C28, C29 | `StackThms` | invariant of the allocator over all histories; execution of the generated WAT for every signature |
| C27 | `BalanceThms`, `WaspKeeps` (analyses in Wasp) | reachability invariant (`Keeps`): code of the program cannot touch the library's state except through the trampolines |
| C30, C31 | `StackNames` | splitting names at underscores |
| C32, C33, C43 | `InstrumentThms` | set and list reasoning over the model of `instrument` |
| C34 | `SelectionThms` | all hook sets, given by any list of their elements |
| C35, C36, C50, C51 | `WaspThms`, `WaspLibs` | acceptance, errors, interface, generated names |
| C37, C38, C44 | `MergeThms` | words of the command, stages |
| C39-C41 | `PurityThms` | soundness against the semantics, fixed point, exact characterisation by the call graph |
| C42 | `Alphabetic` | base-26 digits |
| C52 | `FaceThms` (with `FaceWat`, `FaceRust`, `FaceAs`) | each library refines the abstract buffers of `Face`; induction over histories |
| C53 | `SrcThms` | checks of every generated function; names as in C30, C31 |
| C54 | `NullThms` | corollary of C52 for two libraries; undefined behaviour exhibited for Rust |
| C55 | `MemoThms` (with `Steady`, `MemoLemmas`, `MemoSim`) | two simulations with the cache's correctness in the relation; backwards against the limit of the original over call depths; purity (C39) gives that cached results stand in any state. Partial: an overflowing cache traps (`C55_cache_overflow_traps`); without nested targets there is no exception |
| C56 | `MemoThms` | the same simulations with another invariant of the cache; a found key after each insertion |
| C57 | `AdviceThms` | C09, and decoding of every hook's arguments (`stdEntry`) at every instruction; induction over bodies and call depth |
| C48 | `ShippedForward` | the library's forwarding analysis satisfies the hypotheses of C10 |
| C58 | `WatchThms` (simulation in `Watch`) | the traced original and the program under a recording analysis are related by "the analysis' state is the fold over the log"; simulation of C11 with panics; stated for any analysis whose hooks show (`Hearing`), which analyses of the Rust library are (`C58_rust_analysis_qualifies`) |
| C64-C66 | `TraceThms` (with `Trace`) | relations on the state of the embedder preserved by every instruction of a traced run: the log grows by properly nested events (C64), by events of instructions (C65); C66 from C58, C64 and an induction over the events |
| C67 | `PanicThms` (with `Judge`, `Gate`) | a third run in between: the traced original cut off (as if out of fuel) where its events leave a given sequence; it equals the traced run when the sequence is that of the run (`gated_tracks`), and the instrumented program follows it as long as the analysis survives the sequence (`judged_agrees`) |
| C59-C63 | `WatchersThms`, `IcountThms` | C58 and an induction over the list of events per analysis; maps as lists with distinct keys |
| C68, C69 | `MemWatchThms`, `MemStatsThms` | C67, C65 and an induction over the events; for C69 that accesses performed are in bounds, from a simulation (`survived_in_bounds`) |
| C70 | `SafeHeapThms` | simulation (`Judge.lean`: the original program with a rule on each hooked access against the instrumented program); that `safe-heap` passes aligned full-width accesses from a second simulation between two rules (`judged_mono`) and `performed_in_memory` |
| C71 | `ForwardThms` (with `Resume`, `ReviseHooks`) | simulation beside the stack library with the shipped hooks, which call the program's exports (`looked_forward`, `looked_backward`); induction on the depth of calls |
| C72 | `DenanThms` (with `Revise`, `ReviseHooks`) | the specification is the original program with a revision of values at hooked instructions and intercepted calls (`revisedCall`); simulation with the instrumented program (`revised_forward`, `revised_backward`); runs without NaNs by a second simulation between a run that checks and one that revises (`guarded_agrees`) |
| C73, C74 | `WaspTextThms` (specification in `WaspSpell`) | every combinator of the grammar is characterised on token level, soundly and completely (`WaspParse`, `WaspRead`), then every rule with its conversion (`WaspGrammar`); the round trip of C74 from C73 |
| C75 | `WatValid` | typing derivations for every function of the generated text by the rules of `Typing`, by induction over the lists of types; the converse from the load function of a reference type |
| C76 | `TellThms` (vocabulary in `Tell`, simulation in `TellSim`, `TellTrack`) | the story of a run is noted by an original program run with a notebook (`toldCall`: instructions, entered and left functions); it erases to the trace and to the original, nests, and is followed by the instrumented program (`held_forward`, `held_backward`: the notebook run cut off where a given property of the story fails, which makes panics exact) by induction on the depth of calls, with the stack library's frames in the relation; stated for any analysis whose hooks show and whose advice surrounds the resumed call (`CallHearing`), which analyses of the Rust library are (`C76_rust_analysis_qualifies`); for analyses that record before they perform, traps of the program are exact as well (`C76_panics_exactly_ahead`) |
| C77 | `TellStack` | C76, C64 and inductions over the story: counters are folds; nested stories never close more than they opened |
| C78 | `TaintThms`, `TaintFlow`, `TaintMemory`, `TaintCalls` (model in `Taint`) | C76 and an invariant of the analysis' state over all events (nothing marked, vector within bounds); panics characterised event by event; marks carried through expressions by induction on the expression |
| C79 | `NativeThms` (specification in `NumSpec`, lemmas in `NativeLemmas`, `NativeFloats`) | each of the 136 closures against the specification of its instruction: integers by arithmetic on their values and bits, floats on decoded numbers; false for ten unary operators, `min`, `max` and overflow in debug builds, where the operands on which it holds are characterised exactly |
| C80 | `AsThms`, `WaspFiles`, `WaspForward` (model and lemmas in `AsValues`) | accessors from the proved behaviour of the stack library (as C24); writing by the invariant that the type buffer is behind the values and untouched; transparency by showing that the generated hooks forward (C10) and the advice surrounds the call (C23) |
| C81 | `WeaveThms` (lemmas in `Weave`) | the program with inserted instructions is an execution in which questions to the analysis are answered by running them (induction on the nesting); that execution and the interposed one stay in step by the simulation of C10 with changed answers |
| C82 | `CheckedThms` | what is expected of `wasabi_wasm`'s type checker is stated (`Checker.Right`) and shown to be attainable; nesting carries its reports to the right instructions (invariant of the nesting loop); indices of a valid body are bounded by what it can refer to (induction on typing), so no conversion fails |
| C83 | `WaspTell`, `WaspCount` | the functions exported for Wasp advice show the guest code what the event is and answer by what they were shown, so that C58 (without `apply` advice) and C76 (with it) apply; counters by induction over the log or the story |
| C84 | `SigCheck` | both analyses as analyses that are told of calls (C76, C83) and take one expectation per call; by induction over the calls told, and the advice's loops by induction over the expected values |
| C85 | `CallScriptsThms` (specification and simulation in `CallScripts`) | the meaning of an advice on plain lists (`Script.around`) is shown to be what it does with the buffers, for an interface of four buffer operations that both libraries meet; then a simulation as for C23 in which an intercepted call is related to the decision instead of the function, in both directions |
| C86 | `PurityTool` | C40/C41 for the set, induction over the list for the text; a grammar of JSON arrays of numbers as specification, shown to be unambiguous and to have no array as a proper prefix of another; C39's simulation for the listed functions |
| C87 | `CommandLine`, `CommandOffsets` | composition: C38 (pipeline), C34 (selection), C82 (valid programs are instrumented), C15 (validity), C48 and C71 (transparency); their hypotheses are discharged for every list of hooks |
| C88 | `CommandWatch`, `CommandOffsets` | composition: what the command writes (C87) with what a recording analysis hears (C58, C76), for every list of hooks; hypotheses discharged from validity |
| C89 | `WeaveThms`, `SwapThms`, `SwapAll` (lemmas in `Weave`) | C81 with instructions replaced as well: the rewritten program is an execution in which questions are answered by running the inserted instructions and each operation is the chosen one (induction on the nesting); it stays in step with the interposed execution because operations with the same types use the same hook; for the Rust library the hook decodes the operator and applies the chosen one; loads and stores are performed by calling back the function the tool generated, as in C46, so the two runs may differ by two call levels; with offsets, by a relation that claims nothing once the rewritten program has trapped |
| C90 | `ReportThms` (lemmas in `Report`) | the original program with every question and the results of every operation reported; simulation of C10 between it and the instrumented program, in which the analysis' state is what comes of telling it the reports; for the Rust library the hook performs the operation handed over and sees its results. That the reports extend the trace of C11 is a simulation between the two executions of the original |
| C91 | `LoggingThms` (lemmas in `LogText`) | C90 applied to the logging analysis; that the text can be read back: the entries begin differently, and each of their parts ends at a character that does not occur in it, so that parts can be cut off one after the other (induction on the events) |
| C92 | `Again` | the layout of the output up to the order of helpers (permutations preserve lengths); both outputs are interposed executions (C09) of the same body, related step by step with both sides asking their analysis; `C92_helper_numbers_vary` and `C92_apply_numbers_vary` are computed witnesses |
| C93 | `LoggingApply`, `LoggingWhole` | the advice as `telling` (C79), its answer computed; that entries can be read off as in C91; transparency: the hooks of any observing analysis keep the executions in step beside the stack library (`observer_hooks_beside`), and code around a call that only looks keeps them in step (`looked_forward`, `looked_backward`) |
| C94 | `CommandLog`, `CommandOffsets` | C87 (what the command writes) combined with C90, C91 and C93; the remarks an account gives rise to are unique, which makes the implications of C90 an equivalence |
| C95 | `CommandSwap`, `CommandOffsets` | C87 combined with C89; which operations are replaced is stated in terms of the hooks named on the command line (`chosen`), and proved equal to what the interface gives (`chosen_eq`) |

Provisos that a reader should know:

* `SmallModule`: fewer than 2^31 functions, parameters, instructions, ... (otherwise integer conversions panic; the boundary is modelled).
* `SmallSigs`: fewer than 8192 parameters and results per signature (engines accept 1000); beyond it offsets of the library's code wrap.
* The stack library's memory: `¬ Full` where a call must not trap. `C26_trap_causes` lists all causes of traps.
* C27: function references held by the program lead to the program's functions (also in the embedder's hands); the embedder's functions do not
  call the stack library or `call_base`; the analysis' advice keeps to its buffer (`C27_analyses_keep`, `C27_wasp_analyses_keep`: any code written with the API of either language does).
* C33, C15: the program neither imports from the analysis' namespace nor exports reserved names.

## 5. Violations found in the code

Each is proved of the model, with a witness or an exact characterisation:

1. C19: the base load/store exports add the static offset modulo 2^32: where the instruction traps they access other memory.
2. C21: the analysis library panics on static offsets of 2^31 and more.
3. C22: `Location`'s accessors are swapped (function index and instruction index).
4. C26: after one failed allocation with all 65536 pages taken, the byte count wraps to 0 and every later allocation fails.
5. C30: reference types are spelled differently by importer and generator of the library.
6. C35: accepted programs with a typed `apply` advice panic (`todo!()`) when the interface is made.
7. C36: mutability is inverted; the function's name is not checked in the typed form; a later offence may be reported first.
8. C37: the namespace declared for `call_base` is provided by no module; with an absent library no module is primary.
9. C38: success of `wasm-merge` is judged by its error output being empty, not by its exit status.
10. C42: digits come least significant first, contrary to the comment.
11. C50: repeated advice of one kind produces two exports of one name.
12. C51: names of the user are captured in the generated `apply` code; equal names are accepted.
13. C54: the Rust stack library does not check for the null pointer of a failed allocation: it writes arguments and type codes through it, or hands it out;
    for the empty signature it requests a block of size zero, which `GlobalAlloc` leaves undefined (`wee_alloc` happens to allow it).
14. C52 (examples): the AssemblyScript library never uses the pages its memory starts with; with a memory that cannot grow every allocation traps.
15. C55: the memoization analysis panics if its cache fills up while a memoised function calls other memoised functions; the program traps where the original returns.
16. C56: the memoization analysis tests for a full cache before it looks a call up, so a full cache is never consulted again.
17. C60-C62: as a consequence of 3, the accessors of `coverage-instruction`, `branches`, `coverage-branch`, `loops` and `block-profiling` take instruction and function
    index in the order opposite to their parameters' names; edges of `call-graph` start at an instruction index and `icount` counts per instruction index, both instead of a function.
18. C63: `loops`, `block-profiling`, `globals` and `icount` insert 0 for the first event of a key, so every count is one too low.
19. C63: `icount` looks counts up with `step_by(i).next()`, which yields the first count for every `i` and panics for 0; `total_counted_fs` counts instruction indices, not functions (the accessors of C22).
20. C68: `memory-tracing` reports an address whose index is 2^31 or more 2^32 too small (it sign-extends the index), and function and instruction indices swapped (3).
21. C69: `memstats` stops a program that touches a byte beyond the counters it can allocate (always fewer than 2^28, addresses go up to 2^32).
22. C70: `safe-heap` uses the size of the *value* (4 or 8 bytes) for `load8`, `store16` and so on, and looks at the index without the offset for alignment: it stops programs that read or write single bytes at odd addresses or at the end of memory (`C70_false_alarms`).
23. C70: `safe-heap` does not detect a null pointer (`C70_null_passes`), and counts indices from 2^31 on as negative, so that its bounds check says nothing about them.
24. C74: comments are recognised inside guest code: an unfinished `#|` in one advice and a `|#` in a later one turn everything between into guest code of the first (`C74_guest_code_is_not_opaque`).
25. C73: a typed `apply` advice cannot be written for functions without arguments or without results (the grammar demands at least one of each).
26. C78: `taint` has no source of taint: nothing it tracks is ever marked. It stops programs at loads and stores with an address of 2^31 or more, and for functions called indirectly or from outside its frames stay on its stack.
27. C79: outside WebAssembly `UnaryOperator::apply` and `BinaryOperator::apply` differ from the instructions: truncations saturate instead of trapping, `nearest` rounds halves away from zero, `min` and `max` ignore NaN, and in builds with overflow checks additions, subtractions, multiplications and shifts panic on overflow (`i32::MAX + 1`, `1 << 33`).
28. C81: `br-table-alter` sends index 2^32 − 1, which selects the default label, to the first label (`C81_shifted_table`); every other index selects the next label.
29. C84: the Rust `signatures-check` never compares the number of arguments or results with the number expected: an expectation without arguments and results is met by any call. The Wasp analysis sets `all_expectations_met` before it checks the last call (`C84_wasp_flag_before_check`), so that after a trap in that check the flag says 1. In both, an empty list of expectations is never reported as met.
30. C86: the purity command writes its result with `write` and ignores how many bytes were accepted; a short write leaves a text that is no JSON array.
31. C92: with advice on function application the number that names a function to the analysis depends on the iteration order of a `HashSet`, so it can differ from run to run of the tool (`C92_apply_numbers_vary`).
32. C93: the logging analysis' entries about calls print the address of the frame and the types, not the values of arguments and results (`C93_values_not_shown`); the derived `Debug` of `RuntimeValues` does not read the frame.
33. C78: `taint` handles `local.tee` like `local.set`: it takes the operand off its stack of values and does not put it back, so the stack is one value short from there on (`C78_assignments_carry_marks`).
34. C78: would there be a mark, `taint` would lose it at a call: arguments are entered as unmarked (`C78_arguments_lose_marks`), and `call post` removes the block of the caller, with the values in it, and adds none for the result (`C78_calls_lose_marks`). The value of a block is not kept when it ends (`C78_blocks_lose_marks`), and a conditional ends a block it has not begun (`C78_conditionals_lose_marks`). A store marks one address, not all the bytes stored (`C78_stores_carry_marks`).

## 6. Wrong-program experiments

The model is edited in a copy outside `/verif`, rebuilt, and the theorems that fail are recorded in `seeded/LOG.jsonl` together with the claim the
edit breaks. A theorem counts as failed if its proof, or the proof of a lemma it depends on, no longer checks. Where a claim's theorem survived an
edit that makes the claim false, the theorem was tightened (noted in the log).
