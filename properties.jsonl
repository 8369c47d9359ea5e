{"id": "C01", "title": "Lowering then re-nesting a body is lossless", "statement": "Writing a nested function body out as flat Wasm and nesting it again yields exactly the same body, block for block and branch for branch.", "quantifier": "every nested body of any size and depth", "why_tests_cant": "Bodies are unboundedly nested trees; tests convert a handful of fixed programs.", "anchors": ["wastrumentation/src/parse_nesting/high_level_body.rs::TryFrom<LowLevelBody>", "wastrumentation/src/parse_nesting/high_level_body.rs::from_recurse"]}
{"id": "C02", "title": "Nesting then lowering a flat body is lossless", "statement": "Whenever a flat instruction sequence is accepted, writing the resulting nested body back gives the identical instruction sequence, so an uninstrumented body survives the tool bit for bit.", "quantifier": "every flat instruction sequence", "why_tests_cant": "There are infinitely many accepted sequences, including oddly nested else/end combinations.", "anchors": ["wastrumentation/src/parse_nesting/typed_high_level_body.rs::TryFrom<(&Module,&Function,&Code,&Idx<Function>)>", "wastrumentation/src/parse_nesting/typed_high_level_body.rs::from_recurse"]}
{"id": "C03", "title": "Exactly the well-bracketed bodies are accepted", "statement": "A flat sequence is accepted if and only if it is well bracketed and ends in `end`; every other sequence yields the matching error (missing final end, stray else, excess end) or, only when a block is left open, the assertion failure. Nothing is silently dropped or repaired.", "quantifier": "every flat instruction sequence", "why_tests_cant": "Malformed inputs form an infinite space; the tests contain five of them.", "anchors": ["wastrumentation/src/parse_nesting/high_level_body.rs::TryFrom<LowLevelBody>", "wastrumentation/src/parse_nesting/typed_high_level_body_error.rs"]}
{"id": "C04", "title": "Every instruction carries its own location", "statement": "After nesting, every instruction is labelled with the index of its function and with its position in the original flat body (for block/loop/if: the position of the opening instruction), and no two instructions of a function share a position.", "quantifier": "every accepted flat body", "why_tests_cant": "A location mix-up may only show for a particular nesting shape; all shapes must be covered.", "anchors": ["wastrumentation/src/parse_nesting/typed_high_level_body.rs", "wastrumentation/src/parse_nesting/typed_indexed_instr.rs::type_inference_index_function"]}
{"id": "C05", "title": "Inserted code is never itself instrumented and never aborts the run", "statement": "For every body and every selection of hooks, running all selected instrumentation passes in sequence never trips the internal 'should not instrument generated code' assertions, and no code inserted by one hook is hooked by another.", "quantifier": "every body, every subset of the 75 hooks", "why_tests_cant": "There are 2^75 hook selections and unboundedly many bodies.", "anchors": ["wastrumentation/src/parse_nesting/typed_high_level_body.rs::instrument_with", "wastrumentation/src/parse_nesting/typed_high_level_body.rs::place_original", "wastrumentation/src/instrument/mod.rs::instrument"]}
{"id": "C06", "title": "Every hook call reports the location of the instruction that triggered it", "statement": "In the instrumented body, every call to an analysis hook is immediately preceded by the constants (function index, instruction index) of the original instruction that caused it.", "quantifier": "every body, every hook selection, every inserted hook call", "why_tests_cant": "A swapped or stale location would only show for particular instructions in particular functions.", "anchors": ["wastrumentation/src/parse_nesting/typed_high_level_body.rs::to_trap_call"]}
{"id": "C07", "title": "Erasing the inserted code gives back the program", "statement": "Deleting everything the tool inserted from an instrumented body leaves the original instructions, in order and at the same nesting, except for exactly the operators that are documented as delegated to the analysis (unary, binary, load, store, memory.grow), and if-without-else instructions that got an else branch.", "quantifier": "every body, every hook selection", "why_tests_cant": "Loss or reordering of an instruction can depend on any combination of hooks and nesting.", "anchors": ["wastrumentation/src/instrument/block_loop.rs::transform", "wastrumentation/src/instrument/branch_if.rs::transform", "wastrumentation/src/instrument/function_call_indirect.rs::transform", "wastrumentation/src/instrument/memory.rs::transform", "wastrumentation/src/instrument/simple_operations.rs::transform"]}
{"id": "C08", "title": "What is not selected is not touched", "statement": "A function that is not a target, and every function when no hook is selected, keeps exactly its original code; only the selected functions' bodies change.", "quantifier": "every module, every target selection, every hook selection", "why_tests_cant": "Requires all modules and selections; tests look at a few outputs.", "anchors": ["wastrumentation/src/instrument/mod.rs::instrument"]}
{"id": "C09", "title": "Instrumented execution is the original execution with the analysis interposed", "statement": "For every analysis (an arbitrary, stateful, possibly trapping and re-entrant implementation of the hooks), executing an instrumented body equals executing the original body where, at every hooked instruction, the analysis is called with the documented operands and location and its answer is used in the documented place (new condition, new label index, replaced value, replaced operation). Values, locals, globals, memory, traps, branches and returns all agree.", "quantifier": "every body, every hook selection, every analysis behaviour, every machine state, every number of loop iterations and calls", "why_tests_cant": "It is a statement over all programs, all analyses and all executions.", "anchors": ["wastrumentation/src/instrument/mod.rs::instrument", "wastrumentation/src/instrument/block_loop.rs", "wastrumentation/src/instrument/branch_if.rs", "wastrumentation/src/instrument/function_call_indirect.rs", "wastrumentation/src/instrument/memory.rs", "wastrumentation/src/instrument/simple_operations.rs"]}
{"id": "C10", "title": "A forwarding analysis is transparent", "statement": "If every hook of the analysis just forwards (returns the condition/value it was given, performs the operator it was handed), the instrumented program behaves exactly like the original one: same results, same traps, same final memory and globals, same (non-)termination.", "quantifier": "every program, every hook selection, every execution", "why_tests_cant": "The integration tests run the forward analysis on sample programs only.", "anchors": ["wastrumentation/src/instrument/mod.rs::instrument", "wastrumentation-instr-lib/tests/analyses/rust/forward/src/lib.rs"]}
{"id": "C11", "title": "The analysis sees exactly the executed hooked instructions, in order", "statement": "An analysis that only records its calls ends up with a log that contains one entry for every execution of a hooked instruction, in execution order, with that instruction's location, and nothing else.", "quantifier": "every program and every execution", "why_tests_cant": "Event order over all control-flow paths is unbounded.", "anchors": ["wastrumentation/src/instrument/block_loop.rs", "wastrumentation/src/instrument/branch_if.rs", "wastrumentation/src/instrument/simple_operations.rs", "wastrumentation/src/instrument/memory.rs"]}
{"id": "C12", "title": "The branch-table helper computes the taken label", "statement": "The helper function generated for a br_table with labels l0..ln-1 and default d returns, for every 32-bit index i, the pair (i, li) when i<n as an unsigned number and (i, d) otherwise, without touching memory or globals and without trapping.", "quantifier": "every label table of any length, every default, every 32-bit index", "why_tests_cant": "Table lengths and 2^32 indices per table cannot be enumerated; three code shapes (0, 1, many) must agree.", "anchors": ["wastrumentation/src/instrument/branch_if/generate_branch_table.rs::generate_body"]}
{"id": "C13", "title": "Block/loop/if 'post' hooks fire exactly on normal completion", "statement": "The post hook of a block, loop or if is called exactly once when its body runs to its end, and not at all when control leaves by branch, return or trap. (So a user may not rely on pre/post hooks being balanced.)", "quantifier": "every body, every state", "why_tests_cant": "Depends on every way control may leave a construct.", "anchors": ["wastrumentation/src/instrument/block_loop.rs::Target::BlockPost", "wastrumentation/src/instrument/branch_if.rs::Target::IfThenPost"]}
{"id": "C14", "title": "The loop 'pre' hook fires once per iteration, the block 'pre' hook once per entry", "statement": "Each time control reaches the head of a loop (first entry or back-branch) the pre hook is called before the body; for a block exactly once per entry; both receive the number of parameters and results of the construct.", "quantifier": "every loop body, every iteration count", "why_tests_cant": "Iteration counts are unbounded.", "anchors": ["wastrumentation/src/instrument/block_loop.rs::Target::LoopPre", "wastrumentation/src/instrument/block_loop.rs::Target::BlockPre"]}
{"id": "C15", "title": "Instrumentation preserves validity", "statement": "If a function body type-checks in its module and the typing information used by the tool is right, the instrumented body type-checks at the same type in the module extended with the hook imports at their declared signatures; inserted code always finds its operands on the stack with the right types.", "quantifier": "every well-typed body, every hook selection", "why_tests_cant": "Validity must hold for all stack shapes, including unreachable code.", "anchors": ["wastrumentation/src/instrument/mod.rs::instrument", "wastrumentation/src/analysis/mod.rs::simple_interfaces"]}
{"id": "C16", "title": "The sequence of passes equals one simultaneous rewrite", "statement": "Applying the passes one after another in the tool's fixed order gives the same code as rewriting every original instruction once by the combined effect of all selected hooks; in particular no pass undoes, duplicates or hides another (the documented if_then / if_then_post order dependency included).", "quantifier": "every body, every subset of hooks", "why_tests_cant": "Interactions between 75 passes over arbitrary bodies.", "anchors": ["wastrumentation/src/instrument/mod.rs::instrument", "wastrumentation/src/instrument/branch_if.rs::transform"]}
{"id": "C17", "title": "Operator codes round-trip between tool and analysis library", "statement": "The code the tool passes for a unary/binary/load/store operator decodes, in the analysis standard library, to that very operator; distinct operators have distinct codes and unknown codes are rejected.", "quantifier": "all 60+76+14+9 operators and every 32-bit code", "why_tests_cant": "Two hand-written tables in different crates; no test compares them entry by entry for every code.", "anchors": ["wastrumentation/src/instrument/simple_operations.rs::serialize", "wastrumentation/src/instrument/memory.rs::serialize", "wastrumentation-instr-lib/tests/analyses/rust/wastrumentation-rs-stdlib/src/unary.rs", "wastrumentation-instr-lib/tests/analyses/rust/wastrumentation-rs-stdlib/src/binary.rs", "wastrumentation-instr-lib/tests/analyses/rust/wastrumentation-rs-stdlib/src/memory.rs"]}
{"id": "C18", "title": "Each operator is caught by exactly one hook, of the right type", "statement": "Every unary, binary, load, store, const operator is handled by exactly one of the type-specialised hooks, and that hook's declared parameter and result types equal the operator's operand and result types.", "quantifier": "all operators × all specialised hooks", "why_tests_cant": "A wrong class entry type-checks in Rust and only breaks modules using that operator.", "anchors": ["wastrumentation/src/instrument/simple_operations.rs::transform", "wastrumentation/src/instrument/memory.rs::transform", "wastrumentation/src/analysis/mod.rs"]}
{"id": "C19", "title": "Base load/store exports perform the program's own memory access", "statement": "The exported base load/store functions, given the address operand and static offset of an instruction, have exactly the effect of that instruction (same value, same memory update, same trap).", "quantifier": "every operator, address, offset and memory", "why_tests_cant": "2^64 address/offset pairs; the interesting ones are at the 2^32 boundary.", "anchors": ["wastrumentation/src/instrument/memory.rs::inject_memory_loads", "wastrumentation/src/instrument/memory.rs::inject_memory_stores"]}
{"id": "C20", "title": "Base memory exports without a memory, and grow/size forwarding", "statement": "With a memory, the grow/size exports behave like memory.grow/memory.size of memory 0; without one loads give zero, stores do nothing, grow gives -1, size gives 0; and with two or more memories the tool refuses.", "quantifier": "every module memory configuration, every argument", "why_tests_cant": "Must hold for every argument and state.", "anchors": ["wastrumentation/src/instrument/memory.rs::inject_memory_grow", "wastrumentation/src/instrument/memory.rs::inject_memory_size"]}
{"id": "C21", "title": "The analysis library performs the operation the program asked for", "statement": "Performing a load/store operation handed to an analysis with the address and offset it was handed calls the base export for that operator with the same address and offset.", "quantifier": "every operator, address and offset up to 2^32-1", "why_tests_cant": "Offsets at or above 2^31 are never exercised.", "anchors": ["wastrumentation-instr-lib/tests/analyses/rust/wastrumentation-rs-stdlib/src/memory.rs::perform"]}
{"id": "C22", "title": "An analysis is told the location under the right names", "statement": "For a hook fired by instruction i of function f, location.instruction_index() is i and location.function_index() is f.", "quantifier": "every f, i and every hook", "why_tests_cant": "A test with f = i (for example both 0) passes by accident.", "anchors": ["wastrumentation-instr-lib/tests/analyses/rust/wastrumentation-rs-stdlib/src/lib.rs::Location::new", "wastrumentation-instr-lib/tests/analyses/rust/wastrumentation-rs-stdlib/src/lib.rs::advice!"]}
{"id": "C23", "title": "A forwarded apply behaves like the direct call", "statement": "When function application is instrumented and the analysis merely resumes the base computation, calling the instrumented function gives the results, traps and side effects of the original function for the same arguments.", "quantifier": "every signature, every argument list, every function behaviour, any nesting of calls", "why_tests_cant": "Ranges over all signatures, arguments and recursive call patterns.", "anchors": ["wastrumentation/src/instrument/function_application.rs::instrument", "wastrumentation/src/stack_library.rs", "supported-languages/webassembly/src/generate/instrumentation/mod.rs"]}
{"id": "C24", "title": "Argument and result interception works slot for slot", "statement": "Inside apply, argument i read/written by the analysis is argument i of the call and result j is result j: writing argument i before resuming makes the original function receive that value at position i (others unchanged), writing result j afterwards makes the caller receive it at position j.", "quantifier": "every signature, every index, every value", "why_tests_cant": "Signatures are unbounded; an off-by-one between argument and result slots shows only for some arities.", "anchors": ["wastrumentation-instr-lib/tests/analyses/rust/wastrumentation-rs-stdlib/src/lib.rs::RuntimeValues", "supported-languages/webassembly/src/generate/instrumentation/mod.rs", "supported-languages/rust/src/generate/instrumentation/mod.rs"]}
{"id": "C25", "title": "Resuming the base computation reaches the right function", "statement": "The apply-table index handed to the analysis with a call of function f, when passed back to call_base, runs the uninstrumented copy of f and nothing else, for every set of instrumented functions and whatever the order in which they are processed.", "quantifier": "every set of target functions, every processing order", "why_tests_cant": "The processing order is a hash-set order and differs between runs.", "anchors": ["wastrumentation/src/instrument/function_application.rs::instrument"]}
{"id": "C26", "title": "Call buffers never overlap and stay inside the memory", "statement": "In the generated stack library, at any moment all live buffers are pairwise disjoint and inside the memory, for every properly nested history of allocations and frees; an allocation either succeeds so or traps.", "quantifier": "every nested history of allocations, frees and stores of any signatures with fewer than 8192 parameters and results (engines accept at most 1000 of each), for every memory limit", "why_tests_cant": "Unbounded histories and the 4 GiB boundary.", "anchors": ["supported-languages/webassembly/src/generate/instrumentation/mod.rs::$stack_allocate", "supported-languages/assemblyscript/src/generate/instrumentation/lib_boilerplate.ts"]}
{"id": "C27", "title": "Every instrumented call gives back the buffers it took", "statement": "After an instrumented call returns, the stack allocator is where it was before the call, however deeply calls are nested inside the analysis or the base computation.", "quantifier": "every signature, every nesting of calls", "why_tests_cant": "A leak of some bytes per call shows only in long runs.", "anchors": ["wastrumentation/src/instrument/function_application.rs::instrument", "supported-languages/webassembly/src/generate/instrumentation/mod.rs"]}
{"id": "C28", "title": "The type buffer describes the signature", "statement": "The types an analysis reads for argument i and result j of a call are the declared types of the called function's parameter i and result j.", "quantifier": "every signature, every index", "why_tests_cant": "All signatures and arities.", "anchors": ["supported-languages/webassembly/src/generate/instrumentation/mod.rs", "wastrumentation-instr-lib/tests/analyses/rust/wastrumentation-rs-stdlib/src/lib.rs::RuntimeValues::new", "wastrumentation/src/wasm_constructs/mod.rs::runtime_enum_value"]}
{"id": "C29", "title": "Values survive the trip through the call buffer bit for bit", "statement": "Every i32, i64, f32 and f64 value (including NaN payloads) stored into a buffer slot and loaded back at the same type is unchanged, and writing one slot changes no other slot.", "quantifier": "every value, every slot", "why_tests_cant": "2^64 values; NaN bit patterns.", "anchors": ["supported-languages/webassembly/src/generate/instrumentation/mod.rs"]}
{"id": "C30", "title": "The generated stack library provides every function the program imports", "statement": "For every set of instrumented signatures, each function that the instrumented module imports from the stack library is exported by the generated library under the same name and type, once.", "quantifier": "every set of signatures without reference types (reference types are never targets)", "why_tests_cant": "All signatures; three generators and one importer build names independently.", "anchors": ["wastrumentation/src/stack_library.rs", "wastrumentation/src/wasm_constructs/mod.rs::generate_name", "supported-languages/webassembly/src/generate/instrumentation/mod.rs::mangled_wat_name", "supported-languages/rust/src/generate/instrumentation/mod.rs"]}
{"id": "C31", "title": "Generated names never clash", "statement": "Different signatures or different operations (allocate, free, load argument i, ...) never get the same generated name, so no import is bound to the wrong function.", "quantifier": "all pairs of signatures and operations", "why_tests_cant": "String encodings over unbounded lists.", "anchors": ["wastrumentation/src/wasm_constructs/mod.rs::generate_name", "wastrumentation/src/wasm_constructs/mod.rs::generate_indexed_name"]}
{"id": "C32", "title": "Target selection is exact", "statement": "With a target list, exactly the listed functions whose type mentions no reference type are instrumented; without a list, all such functions; imported functions only by apply; order and repetition in the list do not matter.", "quantifier": "every module, every target list", "why_tests_cant": "All subsets of functions.", "anchors": ["wastrumentation/src/instrument/mod.rs::instrument", "wastrumentation/src/instrument/mod.rs::uses_reference_types"]}
{"id": "C33", "title": "Exactly the selected hooks are imported", "statement": "The instrumented module imports from the analysis namespace precisely the hooks the analysis provides, each once, under the declared name and type, and different hooks have different names.", "quantifier": "every hook selection", "why_tests_cant": "2^75 selections.", "anchors": ["wastrumentation/src/instrument/mod.rs::instrument", "wastrumentation/src/analysis/mod.rs"]}
{"id": "C34", "title": "Hook selection maps exactly to interface entries", "statement": "Selecting hooks for a Rust or Wasm analysis makes present exactly the interface entries belonging to the selected hooks, independent of order and repetition; the command line flags map one to one to hooks, and giving none selects all.", "quantifier": "every set of hooks", "why_tests_cant": "2^28 selections; a wrong arm affects only one.", "anchors": ["supported-languages/rust/src/generate/analysis/mod.rs::interface_from", "supported-languages/webassembly/src/generate/analysis/mod.rs::interface_from", "cli/src/main.rs"]}
{"id": "C35", "title": "Wasp: interface, join points and advice agree", "statement": "For a Wasp analysis, an interface entry is present if and only if the program contains advice of that kind, the join points name the same hooks, and neither depends on order or repetition of advice.", "quantifier": "every Wasp program", "why_tests_cant": "Unbounded advice lists.", "anchors": ["supported-languages/assemblyscript/src/generate/analysis/wasp.rs", "wasp-compiler/src/joinpoints.rs"]}
{"id": "C36", "title": "Wasp: parameter checking is exact", "statement": "An apply advice is accepted iff its argument/result kinds match, its typed parameters use supported types and the parameter names are pairwise distinct; otherwise the error names the first offending parameter; accepted advice keeps parameter order, names and types, and the 'Mut' form is the mutable one.", "quantifier": "every apply advice signature", "why_tests_cant": "All parameter lists.", "anchors": ["wasp-compiler/src/ast/wasp.rs::ApplyGen", "wasp-compiler/src/ast/wasp.rs::ApplySpe", "wasp-compiler/src/ast/wasp.rs::WasmParameterVec"]}
{"id": "C37", "title": "Merge plan: every module once, under its namespace", "statement": "Whatever primary module is selected, the merge command receives the instrumented program, the analysis and (if present) the stack library exactly once each under the namespace by which the others import it, the primary first.", "quantifier": "every primary selection, with or without stack library", "why_tests_cant": "All combinations including selecting an absent library.", "anchors": ["wastrumentation/src/lib.rs::merge", "wasm-merge/src/lib.rs"]}
{"id": "C38", "title": "Pipeline errors are reported at the first failing stage", "statement": "The pipeline succeeds iff all stages succeed, and otherwise returns the error of the first failing stage (analysis compilation, instrumentation, library compilation, merge), with later stages not run.", "quantifier": "every combination of stage outcomes", "why_tests_cant": "All failure combinations of external compilers.", "anchors": ["wastrumentation/src/lib.rs::wastrument"]}
{"id": "C39", "title": "Purity analysis is sound", "statement": "Every function reported by the static analysis is semantically pure: in every execution it leaves globals, memory and tables unchanged, calls no import, and its result depends only on its arguments.", "quantifier": "every module, every reported function, all arguments, states and executions", "why_tests_cant": "Semantic statement over all executions; the crate has no tests.", "anchors": ["wastrumentation-static-analysis/src/lib.rs::immutable_functions", "wastrumentation-static-analysis/src/lib.rs::is_pure"]}
{"id": "C40", "title": "Purity analysis terminates with a stable answer", "statement": "The iteration always stops after at most (number of functions + 1) rounds, its answer is a fixed point, and verdicts once given are never revised.", "quantifier": "every module, including recursive and mutually recursive ones", "why_tests_cant": "Termination for all call graphs.", "anchors": ["wastrumentation-static-analysis/src/lib.rs::immutable_functions"]}
{"id": "C41", "title": "Purity analysis finds everything it promises", "statement": "A function is reported iff it and everything it transitively calls (ignoring direct self-calls) contain only pure instructions and its call graph below it has no other cycle; mutually recursive functions are never reported.", "quantifier": "every module", "why_tests_cant": "All call graphs.", "anchors": ["wastrumentation-static-analysis/src/lib.rs::is_pure"]}
{"id": "C42", "title": "Alphabetic identifiers are unique", "statement": "The numbering scheme that turns indices into identifiers never gives two indices the same identifier and only uses lower-case letters.", "quantifier": "every natural number", "why_tests_cant": "Tested up to 100000 only.", "anchors": ["supported-languages/assemblyscript/src/generate/analysis/util.rs::to_alphabetic"]}
{"id": "C43", "title": "Existing indices stay valid", "statement": "Instrumentation only appends functions, tables and elements: every function, table, global, memory or export index used in the program refers after instrumentation to the (instrumented) same entity.", "quantifier": "every module, every hook selection, every target list", "why_tests_cant": "All modules.", "anchors": ["wastrumentation/src/instrument/mod.rs::instrument", "wastrumentation/src/instrument/function_application.rs::instrument"]}
{"id": "C44", "title": "Merge options are passed faithfully", "statement": "Each merge option contributes its flag exactly when it is enabled and nothing otherwise, and the tool's own merge always disables validation and enables export renaming, multi-memory and bulk memory.", "quantifier": "every combination of the 23 options", "why_tests_cant": "2^23 combinations.", "anchors": ["wasm-merge/src/options.rs", "wasm-merge/src/lib.rs"]}
{"id": "C45", "title": "Continuation values steer control as documented", "statement": "For the condition hooks (if, br_if, select), continue_then makes the program take the branch and continue_else/continue_skip makes it not, is_then/is_else tell which way the program was about to go, and forwarding any condition value keeps the program's own choice.", "quantifier": "every 32-bit condition", "why_tests_cant": "2^32 conditions; non-0/1 truthy values.", "anchors": ["wastrumentation-instr-lib/tests/analyses/rust/wastrumentation-rs-stdlib/src/lib.rs::SerializedContinuation", "supported-languages/assemblyscript/src/generate/analysis/std_analysis_lib_if.ts"]}
{"id": "C46", "title": "Non-termination and fuel: instrumentation does not change how often loops run", "statement": "Under an analysis that forwards, loops iterate and functions are called exactly as often as in the original program; an execution bounded by n iterations/calls stays so after instrumentation.", "quantifier": "every program, every bound", "why_tests_cant": "Unbounded execution lengths.", "anchors": ["wastrumentation/src/instrument/mod.rs::instrument"]}
{"id": "C47", "title": "Two interception effects compose", "statement": "Several hooks on the same instruction (pre and post of a call, if_then and if_then_post, block pre and post) all fire, in pre-before-post order, and see each other's effects as if nested.", "quantifier": "every combination of hooks on one instruction", "why_tests_cant": "Pairs and triples of passes across all instructions.", "anchors": ["wastrumentation/src/instrument/mod.rs::instrument"]}
{"id": "C48", "title": "The shipped forwarding analysis is transparent", "statement": "Instrument a valid module with any selection of hooks (other than generic apply), link it with the analysis written against the shipped analysis library in which every hook body just forwards (returns its value, performs the operation it was handed, goes on), and run any exported function: the results, the traps, the final state of memory, tables and globals and the embedder's effects are those of the original program. The proviso the code forces: loads and stores handed to the analysis have static offset 0; with offsets below 2^31 the results are preserved whenever the original does not trap.", "quantifier": "every valid module, every selection of hooks, every start state, every function and arguments, every pair of bounds on depth and iterations", "why_tests_cant": "A test compares one program on one input; the claim combines the generated imports, the argument order, the library's decoding of operators, locations and continuations, and the base_ exports, for every program.", "anchors": ["wastrumentation-instr-lib/tests/analyses/rust/wastrumentation-rs-stdlib/src/lib.rs:376-1160", "wastrumentation/src/instrument/mod.rs:40-300", "wastrumentation-instr-lib/tests/analyses/rust/forward/src/lib.rs"]}
{"id": "C49", "title": "The analysis library exports exactly what the tool imports", "statement": "For every hook, the shipped analysis library exports a function under the very name, with the very parameter types and result types, that the instrumented module imports for that hook.", "quantifier": "every hook in the tool's interface", "why_tests_cant": "A mismatch in one parameter's type or in one name only shows when an analysis uses that hook and the two modules are linked.", "anchors": ["wastrumentation-instr-lib/tests/analyses/rust/wastrumentation-rs-stdlib/src/lib.rs:376-1160", "wastrumentation/src/analysis/mod.rs:1-330"]}
{"id": "C50", "title": "Generated AssemblyScript analyses implement the hooks of their interface", "statement": "For a Wasp analysis, the generated AssemblyScript program exports, for every entry of the interface, a function with the entry's name, parameter types and result types, exports nothing else, exports no name twice, and declares every helper class its functions use exactly once. It includes a helper library exactly if it has advice that needs it.", "quantifier": "every accepted Wasp program, any number and order of advice", "why_tests_cant": "The interface and the generated program come from separate code paths over all combinations of advice; tests print a few programs.", "anchors": ["supported-languages/assemblyscript/src/generate/analysis/wasp.rs:13-100", "supported-languages/assemblyscript/src/generate/analysis/mod.rs"]}
{"id": "C51", "title": "User-chosen parameter names never clash with generated names", "statement": "The names an advice gives its parameters never coincide with each other or with a name the generator itself declares in the generated function, so advice code always refers to the values it names.", "quantifier": "every advice and every identifier the grammar admits", "why_tests_cant": "Identifiers range over an infinite set; a clash only shows for the few unlucky names.", "anchors": ["supported-languages/assemblyscript/src/generate/analysis/mod.rs", "wasp-compiler/wasp.pest"]}
{"id": "C52", "title": "The three stack libraries are interchangeable", "statement": "The stack library is generated in one of three languages (WebAssembly text, Rust, AssemblyScript). Whatever sequence of buffer operations instrumented calls and analyses perform (allocate a call's values and types, read and write arguments, results and type codes by name or through the analysis accessors, release in the order calls do), all three libraries show the same values, namely those last written, as long as memory lasts; and how much memory is enough is known.", "quantifier": "all sets of signatures with fewer than 8192 slots, all allowed histories of buffer operations of any length and nesting, every allocator that keeps the contract of GlobalAlloc (Rust)", "why_tests_cant": "The libraries are generated code, parameterised by signatures; agreement of three generators over all histories is a statement about infinitely many programs and runs.", "anchors": ["supported-languages/rust/src/generate/instrumentation/mod.rs", "supported-languages/assemblyscript/src/generate/instrumentation/mod.rs", "supported-languages/assemblyscript/src/generate/instrumentation/lib_boilerplate.ts", "supported-languages/webassembly/src/generate/instrumentation/mod.rs"]}
{"id": "C53", "title": "Generated Rust and AssemblyScript libraries compile and provide every import", "statement": "For the signatures that instrumentation reports, the generated Rust and AssemblyScript source has no name twice, calls only functions that exist with arguments of the right number and types, and exports, for every function the instrumented program imports from the stack library, exactly one function of that name with that type.", "quantifier": "all modules, target sets and interfaces; all sets of signatures (exactly those without reference types compile)", "why_tests_cant": "Importer and generators are separate string-producing code; tests compile a few signatures.", "anchors": ["supported-languages/rust/src/generate/instrumentation/mod.rs:671-722", "supported-languages/assemblyscript/src/generate/instrumentation/mod.rs:491-536", "wastrumentation/src/stack_library.rs:113-219", "wastrumentation/src/wasm_constructs/mod.rs:73-134"]}
{"id": "C54", "title": "The stack libraries fail safely", "statement": "When a stack library has no memory for a call's buffers, the call traps; it never hands out or writes through an invalid pointer.", "quantifier": "all signatures, all states of the allocator, all histories", "why_tests_cant": "Exhaustion of memory is never reached by tests.", "anchors": ["supported-languages/rust/src/generate/instrumentation/mod.rs:560-613", "supported-languages/assemblyscript/src/generate/instrumentation/lib_boilerplate.ts:7-32"]}
{"id": "C55", "title": "Memoising pure functions is transparent", "statement": "If the functions that the purity analysis reports are made targets of the shipped memoization analysis, the instrumented program and the original have the same behaviour: whatever one returns (or traps with), the other does, with the same effects on memory, globals, tables and the embedder; the cache only ever holds results the original computes.", "quantifier": "all valid modules, all sets of pure targets, all entry functions, arguments and states, all call depths; any correct cache", "why_tests_cant": "Tests memoise a few programs with a few inputs and never fill the 1024-entry cache.", "anchors": ["wastrumentation-instr-lib/tests/analyses/rust/pure-functions-memoization/src/lib.rs:11-97", "wastrumentation-instr-lib/tests/memoization_analysis.rs", "wastrumentation-instr-lib/tests/analyses/rust/wastrumentation-rs-stdlib/src/lib.rs:400-520"]}
{"id": "C56", "title": "When the memoization cache is used", "statement": "After a memoised call has returned, and while the cache is not full, the same call again is answered from the cache without running the function: one more hit, same results, no other effect. Once the cache is full it is never consulted or changed again, and every call is computed anew as in the original. Calls of functions with more than ten parameters or results are never answered from the cache nor stored in it.", "quantifier": "all valid modules, pure targets with at most ten parameters and results, all arguments, states and correct caches; for the full cache, all targets, pure or not", "why_tests_cant": "Tests count hits for a handful of calls; the capacity of 1024 is never reached.", "anchors": ["wastrumentation-instr-lib/tests/analyses/rust/pure-functions-memoization/src/lib.rs:72-97"]}
{"id": "C57", "title": "Advice is told the instruction", "statement": "An analysis written with the Rust library, linked with the program it instruments, behaves as if its advice ran at the instructions of the original program: before, after or instead of each instruction of a target the advice of that kind (and no other) runs, is handed the instruction's operands, immediates and place, and the value it returns takes the operands' place. This holds for any advice, forwarding or not, and for any state and callbacks it uses; functions that are no targets run unchanged.", "quantifier": "all programs, interfaces of documented hooks without apply, checkers, target sets, advice bodies, states, call depths, entry functions and arguments", "why_tests_cant": "Tests observe a few hooks of a few programs through printed logs; a wrong immediate, operand order or operation kind in one of the 70 hooks only shows in analyses that use it.", "anchors": ["wastrumentation-instr-lib/tests/analyses/rust/wastrumentation-rs-stdlib/src/lib.rs:616-1392", "wastrumentation/src/instrument/simple_operations.rs", "wastrumentation/src/instrument/memory.rs", "wastrumentation/src/instrument/branch_if.rs", "wastrumentation/src/instrument/function_call_indirect.rs", "wastrumentation/src/instrument/block_loop.rs"]}
{"id": "C58", "title": "A watching analysis knows the run", "statement": "Any analysis written with the Rust library whose advice records something and forwards leaves the program's results, traps and effects as they are, and at the end its state is what results from telling it, one by one and in order, exactly the events the original program went through (as far as it has hooks for them), also if the program traps. If it may panic or record after performing, the same holds of runs that end normally.", "quantifier": "all programs, interfaces of documented hooks without apply, target sets, recording functions and states, entry functions, arguments, program states and depths; static offsets of hooked loads and stores 0 (or below 2^31 for the second part)", "why_tests_cant": "What is recorded depends on the whole execution; tests compare a handful of counters after a handful of runs.", "anchors": ["wastrumentation-instr-lib/tests/analyses/rust/wastrumentation-rs-stdlib/src/lib.rs:616-1392", "wastrumentation/src/instrument/mod.rs"]}
{"id": "C59", "title": "Opcode counts and mining signatures are right", "statement": "After any run of a program instrumented with `opcodes`, `get_count_instr(k)` returns the number (modulo 2^32) of events of the k-th kind in the original's run, and panics if there is no k-th kind. With `cryptominer-detection`, `get_signature(k)` returns the number of additions, conjunctions, left shifts, unsigned right shifts and exclusive disjunctions it performed (k = 0..4).", "quantifier": "all programs, inputs and executions under the conditions of C58", "why_tests_cant": "27 counters over unbounded executions; a swapped counter shows only in programs using that instruction.", "anchors": ["benchmarking-node/input-analyses/rust/opcodes/src/lib.rs:1-81", "benchmarking-node/input-analyses/rust/cryptominer-detection/src/lib.rs:1-32"]}
{"id": "C60", "title": "What instruction coverage reports", "statement": "After any run, `get_coverage(x, y)` of `coverage-instruction` returns 1 if the original's run had an event at instruction x of function y, and 0 otherwise. (The parameters are named the other way round.)", "quantifier": "all programs, inputs, executions and queries under the conditions of C58", "why_tests_cant": "Coverage is about all places of all executions.", "anchors": ["benchmarking-node/input-analyses/rust/coverage-instruction/src/lib.rs:7-52", "wastrumentation-instr-lib/tests/analyses/rust/wastrumentation-rs-stdlib/src/lib.rs:93-114"]}
{"id": "C61", "title": "What branch coverage reports", "statement": "After any run, `get_coverage(x, y)` of `branches` returns the decision (condition, or position of the label taken) last made by the if, br_if or br_table at instruction x of function y, and -1 if none was made; `coverage-branch` treats select likewise. (The parameters are named the other way round.)", "quantifier": "all programs, inputs, executions and queries under the conditions of C58", "why_tests_cant": "Coverage is about all places of all executions.", "anchors": ["benchmarking-node/input-analyses/rust/branches/src/lib.rs:4-26", "benchmarking-node/input-analyses/rust/coverage-branch/src/lib.rs:7-30"]}
{"id": "C62", "title": "What the call graph contains", "statement": "After any run, the accessors of `call-graph` enumerate, each once, exactly the pairs of an instruction index and a function such that the original's run made a direct call of that function at an instruction of that index. (The first component should be the calling function.)", "quantifier": "all programs, inputs and executions under the conditions of C58, all iteration orders of the set", "why_tests_cant": "Tests look at graphs of a few programs.", "anchors": ["benchmarking-node/input-analyses/rust/call-graph/src/lib.rs:7-52"]}
{"id": "C63", "title": "What the profiling analyses count", "statement": "After any run: `loops` reports for each loop one less than the number of times it was entered, and the number of loops entered; `block-profiling` reports for each block one less than the number of times it was entered, or 0 if never; `globals` reports the reads and writes of each global without the first access; `icount` reports, whatever kind of instruction it is asked about, the number of if-else instructions at instructions of the given index without the first event there, and panics when asked about kind 0; its number of counted functions is the number of different instruction indices at which there were events, not that of functions.", "quantifier": "all programs, inputs, executions and queries under the conditions of C58", "why_tests_cant": "Off-by-one counts have to be compared with the true number of events of an execution, which tests do not know.", "anchors": ["benchmarking-node/input-analyses/rust/loops/src/lib.rs:9-38", "benchmarking-node/input-analyses/rust/block-profiling/src/lib.rs:7-33", "benchmarking-node/input-analyses/rust/globals/src/lib.rs:4-45", "benchmarking-node/input-analyses/rust/icount/src/lib.rs:10-109"]}
{"id": "C64", "title": "Calls are reported in proper nesting", "statement": "In the events of any run that ends normally, direct and indirect calls form a bracket structure: each announced call is later reported as returned, with the same callee or table and the same location, and whatever happens in between is itself properly nested. The events of a run that traps are the beginning of such a sequence.", "quantifier": "all programs, sets of instrumented functions, inputs and executions; embedder functions may call back into the program", "why_tests_cant": "Pairing of pre and post events under recursion, early return, branches out of nested blocks and traps has unboundedly many shapes.", "anchors": ["wastrumentation/src/instrument/simple_operations.rs", "wastrumentation/src/instrument/function_call_indirect.rs"]}
{"id": "C65", "title": "No event is made up", "statement": "Every event of any run carries the index of an instrumented function and of an instruction of it, and is one of the events this very instruction raises, with the instruction's own immediates. Hence an analysis is told of a direct call only where the program has that call instruction, and every edge the call-graph analysis reports stems from a call instruction.", "quantifier": "all programs, sets of instrumented functions, inputs and executions, ending normally or with a trap", "why_tests_cant": "A test can check that expected events occur, not that no other event ever does.", "anchors": ["wastrumentation/src/instrument/simple_operations.rs", "benchmarking-node/input-analyses/rust/call-graph/src/lib.rs:7-52"]}
{"id": "C66", "title": "What the call-stack analysis counts", "statement": "For the call advice of the `call-stack` analysis: after any run making fewer than 2^31 direct calls, `get_number_of_calls` is the number of direct calls the original's run made and `get_max_call_depth` the largest number of direct calls open at the same time; the counter of open calls ends at the number of interrupted calls, which is 0 after a normal end.", "quantifier": "all programs, inputs and executions under the conditions of C58, for an analysis without `apply` advice", "why_tests_cant": "The depth reported must match the true nesting of an execution, whatever its shape.", "anchors": ["wastrumentation-instr-lib/tests/analyses/rust/call-stack/src/lib.rs:25-77"]}
{"id": "C67", "title": "A watching analysis stops a program exactly when it panics on its events", "statement": "Let an analysis only watch: its advice records something, performs the instruction, records something, and may panic. If the original ends normally, then the instrumented program ends normally with the same results, state and side effects exactly if telling the analysis the events of the original's run, one by one, makes no advice panic; the analysis then is in the state that results. Otherwise the instrumented program traps.", "quantifier": "all watching analyses, programs, sets of instrumented functions, inputs and executions of the original that end normally, offsets below 2^31", "why_tests_cant": "Which events an execution goes through is unbounded; a test sees a panic only on the inputs it tries.", "anchors": ["wastrumentation-rs-stdlib/src/lib.rs", "wastrumentation/src/instrument/mod.rs"]}
{"id": "C68", "title": "What the memory-tracing analysis reports", "statement": "After an instrumented run, `total_accesses` is the number of loads and stores the original's run made and the buffer holds the last million of them, oldest first, each with whether it is a store and its address. Caveats, part of the statement: an address whose index operand is 2^31 or more is reported 2^32 too small, the column of function indices holds instruction indices and vice versa. The program itself is not affected.", "quantifier": "all programs, sets of instrumented functions, inputs and executions of the original that end normally, under the conditions of C58", "why_tests_cant": "The number and order of accesses is unbounded; the buffer wraps only after a million accesses.", "anchors": ["benchmarking-node/input-analyses/rust/memory-tracing/src/lib.rs:1-107"]}
{"id": "C69", "title": "What the memstats analysis reports", "statement": "After an instrumented run whose accesses stay below the number of counters that can be allocated, `get_read_at(b)` (`get_write_at(b)`) is the number of loads reading (stores writing) byte `b`, for all bytes up to the farthest one accessed; beyond it the function panics. If an access touches a byte beyond the allocatable counters, the instrumented program traps although the original does not.", "quantifier": "all programs, sets of instrumented functions, inputs and executions of the original that end normally, under the conditions of C58; all allocation limits up to 2^28", "why_tests_cant": "Counts per byte depend on all accesses of the run, of all widths and overlaps.", "anchors": ["benchmarking-node/input-analyses/rust/memstats/src/lib.rs:1-57"]}
{"id": "C70", "title": "What safe-heap stops", "statement": "A program instrumented with `safe-heap` does what the original does when each load and store of the instrumented functions is checked first and traps if unsafe, where an access is safe if its index is a multiple of the size of the loaded or stored value (4 or 8) and, for indices below 2^31, the whole value from index plus offset on lies in memory. So results are never changed: the run ends as the original's or it traps. A program that loads and stores whole values only, at indices that are multiples of their size and below 2^31, is never stopped when the original is not. But programs that access single bytes correctly are stopped, and accesses through a null pointer are not.", "quantifier": "all programs, instrumented functions, inputs, initial states and runs; static offsets 0 for the equivalence including traps, below 2^31 for results", "why_tests_cant": "Which accesses pass depends on index, offset, width and the size of the memory at the time of each access of a run; tests exercise one misaligned and one out-of-bounds access.", "anchors": ["wastrumentation-instr-lib/tests/analyses/rust/safe-heap/src/lib.rs:1-68", "wastrumentation-instr-lib/tests/analyses/rust/wastrumentation-rs-stdlib/src/memory.rs"]}
{"id": "C71", "title": "The shipped forwarding analysis, with its apply advice, is transparent", "statement": "A program instrumented with the whole shipped `forward` analysis (every instruction hook including loads, stores and memory.grow, and `apply` resuming each call) and linked with the generated stack library returns the same results, traps in the same cases and leaves the same globals, memories and tables as the original, and the stack library's allocator ends where it began. With static offsets below 2^31, and `apply` advice that also inspects arguments and results, results are still preserved.", "quantifier": "all programs, sets of instrumented functions, inputs, initial states and executions for which the library's memory has room; static offsets 0 for the equivalence including traps", "why_tests_cant": "Hooks that call back into the program's exports, interception through the stack library and ordinary code interact at every nesting depth of calls; tests run a handful of programs.", "anchors": ["wastrumentation-instr-lib/tests/analyses/rust/forward/src/lib.rs:1-271", "wastrumentation/src/instrument/function_application.rs", "wastrumentation-instr-lib/tests/analyses/rust/wastrumentation-rs-stdlib/src/memory.rs"]}
{"id": "C72", "title": "denan replaces NaNs by zero, and does nothing else", "statement": "A program instrumented with `denan` does what the original does when NaNs are replaced by zero at every hooked instruction (operands and results) and every intercepted call (arguments and results), and nowhere else. So an intercepted function never returns a NaN, an intercepted import is never handed one, and a run in which no NaN turns up at these places is not affected.", "quantifier": "all programs, sets of instrumented functions, inputs (all bit patterns of NaNs), initial states and executions for which the library's memory has room; static offsets 0, or below 2^31 as to calls that return", "why_tests_cant": "A NaN may arise at any instruction of any run, in any of 2^24 or 2^53 bit patterns, and pass through calls at any depth.", "anchors": ["benchmarking-node/input-analyses/rust/denan/src/lib.rs:1-31", "wastrumentation-instr-lib/tests/analyses/rust/wastrumentation-rs-stdlib/src/lib.rs:462-476"]}
{"id": "C73", "title": "The Wasp compiler accepts exactly the intended texts, unambiguously", "statement": "`compile` reads the program `l` from a text exactly when the text consists of the tokens of `l` in order with any white space and comments (`#| .. |#`) between them, every typed `apply` advice naming at least one argument and one result. So a text has at most one reading, layout and comments do not change the result, a rejected text gets a syntax error, and the conversion of a parse into a program never fails or panics.", "quantifier": "all texts (strings) and all programs", "why_tests_cant": "A grammar with ordered choice and implicit white space can accept unintended texts, shadow an alternative by an earlier one (`if_then` and `if_then_else`, `applyGen` and the typed forms) or yield pairs the conversion does not expect, on texts nobody wrote a test for.", "anchors": ["wasp-compiler/wasp.pest:1-93", "wasp-compiler/src/ast/pest/mod.rs:1-290", "wasp-compiler/src/lib.rs:20-34"]}
{"id": "C74", "title": "Guest code reaches the analysis unchanged", "statement": "Writing a program down and compiling it gives the program back, with every character of the guest code in place, if names are names and no guest code contains `#|` or the closing delimiter. (Without the condition on `#|` it fails: comments are recognised inside guest code, where they may hide the closing delimiter and swallow the following advice.)", "quantifier": "all programs with any number of advice and any guest code", "why_tests_cant": "Guest code is arbitrary text; tests use a few harmless snippets.", "anchors": ["wasp-compiler/wasp.pest:4-12", "wasp-compiler/src/ast/pest/mod.rs:53-75"]}
{"id": "C75", "title": "The generated WebAssembly stack library is a valid module", "statement": "The WebAssembly text generated for a set of signatures is a valid module (identifiers and exports distinct, every call resolved, every function body of its declared type) exactly if no signature has a reference type; in particular it is valid for the signatures that instrumentation reports.", "quantifier": "all finite lists of signatures (any number of parameters and results, repetitions allowed)", "why_tests_cant": "The text is assembled from format strings by loops over types; each combination of types and positions yields different code, of which tests assemble a few.", "anchors": ["supported-languages/webassembly/src/generate/instrumentation/mod.rs:22-678"]}
{"id": "C76", "title": "An analysis that intercepts calls hears the story of the program", "statement": "Take a program instrumented by an analysis that watches instructions and whose `apply` advice records something, resumes the call with `func.apply()` and records again (analyses written with the Rust library are such analyses). The instrumented program ends as the original does, with the same results, traps and state, and the analysis is at the end in the state that results from telling it in order what happened in the original program: each watched instruction reached, each intercepted function entered with its actual arguments, each left with its actual arguments and results. The calls in this story are properly nested, and its instructions are those of the trace (C11). If the analysis can panic, the instrumented program ends normally exactly if telling it the story does not make it panic.", "quantifier": "all valid programs, all sets of intercepted functions, all such analyses (any state, any reaction), all arguments, initial states, call depths and executions", "why_tests_cant": "Calls nest to any depth, may be recursive and indirect, and each passes its arguments and results through the shared memory of the stack library while other calls do the same; tests run a few programs with one analysis.", "anchors": ["wastrumentation/src/instrument/function_application.rs::instrument", "wastrumentation-instr-lib/tests/analyses/rust/wastrumentation-rs-stdlib/src/lib.rs", "supported-languages/webassembly/src/generate/instrumentation/mod.rs"]}
{"id": "C77", "title": "call-stack reports applications, calls and their depth", "statement": "With the whole `call-stack` analysis (call advice and `apply` advice), the instrumented program does what the original does, and afterwards `get_number_of_applies` is the number of times an intercepted function was entered, `get_max_apply_depth` the largest number of them open at the same time, `get_number_of_calls` the number of call instructions performed and `get_max_call_depth` their largest nesting (below 2^31).", "quantifier": "all valid programs, arguments, states and executions, also those that trap", "why_tests_cant": "The counters depend on the whole history of calls and returns, including indirect and recursive calls and calls interrupted by a trap.", "anchors": ["wastrumentation-instr-lib/tests/analyses/rust/call-stack/src/lib.rs:15-109"]}
{"id": "C78", "title": "taint keeps out of the way, but marks nothing", "statement": "Under the shipped `taint` analysis a program that ends normally ends with the same results and state if none of its loads and stores has an address of 2^31 or more or reaches beyond the memory `taint` can allocate; otherwise the instrumented program traps. At no point is any value, variable or byte marked as tainted, as nothing introduces taint. Its stack keeps at least one frame for each function entered other than by a direct call. Its bookkeeping would carry a mark: evaluating an expression of constants, variables, operations and select adds one value to the current block, marked exactly if the expression depends on a marked variable; assigning it marks the variable so (but after local.tee the value itself is missing from the block). Stores and loads carry a mark to and from the address they begin at only, globals carry marks like variables. Calls lose marks: no argument is marked in the function entered, and after a direct call the block the call is in is gone. The value a block or loop leaves is lost, and a conditional removes the block it is in.", "quantifier": "all valid programs, arguments, states and executions", "why_tests_cant": "That no flow of any program produces a mark, and at which accesses exactly the analysis panics, is a statement about all sequences of events.", "anchors": ["benchmarking-node/input-analyses/rust/taint/src/lib.rs:1-500"]}
{"id": "C79", "title": "Operators compute the same on the developer's machine as in WebAssembly", "statement": "`UnaryOperator::apply` and `BinaryOperator::apply` of the Rust analysis library give, on every target, the outcome of the WebAssembly instruction: the same value (up to the bits of NaN), or a panic where the instruction traps.", "quantifier": "all 136 operators and all operands", "why_tests_cant": "The operands are all pairs of 32- and 64-bit patterns; the differences are in corners such as halves, NaN, zeros of opposite signs and overflow.", "anchors": ["wastrumentation-instr-lib/tests/analyses/rust/wastrumentation-rs-stdlib/src/unary.rs:27-142", "wastrumentation-instr-lib/tests/analyses/rust/wastrumentation-rs-stdlib/src/binary.rs:26-160"]}
{"id": "C80", "title": "Wasp analyses see, change and leave alone what they should", "statement": "In the `apply` advice of a Wasp analysis, `length`, `getType(i)` and `get<T>(i)` of the arguments and, after `func.apply()`, of the results give the values of the intercepted call; unsupported types and positions out of range trap; `set<T>(i, v)` before `apply` changes what the function receives and after it what the caller receives, nothing else (so `set_arg_ret_to_zero` makes every function receive and return zeros). A Wasp analysis whose advice only changes its own globals, runs to its end or returns the value it was given (for conditions: `continue_then` when `is_then`, and so on) and resumes the calls it intercepts leaves the behaviour of every program unchanged.", "quantifier": "all valid programs, signatures, values, guest code, states and executions", "why_tests_cant": "The tests run a handful of analyses on a handful of programs; that no signature, nesting of calls or truthy condition makes a difference is a statement about all of them.", "anchors": ["supported-languages/assemblyscript/src/generate/analysis/std_analysis_lib_gen_apply.ts:1-188", "supported-languages/assemblyscript/src/generate/analysis/std_analysis_lib_if.ts:1-93", "supported-languages/assemblyscript/src/generate/analysis/mod.rs:153-198,382-683", "wastrumentation-instr-lib/tests/analyses/wasp-as/set_arg_ret_to_zero.wasp:1-30", "wastrumentation-instr-lib/tests/analyses/wasp-as/forward.wasp:1-56"]}
{"id": "C81", "title": "An analysis that answers otherwise changes the program exactly where it has hooks", "statement": "Where a hook is shown a condition, a table index, a constant or the value of a variable, the analysis may return another value, and the program goes on with that one. The instrumented program then behaves exactly like the original program into which instructions computing those answers have been inserted at the hooked places of the target functions and nowhere else: same results, traps and program states, and it diverges in the same cases. In particular, under `if-then-alter`, `if-then-else-alter`, `branch-if-alter` and `select-alter` every hooked conditional goes the other way, and under `br-table-alter` every hooked table of branches continues at the next label (wrapping around at the largest index).", "quantifier": "for all valid programs, target sets, analyses whose answers are computed by straight-line code (depending on hook and location), calls, arguments, states and bounds", "why_tests_cant": "The tests run five altering analyses on a few programs; that nothing else changes in any program, for any nesting, location and run, quantifies over all programs and executions.", "anchors": ["wastrumentation-instr-lib/tests/analyses/wasp-as/if-then-alter.wasp", "wastrumentation-instr-lib/tests/analyses/wasp-as/br-table-alter.wasp", "wastrumentation/src/instrument/block_loop.rs", "wastrumentation/src/instrument/branch_if.rs"]}
{"id": "C82", "title": "Every valid program can be instrumented", "statement": "For every valid program with at most one memory (within the limits of WebAssembly engines), every selection of functions and every analysis, the tool succeeds: it neither reports an error nor panics. The result is valid, and if the analysis forwards, it behaves like the program. A valid program with more than one memory is always refused. Of the type checker the tool uses it is required only that it accepts valid functions and, where it reports the type of an accessed variable, reports the right one.", "quantifier": "for all valid programs within limits, analyses, selections, type checkers that do their job, and iteration orders of the tool's sets", "why_tests_cant": "Totality over all valid programs is a universal statement: every conversion, lookup and assertion in the tool has to be shown to succeed for any nesting, index and signature.", "anchors": ["wastrumentation/src/instrument/mod.rs", "wastrumentation/src/parse_nesting/typed_indexed_instr.rs", "wastrumentation/src/parse_nesting/typed_high_level_body.rs"]}
{"id": "C83", "title": "Analyses written in Wasp hear what the program does", "statement": "If the code of a Wasp analysis only keeps a state of its own, then over any run of the instrumented program it is told, in order, exactly the events of the original program it has advice for — with `apply` advice also every intercepted function that is entered or left, with its arguments and results —, the program does what the original does, and the analysis ends in the state that results from what it was told; the program traps where the analysis does. In particular the counters exported by call_stack.wasp, call_chain_pre.wasp, call_chain_post.wasp, call_chain_pre_post.wasp, block.wasp and loop.wasp are the numbers of calls, applications, blocks and loop iterations of the original run.", "quantifier": "for all valid programs, selections of functions, Wasp programs and their code, calls, states of the program and of the analysis", "why_tests_cant": "The tests run each analysis on a few programs and compare final counters; that no event is missed, doubled or reordered in any program, also when it traps, needs a simulation of the instrumented program by the original.", "anchors": ["wasp-compiler/src/wasp_interface.rs", "supported-languages/assemblyscript/src/generate/analysis/mod.rs", "wastrumentation-instr-lib/tests/analyses/wasp-as/call_stack.wasp", "wastrumentation-instr-lib/tests/analyses/wasp-as/call_chain_pre_post.wasp", "wastrumentation-instr-lib/tests/analyses/wasp-as/block.wasp", "wastrumentation-instr-lib/tests/analyses/wasp-as/loop.wasp"]}
{"id": "C84", "title": "What a run under `signatures-check` establishes", "statement": "Under the analysis signatures-check, which holds a list of expected calls, the instrumented program gets to its end exactly if the original does and every call of an intercepted function, in the order in which the calls return, meets its expectation; otherwise it traps. For the Rust analysis a call meets an expectation if its arguments and its results start with the expected ones, bit by bit; for signatures_check.wasp if there are as many as expected, of the expected types and numerically equal. At the end of a run the exported flag is 1 exactly if there were as many calls as expectations, and at least one. After a trap the flag of the Wasp analysis may be 1 although the last expectation was not met.", "quantifier": "for all valid programs, selections of functions, lists of expectations, calls and states", "why_tests_cant": "The tests run one program against one list of expectations that are all met; when the analysis accepts or rejects, for any program and any expectations, is not tested, nor what the flag means.", "anchors": ["wastrumentation-instr-lib/tests/analyses/rust/signatures-check/src/lib.rs", "wastrumentation-instr-lib/tests/analyses/wasp-as/signatures_check.wasp", "wastrumentation-instr-lib/tests/analyses/rust/wastrumentation-rs-stdlib/src/lib.rs"]}
{"id": "C85", "title": "An intercepted call is what the analysis makes of it, throughout a run", "statement": "Let an analysis intercept calls with `apply` advice that reads and writes the arguments and results, resumes the call never, once or several times, and keeps state, in Rust or in Wasp. Then the whole instrumented program behaves as the original program in which every call of an intercepted function, at any depth, is replaced by what the advice says on plain lists of arguments and results: the same results, traps, effects on the program's state and final state of the analysis, and conversely. In particular a function whose calls are never resumed does not run; set_arg_ret_to_zero makes every intercepted call receive and return zeros; and resuming once is the call itself.", "quantifier": "for all valid programs, selections of functions, advice scripts that write values of the right types and leave a value for every result, calls, states of the program and of the analysis, depths", "why_tests_cant": "The tests run a few advices on a few programs. That nothing of the buffers, trampolines and allocator shows through at any depth of nesting, whatever the advice does, is a statement about all programs, advices and runs.", "anchors": ["wastrumentation/src/instrument/function_application.rs::instrument", "wastrumentation-instr-lib/tests/analyses/rust/wastrumentation-rs-stdlib/src/lib.rs::RuntimeValues", "supported-languages/assemblyscript/src/generate/analysis/std_analysis_lib_gen_apply.ts:1-188", "wastrumentation-instr-lib/tests/analyses/wasp-as/set_arg_ret_to_zero.wasp:1-30"]}
{"id": "C86", "title": "What the purity command writes", "statement": "The command of wastrumentation-static-analysis, given a module whose bodies type-check and whose calls lead to functions of the module, does not panic and writes a JSON array that holds, once each, exactly the functions with a body (of at least --minimum-body instructions, if given) from which only code that touches no state and is not mutually recursive can be reached. If the output accepts only part of the text, what it holds is no JSON array of numbers. Whatever array is read back, every function it lists behaves the same under any linking and in any state, and leaves the state alone.", "quantifier": "for all modules, minimum lengths, iteration orders of the set, numbers of bytes the output accepts, embedders, arguments, states", "why_tests_cant": "The repository has no test of the command; a test would compare the output of a few modules, and neither the iteration order of a hash set nor short writes are under its control. That a listed function is pure quantifies over all embedders and states.", "anchors": ["wastrumentation-static-analysis/src/main.rs::main", "wastrumentation-static-analysis/src/lib.rs::immutable_functions"]}
{"id": "C87", "title": "The command line tool, end to end", "statement": "Running the command with some hooks and target functions writes an output exactly if the input can be read as a module, the module can be instrumented for the hooks and functions asked for and encoded, the analysis compiles, the library generated for the intercepted signatures compiles (it is involved exactly if generic-apply is asked for, explicitly or by giving no --hooks) and wasm-merge succeeds on exactly these modules under the names their imports refer to; the output is what wasm-merge wrote. If the external tools work, no valid program with at most one memory is turned down, whatever the arguments. And the program that is merged is valid and, linked with the shipped forwarding analysis, behaves like the input: same results, state, traps, non-termination (if loads and stores that go through the analysis have offset zero; with offsets below 2^31 results and states are the same whenever the input program does not trap).", "quantifier": "for all inputs, arguments, behaviours of decoder, encoder, compilers and wasm-merge, iteration orders, valid programs, calls, states", "why_tests_cant": "The repository has no test of the command; end-to-end tests fix one program, one analysis and one list of hooks. There are 2^28 selections of hooks for every program.", "anchors": ["cli/src/main.rs::main", "wastrumentation/src/lib.rs::Wastrumenter::wastrument", "wastrumentation/src/instrument/mod.rs::instrument"]}
{"id": "C88", "title": "What the command's output lets an analysis record is what the original program does", "statement": "When the command line tool is run on a valid program with an analysis that records what it is told, the merged program returns (or traps) with the analysis in a state x1 if and only if the original program returns the same results in the same state (or traps in the same state) and x1 is what comes of telling the analysis, in order, the instructions of that run for which hooks were named on the command line; with generic-apply, also the intercepted functions entered with their arguments and left with their results. Without generic-apply, if loads and stores that go through the analysis have offsets other than zero (below 2^31), results, states and what the analysis was told are still these whenever the original program returns, unless the analysis panics; the merged program returns only if the original program returns so or traps.", "quantifier": "every valid program within the format's limits, every selection of hooks and functions, every recording analysis, every call and initial state; provisos of C87", "why_tests_cant": "The claim ties the command line options to the complete record of unbounded executions; tests compare a few recorded traces with expected ones.", "anchors": ["cli/src/main.rs::main", "wastrumentation/src/lib.rs::Wastrumenter::wastrument", "wastrumentation/src/instrument/mod.rs::instrument", "wastrumentation-instr-lib/tests/analyses/rust"]}
{"id": "C89", "title": "Performing other operations is rewriting the program", "statement": "An analysis whose hooks perform, in place of the operation they are handed, another one with the same operand and result types (chosen from the operation and its location) and otherwise answer what they are shown makes the instrumented program behave exactly like the original program with those operations replaced: at the places that have hooks in the targets, and nowhere else. Same results, same traps, same program states, and one runs forever exactly if the other does. In particular this holds for analyses whose unary and binary advice call apply of the Rust library on another operator, and for analyses whose load and store advice perform another load or store of the same value type at the address handed. With offsets other than zero (below 2^31), results and program states are the same whenever the rewritten program does not trap. It can be combined with answers computed by instructions inserted in the program (C81).", "quantifier": "every valid program, targets, interface without generic-apply, choice of operations by operator and location, every call and state; for the Rust library with hooks for memory accesses, programs whose loads and stores have offset zero and that export none of the names the tool exports", "why_tests_cant": "The test suite only performs the operation that was handed over. That a replacement takes effect everywhere, nowhere else and changes nothing but the operation is a statement about all programs and runs.", "anchors": ["wastrumentation/src/instrument/mod.rs::instrument", "wastrumentation-instr-lib/tests/analyses/rust/wastrumentation-rs-stdlib/src/unary.rs", "wastrumentation-instr-lib/tests/analyses/rust/wastrumentation-rs-stdlib/src/binary.rs", "wastrumentation-instr-lib/tests/analyses/rust/wastrumentation-rs-stdlib/src/lib.rs::advice!"]}
{"id": "C90", "title": "What an analysis that looks at results knows", "statement": "An analysis that forwards everything, updating its state when it is told where the program is and again when it has performed an operation and sees the results, leaves the program's behaviour as it is (results, traps, state); and at the end it is in the state that comes of telling it, in order, where the original program was and the results of the operations it performed, for the hooks the analysis has. Telling no results, this is the trace of C11.", "quantifier": "every valid program, targets, interface without generic-apply, state and updates of the analysis, every call and initial state, returning or trapping; static offsets of accesses with hooks 0 (exact) or below 2^31 (for runs that return)", "why_tests_cant": "The claim is about the complete sequence of operands and results of unbounded executions of every program and every such analysis; tests compare a few recorded values.", "anchors": ["wastrumentation/src/instrument/mod.rs::instrument", "wastrumentation-instr-lib/tests/analyses/rust/wastrumentation-rs-stdlib/src/lib.rs::advice!", "wastrumentation-instr-lib/tests/analyses/rust/logging/src/lib.rs"]}
{"id": "C91", "title": "The logging analysis prints what happens, and the log can be read back", "statement": "With the logging analysis (without generic apply) the instrumented program does what the original does and prints, in order and nothing else, an entry for each place it comes to that has a hook, with the operands there, and for each load an entry with the value loaded. Two instrumented programs that print the same text had the same events, up to floating point numbers that Rust writes in the same way. The entries exchange the labels of function and instruction index.", "quantifier": "every valid program, targets and selection of hooks, every call and initial state, returning or trapping; provisos of C90", "why_tests_cant": "The one test compares the text of a single run. That the text is complete and unambiguous is a statement about all runs and pairs of runs.", "anchors": ["wastrumentation-instr-lib/tests/analyses/rust/logging/src/lib.rs", "wastrumentation-instr-lib/tests/analyses/rust/wastrumentation-rs-stdlib/src/lib.rs::generate_wrapper!", "wastrumentation-instr-lib/tests/analyses/rust/wastrumentation-rs-stdlib/src/lib.rs::Location", "wastrumentation-instr-lib/tests/integration_tests.rs::test_analysis_logging"]}
{"id": "C92", "title": "Running the tool again, and analyses that give the same answers", "statement": "The tool walks through sets in an order that Rust leaves open. For analyses without advice on function application this makes no difference to what the instrumented program does: two outputs for the same input have the same imports, exports and types and everything but the functions equal, and every call of a function that can be reached from outside gives the same results, traps and state; without advice on br_table the outputs are equal. More generally, two embedders (analyses) whose imported functions give the same answers in related worlds are interchangeable. With advice on br_table the numbers of helper functions vary; with advice on function application the numbers by which the analysis is told of functions vary.", "quantifier": "every valid program, targets, interface without generic-apply, all iteration orders, every pair of embedders, relation between their worlds, call, state and bound", "why_tests_cant": "A test sees one order per run, and cannot compare all pairs of outputs and embedders.", "anchors": ["wastrumentation/src/instrument/mod.rs::instrument", "wastrumentation/src/instrument/function_application.rs::instrument", "wastrumentation/src/stack_library.rs::StackLibrary::from_module"]}
{"id": "C93", "title": "The logging analysis with its advice on calls", "statement": "The whole logging analysis, its advice on function application included, leaves the program alone: results, traps and program states are the same with it as without (static offsets 0; for offsets below 2^31, results are preserved). So does every analysis that sees everything, results of operations and calls included, and changes only its own state. About an intercepted call it prints one entry before and, if the call returns, one entry after; these show the number of the function, the place of the frame, and the numbers and types of arguments and results, all of which can be read off; they do not show the arguments and results themselves.", "quantifier": "every valid program, targets, documented interface with advice on function application, text of floating point numbers, embedder, function, arguments, state and bound; every call intercepted, every frame", "why_tests_cant": "The test compares the log of one program; what the analysis prints for all functions and whether it disturbs any program needs a proof.", "anchors": ["wastrumentation-instr-lib/tests/analyses/rust/logging/src/lib.rs::apply", "wastrumentation-instr-lib/tests/analyses/rust/wastrumentation-rs-stdlib/src/lib.rs::WasmFunction", "wastrumentation-instr-lib/tests/analyses/rust/wastrumentation-rs-stdlib/src/lib.rs::RuntimeValues"]}
{"id": "C94", "title": "The command line tool with an analysis that looks at results, and with the logging analysis", "statement": "Let the command write its output for a valid program. Without generic-apply, and with an analysis that updates its own state with what it is told before and after instructions (results included) and otherwise forwards: the merged program returns given results in a given program state with the analysis in a given state if and only if the original program returns those results in that state and the analysis' state is what comes of telling it what happened in that run at the instructions whose hooks were selected on the command line; likewise for traps. With the logging analysis, what has been printed is the log of that run. With generic-apply, the library and the logging analysis merged, calls behave as in the original program as long as the library has room. Without generic-apply, if loads and stores that go through the analysis have offsets other than zero (below 2^31), results, states, what the analysis was told and what was printed are still these whenever the original program returns; the merged program returns only if the original program returns so or traps.", "quantifier": "every valid program within the limits, command line arguments (hooks, targets), surroundings of the command, observing analysis, embedder, function, arguments and state", "why_tests_cant": "Tests run some programs with some hooks selected; the claim is an equivalence over all runs of all valid programs for every selection.", "anchors": ["cli/src/main.rs::main", "wastrumentation/src/lib.rs::Wastrumenter::wastrument", "wastrumentation-instr-lib/tests/analyses/rust/logging/src/lib.rs"]}
{"id": "C95", "title": "The command line tool with an analysis that performs other operations", "statement": "Let the command write its output for a valid program, without generic-apply, and let the unary, binary, load and store advice of the analysis perform (with perform/apply of the Rust library) an operation chosen from the operator and the location, with the same types as the one handed. The merged program behaves exactly like the original program in which, in the targets given on the command line, the operations whose hooks were selected have been replaced by the chosen ones: same results, same traps, same program states, and one runs forever exactly if the other does. With offsets other than zero (below 2^31), results and program states are the same whenever the rewritten program does not trap.", "quantifier": "every valid program within the limits that exports none of the tool's names and whose loads and stores (if their hooks are selected) have offset zero, command line arguments (any hooks but generic-apply, any targets), surroundings of the command, choice of operations, embedder, function, arguments and state", "why_tests_cant": "Tests run some programs with the forwarding analysis; the claim is an equivalence between all runs of the merged and of the rewritten program, for every selection of hooks and targets and every choice of operations.", "anchors": ["cli/src/main.rs::main", "wastrumentation/src/lib.rs::Wastrumenter::wastrument", "wastrumentation-instr-lib/tests/analyses/rust/wastrumentation-rs-stdlib/src/binary.rs", "wastrumentation-instr-lib/tests/analyses/rust/wastrumentation-rs-stdlib/src/unary.rs"]}
