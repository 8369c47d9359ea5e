{
 "claims": [
  {
   "property": "C01",
   "status": "proved",
   "theorems": [
    "Wastrum.C01_raise_lower",
    "Wastrum.C01_raiseTyped_lowerTyped",
    "Wastrum.C01_lower_injective"
   ],
   "note": "raise then lower is the identity on every accepted body, for the plain and the typed representation."
  },
  {
   "property": "C02",
   "status": "proved",
   "theorems": [
    "Wastrum.C02_lower_raise",
    "Wastrum.C02_lowerTyped_raiseFunction"
   ],
   "note": "lower then raise is the identity on every nested body."
  },
  {
   "property": "C03",
   "status": "proved",
   "theorems": [
    "Wastrum.C03_accepted_iff",
    "Wastrum.C03_nonEnd_iff",
    "Wastrum.C03_strayElse_iff",
    "Wastrum.C03_excessiveEnd_iff",
    "Wastrum.C03_panic_iff",
    "Wastrum.C03_no_other_error",
    "Wastrum.C03_typed_agrees"
   ],
   "note": "Acceptance is characterised by an inductive grammar; every rejected body is classified; the arithmetic underflow panic is covered."
  },
  {
   "property": "C04",
   "status": "proved",
   "theorems": [
    "Wastrum.C04_locations",
    "Wastrum.C04_location_points_to_itself",
    "Wastrum.C04_locations_distinct"
   ],
   "note": "The locations carried by the nested form are exactly the positions of instruction heads."
  },
  {
   "property": "C05",
   "status": "proved",
   "theorems": [
    "Wastrum.C05_assertions_never_fire",
    "Wastrum.C05_passes_complete",
    "Wastrum.C05_inserted_code_is_inert"
   ],
   "note": "The assertions never fire for any body and selection; the passes complete on every body obtained from a real function; inserted code is returned unchanged by every pass."
  },
  {
   "property": "C06",
   "status": "proved",
   "theorems": [
    "Wastrum.C06_hook_calls_report_their_trigger"
   ],
   "note": "Every hook call in the produced flat code is immediately preceded by the location of an instruction that triggers that hook."
  },
  {
   "property": "C07",
   "status": "proved",
   "theorems": [
    "Wastrum.C07_erasing_inserted_code",
    "Wastrum.C07_erasing_gives_program"
   ],
   "note": "Deleting flagged code gives the original program without exactly the delegated instructions."
  },
  {
   "property": "C08",
   "status": "proved",
   "theorems": [
    "Wastrum.C08_untargeted_function_unchanged",
    "Wastrum.C08_nothing_selected",
    "Wastrum.C08_nothing_selected_nothing_changes",
    "Wastrum.C08_untriggered_hook_changes_nothing"
   ],
   "note": "Untargeted functions keep their code; with no hook selected the module is unchanged up to the added base memory exports; passes with no trigger return the body unchanged."
  },
  {
   "property": "C09",
   "status": "proved",
   "theorems": [
    "Wastrum.C09_instrumented_is_interposed",
    "Wastrum.C09_hooks_are_the_analysis",
    "Wastrum.C09_copies_are_interposed"
   ],
   "note": "Calls in the instrumented module equal calls in the original program with the analysis interposed, for all hosts, states and bounds; with intercepted applications the same holds of the copies of the bodies."
  },
  {
   "property": "C10",
   "status": "proved",
   "theorems": [
    "Wastrum.C10_forwarding_analysis_transparent",
    "Wastrum.C10_same_behaviour"
   ],
   "note": "For every valid program, every subset of the hooks (generic apply not selected), every forwarding analysis and every fuel bound, instrumented calls give the same results, traps and final state as the program, with the analysis' own state beside it. Conditions may be answered by any equally true number. Hypotheses: hooks forward, imports treat the analysis' state as invisible, the trusted checker annotates correctly. Generic apply is C23."
  },
  {
   "property": "C11",
   "status": "proved",
   "theorems": [
    "Wastrum.C11_traced_program_is_the_program",
    "Wastrum.C11_recorded_log_is_the_trace"
   ],
   "note": "The instrumented run of a recording analysis records exactly the trace of a reference interpreter that runs the program and notes every selected event."
  },
  {
   "property": "C12",
   "status": "proved",
   "theorems": [
    "Wastrum.C12_helper_computes_label"
   ],
   "note": "For every label table, default and 32-bit index, running the generated helper (through nesting and the execution semantics) returns the index and the selected label, leaving the store unchanged."
  },
  {
   "property": "C13",
   "status": "proved",
   "theorems": [
    "Wastrum.C13_block_post",
    "Wastrum.C13_loop_post",
    "Wastrum.C13_if_then_post",
    "Wastrum.C13_if_then_else_post"
   ],
   "note": "For the code the passes produce, every analysis and every state: the post hook is called once, at the state reached, if the body runs to its end, and not otherwise; blocks, loops (per turn), if with and without else."
  },
  {
   "property": "C14",
   "status": "proved",
   "theorems": [
    "Wastrum.C14_loop_pre",
    "Wastrum.C14_block_pre"
   ],
   "note": "Loop runs characterised as sequences of turns, each beginning with one call of the pre hook at the head's state with the documented arguments; block likewise, once per entry."
  },
  {
   "property": "C15",
   "status": "proved",
   "theorems": [
    "Wastrum.C15_instrumented_module_valid"
   ],
   "note": "The whole instrumented module is valid (bodies, helpers, apply trampolines, accessor functions, elements, start, export names). Hypotheses: the program is valid, hooks have the documented signatures, the (trusted) type checker annotates correctly, and the program does not export a reserved name."
  },
  {
   "property": "C16",
   "status": "proved",
   "theorems": [
    "Wastrum.C16_passes_eq_rewrite"
   ],
   "note": "The sequence of passes of the tool's table equals one simultaneous rewrite, for every selection of hooks and every body."
  },
  {
   "property": "C17",
   "status": "proved",
   "theorems": [
    "Wastrum.C17_unary_codes",
    "Wastrum.C17_binary_codes",
    "Wastrum.C17_load_codes",
    "Wastrum.C17_store_codes",
    "Wastrum.C17_codes_distinct"
   ],
   "note": "Every operator's code decodes to that operator and to no other, for all 32-bit codes; the library's table agrees with the tool's."
  },
  {
   "property": "C18",
   "status": "proved",
   "theorems": [
    "Wastrum.C18_unary",
    "Wastrum.C18_binary",
    "Wastrum.C18_load",
    "Wastrum.C18_store",
    "Wastrum.C18_const"
   ],
   "note": "For every unary and binary operator, load, store and constant: exactly one row of the tool's table reacts, and its declared type matches the operator."
  },
  {
   "property": "C19",
   "status": "partial",
   "theorems": [
    "Wastrum.C19_base_load_partial",
    "Wastrum.C19_base_store_partial",
    "Wastrum.C19_base_load_of_success",
    "Wastrum.C19_base_store_of_success",
    "Wastrum.C19_load_wraps_instead_of_trapping",
    "Wastrum.C19_store_wraps_instead_of_trapping",
    "Wastrum.C19_export_names_distinct"
   ],
   "note": "Exact under the proviso that address + static offset < 2^32, and whenever the program's own access succeeds. The full statement is false: the base exports add modulo 2^32 and access memory where the instruction traps (C19_*_wraps_instead_of_trapping)."
  },
  {
   "property": "C20",
   "status": "proved",
   "theorems": [
    "Wastrum.C20_grow_and_size",
    "Wastrum.C20_without_memory",
    "Wastrum.C20_refuses_several_memories",
    "Wastrum.C20_success_iff"
   ],
   "note": "Grow/size forwarding, behaviour without a memory, and refusal of two or more memories; success is characterised exactly."
  },
  {
   "property": "C21",
   "status": "partial",
   "theorems": [
    "Wastrum.C21_load_partial",
    "Wastrum.C21_store_partial",
    "Wastrum.C21_large_offsets_panic"
   ],
   "note": "Library load/store performs the asked operation for offsets below 2^31. The full statement is false: larger offsets abort in the library (C21_large_offsets_panic)."
  },
  {
   "property": "C22",
   "status": "partial",
   "theorems": [
    "Wastrum.C22_accessors_are_swapped",
    "Wastrum.C22_not_under_the_right_names",
    "Wastrum.C22_location_partial"
   ],
   "note": "Location fields hold the right numbers, but the accessors' names are swapped: the full statement is false (C22_accessors_are_swapped, C22_not_under_the_right_names)."
  },
  {
   "property": "C23",
   "status": "proved",
   "theorems": [
    "Wastrum.C23_resuming_is_transparent"
   ],
   "note": "Proved for nested and recursive calls, imported targets and call-backs from imports, with the call-depth and loop bounds in view and in both directions. Assumptions spelled out in Resuming: the stack library is linked and has room for the nested frames (otherwise calls trap, C26), the apply advice (any that looks, resumes the call and looks again: Surrounds, Rust or Wasp) and the other hooks, which forward (conditions up to equal truth), imports leave the tool state alone. Program state after traps agrees as well."
  },
  {
   "property": "C24",
   "status": "proved",
   "theorems": [
    "Wastrum.C24_reads_arguments_and_results",
    "Wastrum.C24_reads_types",
    "Wastrum.C24_edits_reach_callee_and_caller"
   ],
   "note": "Reads and writes of RuntimeValues hit the slots of the call's own arguments and results; an analysis that edits arguments, resumes and edits results makes the copy receive the edited arguments and the caller the edited results. The run of the copy is assumed to leave the stack allocator where it found it (C27); for whole programs without that assumption: C85."
  },
  {
   "property": "C25",
   "status": "proved",
   "theorems": [
    "Wastrum.C25_index_resumes_function"
   ],
   "note": "Every intercepted function has its own table slot, the trampoline passes that slot, and call_base with that slot runs the copy of that function exactly once on the arguments in the buffer; for every iteration order."
  },
  {
   "property": "C26",
   "status": "proved",
   "theorems": [
    "Wastrum.C26_buffers_disjoint_and_inside",
    "Wastrum.C26_allocation_succeeds_or_traps",
    "Wastrum.C26_release_succeeds",
    "Wastrum.C26_trap_causes",
    "Wastrum.C26_traps_only_when_full"
   ],
   "note": "The generated library is executed by the model of its WebAssembly: every reachable state keeps live buffers disjoint and inside memory; an allocation succeeds or traps, releases succeed, and traps only occur when memory is full. Signatures below 8192 slots (engines accept at most 1000 parameters and results)."
  },
  {
   "property": "C27",
   "status": "proved",
   "theorems": [
    "Wastrum.C27_allocator_restored",
    "Wastrum.C27_analyses_keep",
    "Wastrum.C27_wasp_analyses_keep"
   ],
   "note": "Every call of a program function (intercepted or not, any depth) that returns leaves the allocator where it was and earlier buffers intact; any analysis written with the shipped API of either language (Rust: Script, Wasp: WaspScript: reading at any type and writing args and results, resuming any number of times, own state, panic) satisfies the assumption on the analysis. Embedder functions are assumed not to call the stack library themselves. The model gives every call its own depth budget; runs that do not terminate are the fuel outcome."
  },
  {
   "property": "C28",
   "status": "proved",
   "theorems": [
    "Wastrum.C28_type_buffer_describes_signature"
   ],
   "note": "The type buffer holds exactly the codes of results then parameters; the analysis-side load decodes them."
  },
  {
   "property": "C29",
   "status": "proved",
   "theorems": [
    "Wastrum.C29_round_trip",
    "Wastrum.C29_other_slots_unchanged",
    "Wastrum.C29_arguments_arrive",
    "Wastrum.C29_results_arrive",
    "Wastrum.C29_accessors_agree"
   ],
   "note": "Store/load round trip for every slot and type, other slots untouched, buffers arrive with arguments and results, generic and typed accessors agree."
  },
  {
   "property": "C30",
   "status": "proved",
   "theorems": [
    "Wastrum.C30_library_provides_every_import",
    "Wastrum.C30_reference_names_differ",
    "Wastrum.C30_identifiers_resolve"
   ],
   "note": "Every import the instrumented module takes from the stack library is exported by the generated library under that name and type, and every $identifier the library uses resolves, for all signature lists of number types. For reference types the two sides spell the names differently: proved as C30_reference_names_differ."
  },
  {
   "property": "C31",
   "status": "proved",
   "theorems": [
    "Wastrum.C31_names_never_clash"
   ],
   "note": "For every list of signatures: no two exports share a name, no two identifiers coincide, and a name determines signature and operation."
  },
  {
   "property": "C32",
   "status": "proved",
   "theorems": [
    "Wastrum.C32_apply_targets",
    "Wastrum.C32_body_targets",
    "Wastrum.C32_order_and_repetition"
   ],
   "note": "Both target sets characterised; order and repetition irrelevant."
  },
  {
   "property": "C33",
   "status": "proved",
   "theorems": [
    "Wastrum.C33_hook_names_distinct",
    "Wastrum.C33_every_hook_imported",
    "Wastrum.C33_only_hooks_imported",
    "Wastrum.C33_imported_once"
   ],
   "note": "Every hook imported, nothing else imported from the analysis namespace (if the program itself imports nothing from it), each name once; hook names are pairwise distinct."
  },
  {
   "property": "C34",
   "status": "proved",
   "theorems": [
    "Wastrum.C34_selected_hooks_exact",
    "Wastrum.C34_order_irrelevant",
    "Wastrum.C34_selection_determined",
    "Wastrum.C34_command_line",
    "Wastrum.C34_imports_exact"
   ],
   "note": "interface_from of both analysis languages and the CLI's hook selection; sets given by any list of their elements. Derivation of flag names by clap not modelled."
  },
  {
   "property": "C35",
   "status": "partial",
   "theorems": [
    "Wastrum.Wasp.C35_interface_exact_partial",
    "Wastrum.Wasp.C35_specialised_panics",
    "Wastrum.Wasp.C35_join_points_exact",
    "Wastrum.Wasp.C35_interface_matches_join_points",
    "Wastrum.Wasp.C35_order_irrelevant"
   ],
   "note": "Interface entries, join points, their agreement and independence of order and repetition are exact for every program for which an interface is made. Code violation proved: for programs with a typed (specialised) apply advice, which are accepted, making the interface panics (todo!()); C35_specialised_panics characterises this exactly."
  },
  {
   "property": "C36",
   "status": "partial",
   "theorems": [
    "Wastrum.Wasp.C36_generic_accepted_iff",
    "Wastrum.Wasp.C36_generic_errors",
    "Wastrum.Wasp.C36_typed_accepted_iff_partial",
    "Wastrum.Wasp.C36_typed_errors",
    "Wastrum.Wasp.C36_mutability_inverted",
    "Wastrum.Wasp.C36_function_name_unchecked",
    "Wastrum.Wasp.C36_later_offence_first",
    "Wastrum.Wasp.C36_program"
   ],
   "note": "Acceptance and errors are characterised exactly for all inputs. Code violations proved: the Mut form yields the signature marked as not mutable (C36_mutability_inverted); the function's own name is not checked in the typed form (C36_function_name_unchecked); a name shared by an argument and a result is reported after later type errors (C36_later_offence_first)."
  },
  {
   "property": "C37",
   "status": "proved",
   "theorems": [
    "Wastrum.C37_every_module_once",
    "Wastrum.C37_absent_primary",
    "Wastrum.C37_command",
    "Wastrum.C37_imports_provided",
    "Wastrum.C37_declared_namespace_missing"
   ],
   "note": "Merge plan, the words of the wasm-merge command (temporary file names assumed plain), imports added to the program are in merged namespaces; selecting an absent library leaves no primary; the declared namespace of call_base is provided by no merged module (finding)."
  },
  {
   "property": "C38",
   "status": "partial",
   "theorems": [
    "Wastrum.C38_success_iff",
    "Wastrum.C38_first_failure",
    "Wastrum.C38_merge_success_partial",
    "Wastrum.C38_exit_status_ignored"
   ],
   "note": "The pipeline is exact at stage level; what counts as a successful merge is emptiness of the error output, not the exit status (negation proved: C38_exit_status_ignored)."
  },
  {
   "property": "C39",
   "status": "proved",
   "theorems": [
    "Wastrum.C39_purity_sound"
   ],
   "note": "The reported functions go the same way under any imports, stores and worlds, with stores left unchanged; for every Num, loop bound, call depth and argument list. Nondeterminism of NaN bit patterns is not modelled: numeric operations are functions."
  },
  {
   "property": "C40",
   "status": "proved",
   "theorems": [
    "Wastrum.C40_purity_terminates",
    "Wastrum.C40_purity_fixed_point"
   ],
   "note": "Termination within n+1 rounds (for modules whose bodies raise and whose calls name existing functions), independence of further rounds, fixed point and stability of verdicts. Printing of progress messages is not modelled."
  },
  {
   "property": "C41",
   "status": "proved",
   "theorems": [
    "Wastrum.C41_purity_complete",
    "Wastrum.C41_mutual_recursion_not_reported"
   ],
   "note": "Exact characterisation by the direct-call graph, plus the corollary for mutual recursion."
  },
  {
   "property": "C42",
   "status": "proved",
   "theorems": [
    "Wastrum.C42_alphabetic_injective",
    "Wastrum.C42_alphabetic_lower",
    "Wastrum.C42_digits_reversed"
   ],
   "note": "On all naturals; also records that the digits come least significant first, contrary to the doc comment."
  },
  {
   "property": "C43",
   "status": "proved",
   "theorems": [
    "Wastrum.C43_indices_stay_valid",
    "Wastrum.C43_exports_stay"
   ],
   "note": "Functions keep index, type and exports; tables and elements are only appended; everything else is unchanged."
  },
  {
   "property": "C44",
   "status": "proved",
   "theorems": [
    "Wastrum.C44_flags_exact",
    "Wastrum.C44_own_options"
   ],
   "note": "Words of the option text, split at spaces."
  },
  {
   "property": "C45",
   "status": "proved",
   "theorems": [
    "Wastrum.C45_values",
    "Wastrum.C45_own_choice",
    "Wastrum.C45_if_then_else",
    "Wastrum.C45_if_then",
    "Wastrum.C45_br_if",
    "Wastrum.C45_select"
   ],
   "note": "For all 32-bit conditions and answers, for if, if-else, br_if and select."
  },
  {
   "property": "C46",
   "status": "proved",
   "theorems": [
    "Wastrum.C46_bounds_preserved"
   ],
   "note": "Same theorem shape as C10 at every call-depth and loop-iteration bound: the instrumented run exceeds the bound exactly when the program does."
  },
  {
   "property": "C47",
   "status": "proved",
   "theorems": [
    "Wastrum.C47_block",
    "Wastrum.C47_loop",
    "Wastrum.C47_if_then",
    "Wastrum.C47_if_then_else",
    "Wastrum.C47_call",
    "Wastrum.C47_call_indirect"
   ],
   "note": "Exact equations for pre/post combinations on block, loop, if, if-else, call and call_indirect, any subset of hooks selected."
  },
  {
   "property": "C48",
   "status": "proved",
   "theorems": [
    "Wastrum.C48_shipped_forwarding_transparent",
    "Wastrum.C48_shipped_forwarding_preserves_results"
   ],
   "note": "The library's forwarding analysis, linked to any instrumented module, for every hook selection without generic apply. Provisos stated: offset 0 for handed loads/stores (equivalence), offset < 2^31 (results preserved); the program exports no reserved name."
  },
  {
   "property": "C49",
   "status": "proved",
   "theorems": [
    "Wastrum.C49_library_exports_what_is_imported"
   ],
   "note": "Names, parameter types and result types of every hook coincide."
  },
  {
   "property": "C50",
   "status": "partial",
   "theorems": [
    "Wastrum.Wasp.C50_libraries_exactly_if_needed",
    "Wastrum.Wasp.C50_generated_hooks_match",
    "Wastrum.Wasp.C50_classes_declared",
    "Wastrum.Wasp.C50_export_names_distinct_partial",
    "Wastrum.Wasp.C50_repeated_advice_clashes",
    "Wastrum.Wasp.C50_parameters_are_the_arguments",
    "Wastrum.Wasp.C50_apply_parameters_are_the_arguments"
   ],
   "note": "Every interface entry is implemented by a generated function and conversely; classes are declared once, libraries included exactly if needed (C50_libraries_exactly_if_needed). Names are exported once if no kind of advice is repeated; otherwise the code violates the property (C50_repeated_advice_clashes). The text inside the generated functions is modelled as names, types and the variables made, not as AssemblyScript."
  },
  {
   "property": "C51",
   "status": "partial",
   "theorems": [
    "Wastrum.Wasp.C51_hook_names_fresh_partial",
    "Wastrum.Wasp.C51_apply_captures",
    "Wastrum.Wasp.C51_equal_names_accepted"
   ],
   "note": "Proved for all advice except apply and except equality of the advice's own names; both exceptions are code violations with witnesses (C51_apply_captures, C51_equal_names_accepted)."
  },
  {
   "property": "C52",
   "status": "proved",
   "theorems": [
    "Wastrum.C52_wat_history",
    "Wastrum.C52_assemblyscript_history",
    "Wastrum.C52_rust_history",
    "Wastrum.C52_interchangeable",
    "Wastrum.C52_wat_enough",
    "Wastrum.C52_assemblyscript_enough"
   ],
   "note": "From a fresh library every allowed history shows what an abstract specification of buffers says, or traps because memory ran out (WAT, AssemblyScript), or asks an exhausted allocator (Rust, any allocator satisfying a contract); hence the libraries cannot be told apart. C52_*_enough bound the memory needed."
  },
  {
   "property": "C53",
   "status": "proved",
   "theorems": [
    "Wastrum.C53_rust_compiles_iff",
    "Wastrum.C53_assemblyscript_compiles_iff",
    "Wastrum.C53_reported_signatures_compile",
    "Wastrum.C53_libraries_provide_every_import"
   ],
   "note": "Exact: the source compiles iff no signature has a reference type, and instrumentation never reports one that has. Compilation is modelled by name, arity and type checks of the straight-line source the generators emit."
  },
  {
   "property": "C54",
   "status": "partial",
   "theorems": [
    "Wastrum.C54_wat_fails_safely_partial",
    "Wastrum.C54_assemblyscript_fails_safely_partial",
    "Wastrum.C54_rust_null_values",
    "Wastrum.C54_rust_null_handed_out",
    "Wastrum.C54_rust_null_types",
    "Wastrum.C54_rust_zero_size",
    "Wastrum.C54_rust_fails_unsafely"
   ],
   "note": "Proved for the WebAssembly and AssemblyScript libraries. False of the Rust library: the null pointer of a failed allocation is written through or handed out, and a block of size zero is requested for the empty signature (C54_rust_*)."
  },
  {
   "property": "C55",
   "status": "partial",
   "theorems": [
    "Wastrum.C55_memoization_is_transparent_partial",
    "Wastrum.C55_memoization_without_nesting",
    "Wastrum.C55_cache_overflow_traps"
   ],
   "note": "The code violates the claim when the 1024-entry cache fills up during a nested memoised call: C55_cache_overflow_traps gives a program whose memoised form traps where the original returns. C55_memoization_is_transparent_partial: both directions for all programs and any set of pure targets, up to traps with a full cache; C55_memoization_without_nesting: no exception when no target calls a target."
  },
  {
   "property": "C56",
   "status": "proved",
   "theorems": [
    "Wastrum.C56_repeated_call_is_a_hit",
    "Wastrum.C56_full_cache_is_unused",
    "Wastrum.C56_wide_functions_are_not_cached"
   ],
   "note": "Hits are taken without running the function until the cache is full; a full cache is never used again (a finding: the capacity test precedes the lookup)."
  },
  {
   "property": "C57",
   "status": "proved",
   "theorems": [
    "Wastrum.C57_advice_is_told_the_instruction"
   ],
   "note": "For interfaces with documented hooks and without apply (apply: C24, C25). The place is represented as the library does; its accessors are exchanged (C22)."
  },
  {
   "property": "C58",
   "status": "proved",
   "theorems": [
    "Wastrum.C58_rust_analysis_qualifies",
    "Wastrum.C58_watching_exact",
    "Wastrum.C58_watching_results",
    "Wastrum.C58_told_everything",
    "Wastrum.C58_nothing_missed"
   ],
   "note": "exact for analyses that record before performing and cannot panic; for others on runs that end normally"
  },
  {
   "property": "C59",
   "status": "proved",
   "theorems": [
    "Wastrum.C59_opcodes_counts_every_event",
    "Wastrum.C59_signature_counts_operations"
   ],
   "note": "modulo the width of the counters"
  },
  {
   "property": "C60",
   "status": "proved",
   "theorems": [
    "Wastrum.C60_coverage_is_of_executed_instructions"
   ],
   "note": "characterisation; the accessor's parameters are exchanged (C22)"
  },
  {
   "property": "C61",
   "status": "proved",
   "theorems": [
    "Wastrum.C61_branches_report_last_decision",
    "Wastrum.C61_coverage_branch_reports_last_decision"
   ],
   "note": "characterisation; the accessor's parameters are exchanged (C22)"
  },
  {
   "property": "C62",
   "status": "proved",
   "theorems": [
    "Wastrum.C62_call_graph_has_the_calls"
   ],
   "note": "characterisation; the calling function is missing from the edges (C22)"
  },
  {
   "property": "C63",
   "status": "proved",
   "theorems": [
    "Wastrum.C63_icount_total_is_of_instruction_numbers",
    "Wastrum.C63_loops_count_all_but_first",
    "Wastrum.C63_blocks_count_all_but_first",
    "Wastrum.C63_globals_count_all_but_first",
    "Wastrum.C63_icount_reports_one_kind"
   ],
   "note": "characterisation of counts that are off by one, of an accessor that ignores its argument, and of a number of functions that is one of instruction indices (C63_icount_total_is_of_instruction_numbers)"
  },
  {
   "property": "C64",
   "status": "proved",
   "theorems": [
    "Wastrum.C64_calls_nest"
   ],
   "note": "For the traced original (C11) and every import that only touches the log by calling back (LeavesLog)."
  },
  {
   "property": "C65",
   "status": "proved",
   "theorems": [
    "Wastrum.C65_events_are_of_instructions",
    "Wastrum.C65_analysis_told_of_instructions",
    "Wastrum.C65_calls_told_are_in_the_program",
    "Wastrum.C65_call_graph_edges_are_calls"
   ],
   "note": "Log level, analysis level (Saw), calls and call-graph edges."
  },
  {
   "property": "C66",
   "status": "proved",
   "theorems": [
    "Wastrum.C66_call_stack_reports_depth"
   ],
   "note": "Call advice only; the apply advice of the analysis is outside this model, see the quantifier."
  },
  {
   "property": "C67",
   "status": "proved",
   "theorems": [
    "Wastrum.C67_panics_exactly"
   ],
   "note": "Both directions for executions of the original that end normally; conditions as in C58. PassesCuts: host functions pass on running out of fuel, which holds of any embedder written in the model without inspecting fuel."
  },
  {
   "property": "C68",
   "status": "proved",
   "theorems": [
    "Wastrum.C68_memory_tracing_reports_accesses"
   ],
   "note": "Conditions as in C67; bodies of at most 2^32 instructions (otherwise the conversion of an index panics)."
  },
  {
   "property": "C69",
   "status": "proved",
   "theorems": [
    "Wastrum.C69_memstats_counts_per_byte"
   ],
   "note": "Both directions, for every allocation limit up to 2^28; conditions as in C67."
  },
  {
   "property": "C70",
   "status": "proved",
   "theorems": [
    "Wastrum.C70_safe_heap_checks_accesses",
    "Wastrum.C70_safe_heap_offsets",
    "Wastrum.C70_checked_original",
    "Wastrum.C70_aligned_runs_pass",
    "Wastrum.C70_false_alarms",
    "Wastrum.C70_null_passes"
   ],
   "note": "Equivalence with the checked original (traps included for offset 0, results for offsets below 2^31); whole-value aligned runs pass; two negative results with witnesses (false alarms on byte accesses, null pointer not detected)."
  },
  {
   "property": "C71",
   "status": "proved",
   "theorems": [
    "Wastrum.C71_shipped_forward_transparent",
    "Wastrum.C71_looking_preserves_results"
   ],
   "note": "the whole shipped forward analysis with apply; all clauses of C23/C10 combined; static offsets 0 (C48's proviso), results also for offsets below 2^31"
  },
  {
   "property": "C72",
   "status": "proved",
   "theorems": [
    "Wastrum.C72_denan_zeroes_nans",
    "Wastrum.C72_denan_results_with_offsets",
    "Wastrum.C72_denan_returns_no_nan",
    "Wastrum.C72_imports_get_no_nan",
    "Wastrum.C72_nan_free_runs_unchanged"
   ],
   "note": "denan against the original with NaNs replaced at hooked instructions and intercepted calls; static offsets 0, with offsets below 2^31 for calls that return (results_with_offsets, nan_free_runs_unchanged); imports_get_no_nan is about that reference execution, which the instrumented program follows by zeroes_nans"
  },
  {
   "property": "C73",
   "status": "proved",
   "theorems": [
    "Wastrum.Wasp.C73_accepts_exactly_the_programs",
    "Wastrum.Wasp.C73_a_text_is_one_program",
    "Wastrum.Wasp.C73_syntax_errors_only",
    "Wastrum.Wasp.C73_conversion_never_fails",
    "Wastrum.Wasp.C73_layout_does_not_matter",
    "Wastrum.Wasp.C73_compiles_exactly"
   ],
   "note": "For all texts and programs: parse succeeds with l iff the text spells the tokens of l (WaspSpell). pest's combinators follow its documentation. The typed apply forms need at least one argument and one result (finding)."
  },
  {
   "property": "C74",
   "status": "proved",
   "theorems": [
    "Wastrum.Wasp.C74_written_programs_are_read_back",
    "Wastrum.Wasp.C74_guest_code_is_not_opaque"
   ],
   "note": "Round trip for all programs whose guest code contains neither #| nor the closing delimiter; the condition on #| is necessary (C74_guest_code_is_not_opaque, a violation of what a user would expect)."
  },
  {
   "property": "C75",
   "status": "proved",
   "theorems": [
    "Wastrum.C75_library_is_valid_iff",
    "Wastrum.C75_reported_library_is_valid"
   ],
   "note": "Exact: valid iff no reference types. Constants are modelled modulo 2^32 (counts of 2^32 slots are not considered)."
  },
  {
   "property": "C76",
   "status": "proved",
   "theorems": [
    "Wastrum.C76_story_is_of_the_program",
    "Wastrum.C76_calls_nest",
    "Wastrum.C76_rust_analysis_qualifies",
    "Wastrum.C76_analysis_hears_the_story",
    "Wastrum.C76_panics_exactly",
    "Wastrum.C76_panics_exactly_ahead"
   ],
   "note": "For any analysis whose hooks show what happens and whose apply advice records, resumes and records (C76_rust_analysis_qualifies: those written with the Rust library are such); provisos: offsets of hooked loads/stores 0 (exact version) or below 2^31 (panicking version), room in the stack library for the nested frames."
  },
  {
   "property": "C77",
   "status": "proved",
   "theorems": [
    "Wastrum.C77_call_stack_reports"
   ],
   "note": "The call-stack analysis with its apply advice, for normal ends and traps; counters below 2^31."
  },
  {
   "property": "C78",
   "status": "proved",
   "theorems": [
    "Wastrum.C78_arguments_lose_marks",
    "Wastrum.C78_calls_lose_marks",
    "Wastrum.C78_blocks_lose_marks",
    "Wastrum.C78_conditionals_lose_marks",
    "Wastrum.C78_expressions_carry_marks",
    "Wastrum.C78_assignments_carry_marks",
    "Wastrum.C78_stores_carry_marks",
    "Wastrum.C78_loads_carry_marks",
    "Wastrum.C78_globals_carry_marks",
    "Wastrum.C78_taint"
   ],
   "note": "Static offsets of hooked loads and stores below 2^31; the largest mirror of the memory that can be allocated is a parameter. How marks are carried or lost is stated, from any state of the analysis with a block on its stack, for expressions of constants, local variables, operations and select, their assignment to variables and globals, stores, loads, and for blocks, conditionals and direct calls whose bodies are such expressions."
  },
  {
   "property": "C79",
   "status": "partial",
   "theorems": [
    "Wastrum.C79_wrong_types",
    "Wastrum.C79_unary_partial",
    "Wastrum.C79_truncations",
    "Wastrum.C79_truncations_saturate",
    "Wastrum.C79_nearest",
    "Wastrum.C79_overflow_panics",
    "Wastrum.C79_binary_partial",
    "Wastrum.C79_release_partial",
    "Wastrum.C79_min_max"
   ],
   "note": "False of the code for the trapping truncations, nearest, min, max, and (with overflow checks) for overflowing arithmetic; proved for all other operators and operands, and for these the operands on which the two implementations agree are characterised exactly (min and max: except on zeros of opposite signs, where Rust promises nothing)."
  },
  {
   "property": "C80",
   "status": "proved",
   "theorems": [
    "Wastrum.C80_presents_arguments_and_results",
    "Wastrum.C80_edits_reach_callee_and_caller",
    "Wastrum.C80_zeros_reach_callee_and_caller",
    "Wastrum.C80_wasp_hooks_forward",
    "Wastrum.C80_wasp_analysis_transparent",
    "Wastrum.C80_wasp_resuming_transparent",
    "Wastrum.C80_forward_wasp_mild",
    "Wastrum.C80_call_stack_wasp_mild",
    "Wastrum.C80_reading_looks",
    "Wastrum.C80_idle_wasp_mild",
    "Wastrum.C80_idle_text_transparent",
    "Wastrum.C80_forward_wasp_transparent"
   ],
   "note": "Guest code is a parameter of the model; forward.wasp (its apply advice included: C80_forward_wasp_transparent, for every accepted text with apply advice and this guest code; the text of the file itself is not parsed by the kernel), call_stack.wasp, set_arg_ret_to_zero.wasp and (from their text) call_indirect.wasp and empty.wasp are instances. The zeros and editing theorems assume of the callee's run what C27 establishes (allocator back, lower memory untouched); for whole programs without that assumption: C85. A slot of a 32-bit value read at a 64-bit type gives an unspecified upper half."
  },
  {
   "property": "C81",
   "status": "proved",
   "theorems": [
    "Wastrum.C81_answers_patch_bounds",
    "Wastrum.C81_answers_patch_the_program",
    "Wastrum.C81_alter_answers",
    "Wastrum.C81_alter_patches_the_program",
    "Wastrum.C81_inverted_conditions",
    "Wastrum.C81_shifted_table"
   ],
   "note": "The specification is a program: `Module.patched` inserts the answers' instructions at the hooked places of the target functions. Results, traps and divergence coincide in both directions. Answers are computed by straight-line code that depends on hook, function and instruction only (not on earlier events) and keeps the type; the generic apply hook is not part of it. C81_inverted_conditions and C81_shifted_table say what the inserted instructions of the five altering analyses amount to."
  },
  {
   "property": "C82",
   "status": "proved",
   "theorems": [
    "Wastrum.C82_right_checker_exists",
    "Wastrum.C82_valid_programs_are_instrumented",
    "Wastrum.C82_valid_to_valid",
    "Wastrum.C82_valid_programs_behave_the_same"
   ],
   "note": "The type checker belongs to wasabi_wasm and is a parameter; Checker.Right says what is expected of it and C82_right_checker_exists that the expectation can be met for every module. C82 discharges the hypotheses SmallModule and WellAnnotated of the other theorems for every valid module within limits."
  },
  {
   "property": "C83",
   "status": "proved",
   "theorems": [
    "Wastrum.C83_block_wasp_counts",
    "Wastrum.C83_loop_wasp_counts",
    "Wastrum.C83_call_chain_wasp_counts",
    "Wastrum.C83_wasp_analysis_qualifies",
    "Wastrum.C83_wasp_analysis_hears_the_story",
    "Wastrum.C83_wasp_watcher_qualifies",
    "Wastrum.C83_call_stack_wasp_reports_events",
    "Wastrum.C83_call_stack_wasp_counts"
   ],
   "note": "For any Wasp program and any guest code that only keeps a state of its own; the guest code of the six analyses named is modelled. The allocation of the objects handed to `apply` advice by the AssemblyScript runtime is not modelled."
  },
  {
   "property": "C84",
   "status": "proved",
   "theorems": [
    "Wastrum.C84_signatures_check",
    "Wastrum.C84_signatures_check_wasp",
    "Wastrum.C84_wasp_flag_before_check"
   ],
   "note": "Rust and Wasp: exact condition for the run to get to its end, meaning of the flag; negation: the Wasp flag is set before the last check"
  },
  {
   "property": "C85",
   "status": "proved",
   "theorems": [
    "Wastrum.C85_decisions_govern_calls",
    "Wastrum.C85_scripts_are_followed",
    "Wastrum.C85_edits_are_followed",
    "Wastrum.C85_zeros_are_followed",
    "Wastrum.C85_declined_functions_do_not_run",
    "Wastrum.C85_resuming_is_calling"
   ],
   "note": "Whole-program, both directions, for any Decision the advice follows; Rust and Wasp scripts, edits and set_arg_ret_to_zero are instances. Intercepted functions have no reference types (the tool intercepts no others). Instruction hooks present beside apply are assumed to forward. The description's depth d corresponds to depth 5*d+1 of the instrumented run; a script that goes wrong on types or leaves results unset is outside (ScriptsFit)."
  },
  {
   "property": "C86",
   "status": "proved",
   "theorems": [
    "Wastrum.C86_purity_command",
    "Wastrum.C86_output_read_once",
    "Wastrum.C86_listed_functions_are_pure"
   ],
   "note": "The command as a whole: never panics on well-typed modules, writes exactly the functions to be reported (any iteration order), its text determines the list, a partly written text is no array (main.rs 50 uses write, not write_all), and every function listed is pure. Decoding and the operating system are not modelled; serde_json is trusted to write the compact form."
  },
  {
   "property": "C87",
   "status": "proved",
   "theorems": [
    "Wastrum.C87_command_writes",
    "Wastrum.C87_valid_programs_are_accepted",
    "Wastrum.C87_forwarded_programs_behave_the_same",
    "Wastrum.C87_intercepted_programs_behave_the_same",
    "Wastrum.C87_forwarded_programs_return_the_same",
    "Wastrum.C87_intercepted_programs_return_the_same"
   ],
   "note": "End to end: C87_command_writes (exactly when an output is written, and which modules are merged in which order), C87_valid_programs_are_accepted (iff at most one memory), C87_forwarded_programs_behave_the_same (without generic-apply) and C87_intercepted_programs_behave_the_same (with it, up to the depth the library has room for). Full transparency assumes zero offsets on loads/stores that go through the analysis (see C48: the code is wrong otherwise); with offsets below 2^31, C87_forwarded_programs_return_the_same and C87_intercepted_programs_return_the_same. Reserved export names unused. External tools are parameters."
  },
  {
   "property": "C88",
   "status": "proved",
   "theorems": [
    "Wastrum.C88_command_records_results",
    "Wastrum.C88_command_records_instructions",
    "Wastrum.C88_command_records_calls"
   ],
   "note": "For every selection of hooks and functions and every recording analysis written with the Rust library. Provisos as in C87 (offset 0 for loads and stores through the analysis; the program keeps off the tool's names; with generic-apply, room for the nested frames in the stack library). C88_command_records_results: without generic-apply, offsets below 2^31, up to traps of the original, for analyses that record before or after performing and that may panic. With generic-apply the theorems need offset 0. The original run is the one that notes its instructions and calls (traced, toldCall), which is the program's run by C11 and C76_story_is_of_the_program."
  },
  {
   "property": "C89",
   "status": "proved",
   "theorems": [
    "Wastrum.C89_library_rewrites_all",
    "Wastrum.C89_library_rewrites_memory_accesses",
    "Wastrum.C89_library_rewrites_accesses_with_offsets",
    "Wastrum.C89_library_rewrites",
    "Wastrum.C89_library_rewrites_the_program",
    "Wastrum.C89_rewriting_bounds",
    "Wastrum.C89_performing_others_rewrites_the_program"
   ],
   "note": "C81 extended to replaced operations, in general and for analyses written with the Rust library: its unary and binary advice (SwapThms), and also its load and store advice (SwapAll): exactly when offsets are zero, and up to traps of the rewritten program with offsets below 2^31 (the exported accessors wrap, C19). Examples: multiplications performed as additions; words stored as bytes; halves loaded as bytes."
  },
  {
   "property": "C90",
   "status": "proved",
   "theorems": [
    "Wastrum.C90_reports_extend_the_trace",
    "Wastrum.C90_observing_exact",
    "Wastrum.C90_observing_results"
   ],
   "note": "Analyses in the Rust library that forward; simulation with reports of operands and results. Exact (also for traps) when static offsets of accesses with hooks are 0; for returning runs when below 2^31 (C19)."
  },
  {
   "property": "C91",
   "status": "proved",
   "theorems": [
    "Wastrum.C91_prints_what_happens",
    "Wastrum.C91_prints_results",
    "Wastrum.C91_text_tells_events",
    "Wastrum.C91_same_log_same_events",
    "Wastrum.C91_labels_exchanged",
    "Wastrum.C91_entries_say"
   ],
   "note": "All advice of the logging analysis but apply, which prints addresses. Floating point text is a parameter without commas. The exchanged labels are a finding (C22)."
  },
  {
   "property": "C92",
   "status": "proved",
   "theorems": [
    "Wastrum.C92_equivalent_analyses_interchangeable",
    "Wastrum.C92_order_does_not_matter",
    "Wastrum.C92_same_from_outside",
    "Wastrum.C92_same_module",
    "Wastrum.C92_helper_numbers_vary",
    "Wastrum.C92_apply_numbers_vary"
   ],
   "note": "Interchangeability and the effect of the iteration order are proved for interfaces without generic apply; where the order does show (helper numbers, apply numbers) is proved by witnesses. Imported functions are assumed to agree with themselves on states of the program (EmbeddersAgree), which includes that they return values of their types."
  },
  {
   "property": "C93",
   "status": "proved",
   "theorems": [
    "Wastrum.C93_apply_entries",
    "Wastrum.C93_values_not_shown",
    "Wastrum.C93_entries_tell",
    "Wastrum.C93_observing_transparent",
    "Wastrum.C93_logging_transparent",
    "Wastrum.C93_logging_preserves_results"
   ],
   "note": "C93_apply_entries (the answer of the advice, for every call), C93_entries_tell, C93_values_not_shown (a finding), C93_observing_transparent (any analysis that only looks, calls and results included), C93_logging_transparent (zero static offsets) and C93_logging_preserves_results (offsets below 2^31). The text of whole logs with calls in between is not stated."
  },
  {
   "property": "C94",
   "status": "proved",
   "theorems": [
    "Wastrum.C94_command_tells_results",
    "Wastrum.C94_command_prints",
    "Wastrum.C94_command_logs_calls",
    "Wastrum.C94_command_tells_results_with_offsets",
    "Wastrum.C94_command_prints_with_offsets"
   ],
   "note": "C94_command_tells_results, C94_command_prints (equivalences, without generic-apply, static offsets 0), C94_command_tells_results_with_offsets, C94_command_prints_with_offsets (without generic-apply, offsets below 2^31, up to traps of the original) and C94_command_logs_calls (transparency with generic-apply, in both directions up to a depth the library has room for; offsets 0)."
  },
  {
   "property": "C95",
   "status": "proved",
   "theorems": [
    "Wastrum.C95_command_rewrites_results",
    "Wastrum.C95_command_rewrites"
   ],
   "note": "Without generic-apply (see C91 for that). Loads and stores, if their hooks are selected, with offset zero; with offsets below 2^31 up to traps of the rewritten program (C95_command_rewrites_results)."
  }
 ]
}