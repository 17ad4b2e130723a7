{
 "claims": [
  {
   "property": "C01",
   "status": "proved",
   "theorems": [
    "Redscript.C01_u8",
    "Redscript.C01_u16",
    "Redscript.C01_u32",
    "Redscript.C01_u64",
    "Redscript.C01_bool",
    "Redscript.C01_little_endian",
    "Redscript.C01_array",
    "Redscript.C01_cstr",
    "Redscript.C01_cstr_nul_needed",
    "Redscript.C01_str16",
    "Redscript.C01_str32",
    "Redscript.C01_str16_accepts",
    "Redscript.C01_vec32",
    "Redscript.C01_u32_canonical",
    "Redscript.C01_u16_canonical",
    "Redscript.C01_u64_canonical",
    "Redscript.C01_u32_truncated",
    "Redscript.C01_cstr_truncated"
   ],
   "note": "Round trip for every primitive, with canonical decoding and truncation."
  },
  {
   "property": "C02",
   "status": "proved",
   "theorems": [
    "Redscript.C02_instr_roundtrip",
    "Redscript.C02_instr_encodes",
    "Redscript.C02_target_not_preserved"
   ],
   "note": "All opcodes but the in-memory label marker, for which a witness shows the operand is not written."
  },
  {
   "property": "C03",
   "status": "proved",
   "theorems": [
    "Redscript.C03_code_roundtrip_marked",
    "Redscript.C03_code_roundtrip",
    "Redscript.C03_code_roundtrip_16",
    "Redscript.C03_target_lost"
   ],
   "note": "Both with the 32-bit size bound and in the 16-bit form."
  },
  {
   "property": "C04",
   "status": "proved",
   "theorems": [
    "Redscript.C04_unknown_opcode",
    "Redscript.C04_truncated",
    "Redscript.C04_prefix_free",
    "Redscript.C04_no_lookahead",
    "Redscript.C04_error_stable"
   ],
   "note": ""
  },
  {
   "property": "C05",
   "status": "proved",
   "theorems": [
    "Redscript.C05_offset_roundtrip",
    "Redscript.C05_no_overflow",
    "Redscript.C05_overflow_witness",
    "Redscript.C05_relative_injective"
   ],
   "note": "Wrapping build for all pairs; checked build below 32768 with overflow witness above."
  },
  {
   "property": "C06",
   "status": "proved",
   "theorems": [
    "Redscript.C06_iter",
    "Redscript.C06_iter_next",
    "Redscript.C06_seek",
    "Redscript.C06_seek_invalid",
    "Redscript.C06_seek_rel",
    "Redscript.C06_range"
   ],
   "note": "Iteration positions, absolute and relative seek, range; binary search as an abstract contract with a proved instance."
  },
  {
   "property": "C07",
   "status": "proved",
   "theorems": [
    "Redscript.C07_shape",
    "Redscript.C07_jumps_land",
    "Redscript.C07_unmarked_label"
   ],
   "note": "Includes the excluded case: an unmarked label resolves to position 0."
  },
  {
   "property": "C08",
   "status": "proved",
   "theorems": [
    "Redscript.C08_definition_roundtrip",
    "Redscript.C08_second_cycle",
    "Redscript.C08_injective",
    "Redscript.C08_native_source_dropped"
   ],
   "note": "All nine kinds of definitions, all flag words; consistency side conditions shown necessary by a witness."
  },
  {
   "property": "C09",
   "status": "proved",
   "theorems": [
    "Redscript.C09_save_load",
    "Redscript.C09_resave_identical",
    "Redscript.C09_no_definitions_counterexample"
   ],
   "note": "Includes the failing case of a bundle without definitions."
  },
  {
   "property": "C10",
   "status": "proved",
   "theorems": [
    "Redscript.C10_header_describes_tables",
    "Redscript.C10_string_entries",
    "Redscript.C10_definition_entries",
    "Redscript.C10_load_ignores_checksums"
   ],
   "note": "Checksum function arbitrary."
  },
  {
   "property": "C11",
   "status": "proved",
   "theorems": [
    "Redscript.C11_add_reads_back",
    "Redscript.C11_add_keeps",
    "Redscript.C11_add_again",
    "Redscript.C11_indexes_differ",
    "Redscript.C11_get_index",
    "Redscript.C11_empty_names_counterexample"
   ],
   "note": "Entry 0 of a table with a default must be that default; witness that an empty name table fails."
  },
  {
   "property": "C12",
   "status": "proved",
   "theorems": [
    "Redscript.C12_add",
    "Redscript.C12_put",
    "Redscript.C12_rename",
    "Redscript.C12_swap",
    "Redscript.C12_swap_twice",
    "Redscript.C12_history",
    "Redscript.C12_iteration"
   ],
   "note": ""
  },
  {
   "property": "C13",
   "status": "proved",
   "theorems": [
    "Redscript.C13_renames_exactly",
    "Redscript.C13_views_determine",
    "Redscript.C13_inverse",
    "Redscript.C13_sizes_kept",
    "Redscript.C13_finite_inverse"
   ],
   "note": ""
  },
  {
   "property": "C14",
   "status": "proved",
   "theorems": [
    "Redscript.C14_roundtrip",
    "Redscript.C14_reprint",
    "Redscript.C14_injective",
    "Redscript.C14_two_arguments_counterexample"
   ],
   "note": "Two-argument types share storage forms; witness."
  },
  {
   "property": "C15",
   "status": "partial",
   "theorems": [
    "Redscript.C15_type_mangling",
    "Redscript.C15_name",
    "Redscript.C15_overloads_partial",
    "Redscript.C15_same_declaration",
    "Redscript.C15_concatenation_counterexample"
   ],
   "note": "Missing: the unrestricted statement, which is false (witness); proved for prefix-free parameter renderings."
  },
  {
   "property": "C16",
   "status": "proved",
   "theorems": [
    "Redscript.C16_roundtrip",
    "Redscript.C16_function_path",
    "Redscript.C16_injective",
    "Redscript.C16_empty_counterexample"
   ],
   "note": "Empty path excluded; witness."
  },
  {
   "property": "C17",
   "status": "proved",
   "theorems": [
    "Redscript.C17_tables_well_formed",
    "Redscript.C17_add_function_accumulates",
    "Redscript.C17_import_never_brings_hidden",
    "Redscript.C17_import_brings_all_visible",
    "Redscript.C17_import_keeps_other_names",
    "Redscript.C17_import_keeps_overloads",
    "Redscript.C17_unresolved_is_an_error"
   ],
   "note": "Symbol tables as association lists with unique keys; all import forms; visibility levels; overload accumulation."
  },
  {
   "property": "C18",
   "status": "proved",
   "theorems": [
    "Redscript.C18_position_maps_to_its_file",
    "Redscript.C18_past_the_end",
    "Redscript.C18_ranges_partition"
   ],
   "note": "for any binary search meeting the documented contract; total size at most 4 GiB"
  },
  {
   "property": "C19",
   "status": "proved",
   "theorems": [
    "Redscript.C19_line_and_column",
    "Redscript.C19_column_spec",
    "Redscript.C19_span_location",
    "Redscript.C19_lines_spec",
    "Redscript.C19_enclosing_line"
   ],
   "note": "positions at character boundaries (others panic in Rust); total size below 4 GiB"
  },
  {
   "property": "C20",
   "status": "proved",
   "theorems": [
    "Redscript.C20_value_is_truth",
    "Redscript.C20_value_iff_supported",
    "Redscript.C20_kept_iff_all_true",
    "Redscript.C20_keeps_enabled_in_order"
   ],
   "note": "All expressions, module sets and annotation lists."
  },
  {
   "property": "C21",
   "status": "proved",
   "theorems": [
    "Redscript.C21_found_iff_allowed",
    "Redscript.C21_answers",
    "Redscript.C21_deterministic",
    "Redscript.C21_identity_transitive",
    "Redscript.C21_identity_antisymmetric"
   ],
   "note": "All types and acyclic hierarchies; conversions equivalent to an inductive relation."
  },
  {
   "property": "C22",
   "status": "partial",
   "theorems": [
    "Redscript.C22_upper_bound_partial",
    "Redscript.C22_both_convert",
    "Redscript.C22_null_weak_counterexample",
    "Redscript.C22_least",
    "Redscript.C22_fails_only_without_common",
    "Redscript.C22_symmetric"
   ],
   "note": "Least upper bound, symmetry and failure proved; identity conversion fails for null with a weak reference (counterexample)."
  },
  {
   "property": "C23",
   "status": "proved",
   "theorems": [
    "Redscript.C23_chosen_is_first_applicable",
    "Redscript.C23_strict_is_silent",
    "Redscript.C23_failure_means_none_applicable"
   ],
   "note": "Arguments abstract (type may depend on the expected type); strict and permissive mode."
  },
  {
   "property": "C24",
   "status": "proved",
   "theorems": [
    "Redscript.C24_innermost_declaration",
    "Redscript.C24_blocks_do_not_leak",
    "Redscript.C24_nearest_field",
    "Redscript.C24_missing_field",
    "Redscript.C24_methods_nearest_first"
   ],
   "note": "Scoping of values in all statement forms (conversions and types erased), parameters and locals; field and method lookup over acyclic hierarchies."
  },
  {
   "property": "C25",
   "status": "partial",
   "theorems": [
    "Redscript.C25_generated_code_reads_back_partial",
    "Redscript.C25_code_determines_the_expression_partial",
    "Redscript.C25_intrinsics_keep_their_name",
    "Redscript.C25_numbers_are_kept",
    "Redscript.C25_super_counterexample"
   ],
   "note": "Proved for every expression of any depth and any surrounding code (decompiler reader over the assembler's output, list of names from the pool): the reader stops exactly behind the code and rebuilds the tree; equal code means equal trees. Missing: super is read as this (C25_super_counterexample: this.Go() and super.Go() of a final method compile to the same code), so the full claim is false."
  },
  {
   "property": "C26",
   "status": "partial",
   "theorems": [
    "Redscript.C26_compiled_body_runs_like_the_source_partial",
    "Redscript.C26_runs_forever_like_the_source_partial",
    "Redscript.C26_outcome_unique"
   ],
   "note": "Full agreement of compiled code and source, both directions, for every interpretation of operations; uniqueness of the outcome and equal divergence. Missing: bodies with a switch whose last case is empty or with a case ending in a switch without default that is followed by another case; C28 counterexamples show these are miscompiled. The virtual machine is a specification (the game's machine is not in the repository)."
  },
  {
   "property": "C27",
   "status": "partial",
   "theorems": [
    "Redscript.C27_stray_break_rejected",
    "Redscript.C27_break_leaves_the_loop_partial",
    "Redscript.C27_break_leaves_the_switch_partial"
   ],
   "note": "Stray breaks are rejected for all bodies. A break in a loop or switch continues right behind it for bodies within the switch restriction of C26; switches additionally need that what follows is not a case label."
  },
  {
   "property": "C28",
   "status": "partial",
   "theorems": [
    "Redscript.C28_last_case_empty_counterexample",
    "Redscript.C28_nested_switch_counterexample",
    "Redscript.C28_switch_runs_the_selected_cases_partial",
    "Redscript.C28_selects_the_first_match",
    "Redscript.C28_empty_case_shares_the_next_body"
   ],
   "note": "Selection, fall-through and default for all switches whose last case is not empty and with no inner default-less switch before another case; counterexamples for both excluded shapes."
  },
  {
   "property": "C29",
   "status": "proved",
   "theorems": [
    "Redscript.C29_call_has_one_group_per_parameter",
    "Redscript.C29_method_call_has_one_group_per_parameter",
    "Redscript.C29_surplus_arguments_rejected",
    "Redscript.C29_call_receives_the_values"
   ],
   "note": "Position-level description of call code (one group per parameter, skip target right behind the argument), rejection of surplus arguments, and the values received by the callee."
  },
  {
   "property": "C30",
   "status": "proved",
   "theorems": [
    "Redscript.C30_for_in_visits_every_element_once_in_order"
   ],
   "note": "Any array expression and any body over the variables of the source; the operations desugaring emits have the meaning stated in DsWorld.Laws. The specification (ForEach) evaluates the desugared array once and runs the desugared body for each element; endings agree on all variables but those added for the loop."
  },
  {
   "property": "C31",
   "status": "proved",
   "theorems": [
    "Redscript.C31_array_literals_hold_their_elements",
    "Redscript.C31_interpolated_strings_join_their_parts"
   ],
   "note": "Literals of any length whose elements are expressions (no statement blocks, which the parser cannot put there). The set-up of elements is covered by the same theorems, so nesting is covered by applying them again. Operations have the meaning stated in DsWorld.Laws."
  },
  {
   "property": "C32",
   "status": "partial",
   "theorems": [
    "Redscript.C32_desugaring_preserves_evaluation_partial",
    "Redscript.Toy.C32_operand_order_counterexample",
    "Redscript.Toy.C32_conditional_counterexample",
    "Redscript.Toy.C32_loop_condition_counterexample",
    "Redscript.Toy.C32_case_label_counterexample"
   ],
   "note": "Proved for bodies whose literals stand where moving their set-up in front of the statement keeps the order of evaluation (Tame). It is false of the code elsewhere: counterexamples for an operand evaluated before a literal, an untaken branch of a conditional, a loop condition and a case label."
  },
  {
   "property": "C33",
   "status": "partial",
   "theorems": [
    "Redscript.C33_accepted_returns_partial",
    "Redscript.C33_exact_without_switch",
    "Redscript.C33_only_functions_with_result",
    "Redscript.C33_switch_without_default_counterexample",
    "Redscript.C33_break_counterexample"
   ],
   "note": "Proved that an accepted body returns on every path when, outside of loops, every switch has a default and there is no break; exact without switches. Switches without default and breaks are counterexamples."
  },
  {
   "property": "C34",
   "status": "proved",
   "theorems": [
    "Redscript.C34_fallthrough_exact",
    "Redscript.C34_fallthrough_in_source_order",
    "Redscript.C34_unused_exact",
    "Redscript.C34_unused_in_source_order"
   ],
   "note": ""
  },
  {
   "property": "C35",
   "status": "proved",
   "theorems": [
    "Redscript.C35_warnings_first",
    "Redscript.C35_success_iff_no_fatal",
    "Redscript.C35_failure_lists_fatal",
    "Redscript.C35_aborted_is_failure"
   ],
   "note": "Logging and messages not modelled."
  },
  {
   "property": "C36",
   "status": "proved",
   "theorems": [
    "Redscript.C36_calls_stay_valid",
    "Redscript.C36_wrappers_nest",
    "Redscript.C36_call_runs_the_last_wrapper",
    "Redscript.C36_original_is_kept",
    "Redscript.C36_others_are_unaffected",
    "Redscript.C36_other_functions_are_unaffected",
    "Redscript.C36_wrapper_is_dispatched_to",
    "Redscript.C36_original_is_dispatched_to"
   ],
   "note": "Declaration bookkeeping, proxies, installed bodies and the exchange are modelled in full; other declarations in between may do anything OtherWork allows (indexes, names, class members stay; no new names with a $). Hash maps are iterated in any order. A call to a wrapped function runs code that calls the last wrapper with the same arguments and returns its result; each wrapper wraps the one before it, the first the slot of the original; the name each of these is called by is dispatched to it on every descendant of its class; the original keeps its code up to a one-to-one renaming of its copied locals; everything else stays. That wrappedMethod in a wrapper's body denotes the wrapped index is read off unit.rs:989-992, not modelled. Excluded: a method with the mangled name None."
  },
  {
   "property": "C37",
   "status": "proved",
   "theorems": [
    "Redscript.C37_classes_follow_their_bases"
   ],
   "note": "Proved of the whole reordering: it ends, every class is then behind its base, the pool is the old one with its classes renumbered by a permutation, and a pool in order is left as it is. Class indexes in the map of source references are renumbered too."
  },
  {
   "property": "C38",
   "status": "proved",
   "theorems": [
    "Redscript.C38_rejected_iff_forbidden_inside"
   ],
   "note": "All type names."
  },
  {
   "property": "C39",
   "status": "partial",
   "theorems": [
    "Redscript.C39_subtraction_counterexample",
    "Redscript.C39_division_counterexample",
    "Redscript.C39_receiver_counterexample",
    "Redscript.C39_prefix_receiver_counterexample",
    "Redscript.C39_conditional_counterexample",
    "Redscript.C39_conversion_counterexample",
    "Redscript.C39_comparison_counterexample",
    "Redscript.C39_operator_trees_read_back",
    "Redscript.C39_printed_expressions_read_back_partial"
   ],
   "note": "Proved for every expression printsSafely describes (operators, calls with type arguments, casts, conditionals, assignments, members, elements, method calls, new, string/bool/integer constants, any depth): the printed text parses, in front of any end of expression, to the meaning of the expression. The full statement is false; seven theorems show expressions read as something else (nested subtraction, a*(b/c), receivers, conditional operands, unwritten conversions, comparisons read as generic calls). Not covered: floats, U64 constants, expressions the printer leaves ambiguous. C39_operator_trees_read_back states the result for trees of variables and operators with the cases listed independently of the printer."
  },
  {
   "property": "C40",
   "status": "proved",
   "theorems": [
    "Redscript.C40_strings_read_back",
    "Redscript.C40_string_constants_read_back"
   ],
   "note": "For every string over all Unicode scalar values, every kind of string constant and every text that follows. escape_default of the Rust library is modelled from its documentation."
  },
  {
   "property": "C41",
   "status": "partial",
   "theorems": [
    "Redscript.C41_original_is_kept_partial",
    "Redscript.C41_backup_is_the_original_partial",
    "Redscript.C41_second_run_interrupted_counterexample",
    "Redscript.C41_update_after_failed_run_counterexample",
    "Redscript.C41_separate_after_interrupted_counterexample"
   ],
   "note": "False in general: three counterexample histories (a later in-place run interrupted while writing; the game updated after a first run that failed to compile, no crash needed; a separate-output run after an interrupted first run). Proved by an invariant over all histories of runs (cut at any point) and updates that avoid these situations, as listed in Permitted."
  },
  {
   "property": "C42",
   "status": "partial",
   "theorems": [
    "Redscript.C42_input_unsigned",
    "Redscript.C42_output_signed",
    "Redscript.C42_compiles_against_the_original_partial",
    "Redscript.C42_reruns_share_the_input"
   ],
   "note": "Input unsigned, output signed and never used as input: proved for all states. Reruns compile against the same bundle: proved for any number of complete runs with any scripts from any initial state; interrupted runs in between are covered only under the conditions of Permitted (see C41)."
  },
  {
   "property": "C43",
   "status": "proved",
   "theorems": [
    "Redscript.C43_copy_in_bounds",
    "Redscript.C43_zero_size_counterexample"
   ],
   "note": "Release profile (wrapping subtraction); zero-sized buffer shown to be written out of bounds, as the statement says."
  },
  {
   "property": "C44",
   "status": "proved",
   "theorems": [
    "Redscript.C44_first_applicable",
    "Redscript.C44_code_order_irrelevant"
   ],
   "note": "Directory reading and TOML parsing not modelled."
  },
  {
   "property": "C45",
   "status": "proved",
   "theorems": [
    "Redscript.C45_never_panics",
    "Redscript.C45_no_quotes_unchanged",
    "Redscript.C45_result_clean",
    "Redscript.C45_recovers_two_escaped_paths",
    "Redscript.C45_recovers_one_escaped_path",
    "Redscript.C45_second_path_without_space_counterexample"
   ],
   "note": "All argument lists."
  },
  {
   "property": "C46",
   "status": "partial",
   "theorems": [
    "Redscript.C46_statements_kept",
    "Redscript.C46_declared_once",
    "Redscript.C46_declared_before_use_partial",
    "Redscript.C46_read_before_set_counterexample"
   ],
   "note": "Statement order, single declaration and assignments proved in full. Declaration before use proved for bodies that do not mention a local before the opening assignment that sets it; otherwise false, counterexample proved."
  },
  {
   "property": "C47",
   "status": "proved",
   "theorems": [
    "Redscript.C47_comments_nest",
    "Redscript.C47_comments_are_blank"
   ],
   "note": "The grammar rule equals a left-to-right scan that counts open comments, for all texts and depths; the blanks rule skips it."
  },
  {
   "property": "C48",
   "status": "partial",
   "theorems": [
    "Redscript.C48_integer_literals",
    "Redscript.C48_integers_read_back_partial",
    "Redscript.C48_u64_counterexample"
   ],
   "note": "Literals: proved for all digit strings, signs, suffixes and followers. Printing: proved for signed and 32-bit unsigned constants and truth values; false for unsigned 64-bit constants (counterexample for every value); floats are not modelled."
  },
  {
   "property": "C49",
   "status": "partial",
   "theorems": [
    "Redscript.C49_total",
    "Redscript.C49_second_time_adds_nothing",
    "Redscript.C49_reads_back_partial",
    "Redscript.C49_indexes_differ",
    "Redscript.C49_last_segment_counterexample",
    "Redscript.C49_static_array_counterexample"
   ],
   "note": "Proved for references, weak references, script references and arrays over named types the scope knows by the last part of their name; counterexamples for same-named classes in modules and fixed-size arrays."
  },
  {
   "property": "C50",
   "status": "proved",
   "theorems": [
    "Redscript.C50_written_is_read_back",
    "Redscript.C50_last_write_wins",
    "Redscript.C50_none_iff_empty",
    "Redscript.C50_write_length"
   ],
   "note": "File contents as bytes; host I/O errors not modelled."
  },
  {
   "property": "C51",
   "status": "proved",
   "theorems": [
    "Redscript.C51_size_layout",
    "Redscript.C51_body_layout"
   ],
   "note": ""
  },
  {
   "property": "C52",
   "status": "proved",
   "theorems": [
    "Redscript.C52_invalid_temporary_exact",
    "Redscript.C52_invalid_temporary_in_source_order"
   ],
   "note": ""
  },
  {
   "property": "C53",
   "status": "partial",
   "theorems": [
    "Redscript.C53_marks_references_to_temporaries_partial",
    "Redscript.C53_seventeenth_argument_counterexample"
   ],
   "note": "Proved up to sixteen arguments (functions); counterexample with seventeen."
  },
  {
   "property": "C54",
   "status": "partial",
   "theorems": [
    "Redscript.C54_modules_crash_only_at_bad_escapes_partial",
    "Redscript.C54_surrogate_escape_counterexample",
    "Redscript.C54_only_bad_escapes_crash_partial"
   ],
   "note": "False: counterexample \\u{d800}. Proved that a crash, of a literal and of a whole module, implies such an escape sequence in the text."
  },
  {
   "property": "C55",
   "status": "proved",
   "theorems": [
    "Redscript.C55_booleans_are_whole_words",
    "Redscript.C55_strings_are_quoted"
   ],
   "note": "Proved for the rule that reads constants."
  },
  {
   "property": "C56",
   "status": "partial",
   "theorems": [
    "Redscript.C56_accepted_is_well_typed_partial",
    "Redscript.C56_case_counterexample",
    "Redscript.C56_null_counterexample"
   ],
   "note": "Proved for all bodies and declarations against inductive typing rules, except that the labels of a switch may have any type, and that a null beside a weak reference in a conditional stays unconverted; both are shown to fail by counterexamples."
  },
  {
   "property": "C57",
   "status": "proved",
   "theorems": [
    "Redscript.C57_only_names_and_conversions",
    "Redscript.C57_own_local_for_every_declaration",
    "Redscript.C57_calls_keep_their_names"
   ],
   "note": ""
  },
  {
   "property": "C58",
   "status": "proved",
   "theorems": [
    "Redscript.C58_permissive_accepts_what_strict_accepts",
    "Redscript.C58_permissive_reports_what_strict_rejects"
   ],
   "note": ""
  },
  {
   "property": "C59",
   "status": "partial",
   "theorems": [
    "Redscript.C59_required_parameters_are_given_partial",
    "Redscript.C59_required_counterexample"
   ],
   "note": "Proved for functions whose optional parameters come last; a counterexample shows that a required parameter behind an optional one can be left out."
  },
  {
   "property": "C60",
   "status": "proved",
   "theorems": [
    "Redscript.C60_declarations_touch_only_what_they_name",
    "Redscript.C60_declarations_keep_names",
    "Redscript.C60_plain_sources_change_nothing"
   ],
   "note": "both loops of the declaration phase"
  },
  {
   "property": "C61",
   "status": "proved",
   "theorems": [
    "Redscript.C61_declarations_reach_the_pool"
   ],
   "note": "types are compared by name; hypotheses: names table read from a file, listed methods exist, reference and array types named after their contents, fewer than 2^32 definitions and names"
  },
  {
   "property": "C62",
   "status": "partial",
   "theorems": [
    "Redscript.C62_added_members_have_their_visibility",
    "Redscript.C62_members_have_their_visibility_partial",
    "Redscript.DeclDemo.C62_member_visibility_counterexample"
   ],
   "note": "false for members in class bodies (counterexample); proved for everything declared outside class bodies and for members written with the visibility of their class"
  },
  {
   "property": "C63",
   "status": "proved",
   "theorems": [
    "Redscript.C63_names_come_from_declarations",
    "Redscript.C63_bodies_see_their_module"
   ],
   "note": "Scopes of bodies and defaults relative to the table of names (in IsDeclared, C61), and what is in that table."
  },
  {
   "property": "C64",
   "status": "partial",
   "theorems": [
    "Redscript.C64_printed_statements_read_back_partial",
    "Redscript.C64_goto_counterexample",
    "Redscript.C64_nested_statements_counterexample"
   ],
   "note": "Proved for all statements stmtSafe describes (declarations, if/else, while, switch with any labels that do not start with a parenthesis, an exclamation mark or the minus of a compound expression, return, break, expression statements not starting with a statement keyword; nested to any depth). Two counterexamples: unresolved jumps (goto) and sequences nested without a block. Missing: for-in, array literals and interpolated strings, which the printer cannot print, and expressions outside printsSafely (C39)."
  },
  {
   "property": "C65",
   "status": "partial",
   "theorems": [
    "Redscript.C65_printed_definitions_read_back_partial",
    "Redscript.C65_printed_bundles_read_back_partial",
    "Redscript.C65_inline_field_counterexample",
    "Redscript.C65_static_array_counterexample",
    "Redscript.C65_default_counterexample",
    "Redscript.C65_derived_struct_counterexample",
    "Redscript.C65_large_enum_counterexample"
   ],
   "note": "Proved for lists of definitions of any length that stand for declarations (names are words, types are printed as type names, bodies are printed safely). Counterexamples for what is printed as text the parser rejects: inline fields, static arrays, defaults, derived structs, enum values beyond 32 bits."
  },
  {
   "property": "C66",
   "status": "partial",
   "theorems": [
    "Redscript.C66_files_of_a_bundle",
    "Redscript.C66_files_exist",
    "Redscript.C66_printed_once_partial",
    "Redscript.C66_same_files_partial",
    "Redscript.C66_files_read_back_partial",
    "Redscript.C66_two_files_counterexample",
    "Redscript.C66_lost_function_counterexample",
    "Redscript.C66_same_path_counterexample",
    "Redscript.C66_same_line_counterexample"
   ],
   "note": "What is in which file, in which order, and when the tool stops are proved for all bundles and hash orders. That every definition is written exactly once is false; proved as an equivalence. That runs agree is proved if paths and lines differ. Counterexamples for each missing part."
  },
  {
   "property": "C67",
   "status": "partial",
   "theorems": [
    "Redscript.C67_read_bodies_are_statements",
    "Redscript.C67_assembled_bodies_have_the_right_shape",
    "Redscript.C67_code_does_what_the_text_says_partial",
    "Redscript.C67_plain_code_does_what_the_text_says_partial"
   ],
   "note": "Proved with the conditions under which the single phases are right: switches with a body in their last case (source level), array literals only where their order is kept (none for bodies without sugar), code with 16-bit offsets, no struct with 256 fields or more. Without these the claim is false (C26, C28, C32 counterexamples). Overflow of names and scopes: the names in scope are a parameter; how they come about is C61-C63."
  },
  {
   "property": "C68",
   "status": "proved",
   "theorems": [
    "Redscript.C68_reading_a_module_ends",
    "Redscript.C68_the_answer_is_the_same",
    "Redscript.C68_every_text_is_read_or_rejected",
    "Redscript.C68_what_is_left_is_the_end_of_the_text",
    "Redscript.C68_parsing_is_settled",
    "Redscript.C68_reading_an_expression_ends",
    "Redscript.C68_reading_statements_ends"
   ],
   "note": "Four steps for each character are enough for a module, and no answer depends on the number of steps. The depth of the call stack is not modelled."
  },
  {
   "property": "C69",
   "status": "proved",
   "theorems": [
    "Redscript.C69_read_files_survive",
    "Redscript.C69_later_files_are_identical",
    "Redscript.C69_written_files_are_described",
    "Redscript.C69_presence_flags_counterexample"
   ],
   "note": "For files below 2 GiB whose rewritten form is below 4 GiB (overlapping strings can make the new file longer than the old one). That presence flags may change is shown by C69_presence_flags_counterexample; C03 and C08 now also cover label markers that a file can hold."
  },
  {
   "property": "C70",
   "status": "partial",
   "theorems": [
    "Redscript.C70_field_counterexample",
    "Redscript.C70_variant_counterexample",
    "Redscript.C70_double_counterexample",
    "Redscript.C70_negative_number_is_rejected",
    "Redscript.C70_defaults_are_recorded",
    "Redscript.C70_other_values_are_rejected",
    "Redscript.C70_defaults_fit_partial",
    "Redscript.C70_text_tells_the_value_partial"
   ],
   "note": "Recording, rejection and types are proved for all pools and values; the text tells the value except for variants and floats given to doubles. Counterexamples: the field of a class is accepted as a default (C70_field_counterexample), a variant gets a text and a number that are recorded alike (C70_variant_counterexample), 0.1 and 0.1d are recorded alike for a Double (C70_double_counterexample). Printing of floats is a parameter."
  },
  {
   "property": "C71",
   "status": "partial",
   "theorems": [
    "Redscript.C71_structure_is_recovered_partial",
    "Redscript.C71_shown_body_is_the_same_program",
    "Redscript.C71_decompiled_body_runs_like_the_code_partial",
    "Redscript.C71_lost_statements_counterexample",
    "Redscript.C71_nested_switch_counterexample"
   ],
   "note": "Proved for bodies that are tidy (loops can go on, nothing behind a return or break, the end of each switch can be found): the decompiler succeeds, shows the body that shownBody gives, and that body runs exactly like the compiled code. shownBody is proved to be the same program for all bodies. Counterexamples: a loop whose body always leaves it, and a switch without default at the end of the last case of another one."
  },
  {
   "property": "C72",
   "status": "partial",
   "theorems": [
    "Redscript.DeclDemo.C72_field_declared_twice_counterexample",
    "Redscript.DeclDemo.C72_enum_over_a_class_counterexample",
    "Redscript.DeclDemo.C72_function_declared_twice_counterexample",
    "Redscript.DeclDemo.C72_field_added_above_counterexample",
    "Redscript.C72_added_fields_have_new_names_partial",
    "Redscript.C72_added_methods_have_new_signatures_partial",
    "Redscript.C72_class_declared_twice_is_reported_partial",
    "Redscript.C72_class_of_the_bundle_redeclared_is_reported_partial",
    "Redscript.C72_reported_redefinitions_are_real"
   ],
   "note": "Added fields, added methods and redefined classes are proved for all sources; counterexamples: fields of a class declared twice, enum over a class, global functions with one signature, a field added above one of the same name."
  },
  {
   "property": "C73",
   "status": "proved",
   "theorems": [
    "Redscript.C73_wrappers_of_a_program"
   ],
   "note": "The hypotheses: names of functions in the sources have no $ and are not None (the parser gives no other), the classes of the pool list functions with parameters, and everything fits. What happens between the declarations and the end is given as the steps of WrapFinish; that the locals of wrapped functions are locals is part of them."
  },
  {
   "property": "C74",
   "status": "proved",
   "theorems": [
    "Redscript.C74_programs_are_compiled",
    "Redscript.C74_functions_have_their_own_code",
    "Redscript.C74_other_functions_are_kept",
    "Redscript.C74_wrapped_functions_have_their_own_code",
    "Redscript.C74_bodies_are_compiled_as_text"
   ],
   "note": "For a compilation without errors and conflicts: the run is the one CompileRun describes (bodies checked, desugared, assembled and installed at their own indexes; wrappers as in C36/C73; classes renumbered as in C37). What checker, desugaring and assembler ask of the pool is a parameter that may only add to the pool (Back.Laws); C67 gives the meaning of the code. Class hierarchies are acyclic (hypothesis; see C37)."
  },
  {
   "property": "C75",
   "status": "partial",
   "theorems": [
    "Redscript.DeclDemo.C75_two_wrapped_functions_counterexample",
    "Redscript.DeclDemo.C75_two_locals_counterexample",
    "Redscript.C75_every_run_gives_the_same_partial",
    "Redscript.C75_without_wrappers"
   ],
   "note": "The full statement is false: C75_two_wrapped_functions_counterexample and C75_two_locals_counterexample. Proved for sources without wrappers and for sources that wrap one function with at most one local."
  },
  {
   "property": "C76",
   "status": "proved",
   "theorems": [
    "Redscript.C76_functions_record_their_place"
   ],
   "note": "The place of a declaration is taken as given: that positions are mapped to files and lines correctly is the subject of C18 and C19. Native functions have the reference in the pool; the encoding leaves it out for them, as the format demands."
  },
  {
   "property": "C77",
   "status": "partial",
   "theorems": [
    "Redscript.C77_printed_body_is_the_program_partial",
    "Redscript.C77_same_name_counterexample",
    "Redscript.C77_compiled_locals_counterexample"
   ],
   "note": "Full claim false: C77_compiled_locals_counterexample (for every function with a local that the compiler compiled, no text is read as a block that declares the local, since its name contains a dollar sign), C77_same_name_counterexample. Proved for every function of any bundle whose locals have distinct readable names, of the shape of C71, whose text is of the shape of C64: the printed body is read as the declarations of the locals and the statements of a program that runs exactly like the code."
  },
  {
   "property": "C78",
   "status": "proved",
   "theorems": [
    "Redscript.C78_diagnostic_shows_its_place",
    "Redscript.C78_marker_is_below_the_piece"
   ],
   "note": "Proved for every piece of every file; where the spans of diagnostics come from is not part of it (spans are erased in the checker's model)."
  },
  {
   "property": "C79",
   "status": "partial",
   "theorems": [
    "Redscript.C79_report_lists_the_mods",
    "Redscript.C79_only_mods_with_errors",
    "Redscript.C79_syntax_hints_counterexample"
   ],
   "note": "Mods, hints and warnings proved for all diagnostics and hash orders. Full claim false: hints for SYNTAX_ERR and CTE_ERR are never shown (C79_syntax_hints_counterexample), since compile_and_report replaces these codes by OTHER."
  },
  {
   "property": "C80",
   "status": "partial",
   "theorems": [
    "Redscript.C80_other_function_counterexample",
    "Redscript.C80_wrapped_method_is_what_is_wrapped_partial"
   ],
   "note": "Proved for all bodies whose scope has no other function named wrappedMethod; with one the full claim is false (C80_other_function_counterexample: it is called instead and nothing is reported). The checker's environment is assumed lawful as in C56/C57."
  },
  {
   "property": "C81",
   "status": "proved",
   "theorems": [
    "Redscript.C81_references_tell_the_declarations"
   ],
   "note": "The position of a reference is taken as the file and line that the source map finds for it (that positions are mapped correctly is the subject of C18 and C19); for a position outside all files nothing is claimed. The name of a wrapper is left open in the statement. Concrete case: Unit/SourceRefsExample."
  },
  {
   "property": "C82",
   "status": "proved",
   "theorems": [
    "Redscript.C82_nothing_else_changes",
    "Redscript.C82_declarations_change_nothing"
   ],
   "note": "Statement over the declaration model and the back end of C74 (CleanCompile); renumbering as in C37. Which code a replaced or wrapped function has is C74, C36. Concrete cases: Unit/CompileRestExample (a wrapper with added members; sources that only declare)."
  },
  {
   "property": "C83",
   "status": "partial",
   "theorems": [
    "Redscript.CliDemo.C83_exit_status_counterexample",
    "Redscript.CliDemo.C83_output_lost_counterexample",
    "Redscript.C83_saved_output_reads_back_partial",
    "Redscript.C83_failed_build_changes_nothing",
    "Redscript.C83_compiled_sources_are_saved",
    "Redscript.C83_only_the_output_changes",
    "Redscript.C83_lint_agrees_with_compile"
   ],
   "note": "Proved: what a saved output reads back as (if what was compiled can be in a file), that compiled sources are saved, that failed builds and other paths change nothing, and that linting agrees with compiling. Full claim is false: a failed build exits with success (C83_exit_status_counterexample), and the old output is lost when the compiled bundle cannot be written (C83_output_lost_counterexample)."
  },
  {
   "property": "C84",
   "status": "partial",
   "theorems": [
    "Redscript.C84_sources_are_the_scripts",
    "Redscript.C84_reading_fails_partial",
    "Redscript.C84_directory_counterexample",
    "Redscript.C84_missing_directory_counterexample",
    "Redscript.C84_overlap_counterexample"
   ],
   "note": "Proved: which files are read, each once per given path, and when reading fails. The full claim is false: a directory with the name of a script makes reading fail (C84_directory_counterexample), a missing path is read as empty (C84_missing_directory_counterexample), overlapping paths give a script twice (C84_overlap_counterexample)."
  },
  {
   "property": "C85",
   "status": "partial",
   "theorems": [
    "Redscript.C85_launch_compiles_the_paths_partial",
    "Redscript.C85_without_paths_file",
    "Redscript.C85_scripts_directory_counterexample",
    "Redscript.C85_unreadable_paths_counterexample"
   ],
   "note": "Proved for scripts directories called scripts and readable files. Both restrictions are needed: C85_scripts_directory_counterexample, C85_unreadable_paths_counterexample."
  },
  {
   "property": "C86",
   "status": "partial",
   "theorems": [
    "Redscript.C86_preparing_overwrites_nothing",
    "Redscript.C86_first_run_uses_the_original_partial",
    "Redscript.C86_default_cache_is_left",
    "Redscript.C86_stale_backup_counterexample"
   ],
   "note": "Proved for the bundle that the default cache holds as unmodified. That it is the one of the current version of the game is false: C86_stale_backup_counterexample."
  },
  {
   "property": "C87",
   "status": "partial",
   "theorems": [
    "Redscript.C87_one_line_per_instruction",
    "Redscript.C87_jumps_shown_partial",
    "Redscript.C87_long_jump_counterexample"
   ],
   "note": "Proved for functions below 32 KiB. From there it is false: C87_long_jump_counterexample."
  },
  {
   "property": "C88",
   "status": "partial",
   "theorems": [
    "Redscript.C88_hints_of_the_directory_partial",
    "Redscript.C88_no_directory",
    "Redscript.C88_broken_file_counterexample",
    "Redscript.C88_order_counterexample"
   ],
   "note": "Proved for directories in which every hint file can be read. Otherwise it is false: C88_broken_file_counterexample; the choice between files depends on the order of the directory: C88_order_counterexample."
  },
  {
   "property": "C89",
   "status": "partial",
   "theorems": [
    "Redscript.C89_launch_depends_on_its_files",
    "Redscript.C89_launches_do_not_disturb_partial",
    "Redscript.C89_same_backup_iff",
    "Redscript.C89_caches_are_separate_partial",
    "Redscript.C89_shared_backup_counterexample"
   ],
   "note": "Proved for caches in different directories. In one directory it is false: C89_shared_backup_counterexample."
  },
  {
   "property": "C90",
   "status": "proved",
   "theorems": [
    "Redscript.C90_only_these_files",
    "Redscript.C90_first_launch",
    "Redscript.C90_later_launch",
    "Redscript.C90_names_are_distinct",
    "Redscript.C90_in_place_is_distinct"
   ],
   "note": "For caches whose files have different paths (SccSettings.Distinct); later launches are those in place."
  },
  {
   "property": "C91",
   "status": "proved",
   "theorems": [
    "Redscript.C91_first_launch_in_place",
    "Redscript.C91_launches_of_a_new_game",
    "Redscript.C91_refused_launch_changes_nothing",
    "Redscript.C91_launches_in_place",
    "Redscript.C91_launch_to_another_file",
    "Redscript.C91_launches_to_another_file",
    "Redscript.C91_names_are_apart",
    "Redscript.C91_launch_after_update"
   ],
   "note": "For launches that compile and save or refuse their scripts; what goes wrong when saving fails or a launch is interrupted is in C41."
  },
  {
   "property": "C92",
   "status": "proved",
   "theorems": [
    "Redscript.C92_settings_are_those_asked_for",
    "Redscript.C92_success_means_saved",
    "Redscript.C92_exit_code",
    "Redscript.C92_exit_code_in_place"
   ],
   "note": "Texts are valid UTF-8; the converse for the exit code is shown for an unmodified cache with another output and for a cache compiled in place."
  }
 ]
}