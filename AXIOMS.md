# Axioms each theorem depends on

Output of `#print axioms` for every theorem in `MANIFEST.json`.

| property | theorem | axioms |
|---|---|---|
| C01 | `Redscript.C01_u8` | none |
| C01 | `Redscript.C01_u16` | propext, Classical.choice, Quot.sound |
| C01 | `Redscript.C01_u32` | propext, Classical.choice, Quot.sound |
| C01 | `Redscript.C01_u64` | propext, Classical.choice, Quot.sound |
| C01 | `Redscript.C01_bool` | none |
| C01 | `Redscript.C01_little_endian` | propext, Quot.sound |
| C01 | `Redscript.C01_array` | propext |
| C01 | `Redscript.C01_cstr` | propext, Classical.choice, Quot.sound |
| C01 | `Redscript.C01_cstr_nul_needed` | propext, Classical.choice, Quot.sound |
| C01 | `Redscript.C01_str16` | propext, Classical.choice, Quot.sound |
| C01 | `Redscript.C01_str32` | propext, Classical.choice, Quot.sound |
| C01 | `Redscript.C01_str16_accepts` | propext |
| C01 | `Redscript.C01_vec32` | propext, Classical.choice, Quot.sound |
| C01 | `Redscript.C01_u32_canonical` | propext, Quot.sound |
| C01 | `Redscript.C01_u16_canonical` | propext, Quot.sound |
| C01 | `Redscript.C01_u64_canonical` | propext, Quot.sound |
| C01 | `Redscript.C01_u32_truncated` | propext, Classical.choice, Quot.sound |
| C01 | `Redscript.C01_cstr_truncated` | propext, Classical.choice, Quot.sound |
| C02 | `Redscript.C02_instr_roundtrip` | propext, Classical.choice, Quot.sound |
| C02 | `Redscript.C02_instr_encodes` | propext, Quot.sound |
| C02 | `Redscript.C02_target_not_preserved` | propext, Classical.choice, Quot.sound |
| C03 | `Redscript.C03_code_roundtrip_marked` | propext, Classical.choice, Quot.sound |
| C03 | `Redscript.C03_code_roundtrip` | propext, Classical.choice, Quot.sound |
| C03 | `Redscript.C03_code_roundtrip_16` | propext, Classical.choice, Quot.sound |
| C03 | `Redscript.C03_target_lost` | propext, Classical.choice, Quot.sound |
| C04 | `Redscript.C04_unknown_opcode` | propext, Classical.choice, Quot.sound |
| C04 | `Redscript.C04_truncated` | propext, Classical.choice, Quot.sound |
| C04 | `Redscript.C04_prefix_free` | propext, Classical.choice, Quot.sound |
| C04 | `Redscript.C04_no_lookahead` | propext, Classical.choice, Quot.sound |
| C04 | `Redscript.C04_error_stable` | propext, Classical.choice, Quot.sound |
| C05 | `Redscript.C05_offset_roundtrip` | propext, Quot.sound |
| C05 | `Redscript.C05_no_overflow` | propext, Quot.sound |
| C05 | `Redscript.C05_overflow_witness` | none |
| C05 | `Redscript.C05_relative_injective` | propext, Quot.sound |
| C06 | `Redscript.C06_iter` | propext, Classical.choice, Quot.sound |
| C06 | `Redscript.C06_iter_next` | none |
| C06 | `Redscript.C06_seek` | propext, Classical.choice, Quot.sound |
| C06 | `Redscript.C06_seek_invalid` | propext, Classical.choice, Quot.sound |
| C06 | `Redscript.C06_seek_rel` | propext, Classical.choice, Quot.sound |
| C06 | `Redscript.C06_range` | propext, Classical.choice, Quot.sound |
| C07 | `Redscript.C07_shape` | propext, Classical.choice, Quot.sound |
| C07 | `Redscript.C07_jumps_land` | propext, Classical.choice, Quot.sound |
| C07 | `Redscript.C07_unmarked_label` | propext, Classical.choice, Quot.sound |
| C08 | `Redscript.C08_definition_roundtrip` | propext, Classical.choice, Quot.sound |
| C08 | `Redscript.C08_second_cycle` | propext, Classical.choice, Quot.sound |
| C08 | `Redscript.C08_injective` | propext, Classical.choice, Quot.sound |
| C08 | `Redscript.C08_native_source_dropped` | propext, Classical.choice, Quot.sound |
| C09 | `Redscript.C09_save_load` | propext, Classical.choice, Quot.sound |
| C09 | `Redscript.C09_resave_identical` | propext, Classical.choice, Quot.sound |
| C09 | `Redscript.C09_no_definitions_counterexample` | propext, Classical.choice, Quot.sound |
| C10 | `Redscript.C10_header_describes_tables` | propext, Classical.choice, Quot.sound |
| C10 | `Redscript.C10_string_entries` | propext, Classical.choice, Quot.sound |
| C10 | `Redscript.C10_definition_entries` | propext, Classical.choice, Quot.sound |
| C10 | `Redscript.C10_load_ignores_checksums` | propext, Classical.choice, Quot.sound |
| C11 | `Redscript.C11_add_reads_back` | propext, Classical.choice, Quot.sound |
| C11 | `Redscript.C11_add_keeps` | propext |
| C11 | `Redscript.C11_add_again` | propext, Quot.sound |
| C11 | `Redscript.C11_indexes_differ` | propext, Classical.choice, Quot.sound |
| C11 | `Redscript.C11_get_index` | propext, Classical.choice, Quot.sound |
| C11 | `Redscript.C11_empty_names_counterexample` | propext |
| C12 | `Redscript.C12_add` | propext, Quot.sound |
| C12 | `Redscript.C12_put` | propext, Quot.sound |
| C12 | `Redscript.C12_rename` | propext |
| C12 | `Redscript.C12_swap` | propext |
| C12 | `Redscript.C12_swap_twice` | propext |
| C12 | `Redscript.C12_history` | propext, Quot.sound |
| C12 | `Redscript.C12_iteration` | propext, Quot.sound |
| C13 | `Redscript.C13_renames_exactly` | propext, Quot.sound |
| C13 | `Redscript.C13_views_determine` | propext |
| C13 | `Redscript.C13_inverse` | propext, Quot.sound |
| C13 | `Redscript.C13_sizes_kept` | propext |
| C13 | `Redscript.C13_finite_inverse` | propext, Quot.sound |
| C14 | `Redscript.C14_roundtrip` | propext |
| C14 | `Redscript.C14_reprint` | propext, Quot.sound |
| C14 | `Redscript.C14_injective` | propext |
| C14 | `Redscript.C14_two_arguments_counterexample` | propext |
| C15 | `Redscript.C15_type_mangling` | propext, Classical.choice, Quot.sound |
| C15 | `Redscript.C15_name` | propext, Classical.choice, Quot.sound |
| C15 | `Redscript.C15_overloads_partial` | propext, Classical.choice, Quot.sound |
| C15 | `Redscript.C15_same_declaration` | propext, Classical.choice, Quot.sound |
| C15 | `Redscript.C15_concatenation_counterexample` | propext, Classical.choice, Quot.sound |
| C16 | `Redscript.C16_roundtrip` | propext, Quot.sound |
| C16 | `Redscript.C16_function_path` | propext, Quot.sound |
| C16 | `Redscript.C16_injective` | propext, Quot.sound |
| C16 | `Redscript.C16_empty_counterexample` | propext |
| C17 | `Redscript.C17_tables_well_formed` | propext, Classical.choice, Quot.sound |
| C17 | `Redscript.C17_add_function_accumulates` | propext, Quot.sound |
| C17 | `Redscript.C17_import_never_brings_hidden` | propext, Quot.sound |
| C17 | `Redscript.C17_import_brings_all_visible` | propext, Classical.choice, Quot.sound |
| C17 | `Redscript.C17_import_keeps_other_names` | propext, Classical.choice, Quot.sound |
| C17 | `Redscript.C17_import_keeps_overloads` | propext, Quot.sound |
| C17 | `Redscript.C17_unresolved_is_an_error` | propext, Quot.sound |
| C18 | `Redscript.C18_position_maps_to_its_file` | propext, Classical.choice, Quot.sound |
| C18 | `Redscript.C18_past_the_end` | propext, Classical.choice, Quot.sound |
| C18 | `Redscript.C18_ranges_partition` | propext, Classical.choice, Quot.sound |
| C19 | `Redscript.C19_line_and_column` | propext, Classical.choice, Quot.sound |
| C19 | `Redscript.C19_column_spec` | propext, Quot.sound |
| C19 | `Redscript.C19_span_location` | propext, Classical.choice, Quot.sound |
| C19 | `Redscript.C19_lines_spec` | propext, Quot.sound |
| C19 | `Redscript.C19_enclosing_line` | propext, Classical.choice, Quot.sound |
| C20 | `Redscript.C20_value_is_truth` | propext, Classical.choice, Quot.sound |
| C20 | `Redscript.C20_value_iff_supported` | propext, Classical.choice, Quot.sound |
| C20 | `Redscript.C20_kept_iff_all_true` | propext, Classical.choice, Quot.sound |
| C20 | `Redscript.C20_keeps_enabled_in_order` | propext, Classical.choice, Quot.sound |
| C21 | `Redscript.C21_found_iff_allowed` | propext, Classical.choice, Quot.sound |
| C21 | `Redscript.C21_answers` | propext, Quot.sound |
| C21 | `Redscript.C21_deterministic` | propext, Classical.choice, Quot.sound |
| C21 | `Redscript.C21_identity_transitive` | propext, Classical.choice, Quot.sound |
| C21 | `Redscript.C21_identity_antisymmetric` | propext, Classical.choice, Quot.sound |
| C22 | `Redscript.C22_upper_bound_partial` | propext, Quot.sound |
| C22 | `Redscript.C22_both_convert` | propext, Classical.choice, Quot.sound |
| C22 | `Redscript.C22_null_weak_counterexample` | propext, Quot.sound |
| C22 | `Redscript.C22_least` | propext, Quot.sound |
| C22 | `Redscript.C22_fails_only_without_common` | propext, Quot.sound |
| C22 | `Redscript.C22_symmetric` | propext, Quot.sound |
| C23 | `Redscript.C23_chosen_is_first_applicable` | propext, Classical.choice, Quot.sound |
| C23 | `Redscript.C23_strict_is_silent` | propext, Quot.sound |
| C23 | `Redscript.C23_failure_means_none_applicable` | propext, Classical.choice, Quot.sound |
| C24 | `Redscript.C24_innermost_declaration` | propext, Quot.sound |
| C24 | `Redscript.C24_blocks_do_not_leak` | propext, Quot.sound |
| C24 | `Redscript.C24_nearest_field` | propext, Quot.sound |
| C24 | `Redscript.C24_missing_field` | propext, Quot.sound |
| C24 | `Redscript.C24_methods_nearest_first` | propext, Quot.sound |
| C25 | `Redscript.C25_generated_code_reads_back_partial` | propext, Classical.choice, Quot.sound |
| C25 | `Redscript.C25_code_determines_the_expression_partial` | propext, Classical.choice, Quot.sound |
| C25 | `Redscript.C25_intrinsics_keep_their_name` | propext, Classical.choice, Quot.sound |
| C25 | `Redscript.C25_numbers_are_kept` | propext, Classical.choice, Quot.sound |
| C25 | `Redscript.C25_super_counterexample` | propext, Classical.choice, Quot.sound |
| C26 | `Redscript.C26_compiled_body_runs_like_the_source_partial` | propext, Classical.choice, Quot.sound |
| C26 | `Redscript.C26_runs_forever_like_the_source_partial` | propext, Classical.choice, Quot.sound |
| C26 | `Redscript.C26_outcome_unique` | propext, Quot.sound |
| C27 | `Redscript.C27_stray_break_rejected` | propext, Classical.choice, Quot.sound |
| C27 | `Redscript.C27_break_leaves_the_loop_partial` | propext, Classical.choice, Quot.sound |
| C27 | `Redscript.C27_break_leaves_the_switch_partial` | propext, Classical.choice, Quot.sound |
| C28 | `Redscript.C28_last_case_empty_counterexample` | propext, Classical.choice, Quot.sound |
| C28 | `Redscript.C28_nested_switch_counterexample` | propext, Classical.choice, Quot.sound |
| C28 | `Redscript.C28_switch_runs_the_selected_cases_partial` | propext, Classical.choice, Quot.sound |
| C28 | `Redscript.C28_selects_the_first_match` | propext |
| C28 | `Redscript.C28_empty_case_shares_the_next_body` | propext, Classical.choice, Quot.sound |
| C29 | `Redscript.C29_call_has_one_group_per_parameter` | propext, Classical.choice, Quot.sound |
| C29 | `Redscript.C29_method_call_has_one_group_per_parameter` | propext, Classical.choice, Quot.sound |
| C29 | `Redscript.C29_surplus_arguments_rejected` | propext, Classical.choice, Quot.sound |
| C29 | `Redscript.C29_call_receives_the_values` | propext, Classical.choice, Quot.sound |
| C30 | `Redscript.C30_for_in_visits_every_element_once_in_order` | propext, Classical.choice, Quot.sound |
| C31 | `Redscript.C31_array_literals_hold_their_elements` | propext, Classical.choice, Quot.sound |
| C31 | `Redscript.C31_interpolated_strings_join_their_parts` | propext, Classical.choice, Quot.sound |
| C32 | `Redscript.C32_desugaring_preserves_evaluation_partial` | propext, Classical.choice, Quot.sound |
| C32 | `Redscript.Toy.C32_operand_order_counterexample` | propext, Classical.choice, Quot.sound |
| C32 | `Redscript.Toy.C32_conditional_counterexample` | propext, Classical.choice, Quot.sound |
| C32 | `Redscript.Toy.C32_loop_condition_counterexample` | propext, Classical.choice, Quot.sound |
| C32 | `Redscript.Toy.C32_case_label_counterexample` | propext, Classical.choice, Quot.sound |
| C33 | `Redscript.C33_accepted_returns_partial` | propext |
| C33 | `Redscript.C33_exact_without_switch` | propext, Quot.sound |
| C33 | `Redscript.C33_only_functions_with_result` | propext |
| C33 | `Redscript.C33_switch_without_default_counterexample` | propext |
| C33 | `Redscript.C33_break_counterexample` | propext |
| C34 | `Redscript.C34_fallthrough_exact` | propext, Quot.sound |
| C34 | `Redscript.C34_fallthrough_in_source_order` | propext, Quot.sound |
| C34 | `Redscript.C34_unused_exact` | propext, Quot.sound |
| C34 | `Redscript.C34_unused_in_source_order` | propext, Quot.sound |
| C35 | `Redscript.C35_warnings_first` | propext, Classical.choice, Quot.sound |
| C35 | `Redscript.C35_success_iff_no_fatal` | propext, Classical.choice, Quot.sound |
| C35 | `Redscript.C35_failure_lists_fatal` | propext, Classical.choice, Quot.sound |
| C35 | `Redscript.C35_aborted_is_failure` | propext, Classical.choice, Quot.sound |
| C36 | `Redscript.C36_calls_stay_valid` | propext, Classical.choice, Quot.sound |
| C36 | `Redscript.C36_wrappers_nest` | propext, Classical.choice, Quot.sound |
| C36 | `Redscript.C36_call_runs_the_last_wrapper` | propext, Classical.choice, Quot.sound |
| C36 | `Redscript.C36_original_is_kept` | propext, Classical.choice, Quot.sound |
| C36 | `Redscript.C36_others_are_unaffected` | propext, Classical.choice, Quot.sound |
| C36 | `Redscript.C36_other_functions_are_unaffected` | propext, Classical.choice, Quot.sound |
| C36 | `Redscript.C36_wrapper_is_dispatched_to` | propext, Classical.choice, Quot.sound |
| C36 | `Redscript.C36_original_is_dispatched_to` | propext, Classical.choice, Quot.sound |
| C37 | `Redscript.C37_classes_follow_their_bases` | propext, Classical.choice, Quot.sound |
| C38 | `Redscript.C38_rejected_iff_forbidden_inside` | propext, Classical.choice, Quot.sound |
| C39 | `Redscript.C39_subtraction_counterexample` | propext, Classical.choice, Quot.sound |
| C39 | `Redscript.C39_division_counterexample` | propext, Classical.choice, Quot.sound |
| C39 | `Redscript.C39_receiver_counterexample` | propext, Classical.choice, Quot.sound |
| C39 | `Redscript.C39_prefix_receiver_counterexample` | propext, Classical.choice, Quot.sound |
| C39 | `Redscript.C39_conditional_counterexample` | propext, Classical.choice, Quot.sound |
| C39 | `Redscript.C39_conversion_counterexample` | propext, Classical.choice, Quot.sound |
| C39 | `Redscript.C39_comparison_counterexample` | propext, Classical.choice, Quot.sound |
| C39 | `Redscript.C39_operator_trees_read_back` | propext, Classical.choice, Quot.sound |
| C39 | `Redscript.C39_printed_expressions_read_back_partial` | propext, Classical.choice, Quot.sound |
| C40 | `Redscript.C40_strings_read_back` | propext, Classical.choice, Quot.sound |
| C40 | `Redscript.C40_string_constants_read_back` | propext, Classical.choice, Quot.sound |
| C41 | `Redscript.C41_original_is_kept_partial` | propext, Classical.choice, Quot.sound |
| C41 | `Redscript.C41_backup_is_the_original_partial` | propext, Classical.choice, Quot.sound |
| C41 | `Redscript.C41_second_run_interrupted_counterexample` | propext, Classical.choice, Quot.sound |
| C41 | `Redscript.C41_update_after_failed_run_counterexample` | propext, Classical.choice, Quot.sound |
| C41 | `Redscript.C41_separate_after_interrupted_counterexample` | propext, Classical.choice, Quot.sound |
| C42 | `Redscript.C42_input_unsigned` | propext, Classical.choice, Quot.sound |
| C42 | `Redscript.C42_output_signed` | propext, Classical.choice, Quot.sound |
| C42 | `Redscript.C42_compiles_against_the_original_partial` | propext, Classical.choice, Quot.sound |
| C42 | `Redscript.C42_reruns_share_the_input` | propext, Classical.choice, Quot.sound |
| C43 | `Redscript.C43_copy_in_bounds` | propext, Quot.sound |
| C43 | `Redscript.C43_zero_size_counterexample` | propext, Quot.sound |
| C44 | `Redscript.C44_first_applicable` | propext, Quot.sound |
| C44 | `Redscript.C44_code_order_irrelevant` | propext, Quot.sound |
| C45 | `Redscript.C45_never_panics` | propext, Quot.sound |
| C45 | `Redscript.C45_no_quotes_unchanged` | propext, Quot.sound |
| C45 | `Redscript.C45_result_clean` | propext, Quot.sound |
| C45 | `Redscript.C45_recovers_two_escaped_paths` | propext, Quot.sound |
| C45 | `Redscript.C45_recovers_one_escaped_path` | propext, Quot.sound |
| C45 | `Redscript.C45_second_path_without_space_counterexample` | propext, Classical.choice, Quot.sound |
| C46 | `Redscript.C46_statements_kept` | propext |
| C46 | `Redscript.C46_declared_once` | propext, Quot.sound |
| C46 | `Redscript.C46_declared_before_use_partial` | propext, Quot.sound |
| C46 | `Redscript.C46_read_before_set_counterexample` | propext, Classical.choice, Quot.sound |
| C47 | `Redscript.C47_comments_nest` | propext, Classical.choice, Quot.sound |
| C47 | `Redscript.C47_comments_are_blank` | propext, Classical.choice, Quot.sound |
| C48 | `Redscript.C48_integer_literals` | propext, Classical.choice, Quot.sound |
| C48 | `Redscript.C48_integers_read_back_partial` | propext, Classical.choice, Quot.sound |
| C48 | `Redscript.C48_u64_counterexample` | propext, Classical.choice, Quot.sound |
| C49 | `Redscript.C49_total` | propext, Classical.choice, Quot.sound |
| C49 | `Redscript.C49_second_time_adds_nothing` | propext, Classical.choice, Quot.sound |
| C49 | `Redscript.C49_reads_back_partial` | propext, Classical.choice, Quot.sound |
| C49 | `Redscript.C49_indexes_differ` | propext, Classical.choice, Quot.sound |
| C49 | `Redscript.C49_last_segment_counterexample` | propext, Classical.choice, Quot.sound |
| C49 | `Redscript.C49_static_array_counterexample` | propext, Classical.choice, Quot.sound |
| C50 | `Redscript.C50_written_is_read_back` | propext, Classical.choice, Quot.sound |
| C50 | `Redscript.C50_last_write_wins` | propext, Classical.choice, Quot.sound |
| C50 | `Redscript.C50_none_iff_empty` | propext, Quot.sound |
| C50 | `Redscript.C50_write_length` | propext, Quot.sound |
| C51 | `Redscript.C51_size_layout` | propext, Quot.sound |
| C51 | `Redscript.C51_body_layout` | propext, Quot.sound |
| C52 | `Redscript.C52_invalid_temporary_exact` | propext, Quot.sound |
| C52 | `Redscript.C52_invalid_temporary_in_source_order` | propext, Quot.sound |
| C53 | `Redscript.C53_marks_references_to_temporaries_partial` | propext, Classical.choice, Quot.sound |
| C53 | `Redscript.C53_seventeenth_argument_counterexample` | propext, Classical.choice, Quot.sound |
| C54 | `Redscript.C54_modules_crash_only_at_bad_escapes_partial` | propext, Classical.choice, Quot.sound |
| C54 | `Redscript.C54_surrogate_escape_counterexample` | propext, Classical.choice, Quot.sound |
| C54 | `Redscript.C54_only_bad_escapes_crash_partial` | propext, Classical.choice, Quot.sound |
| C55 | `Redscript.C55_booleans_are_whole_words` | propext, Classical.choice, Quot.sound |
| C55 | `Redscript.C55_strings_are_quoted` | propext, Classical.choice, Quot.sound |
| C56 | `Redscript.C56_accepted_is_well_typed_partial` | propext, Classical.choice, Quot.sound |
| C56 | `Redscript.C56_case_counterexample` | propext, Classical.choice, Quot.sound |
| C56 | `Redscript.C56_null_counterexample` | propext, Classical.choice, Quot.sound |
| C57 | `Redscript.C57_only_names_and_conversions` | propext, Classical.choice, Quot.sound |
| C57 | `Redscript.C57_own_local_for_every_declaration` | propext, Classical.choice, Quot.sound |
| C57 | `Redscript.C57_calls_keep_their_names` | propext, Classical.choice, Quot.sound |
| C58 | `Redscript.C58_permissive_accepts_what_strict_accepts` | propext, Classical.choice, Quot.sound |
| C58 | `Redscript.C58_permissive_reports_what_strict_rejects` | propext, Classical.choice, Quot.sound |
| C59 | `Redscript.C59_required_parameters_are_given_partial` | propext, Classical.choice, Quot.sound |
| C59 | `Redscript.C59_required_counterexample` | propext, Classical.choice, Quot.sound |
| C60 | `Redscript.C60_declarations_touch_only_what_they_name` | propext, Classical.choice, Quot.sound |
| C60 | `Redscript.C60_declarations_keep_names` | propext, Classical.choice, Quot.sound |
| C60 | `Redscript.C60_plain_sources_change_nothing` | propext, Classical.choice, Quot.sound |
| C61 | `Redscript.C61_declarations_reach_the_pool` | propext, Classical.choice, Quot.sound |
| C62 | `Redscript.C62_added_members_have_their_visibility` | propext, Classical.choice, Quot.sound |
| C62 | `Redscript.C62_members_have_their_visibility_partial` | propext, Classical.choice, Quot.sound |
| C62 | `Redscript.DeclDemo.C62_member_visibility_counterexample` | propext, Classical.choice, Quot.sound |
| C63 | `Redscript.C63_names_come_from_declarations` | propext, Classical.choice, Quot.sound |
| C63 | `Redscript.C63_bodies_see_their_module` | propext, Classical.choice, Quot.sound |
| C64 | `Redscript.C64_printed_statements_read_back_partial` | propext, Classical.choice, Quot.sound |
| C64 | `Redscript.C64_goto_counterexample` | propext, Classical.choice, Quot.sound |
| C64 | `Redscript.C64_nested_statements_counterexample` | propext, Classical.choice, Quot.sound |
| C65 | `Redscript.C65_printed_definitions_read_back_partial` | propext, Classical.choice, Quot.sound |
| C65 | `Redscript.C65_printed_bundles_read_back_partial` | propext, Classical.choice, Quot.sound |
| C65 | `Redscript.C65_inline_field_counterexample` | propext, Classical.choice, Quot.sound |
| C65 | `Redscript.C65_static_array_counterexample` | propext, Classical.choice, Quot.sound |
| C65 | `Redscript.C65_default_counterexample` | propext, Classical.choice, Quot.sound |
| C65 | `Redscript.C65_derived_struct_counterexample` | propext, Classical.choice, Quot.sound |
| C65 | `Redscript.C65_large_enum_counterexample` | propext, Classical.choice, Quot.sound |
| C66 | `Redscript.C66_files_of_a_bundle` | propext, Classical.choice, Quot.sound |
| C66 | `Redscript.C66_files_exist` | propext, Quot.sound |
| C66 | `Redscript.C66_printed_once_partial` | propext, Classical.choice, Quot.sound |
| C66 | `Redscript.C66_same_files_partial` | propext, Classical.choice, Quot.sound |
| C66 | `Redscript.C66_files_read_back_partial` | propext, Classical.choice, Quot.sound |
| C66 | `Redscript.C66_two_files_counterexample` | propext, Quot.sound |
| C66 | `Redscript.C66_lost_function_counterexample` | propext, Quot.sound |
| C66 | `Redscript.C66_same_path_counterexample` | propext, Classical.choice, Quot.sound |
| C66 | `Redscript.C66_same_line_counterexample` | propext, Classical.choice, Quot.sound |
| C67 | `Redscript.C67_read_bodies_are_statements` | propext, Classical.choice, Quot.sound |
| C67 | `Redscript.C67_assembled_bodies_have_the_right_shape` | propext, Classical.choice, Quot.sound |
| C67 | `Redscript.C67_code_does_what_the_text_says_partial` | propext, Classical.choice, Quot.sound |
| C67 | `Redscript.C67_plain_code_does_what_the_text_says_partial` | propext, Classical.choice, Quot.sound |
| C68 | `Redscript.C68_reading_a_module_ends` | propext, Classical.choice, Quot.sound |
| C68 | `Redscript.C68_the_answer_is_the_same` | propext, Classical.choice, Quot.sound |
| C68 | `Redscript.C68_every_text_is_read_or_rejected` | propext, Classical.choice, Quot.sound |
| C68 | `Redscript.C68_what_is_left_is_the_end_of_the_text` | propext, Classical.choice, Quot.sound |
| C68 | `Redscript.C68_parsing_is_settled` | propext, Classical.choice, Quot.sound |
| C68 | `Redscript.C68_reading_an_expression_ends` | propext, Classical.choice, Quot.sound |
| C68 | `Redscript.C68_reading_statements_ends` | propext, Classical.choice, Quot.sound |
| C69 | `Redscript.C69_read_files_survive` | propext, Classical.choice, Quot.sound |
| C69 | `Redscript.C69_later_files_are_identical` | propext, Classical.choice, Quot.sound |
| C69 | `Redscript.C69_written_files_are_described` | propext, Classical.choice, Quot.sound |
| C69 | `Redscript.C69_presence_flags_counterexample` | propext, Classical.choice, Quot.sound |
| C70 | `Redscript.C70_field_counterexample` | propext, Classical.choice, Quot.sound |
| C70 | `Redscript.C70_variant_counterexample` | propext, Classical.choice, Quot.sound |
| C70 | `Redscript.C70_double_counterexample` | propext, Classical.choice, Quot.sound |
| C70 | `Redscript.C70_negative_number_is_rejected` | propext, Classical.choice, Quot.sound |
| C70 | `Redscript.C70_defaults_are_recorded` | propext, Classical.choice, Quot.sound |
| C70 | `Redscript.C70_other_values_are_rejected` | propext, Classical.choice, Quot.sound |
| C70 | `Redscript.C70_defaults_fit_partial` | propext, Classical.choice, Quot.sound |
| C70 | `Redscript.C70_text_tells_the_value_partial` | propext, Classical.choice, Quot.sound |
| C71 | `Redscript.C71_structure_is_recovered_partial` | propext, Classical.choice, Quot.sound |
| C71 | `Redscript.C71_shown_body_is_the_same_program` | propext, Classical.choice, Quot.sound |
| C71 | `Redscript.C71_decompiled_body_runs_like_the_code_partial` | propext, Classical.choice, Quot.sound |
| C71 | `Redscript.C71_lost_statements_counterexample` | propext, Classical.choice, Quot.sound |
| C71 | `Redscript.C71_nested_switch_counterexample` | propext, Classical.choice, Quot.sound |
| C72 | `Redscript.DeclDemo.C72_field_declared_twice_counterexample` | propext, Classical.choice, Quot.sound |
| C72 | `Redscript.DeclDemo.C72_enum_over_a_class_counterexample` | propext, Classical.choice, Quot.sound |
| C72 | `Redscript.DeclDemo.C72_function_declared_twice_counterexample` | propext, Classical.choice, Quot.sound |
| C72 | `Redscript.DeclDemo.C72_field_added_above_counterexample` | propext, Classical.choice, Quot.sound |
| C72 | `Redscript.C72_added_fields_have_new_names_partial` | propext, Classical.choice, Quot.sound |
| C72 | `Redscript.C72_added_methods_have_new_signatures_partial` | propext, Classical.choice, Quot.sound |
| C72 | `Redscript.C72_class_declared_twice_is_reported_partial` | propext, Classical.choice, Quot.sound |
| C72 | `Redscript.C72_class_of_the_bundle_redeclared_is_reported_partial` | propext, Classical.choice, Quot.sound |
| C72 | `Redscript.C72_reported_redefinitions_are_real` | propext, Classical.choice, Quot.sound |
| C73 | `Redscript.C73_wrappers_of_a_program` | propext, Classical.choice, Quot.sound |
| C74 | `Redscript.C74_programs_are_compiled` | propext, Classical.choice, Quot.sound |
| C74 | `Redscript.C74_functions_have_their_own_code` | propext, Classical.choice, Quot.sound |
| C74 | `Redscript.C74_other_functions_are_kept` | propext, Classical.choice, Quot.sound |
| C74 | `Redscript.C74_wrapped_functions_have_their_own_code` | propext, Classical.choice, Quot.sound |
| C74 | `Redscript.C74_bodies_are_compiled_as_text` | propext, Classical.choice, Quot.sound |
| C75 | `Redscript.DeclDemo.C75_two_wrapped_functions_counterexample` | propext, Classical.choice, Quot.sound |
| C75 | `Redscript.DeclDemo.C75_two_locals_counterexample` | propext, Classical.choice, Quot.sound |
| C75 | `Redscript.C75_every_run_gives_the_same_partial` | propext, Classical.choice, Quot.sound |
| C75 | `Redscript.C75_without_wrappers` | propext, Classical.choice, Quot.sound |
| C76 | `Redscript.C76_functions_record_their_place` | propext, Classical.choice, Quot.sound |
| C77 | `Redscript.C77_printed_body_is_the_program_partial` | propext, Classical.choice, Quot.sound |
| C77 | `Redscript.C77_same_name_counterexample` | propext, Classical.choice, Quot.sound |
| C77 | `Redscript.C77_compiled_locals_counterexample` | propext, Classical.choice, Quot.sound |
| C78 | `Redscript.C78_diagnostic_shows_its_place` | propext, Classical.choice, Quot.sound |
| C78 | `Redscript.C78_marker_is_below_the_piece` | propext, Classical.choice, Quot.sound |
| C79 | `Redscript.C79_report_lists_the_mods` | propext, Classical.choice, Quot.sound |
| C79 | `Redscript.C79_only_mods_with_errors` | propext, Classical.choice, Quot.sound |
| C79 | `Redscript.C79_syntax_hints_counterexample` | propext, Classical.choice, Quot.sound |
| C80 | `Redscript.C80_other_function_counterexample` | propext, Classical.choice, Quot.sound |
| C80 | `Redscript.C80_wrapped_method_is_what_is_wrapped_partial` | propext, Classical.choice, Quot.sound |
| C81 | `Redscript.C81_references_tell_the_declarations` | propext, Classical.choice, Quot.sound |
| C82 | `Redscript.C82_nothing_else_changes` | propext, Classical.choice, Quot.sound |
| C82 | `Redscript.C82_declarations_change_nothing` | propext, Classical.choice, Quot.sound |
| C83 | `Redscript.CliDemo.C83_exit_status_counterexample` | propext, Classical.choice, Quot.sound |
| C83 | `Redscript.CliDemo.C83_output_lost_counterexample` | propext, Classical.choice, Quot.sound |
| C83 | `Redscript.C83_saved_output_reads_back_partial` | propext, Classical.choice, Quot.sound |
| C83 | `Redscript.C83_failed_build_changes_nothing` | propext, Classical.choice, Quot.sound |
| C83 | `Redscript.C83_compiled_sources_are_saved` | propext, Classical.choice, Quot.sound |
| C83 | `Redscript.C83_only_the_output_changes` | propext, Classical.choice, Quot.sound |
| C83 | `Redscript.C83_lint_agrees_with_compile` | propext, Classical.choice, Quot.sound |
| C84 | `Redscript.C84_sources_are_the_scripts` | propext, Classical.choice, Quot.sound |
| C84 | `Redscript.C84_reading_fails_partial` | propext, Classical.choice, Quot.sound |
| C84 | `Redscript.C84_directory_counterexample` | propext, Classical.choice, Quot.sound |
| C84 | `Redscript.C84_missing_directory_counterexample` | propext, Classical.choice, Quot.sound |
| C84 | `Redscript.C84_overlap_counterexample` | propext, Classical.choice, Quot.sound |
| C85 | `Redscript.C85_launch_compiles_the_paths_partial` | propext, Classical.choice, Quot.sound |
| C85 | `Redscript.C85_without_paths_file` | propext, Classical.choice, Quot.sound |
| C85 | `Redscript.C85_scripts_directory_counterexample` | propext, Classical.choice, Quot.sound |
| C85 | `Redscript.C85_unreadable_paths_counterexample` | propext, Classical.choice, Quot.sound |
| C86 | `Redscript.C86_preparing_overwrites_nothing` | propext, Classical.choice, Quot.sound |
| C86 | `Redscript.C86_first_run_uses_the_original_partial` | propext, Classical.choice, Quot.sound |
| C86 | `Redscript.C86_default_cache_is_left` | propext, Classical.choice, Quot.sound |
| C86 | `Redscript.C86_stale_backup_counterexample` | propext, Classical.choice, Quot.sound |
| C87 | `Redscript.C87_one_line_per_instruction` | propext, Classical.choice, Quot.sound |
| C87 | `Redscript.C87_jumps_shown_partial` | propext, Classical.choice, Quot.sound |
| C87 | `Redscript.C87_long_jump_counterexample` | propext, Classical.choice, Quot.sound |
| C88 | `Redscript.C88_hints_of_the_directory_partial` | propext, Classical.choice, Quot.sound |
| C88 | `Redscript.C88_no_directory` | propext, Classical.choice, Quot.sound |
| C88 | `Redscript.C88_broken_file_counterexample` | propext, Classical.choice, Quot.sound |
| C88 | `Redscript.C88_order_counterexample` | propext, Classical.choice, Quot.sound |
| C89 | `Redscript.C89_launch_depends_on_its_files` | propext, Classical.choice, Quot.sound |
| C89 | `Redscript.C89_launches_do_not_disturb_partial` | propext, Classical.choice, Quot.sound |
| C89 | `Redscript.C89_same_backup_iff` | propext, Classical.choice, Quot.sound |
| C89 | `Redscript.C89_caches_are_separate_partial` | propext, Classical.choice, Quot.sound |
| C89 | `Redscript.C89_shared_backup_counterexample` | propext, Classical.choice, Quot.sound |
| C90 | `Redscript.C90_only_these_files` | propext, Classical.choice, Quot.sound |
| C90 | `Redscript.C90_first_launch` | propext, Classical.choice, Quot.sound |
| C90 | `Redscript.C90_later_launch` | propext, Classical.choice, Quot.sound |
| C90 | `Redscript.C90_names_are_distinct` | propext, Classical.choice, Quot.sound |
| C90 | `Redscript.C90_in_place_is_distinct` | propext, Classical.choice, Quot.sound |
| C91 | `Redscript.C91_first_launch_in_place` | propext, Classical.choice, Quot.sound |
| C91 | `Redscript.C91_launches_of_a_new_game` | propext, Classical.choice, Quot.sound |
| C91 | `Redscript.C91_refused_launch_changes_nothing` | propext, Classical.choice, Quot.sound |
| C91 | `Redscript.C91_launches_in_place` | propext, Classical.choice, Quot.sound |
| C91 | `Redscript.C91_launch_to_another_file` | propext, Classical.choice, Quot.sound |
| C91 | `Redscript.C91_launches_to_another_file` | propext, Classical.choice, Quot.sound |
| C91 | `Redscript.C91_names_are_apart` | propext, Classical.choice, Quot.sound |
| C91 | `Redscript.C91_launch_after_update` | propext, Classical.choice, Quot.sound |
| C92 | `Redscript.C92_settings_are_those_asked_for` | propext, Classical.choice, Quot.sound |
| C92 | `Redscript.C92_success_means_saved` | propext, Classical.choice, Quot.sound |
| C92 | `Redscript.C92_exit_code` | propext, Classical.choice, Quot.sound |
| C92 | `Redscript.C92_exit_code_in_place` | propext, Classical.choice, Quot.sound |
