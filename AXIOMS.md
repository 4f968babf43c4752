# Axioms of the property theorems

Written by `tools/axioms.py`.  All of them are axioms of Lean itself.

## none (3)

- `C26_names_distinct`
- `C26_only_printed_names`
- `C26_round_trip`

## propext (16)

- `C14_balanced`
- `C14_visits_in_order`
- `C22_revoke_one`
- `C23_covers_iff`
- `C23_named`
- `C23_no_confusion`
- `C23_refl`
- `C23_trans`
- `C23_universal`
- `C26_selection`
- `C43_beyond_limit_example`
- `C44_reset_counterexample`
- `C45_tokens_kept`
- `C51_contains`
- `C51_get_after_set`
- `C51_u64_counterexample`

## Quot.sound, propext (17)

- `C03_more_iterations_same_result`
- `C03_selection_ends`
- `C03_stops_when_exhausted`
- `C03_unfair_runs_forever`
- `C14_callbacks`
- `C14_preorder`
- `C14_stop_is_last`
- `C22_grant_monotone`
- `C22_order_irrelevant`
- `C25_find_first`
- `C25_found_iff`
- `C25_modify_first`
- `C42_counting_keeps_random_state`
- `C45_text_without_layout`
- `C47_handler_and_separator`
- `C51_typed`
- `C52_empty_pattern_counterexample`

## Classical.choice, Quot.sound, propext (392)

- `C01_scheduled`
- `C01_scheduled_in_run`
- `C02_schedule_within_counts`
- `C02_selection_never_fails`
- `C04_attempts`
- `C04_compiler`
- `C04_loop_ends`
- `C04_written`
- `C05_no_duplicates`
- `C06_dropped_iff_written_before`
- `C06_only_accepted_mutants`
- `C06_validation_off`
- `C07_collisions`
- `C07_different_files_partial`
- `C07_distinct`
- `C07_languages`
- `C07_names`
- `C07_original_counterexample`
- `C07_same_name_counterexample`
- `C08_count_and_mutate_agree`
- `C08_different_index_different_node`
- `C08_index_below_count_is_served`
- `C09_one_subtree`
- `C10_no_function_list`
- `C11_function_list_sound`
- `C12_counterexample`
- `C12_exact`
- `C12_function_list_complete_partial`
- `C12_recursion_counterexample`
- `C13_attempt_in_range`
- `C15_ends_with_self`
- `C15_has_path_iff`
- `C15_paths`
- `C15_unique`
- `C16_comment_removable`
- `C16_solidity_counterexample`
- `C16_solidity_inserted_partial`
- `C16_solidity_only_adds_partial`
- `C16_vyper_inserted`
- `C16_vyper_only_adds`
- `C17_command_partial`
- `C17_swap_arguments_counterexample`
- `C17_table_order_irrelevant_partial`
- `C18_given_seed`
- `C18_recorded_seed_partial`
- `C18_replay_partial`
- `C18_seed_counterexample`
- `C19_command_partial`
- `C19_precedence_partial`
- `C19_seed_counterexample`
- `C20_defaults`
- `C20_errors`
- `C20_read_back`
- `C20_round_trip_partial`
- `C20_seed_counterexample`
- `C21_command`
- `C21_command_parameters`
- `C21_first_failure_stops`
- `C21_output_only_added`
- `C21_parameter_errors_first`
- `C22_history`
- `C24_array_index_key`
- `C24_element`
- `C24_get_after_set`
- `C24_get_is_lookup`
- `C24_no_effect_on_others`
- `C24_take`
- `C24_typed`
- `C24_wellformed`
- `C26_all_algorithms`
- `C27_one_mutator_per_supported_algorithm`
- `C28_solidity`
- `C28_vyper`
- `C29_solidity`
- `C29_vyper`
- `C30_solidity_crash_counterexample`
- `C30_solidity_endless_counterexample`
- `C30_solidity_error_counterexample`
- `C30_solidity_exact`
- `C30_solidity_partial`
- `C30_vyper_counterexample`
- `C30_vyper_exact`
- `C30_vyper_partial`
- `C30_wide_integers_counterexample`
- `C31_solidity`
- `C31_solidity_twice`
- `C31_vyper`
- `C32_solidity`
- `C32_vyper_partial`
- `C32_vyper_types_counterexample`
- `C33_solidity`
- `C33_vyper`
- `C34_solidity`
- `C34_vyper`
- `C35_solidity`
- `C35_vyper`
- `C36_same_value_counterexample`
- `C36_solidity_partial`
- `C36_vyper_partial`
- `C36_vyper_unchanged_counterexample`
- `C37_solidity`
- `C37_vyper_partial`
- `C37_vyper_type_counterexample`
- `C38_solidity`
- `C38_vyper`
- `C39_solidity`
- `C40_solidity`
- `C41_solidity`
- `C42_candidates_independent_of_random_state`
- `C43_indentation_balances`
- `C43_indentation_fits_page`
- `C44_position_partial`
- `C44_triple_string_counterexample`
- `C46_beyond_margin_counterexample`
- `C46_bound_suffices`
- `C46_flowable_partial`
- `C46_long_word_counterexample`
- `C46_needs`
- `C46_one_short_counterexample`
- `C47_list_calls`
- `C48_assembly_counterexample`
- `C48_hex_counterexample`
- `C48_string_literal_partial`
- `C48_unicode_backslash_counterexample`
- `C48_unicode_literal_partial`
- `C48_unicode_long_counterexample`
- `C48_unicode_quote_counterexample`
- `C48_unsafe_counterexample`
- `C49_solidity_distinct_partial`
- `C49_solidity_grouping_counterexample`
- `C49_solidity_minus_counterexample`
- `C49_solidity_mutant_counterexample`
- `C49_solidity_read_back_partial`
- `C49_solidity_slice_counterexample`
- `C49_solidity_swap_counterexample`
- `C49_vyper_attribute_counterexample`
- `C49_vyper_distinct_partial`
- `C49_vyper_invert_counterexample`
- `C49_vyper_named_counterexample`
- `C49_vyper_negative_counterexample`
- `C49_vyper_not_counterexample`
- `C49_vyper_read_back_partial`
- `C49_vyper_same_text_counterexample`
- `C49_vyper_subscript_counterexample`
- `C49_vyper_tuple_counterexample`
- `C50_directory`
- `C50_stdout_counterexample`
- `C50_stdout_partial`
- `C50_stdout_unreadable`
- `C51_json_round_trip_partial`
- `C51_order_irrelevant_partial`
- `C51_prefs_round_trip_partial`
- `C51_slash_counterexample`
- `C52_double_spaces`
- `C52_occurrence_counterexample`
- `C52_outside_counterexample`
- `C52_remove_all_partial`
- `C53_compilers`
- `C53_config`
- `C53_error`
- `C53_extension`
- `C53_solidity_check`
- `C53_source`
- `C53_tree`
- `C54_allow_counterexample`
- `C54_settings`
- `C54_solidity_ast_partial`
- `C54_solidity_retry_partial`
- `C54_solidity_try_partial`
- `C54_stage_counterexample`
- `C54_vyper`
- `C55_augmented_assignment_counterexample`
- `C55_augmented_assignment_partial`
- `C55_binary_partial`
- `C55_bool_partial`
- `C55_call_partial`
- `C55_floor_division_counterexample`
- `C55_keywords_only_counterexample`
- `C55_minus_counterexample`
- `C55_third_operand_counterexample`
- `C55_unary_partial`
- `C56_assembly_counterexample`
- `C56_brackets_counterexample`
- `C56_contract_partial`
- `C56_documentation_counterexample`
- `C56_documented_partial`
- `C56_file_constant_counterexample`
- `C56_file_partial`
- `C56_for_counterexample`
- `C56_free_function_counterexample`
- `C56_function_partial`
- `C56_function_type_counterexample`
- `C56_license_counterexample`
- `C56_mapping_names_counterexample`
- `C56_modifier_counterexample`
- `C56_modifier_override_counterexample`
- `C56_modifiers_counterexample`
- `C56_override_counterexample`
- `C56_pragma_counterexample`
- `C56_pragma_partial`
- `C56_statement_partial`
- `C56_try_counterexample`
- `C56_using_counterexample`
- `C56_variable_partial`
- `C56_versions_counterexample`
- `C57_lines_within_page`
- `C57_long_token_example`
- `C58_deep_nesting_counterexample`
- `C58_solidity_balanced`
- `C58_solidity_restores_partial`
- `C58_vyper_balanced`
- `C58_vyper_restores_partial`
- `C59_assign_call_partial`
- `C59_call_partial`
- `C59_fits_partial`
- `C59_operation_counterexample`
- `C60_long_statement_counterexample`
- `C60_mutant_counterexample`
- `C60_named_arguments_counterexample`
- `C60_solidity_partial`
- `C60_vyper`
- `C61_defaults_with_last_parameters`
- `C62_command_partial`
- `C62_input_partial`
- `C62_mutants`
- `C62_original_partial`
- `C62_printing_counterexample`
- `C62_printing_partial`
- `C62_reading_partial`
- `C62_run_partial`
- `C62_validation_counterexample`
- `C62_validation_partial`
- `C63_solidity_counterexample`
- `C63_solidity_partial`
- `C63_vyper`
- `C64_solidity`
- `C64_vyper`
- `C65_file`
- `C65_stdout`
- `C66_files`
- `C66_stdout`
- `C67_program`
- `C67_tree`
- `C68_files_partial`
- `C68_solidity_counterexample`
- `C68_vyper`
- `C69_solidity`
- `C69_solidity_counted`
- `C69_vyper`
- `C69_vyper_counted`
- `C70_solidity`
- `C70_vyper_counterexample`
- `C70_vyper_partial`
- `C71_describe`
- `C71_list`
- `C71_widths`
- `C72_solidity`
- `C72_vyper_counterexample`
- `C72_vyper_partial`
- `C73_name_counterexample`
- `C73_partial`
- `C73_subscript_counterexample`
- `C73_tuple_counterexample`
- `C74_conditional_counterexample`
- `C74_different_partial`
- `C74_extcall_counterexample`
- `C74_file`
- `C74_flag_counterexample`
- `C74_implements_counterexample`
- `C74_read_back_partial`
- `C74_relative_import_counterexample`
- `C74_text`
- `C74_transient_counterexample`
- `C74_unprinted_counterexample`
- `C75_module_counterexample`
- `C75_one_partial`
- `C75_power_counterexample`
- `C75_written_partial`
- `C76_fused_counterexample`
- `C76_negative_counterexample`
- `C76_one_partial`
- `C76_written_partial`
- `C77_tree_partial`
- `C77_written_partial`
- `C78_block_counterexample`
- `C78_code`
- `C78_tree_partial`
- `C78_written_partial`
- `C79_no_influence`
- `C79_report`
- `C80_layout_partial`
- `C80_messages_counterexample`
- `C81_error_counterexample`
- `C81_mutate_partial`
- `C81_pretty_print_partial`
- `C81_unprinted_counterexample`
- `C82_default`
- `C82_settings`
- `C82_solidity`
- `C82_vyper`
- `C83_call_partial`
- `C83_counterexample`
- `C83_root`
- `C84_line`
- `C84_swap_partial`
- `C84_tree_partial`
- `C84_written_partial`
- `C85_regrouped_counterexample`
- `C85_solidity_change`
- `C85_solidity_counterexample`
- `C85_solidity_partial`
- `C85_vyper_change`
- `C85_vyper_counterexample`
- `C85_vyper_other`
- `C85_vyper_partial`
- `C86_change`
- `C86_comment`
- `C86_unquoted`
- `C86_written_partial`
- `C87_command`
- `C87_mutants`
- `C87_names`
- `C88_bare_partial`
- `C88_same_partial`
- `C88_stable_partial`
- `C89_arguments_counterexample`
- `C89_bool_counterexample`
- `C89_largest_counterexample`
- `C89_result_counterexample`
- `C89_run`
- `C89_solidity_arguments_partial`
- `C89_solidity_assignment_partial`
- `C89_solidity_call`
- `C89_solidity_delete`
- `C89_solidity_if`
- `C89_solidity_integer`
- `C89_solidity_lines`
- `C89_solidity_operator`
- `C89_solidity_unary`
- `C89_solidity_unchecked`
- `C89_vyper_arguments`
- `C89_vyper_assignment`
- `C89_vyper_call`
- `C89_vyper_delete_partial`
- `C89_vyper_if`
- `C89_vyper_integer`
- `C89_vyper_lines`
- `C89_vyper_operator`
- `C90_call_counterexample`
- `C90_documented_partial`
- `C90_file_partial`
- `C90_modifiers_counterexample`
- `C90_regrouped_counterexample`
- `C90_same_partial`
- `C90_try_counterexample`
- `C90_written_partial`
- `C91_bytes`
- `C91_string`
- `C91_string_counterexample`
- `C92_blanks_counterexample`
- `C92_kept_partial`
- `C92_quote_counterexample`
- `C92_same_partial`
- `C93_bytes_counterexample`
- `C93_comment_counterexample`
- `C93_defaults_counterexample`
- `C93_dict_counterexample`
- `C93_documentation_counterexample`
- `C93_mutant_counterexample`
- `C93_names_counterexample`
- `C93_solidity_mutants_partial`
- `C93_solidity_partial`
- `C93_vyper_deleted_partial`
- `C93_vyper_mutants_partial`
- `C93_vyper_partial`
- `C93_word_counterexample`
- `C94_fair`
- `C94_run`
- `C94_solidity_partial`
- `C94_vyper_partial`
- `C95_counterexample`
- `C95_partial`
- `C96_counterexample`
- `C96_partial`
- `C96_unchanged_counterexample`
- `C97_arguments_counterexample`
- `C97_integer_counterexample`
- `C97_passed_over_partial`
- `C97_run_counterexample`
- `C98_counterexample`
- `C98_partial`
- `C98_vyper_counterexample`
