{
 "claims": [
  {
   "property": "C01",
   "status": "proved",
   "theorems": [
    "Mutagenyx.C01_scheduled",
    "Mutagenyx.C01_scheduled_in_run"
   ],
   "note": ""
  },
  {
   "property": "C02",
   "status": "proved",
   "theorems": [
    "Mutagenyx.C02_schedule_within_counts",
    "Mutagenyx.C02_selection_never_fails"
   ],
   "note": ""
  },
  {
   "property": "C03",
   "status": "proved",
   "theorems": [
    "Mutagenyx.C03_selection_ends",
    "Mutagenyx.C03_more_iterations_same_result",
    "Mutagenyx.C03_stops_when_exhausted",
    "Mutagenyx.C03_unfair_runs_forever"
   ],
   "note": ""
  },
  {
   "property": "C04",
   "status": "proved",
   "theorems": [
    "Mutagenyx.C04_compiler",
    "Mutagenyx.C04_loop_ends",
    "Mutagenyx.C04_attempts",
    "Mutagenyx.C04_written"
   ],
   "note": ""
  },
  {
   "property": "C05",
   "status": "proved",
   "theorems": [
    "Mutagenyx.C05_no_duplicates"
   ],
   "note": ""
  },
  {
   "property": "C06",
   "status": "proved",
   "theorems": [
    "Mutagenyx.C06_only_accepted_mutants",
    "Mutagenyx.C06_validation_off",
    "Mutagenyx.C06_dropped_iff_written_before"
   ],
   "note": ""
  },
  {
   "property": "C07",
   "status": "partial",
   "theorems": [
    "Mutagenyx.C07_names",
    "Mutagenyx.C07_distinct",
    "Mutagenyx.C07_different_files_partial",
    "Mutagenyx.C07_collisions",
    "Mutagenyx.C07_languages",
    "Mutagenyx.C07_same_name_counterexample",
    "Mutagenyx.C07_original_counterexample"
   ],
   "note": "C07_same_name_counterexample: C07 fails for inputs with the same file name in different directories: their mutants overwrite one another. C07_original_counterexample: C07 fails as well between the mutants of one file and the printed original of another."
  },
  {
   "property": "C08",
   "status": "proved",
   "theorems": [
    "Mutagenyx.C08_count_and_mutate_agree",
    "Mutagenyx.C08_index_below_count_is_served",
    "Mutagenyx.C08_different_index_different_node"
   ],
   "note": ""
  },
  {
   "property": "C09",
   "status": "proved",
   "theorems": [
    "Mutagenyx.C09_one_subtree"
   ],
   "note": ""
  },
  {
   "property": "C10",
   "status": "proved",
   "theorems": [
    "Mutagenyx.C10_no_function_list"
   ],
   "note": ""
  },
  {
   "property": "C11",
   "status": "proved",
   "theorems": [
    "Mutagenyx.C11_function_list_sound"
   ],
   "note": ""
  },
  {
   "property": "C12",
   "status": "partial",
   "theorems": [
    "Mutagenyx.C12_function_list_complete_partial",
    "Mutagenyx.C12_exact",
    "Mutagenyx.VisitorExample.C12_counterexample",
    "Mutagenyx.VisitorExample.C12_recursion_counterexample"
   ],
   "note": "C12_function_list_complete_partial: Missing for the full C12: the case of nested listed names, where it is false (C12_counterexample). C12_counterexample: C12 is false in general (mutation_visitor.rs:236-246 clears the flag at the end of an inner listed node): with f and the name x of a variable inside f listed, the literal 3 of f is not counted, although it is inside f. C12_recursion_counterexample: C12 is false for a function that calls itself, also with that function alone on the list: the identifier of the call ends before the statements after it begin, and they are not counted."
  },
  {
   "property": "C13",
   "status": "proved",
   "theorems": [
    "Mutagenyx.C13_attempt_in_range"
   ],
   "note": ""
  },
  {
   "property": "C14",
   "status": "proved",
   "theorems": [
    "Mutagenyx.C14_callbacks",
    "Mutagenyx.C14_preorder",
    "Mutagenyx.C14_visits_in_order",
    "Mutagenyx.C14_balanced",
    "Mutagenyx.C14_stop_is_last"
   ],
   "note": ""
  },
  {
   "property": "C15",
   "status": "proved",
   "theorems": [
    "Mutagenyx.C15_paths",
    "Mutagenyx.C15_unique",
    "Mutagenyx.C15_has_path_iff",
    "Mutagenyx.C15_ends_with_self"
   ],
   "note": ""
  },
  {
   "property": "C16",
   "status": "partial",
   "theorems": [
    "Mutagenyx.C16_solidity_only_adds_partial",
    "Mutagenyx.C16_solidity_inserted_partial",
    "Mutagenyx.C16_vyper_only_adds",
    "Mutagenyx.C16_vyper_inserted",
    "Mutagenyx.C16_comment_removable",
    "Mutagenyx.C16_solidity_counterexample"
   ],
   "note": "C16_solidity_only_adds_partial: Missing: the mutated node is the block of a branch or of a catch clause, where the claim fails (C16_solidity_counterexample). C16_solidity_counterexample: C16 fails for the block of a branch: the branch is emptied."
  },
  {
   "property": "C17",
   "status": "partial",
   "theorems": [
    "Mutagenyx.C17_command_partial",
    "Mutagenyx.C17_table_order_irrelevant_partial",
    "Mutagenyx.C17_swap_arguments_counterexample"
   ],
   "note": "C17_command_partial: Missing: the hash map inside the function-argument-swap mutator, where the order does matter (see C17_swap_arguments_counterexample). C17_table_order_irrelevant_partial: Missing: the hash map inside the function-argument-swap mutator, where the order does matter (see C17_swap_arguments_counterexample). C17_swap_arguments_counterexample: C17 fails for the argument swap: the groups come out of a hash map, and with the same draws another order of the groups gives another mutant (solidity/mutators.rs, SwapFunctionArgumentsMutator)."
  },
  {
   "property": "C18",
   "status": "partial",
   "theorems": [
    "Mutagenyx.C18_seed_counterexample",
    "Mutagenyx.C18_recorded_seed_partial",
    "Mutagenyx.C18_given_seed",
    "Mutagenyx.C18_replay_partial"
   ],
   "note": "C18_seed_counterexample: C18 is false when a source file follows a configuration file that gives a seed: the file is mutated with the seed of the command line (3), but the seed of the configuration file (7) is recorded and saved (mutation_generator.rs:166, 219-220). C18_recorded_seed_partial: Missing: the other order of inputs, for which this is false (C18_seed_counterexample)."
  },
  {
   "property": "C19",
   "status": "partial",
   "theorems": [
    "Mutagenyx.C19_command_partial",
    "Mutagenyx.C19_seed_counterexample",
    "Mutagenyx.C19_precedence_partial"
   ],
   "note": "C19_command_partial: Missing: that a missing seed is always taken from the command line, which is false (C19_seed_counterexample). C19_seed_counterexample: C19 is false for seeds: a configuration file without seed that follows one with a seed gets that seed (7), not the one of the command line (3) (mutation_generator.rs:165-167). C19_precedence_partial: Missing: that a missing seed is always taken from the command line, which is false (C19_seed_counterexample)."
  },
  {
   "property": "C20",
   "status": "partial",
   "theorems": [
    "Mutagenyx.C20_read_back",
    "Mutagenyx.C20_round_trip_partial",
    "Mutagenyx.C20_seed_counterexample",
    "Mutagenyx.C20_defaults",
    "Mutagenyx.C20_errors"
   ],
   "note": "C20_round_trip_partial: Missing from the full statement: larger seeds (see the counterexample) and compiler details with / or ~ in keys. C20_seed_counterexample: C20 is false for seeds of 2^63 and above: the seed is lost on reading."
  },
  {
   "property": "C21",
   "status": "proved",
   "theorems": [
    "Mutagenyx.C21_command_parameters",
    "Mutagenyx.C21_command",
    "Mutagenyx.C21_parameter_errors_first",
    "Mutagenyx.C21_output_only_added",
    "Mutagenyx.C21_first_failure_stops"
   ],
   "note": ""
  },
  {
   "property": "C22",
   "status": "proved",
   "theorems": [
    "Mutagenyx.C22_history",
    "Mutagenyx.C22_grant_monotone",
    "Mutagenyx.C22_order_irrelevant",
    "Mutagenyx.C22_revoke_one"
   ],
   "note": ""
  },
  {
   "property": "C23",
   "status": "proved",
   "theorems": [
    "Mutagenyx.C23_covers_iff",
    "Mutagenyx.C23_refl",
    "Mutagenyx.C23_trans",
    "Mutagenyx.C23_no_confusion",
    "Mutagenyx.C23_universal",
    "Mutagenyx.C23_named"
   ],
   "note": ""
  },
  {
   "property": "C24",
   "status": "proved",
   "theorems": [
    "Mutagenyx.C24_get_after_set",
    "Mutagenyx.C24_get_is_lookup",
    "Mutagenyx.C24_take",
    "Mutagenyx.C24_no_effect_on_others",
    "Mutagenyx.C24_wellformed",
    "Mutagenyx.C24_array_index_key",
    "Mutagenyx.C24_typed",
    "Mutagenyx.C24_element"
   ],
   "note": ""
  },
  {
   "property": "C25",
   "status": "proved",
   "theorems": [
    "Mutagenyx.C25_find_first",
    "Mutagenyx.C25_found_iff",
    "Mutagenyx.C25_modify_first"
   ],
   "note": ""
  },
  {
   "property": "C26",
   "status": "proved",
   "theorems": [
    "Mutagenyx.C26_round_trip",
    "Mutagenyx.C26_names_distinct",
    "Mutagenyx.C26_only_printed_names",
    "Mutagenyx.C26_selection",
    "Mutagenyx.C26_all_algorithms"
   ],
   "note": ""
  },
  {
   "property": "C27",
   "status": "proved",
   "theorems": [
    "Mutagenyx.C27_one_mutator_per_supported_algorithm"
   ],
   "note": ""
  },
  {
   "property": "C28",
   "status": "proved",
   "theorems": [
    "Mutagenyx.C28_solidity",
    "Mutagenyx.C28_vyper"
   ],
   "note": ""
  },
  {
   "property": "C29",
   "status": "proved",
   "theorems": [
    "Mutagenyx.C29_solidity",
    "Mutagenyx.C29_vyper"
   ],
   "note": ""
  },
  {
   "property": "C30",
   "status": "partial",
   "theorems": [
    "Mutagenyx.C30_solidity_partial",
    "Mutagenyx.C30_vyper_partial",
    "Mutagenyx.C30_solidity_crash_counterexample",
    "Mutagenyx.C30_solidity_error_counterexample",
    "Mutagenyx.C30_solidity_endless_counterexample",
    "Mutagenyx.C30_vyper_counterexample",
    "Mutagenyx.C30_solidity_exact",
    "Mutagenyx.C30_vyper_exact",
    "Mutagenyx.C30_wide_integers_counterexample"
   ],
   "note": "C30_solidity_crash_counterexample: A mutable node whose mutation crashes: an assignment to an int256, and a literal 0xff when the draw says to add one. C30_solidity_error_counterexample: A mutable node whose mutation is an error: a require without arguments member. C30_solidity_endless_counterexample: Mutable nodes whose mutation never ends, whatever is drawn: a call whose two arguments are literals, a block of two returns and one other statement (swapping lines), a block of two returns (unchecked block). C30_vyper_counterexample: Vyper: deleting the only statement of a function that returns an address is an error, and asking whether a node with a shift operator is mutable crashes. C30_wide_integers_counterexample: C30 fails for every assignment to a signed integer of 128 bits or more, int256 among them, whatever is assigned and whatever is drawn: such an assignment is counted as mutable and its mutation crashes."
  },
  {
   "property": "C31",
   "status": "proved",
   "theorems": [
    "Mutagenyx.C31_solidity",
    "Mutagenyx.C31_solidity_twice",
    "Mutagenyx.C31_vyper"
   ],
   "note": ""
  },
  {
   "property": "C32",
   "status": "partial",
   "theorems": [
    "Mutagenyx.C32_solidity",
    "Mutagenyx.C32_vyper_partial",
    "Mutagenyx.C32_vyper_types_counterexample"
   ],
   "note": "C32_vyper_partial: Missing: that they have the same type, which the Vyper mutator does not look at (C32_vyper_types_counterexample). C32_vyper_types_counterexample: Arguments of different types are exchanged: an integer and a string."
  },
  {
   "property": "C33",
   "status": "proved",
   "theorems": [
    "Mutagenyx.C33_solidity",
    "Mutagenyx.C33_vyper"
   ],
   "note": ""
  },
  {
   "property": "C34",
   "status": "proved",
   "theorems": [
    "Mutagenyx.C34_solidity",
    "Mutagenyx.C34_vyper"
   ],
   "note": ""
  },
  {
   "property": "C35",
   "status": "proved",
   "theorems": [
    "Mutagenyx.C35_solidity",
    "Mutagenyx.C35_vyper"
   ],
   "note": ""
  },
  {
   "property": "C36",
   "status": "partial",
   "theorems": [
    "Mutagenyx.C36_solidity_partial",
    "Mutagenyx.C36_same_value_counterexample",
    "Mutagenyx.C36_vyper_partial",
    "Mutagenyx.C36_vyper_unchanged_counterexample"
   ],
   "note": "C36_solidity_partial: Missing: that it differs from the old value, which fails for the random number (C36_same_value_counterexample). C36_same_value_counterexample: The random replacement can be the literal's own value: the node is then not changed. C36_vyper_partial: Missing: that number may be the old one, and a value outside the range may stay as it is (C36_vyper_unchanged_counterexample). C36_vyper_unchanged_counterexample: An integer outside the range of i64 is left as it is."
  },
  {
   "property": "C37",
   "status": "partial",
   "theorems": [
    "Mutagenyx.C37_solidity",
    "Mutagenyx.C37_vyper_partial",
    "Mutagenyx.C37_vyper_type_counterexample"
   ],
   "note": "C37_vyper_partial: Missing: that it fits the type of the target, which the Vyper mutator does not look at (C37_vyper_type_counterexample). C37_vyper_type_counterexample: The new value need not fit the type of the target: an integer is replaced by True, and an integer outside the range of 64 bits is stored as a float."
  },
  {
   "property": "C38",
   "status": "proved",
   "theorems": [
    "Mutagenyx.C38_solidity",
    "Mutagenyx.C38_vyper"
   ],
   "note": ""
  },
  {
   "property": "C39",
   "status": "proved",
   "theorems": [
    "Mutagenyx.C39_solidity"
   ],
   "note": ""
  },
  {
   "property": "C40",
   "status": "proved",
   "theorems": [
    "Mutagenyx.C40_solidity"
   ],
   "note": ""
  },
  {
   "property": "C41",
   "status": "proved",
   "theorems": [
    "Mutagenyx.C41_solidity"
   ],
   "note": ""
  },
  {
   "property": "C42",
   "status": "proved",
   "theorems": [
    "Mutagenyx.C42_counting_keeps_random_state",
    "Mutagenyx.C42_candidates_independent_of_random_state"
   ],
   "note": ""
  },
  {
   "property": "C43",
   "status": "proved",
   "theorems": [
    "Mutagenyx.Printer.C43_indentation_fits_page",
    "Mutagenyx.Printer.C43_indentation_balances",
    "Mutagenyx.Printer.C43_beyond_limit_example"
   ],
   "note": ""
  },
  {
   "property": "C44",
   "status": "partial",
   "theorems": [
    "Mutagenyx.Printer.C44_position_partial",
    "Mutagenyx.Printer.C44_triple_string_counterexample",
    "Mutagenyx.Printer.C44_reset_counterexample"
   ],
   "note": "C44_position_partial: What is missing: pieces with newlines in them, see the counterexample. C44_triple_string_counterexample: C44 fails for pieces with newlines, such as the doc strings that the Vyper printer writes: the row stays behind and the column is far off. C44_reset_counterexample: reset leaves the position in row and column zero, where a new printer starts in row and column one."
  },
  {
   "property": "C45",
   "status": "proved",
   "theorems": [
    "Mutagenyx.Printer.C45_tokens_kept",
    "Mutagenyx.Printer.C45_text_without_layout"
   ],
   "note": ""
  },
  {
   "property": "C46",
   "status": "partial",
   "theorems": [
    "Mutagenyx.Printer.C46_flowable_partial",
    "Mutagenyx.Printer.C46_bound_suffices",
    "Mutagenyx.Printer.C46_long_word_counterexample",
    "Mutagenyx.Printer.C46_one_short_counterexample",
    "Mutagenyx.Printer.C46_beyond_margin_counterexample",
    "Mutagenyx.Printer.C46_needs"
   ],
   "note": "C46_flowable_partial: What is missing: the other words, for which see the counterexamples. C46_long_word_counterexample: C46 fails: a word wider than the page is never written, the call writes line starts without end. For every word without blanks that is longer than the page and every state on the page. C46_one_short_counterexample: C46 fails: a word exactly one byte shorter than the room with another word behind it is never written either, although it fits. C46_beyond_margin_counterexample: C46 fails: beyond the right margin a build with overflow checks crashes, whatever the text."
  },
  {
   "property": "C47",
   "status": "proved",
   "theorems": [
    "Mutagenyx.NodePrinter.C47_handler_and_separator",
    "Mutagenyx.NodePrinter.C47_list_calls"
   ],
   "note": ""
  },
  {
   "property": "C48",
   "status": "partial",
   "theorems": [
    "Mutagenyx.SolPrint.C48_string_literal_partial",
    "Mutagenyx.SolPrint.C48_unsafe_counterexample",
    "Mutagenyx.SolPrint.C48_unicode_literal_partial",
    "Mutagenyx.SolPrint.C48_unicode_quote_counterexample",
    "Mutagenyx.SolPrint.C48_unicode_backslash_counterexample",
    "Mutagenyx.SolPrint.C48_unicode_long_counterexample",
    "Mutagenyx.SolPrint.C48_hex_counterexample",
    "Mutagenyx.SolPrint.C48_assembly_counterexample"
   ],
   "note": "C48_string_literal_partial: Missing: the other characters, none of which is printed in a way that is read back (see the counterexamples). C48_unsafe_counterexample: C48: counterexamples. For every character that is not safe, the literal printed for the value that consists of this character does not denote it. C48_unicode_literal_partial: Missing: values with a quotation mark, a backslash or a line break, and those too long for the line (see the counterexamples). C48_unicode_quote_counterexample: The value is printed as it is, so that a quotation mark ends the literal and a line break makes it invalid. C48_unicode_backslash_counterexample: A value that contains a backslash is read as another value. C48_unicode_long_counterexample: A value that does not fit on the line stands on the line after the prefix. C48_hex_counterexample: The literal hex\"414243\", whose value is ABC, is printed as the identifier ABC. C48_assembly_counterexample: A string in assembly is printed as it is: a quotation mark ends it, and one with a backslash is read as another value."
  },
  {
   "property": "C49",
   "status": "partial",
   "theorems": [
    "Mutagenyx.SolPrint.C49_solidity_read_back_partial",
    "Mutagenyx.SolPrint.C49_solidity_distinct_partial",
    "Mutagenyx.SolPrint.C49_solidity_slice_counterexample",
    "Mutagenyx.SolPrint.C49_solidity_grouping_counterexample",
    "Mutagenyx.SolPrint.C49_solidity_mutant_counterexample",
    "Mutagenyx.SolPrint.C49_solidity_swap_counterexample",
    "Mutagenyx.SolPrint.C49_solidity_minus_counterexample",
    "Mutagenyx.VyPrint.C49_vyper_read_back_partial",
    "Mutagenyx.VyPrint.C49_vyper_distinct_partial",
    "Mutagenyx.VyPrint.C49_vyper_not_counterexample",
    "Mutagenyx.VyPrint.C49_vyper_invert_counterexample",
    "Mutagenyx.VyPrint.C49_vyper_negative_counterexample",
    "Mutagenyx.VyPrint.C49_vyper_attribute_counterexample",
    "Mutagenyx.VyPrint.C49_vyper_subscript_counterexample",
    "Mutagenyx.VyPrint.C49_vyper_named_counterexample",
    "Mutagenyx.VyPrint.C49_vyper_tuple_counterexample",
    "Mutagenyx.VyPrint.C49_vyper_same_text_counterexample"
   ],
   "note": "C49_solidity_read_back_partial: Missing: other trees, which mutations make, and - before -; for both there are counterexamples; string literals with escapes, hex and unicode literals, slices a[i:j] (see the counterexample), and expressions whose type is a function type. C49_solidity_slice_counterexample: C49: counterexample. There is no printer for slices: a[1:2] is printed as a21, like the name a21. C49_solidity_grouping_counterexample: C49: counterexample. The product of a + b and c is printed as a + b * c, like the sum of a and b * c. C49_solidity_mutant_counterexample: C49: counterexample. A mutation makes such a tree: in a * b + c, which is printed as it is read, the operator mutation that changes + to  makes the power of a * b and c, and what is printed is read as the product of a and b  c. C49_solidity_swap_counterexample: C49: counterexample. The same for exchanged operands: a - b - c becomes c minus the difference of a and b, and what is printed, c - a - b, is read differently. C49_solidity_minus_counterexample: C49: counterexample. - -a is printed as --a, which decrements a. C49_vyper_read_back_partial: Missing: those operands, for which there is a counterexample, and the nodes that are not printed at all (property C55). C49_vyper_not_counterexample: C49: counterexample. (not a) == b is printed as not a == b, which is read as not (a == b). C49_vyper_invert_counterexample: C49: counterexample. (~a)  b is printed as ~a  b, which is read as ~(a  b). C49_vyper_negative_counterexample: C49: counterexample. (-5)  b is printed as -5  b, which is read as -(5  b). C49_vyper_attribute_counterexample: C49: counterexample. (a + b).c is printed as a + b.c, which is read as a + (b.c). C49_vyper_subscript_counterexample: C49: counterexample. (a + b)[i] is printed as a + b[i], which is read as a + (b[i]). C49_vyper_named_counterexample: C49: counterexample. A call with named arguments only, as newer compilers have it for structs, f(k=a), is printed as f(, k=a), which is not an expression. C49_vyper_tuple_counterexample: C49: counterexample. A call with a tuple, f((a, b)), is printed like the call with two arguments. C49_vyper_same_text_counterexample: C49: counterexample. Two different expressions, -a and a, are printed the same."
  },
  {
   "property": "C50",
   "status": "partial",
   "theorems": [
    "Mutagenyx.C50_stdout_partial",
    "Mutagenyx.C50_stdout_unreadable",
    "Mutagenyx.C50_directory",
    "Mutagenyx.C50_stdout_counterexample"
   ],
   "note": "C50_stdout_partial: Missing: the inputs after it. C50_stdout_counterexample: C50 counterexample. Two inputs that can both be read: only the first is printed."
  },
  {
   "property": "C51",
   "status": "partial",
   "theorems": [
    "Mutagenyx.C51_get_after_set",
    "Mutagenyx.C51_typed",
    "Mutagenyx.C51_contains",
    "Mutagenyx.C51_json_round_trip_partial",
    "Mutagenyx.C51_order_irrelevant_partial",
    "Mutagenyx.C51_prefs_round_trip_partial",
    "Mutagenyx.C51_slash_counterexample",
    "Mutagenyx.C51_u64_counterexample"
   ],
   "note": "C51_json_round_trip_partial: Missing from the full statement: keys with / or ~, and integers above i64::MAX (see the counterexamples). C51_slash_counterexample: C51 fails for keys with a slash: such a key is read as a path, and since no such path exists the entry is lost or lands elsewhere. C51_u64_counterexample: C51 fails for large integers: an integer above i64::MAX is read as a float."
  },
  {
   "property": "C52",
   "status": "partial",
   "theorems": [
    "Mutagenyx.Text.C52_remove_all_partial",
    "Mutagenyx.Text.C52_double_spaces",
    "Mutagenyx.Text.C52_occurrence_counterexample",
    "Mutagenyx.Text.C52_outside_counterexample",
    "Mutagenyx.Text.C52_empty_pattern_counterexample"
   ],
   "note": "C52_remove_all_partial: What is missing: the removed characters need not belong to an occurrence of the original text, and the occurrences are not removed as a whole; see the counterexamples. C52_occurrence_counterexample: C52 fails: an occurrence is not removed as a whole, the b of the pattern remains. C52_outside_counterexample: C52 fails: text outside the occurrences is removed, here the a in front of the only occurrence. C52_empty_pattern_counterexample: C52 fails: with an empty pattern the whole text is removed and then the program crashes."
  },
  {
   "property": "C53",
   "status": "proved",
   "theorems": [
    "Mutagenyx.C53_compilers",
    "Mutagenyx.C53_config",
    "Mutagenyx.C53_source",
    "Mutagenyx.C53_tree",
    "Mutagenyx.C53_error",
    "Mutagenyx.C53_solidity_check",
    "Mutagenyx.C53_extension"
   ],
   "note": ""
  },
  {
   "property": "C54",
   "status": "partial",
   "theorems": [
    "Mutagenyx.C54_settings",
    "Mutagenyx.C54_solidity_ast_partial",
    "Mutagenyx.C54_solidity_try_partial",
    "Mutagenyx.C54_solidity_retry_partial",
    "Mutagenyx.C54_vyper",
    "Mutagenyx.C54_allow_counterexample",
    "Mutagenyx.C54_stage_counterexample"
   ],
   "note": "C54_solidity_ast_partial: Missing: more than one allowed path. C54_solidity_try_partial: Missing: more than one allowed path. C54_solidity_retry_partial: Missing: settings with a stage. C54_allow_counterexample: C54 counterexample, allowed paths. Of two allowed paths the first is given to the option with a comma at its end, and the second is read as a program to compile. C54_stage_counterexample: C54 counterexample, stage. If a stage is configured, the second attempt gives it twice, which is not understood."
  },
  {
   "property": "C55",
   "status": "partial",
   "theorems": [
    "Mutagenyx.VyPrint.C55_binary_partial",
    "Mutagenyx.VyPrint.C55_floor_division_counterexample",
    "Mutagenyx.VyPrint.C55_bool_partial",
    "Mutagenyx.VyPrint.C55_third_operand_counterexample",
    "Mutagenyx.VyPrint.C55_unary_partial",
    "Mutagenyx.VyPrint.C55_minus_counterexample",
    "Mutagenyx.VyPrint.C55_augmented_assignment_partial",
    "Mutagenyx.VyPrint.C55_augmented_assignment_counterexample",
    "Mutagenyx.VyPrint.C55_call_partial",
    "Mutagenyx.VyPrint.C55_keywords_only_counterexample"
   ],
   "note": "C55_binary_partial: Missing: the operators //, << and >>, see the counterexample. C55_floor_division_counterexample: C55: counterexample. The operators //, <<, >> are not printed: the operands stand next to each other. C55_bool_partial: Missing: more operands, see the counterexample. C55_third_operand_counterexample: C55: counterexample. Of a and b and c the third operand is not printed. C55_unary_partial: Missing: the unary minus, see the counterexample. C55_minus_counterexample: C55: counterexample. The unary minus is not printed. C55_augmented_assignment_counterexample: C55: counterexample. a //= b is printed as the plain assignment a = b. C55_call_partial: Missing: keyword arguments without other arguments, see the counterexample. C55_keywords_only_counterexample: C55: counterexample. A call with only keyword arguments starts with a comma."
  },
  {
   "property": "C56",
   "status": "partial",
   "theorems": [
    "Mutagenyx.SolPrint.C56_pragma_partial",
    "Mutagenyx.SolPrint.C56_pragma_counterexample",
    "Mutagenyx.SolPrint.C56_versions_counterexample",
    "Mutagenyx.SolPrint.C56_override_counterexample",
    "Mutagenyx.SolPrint.C56_modifiers_counterexample",
    "Mutagenyx.SolPrint.C56_modifier_counterexample",
    "Mutagenyx.SolPrint.C56_for_counterexample",
    "Mutagenyx.SolPrint.C56_free_function_counterexample",
    "Mutagenyx.SolPrint.C56_brackets_counterexample",
    "Mutagenyx.SolPrint.C56_documentation_counterexample",
    "Mutagenyx.SolPrint.C56_try_counterexample",
    "Mutagenyx.SolPrint.C56_assembly_counterexample",
    "Mutagenyx.SolPrint.C56_using_counterexample",
    "Mutagenyx.SolPrint.C56_file_constant_counterexample",
    "Mutagenyx.SolPrint.C56_function_type_counterexample",
    "Mutagenyx.SolPrint.C56_mapping_names_counterexample",
    "Mutagenyx.SolPrint.C56_modifier_override_counterexample",
    "Mutagenyx.SolPrint.C56_license_counterexample",
    "Mutagenyx.SolPrint.C56_statement_partial",
    "Mutagenyx.SolPrint.C56_variable_partial",
    "Mutagenyx.SolPrint.C56_function_partial",
    "Mutagenyx.SolPrint.C56_contract_partial",
    "Mutagenyx.SolPrint.C56_file_partial",
    "Mutagenyx.SolPrint.C56_documented_partial"
   ],
   "note": "C56_pragma_partial: Missing: a pragma whose last piece follows a name, a second constraint without operator, other operators, and pragmas that do not fit on the line; for the first two there are counterexamples. C56_pragma_counterexample: C56: counterexample. There is no space before the last piece of a pragma: pragma abicoder v2 and pragma solidity 0.8 are printed as a pragma with a single name. C56_versions_counterexample: C56: counterexample. Two versions after another become one. C56_override_counterexample: C56: counterexample. override of a public state variable is not separated from public. C56_modifiers_counterexample: C56: counterexample. Two modifiers of a function are separated by a comma, which the grammar does not allow. C56_modifier_counterexample: C56: counterexample. A modifier without body is printed without the semicolon that has to follow. C56_for_counterexample: C56: counterexample. A loop without first part and condition, which needs two semicolons, is printed with none. C56_free_function_counterexample: C56: counterexample. A function outside of contracts is printed with the visibility that the compiler records for it but does not accept there. C56_brackets_counterexample: C56: counterexample. a[1:2] loses its brackets and its colon, an array literal gets round brackets, and nothing is printed for (). C56_documentation_counterexample: C56: counterexample. Documentation that contains the end of a comment ends the comment in which it is printed; the rest of it is read as program text. C56_try_counterexample: C56: counterexample. A try whose call has no results is printed with returns, which needs parameters. C56_assembly_counterexample: C56: counterexample. In assembly, a declaration without value is printed with :=, and several results of a function are printed in parentheses. Neither is allowed. C56_using_counterexample: C56: counterexample. A list of functions after using is printed without the functions, and * is lost. C56_file_constant_counterexample: C56: counterexample. A constant outside of contracts is printed without the semicolon that has to follow. C56_function_type_counterexample: C56: counterexample. The type of a function loses view, pure or payable, and its results, which the compiler keeps in a field that the printer does not read. C56_mapping_names_counterexample: C56: counterexample. The names of the key and the value of a mapping are lost, and with them the names of the parameters and results of the function by which others read a public mapping. C56_modifier_override_counterexample: C56: counterexample. override of a modifier is not separated from what is before it. C56_license_counterexample: C56: counterexample. A license that does not fit on a line is printed outside of the comment, as program text. C56_statement_partial: Missing: for without first part or condition, try without results, and in assembly let without value and functions with several results; for these there are counterexamples. C56_variable_partial: Missing: override and function types, for which there are counterexamples. C56_function_partial: Missing: more modifiers, for which there is a counterexample; documentation is in C56_documented_partial. C56_contract_partial: Missing: modifiers that override or have no body, using with a list of functions and using for all types, for which there are counterexamples; documentation is in C56_documented_partial. C56_file_partial: Missing: functions and constants outside of contracts and licenses that do not fit on the line, for which there are counterexamples; other pragmas; documentation is in C56_documented_partial. C56_documented_partial: Missing: documentation that is too long for a line, for which the printer may crash (C55), and that with */ in it, for which there is a counterexample."
  },
  {
   "property": "C57",
   "status": "proved",
   "theorems": [
    "Mutagenyx.Printer.C57_lines_within_page",
    "Mutagenyx.Printer.C57_long_token_example"
   ],
   "note": ""
  },
  {
   "property": "C58",
   "status": "partial",
   "theorems": [
    "Mutagenyx.NodePrinter.C58_vyper_balanced",
    "Mutagenyx.NodePrinter.C58_solidity_balanced",
    "Mutagenyx.NodePrinter.C58_vyper_restores_partial",
    "Mutagenyx.NodePrinter.C58_solidity_restores_partial",
    "Mutagenyx.NodePrinter.C58_deep_nesting_counterexample"
   ],
   "note": "C58_vyper_restores_partial: Missing: deeper nodes, see the counterexample. C58_deep_nesting_counterexample: C58: counterexample. A Vyper statement behind 37 nested ifs that is to be run under the outermost if is printed without indentation, that is, outside of it."
  },
  {
   "property": "C59",
   "status": "partial",
   "theorems": [
    "Mutagenyx.VyPrint.C59_fits_partial",
    "Mutagenyx.VyPrint.C59_call_partial",
    "Mutagenyx.VyPrint.C59_assign_call_partial",
    "Mutagenyx.VyPrint.C59_operation_counterexample"
   ],
   "note": "C59_fits_partial: Missing: what does not fit on the line (see the counterexample). C59_call_partial: Missing: longer functions, and expressions with string literals or dictionaries. C59_operation_counterexample: C59 fails for operations: the line is broken after the operator, where no bracket is open, so that the statement ends there."
  },
  {
   "property": "C60",
   "status": "partial",
   "theorems": [
    "Mutagenyx.SolPrint.C60_solidity_partial",
    "Mutagenyx.SolPrint.C60_named_arguments_counterexample",
    "Mutagenyx.SolPrint.C60_mutant_counterexample",
    "Mutagenyx.SolPrint.C60_long_statement_counterexample",
    "Mutagenyx.VyPrint.C60_vyper"
   ],
   "note": "C60_solidity_partial: Missing: statements of several lines and those longer than the line (see the counterexamples). C60_named_arguments_counterexample: C60 fails for calls with named arguments, which are printed on several lines: only the first line is in the comment. C60_mutant_counterexample: C60 fails in a mutant: the statement deleted from a block is still there but for its first line, so that the mutant is not a program any more. C60_long_statement_counterexample: C60 fails for statements longer than the line, which are continued on the next line, where there is no comment."
  },
  {
   "property": "C61",
   "status": "proved",
   "theorems": [
    "Mutagenyx.VyPrint.C61_defaults_with_last_parameters"
   ],
   "note": ""
  },
  {
   "property": "C62",
   "status": "partial",
   "theorems": [
    "Mutagenyx.C62_command_partial",
    "Mutagenyx.C62_reading_partial",
    "Mutagenyx.C62_validation_partial",
    "Mutagenyx.C62_printing_partial",
    "Mutagenyx.C62_mutants",
    "Mutagenyx.C62_original_partial",
    "Mutagenyx.C62_validation_counterexample",
    "Mutagenyx.C62_printing_counterexample",
    "Mutagenyx.C62_run_partial",
    "Mutagenyx.C62_input_partial"
   ],
   "note": "C62_command_partial: Missing: inputs in that directory, and inputs with the name of such a file. C62_reading_partial: Missing: files in that directory. C62_validation_partial: Missing: inputs in that directory. C62_printing_partial: Missing: the input may be that file. C62_original_partial: Missing: that it never is. C62_validation_counterexample: C62 counterexample, validation. An input in the directory for temporary files is overwritten with the mutant, and then removed, whatever the compiler says. C62_printing_counterexample: C62 counterexample, printing. An input in the output directory is overwritten with what is printed for it, which has no comments, for instance. C62_run_partial: Missing: inputs in that directory, and inputs with the name of such a file. C62_input_partial: Missing: inputs in the directory for temporary files or with the name of the original or of the configuration."
  },
  {
   "property": "C63",
   "status": "partial",
   "theorems": [
    "Mutagenyx.C63_solidity_partial",
    "Mutagenyx.C63_vyper",
    "Mutagenyx.C63_solidity_counterexample"
   ],
   "note": "C63_solidity_partial: Missing: that the compiler accepts the mutant in the first run. C63_solidity_counterexample: C63 counterexample. A mutant that the compiler rejects passes if the compiler accepts it when asked to stop after parsing, as a compiler should if the mistake is one of types, for instance."
  },
  {
   "property": "C64",
   "status": "proved",
   "theorems": [
    "Mutagenyx.C64_solidity",
    "Mutagenyx.C64_vyper"
   ],
   "note": ""
  },
  {
   "property": "C65",
   "status": "proved",
   "theorems": [
    "Mutagenyx.C65_file",
    "Mutagenyx.C65_stdout"
   ],
   "note": ""
  },
  {
   "property": "C66",
   "status": "proved",
   "theorems": [
    "Mutagenyx.C66_files",
    "Mutagenyx.C66_stdout"
   ],
   "note": ""
  },
  {
   "property": "C67",
   "status": "proved",
   "theorems": [
    "Mutagenyx.C67_program",
    "Mutagenyx.C67_tree"
   ],
   "note": ""
  },
  {
   "property": "C68",
   "status": "partial",
   "theorems": [
    "Mutagenyx.C68_files_partial",
    "Mutagenyx.C68_vyper",
    "Mutagenyx.C68_solidity_counterexample"
   ],
   "note": "C68_files_partial: Missing: Solidity mutants of the block of a branch or of a catch clause, for which the claim fails (C68_solidity_counterexample), and output directories in the directory for temporary files. C68_solidity_counterexample: C68 fails for mutants of the block of a branch: a run that is to swap two lines in a branch of the program contract C { function f() public { if(c) { x; y; } } } ends well and leaves a mutant without the branch."
  },
  {
   "property": "C69",
   "status": "proved",
   "theorems": [
    "Mutagenyx.C69_solidity",
    "Mutagenyx.C69_vyper",
    "Mutagenyx.C69_solidity_counted",
    "Mutagenyx.C69_vyper_counted"
   ],
   "note": ""
  },
  {
   "property": "C70",
   "status": "partial",
   "theorems": [
    "Mutagenyx.C70_vyper_partial",
    "Mutagenyx.C70_solidity",
    "Mutagenyx.DemoNodes.C70_vyper_counterexample"
   ],
   "note": "C70_vyper_partial: Missing: operators the tool does not know. C70_vyper_counterexample: C70 fails: counting the mutable nodes of a Vyper function that returns 1 << x crashes when the exchange of operands is among the algorithms."
  },
  {
   "property": "C71",
   "status": "proved",
   "theorems": [
    "Mutagenyx.AlgorithmsInfo.C71_list",
    "Mutagenyx.AlgorithmsInfo.C71_describe",
    "Mutagenyx.AlgorithmsInfo.C71_widths"
   ],
   "note": ""
  },
  {
   "property": "C72",
   "status": "partial",
   "theorems": [
    "Mutagenyx.C72_solidity",
    "Mutagenyx.C72_vyper_partial",
    "Mutagenyx.C72_vyper_counterexample"
   ],
   "note": "C72_vyper_partial: Missing: the other direction, which fails for the shift operators (they are shown and no node is considered), and the algorithm UnaryOp, for which see the counterexample. C72_vyper_counterexample: C72 fails for Vyper: UnaryOp considers not a, an operator that is not shown; and the operators shown for BitshiftBinaryOp belong to no node that it considers."
  },
  {
   "property": "C73",
   "status": "partial",
   "theorems": [
    "Mutagenyx.C73_partial",
    "Mutagenyx.Replacement.C73_subscript_counterexample",
    "Mutagenyx.Replacement.C73_tuple_counterexample",
    "Mutagenyx.Replacement.C73_name_counterexample"
   ],
   "note": "C73_partial: Missing: the values in tuples and results of all other types, for which there are counterexamples. C73_subscript_counterexample: C73: counterexample. For a result of type String[10] nothing takes the place of the statement: the body is only a comment. C73_tuple_counterexample: C73: counterexample. For a tuple, None is returned for each element, whatever its type. C73_name_counterexample: C73: counterexample. For address, bytes32 and decimal the mutator fails, and for a type whose name has less than three letters it crashes, although it said that it could mutate the function."
  },
  {
   "property": "C74",
   "status": "partial",
   "theorems": [
    "Mutagenyx.VyPrint.C74_text",
    "Mutagenyx.VyPrint.C74_read_back_partial",
    "Mutagenyx.VyPrint.C74_file",
    "Mutagenyx.VyPrint.C74_different_partial",
    "Mutagenyx.VyPrint.C74_relative_import_counterexample",
    "Mutagenyx.VyPrint.C74_transient_counterexample",
    "Mutagenyx.VyPrint.C74_unprinted_counterexample",
    "Mutagenyx.VyPrint.C74_implements_counterexample",
    "Mutagenyx.VyPrint.C74_conditional_counterexample",
    "Mutagenyx.VyPrint.C74_extcall_counterexample",
    "Mutagenyx.VyPrint.C74_flag_counterexample"
   ],
   "note": "C74_read_back_partial: Missing: imports of the kind from .a import b, where the dots are lost; the word transient of variables, which is lost; lines of more than 149 bytes; more than 36 levels; documentation with quotation marks or backslashes; loop variables and results whose type is not a primary expression; statements of the newer compilers whose nodes have no printer. C74_relative_import_counterexample: C74: counterexample. from .a import b, which is relative to the package, is printed as from a import b, which is not. C74_transient_counterexample: C74: counterexample. x: transient(uint256) is printed as x: uint256, which is a variable that is stored. C74_unprinted_counterexample: C74, where it fails, in general. A node of any other kind is printed as the nodes below it, one right behind the other. C74_implements_counterexample: C74: counterexample. The declaration implements: ERC20 is printed as ERC20, like a statement that is just that name. C74_conditional_counterexample: C74: counterexample. The expression b if a else c is printed as the name bca, whatever the order of the keys one name. C74_extcall_counterexample: C74: counterexample. The calls extcall f() and staticcall f() are both printed as f(). C74_flag_counterexample: C74: counterexample. A declaration flag F with the members A and B is printed as AB."
  },
  {
   "property": "C75",
   "status": "partial",
   "theorems": [
    "Mutagenyx.VyPrint.C75_one_partial",
    "Mutagenyx.VyPrint.C75_written_partial",
    "Mutagenyx.VyPrint.Demo.C75_power_counterexample",
    "Mutagenyx.VyPrint.Demo.C75_module_counterexample"
   ],
   "note": "C75_one_partial: Missing: the deletion of results that are tuples or lists when they are the only statement, and of the only declaration of a module, and assigned numbers that do not fit into 64 bits. C75_written_partial: Missing: the deletion of results that are tuples or lists when they are the only statement, and of the only declaration of a module, assigned numbers that do not fit into 64 bits, and changed programs that are not printed as they are (property C74), like ~a  b (C75_power_counterexample), or with a deleted statement that does not fit on one line. C75_power_counterexample: C75: counterexample. In a run with ArithmeticBinaryOp the function that returns ~a * b is mutated to one that is written as ~a  b. The mutated tree stands for (~a)  b, but the text in the file is read as ~(a  b). C75_module_counterexample: C75: counterexample. When the only declaration of a module is deleted, a pass is written in its place, which Vyper does not accept outside of functions."
  },
  {
   "property": "C76",
   "status": "partial",
   "theorems": [
    "Mutagenyx.SolPrint.C76_one_partial",
    "Mutagenyx.SolPrint.C76_written_partial",
    "Mutagenyx.SolPrint.Demo.C76_fused_counterexample",
    "Mutagenyx.SolPrint.Demo.C76_negative_counterexample"
   ],
   "note": "C76_one_partial: Missing: DeleteStatement, calls of a try that are replaced by an argument, and comments for the blocks of branches and catch clauses, which do not just add a comment (C16_solidity_counterexample). C76_written_partial: Missing: mutants of DeleteStatement, calls of a try replaced by an argument, mutants of the blocks of branches and catch clauses (C68_solidity_counterexample), and changed files that are not printed as they are (property C56), like --x for -(-x) (C76_fused_counterexample) and --1 for a negative number after - (C76_negative_counterexample). C76_fused_counterexample: C76: counterexample. In a run with UnaryOp the function with -~x is mutated to one with -(--x), but it is written as ---x, which has other tokens. C76_negative_counterexample: C76: counterexample. In a run with Integer the function with -0 is mutated to one with -(-1), but it is written as --1, which is no expression."
  },
  {
   "property": "C77",
   "status": "partial",
   "theorems": [
    "Mutagenyx.SolPrint.C77_tree_partial",
    "Mutagenyx.SolPrint.C77_written_partial"
   ],
   "note": "C77_tree_partial: Missing: statements of several lines and those too long for the line, where the claim fails (C60_mutant_counterexample, C60_long_statement_counterexample). C77_written_partial: Missing: statements of several lines and those too long for the line (C60_mutant_counterexample, C60_long_statement_counterexample), and the comments missing from C78."
  },
  {
   "property": "C78",
   "status": "partial",
   "theorems": [
    "Mutagenyx.SolPrint.C78_tree_partial",
    "Mutagenyx.SolPrint.C78_written_partial",
    "Mutagenyx.SolPrint.C78_code",
    "Mutagenyx.SolPrint.C78_block_counterexample"
   ],
   "note": "C78_tree_partial: Missing: comments for which a block is made around a statement, and those in a block without statements, which are not lines of their own. C78_written_partial: Missing: mutants whose comment is put into a block made for it, into a block without statements, or for the blocks of branches and catch clauses (C78_block_counterexample, C68_solidity_counterexample). C78_block_counterexample: C78 fails for a branch without braces: a run that is to change an operator in the program contract C { function f() public { if(c) a + b; } } ends well, but the mutant has new lines that are no comments."
  },
  {
   "property": "C79",
   "status": "proved",
   "theorems": [
    "Mutagenyx.C79_report",
    "Mutagenyx.C79_no_influence"
   ],
   "note": ""
  },
  {
   "property": "C80",
   "status": "partial",
   "theorems": [
    "Mutagenyx.C80_layout_partial",
    "Mutagenyx.C80_messages_counterexample"
   ],
   "note": "C80_layout_partial: Missing: the claim that there is nothing but texts, which fails (C80_messages_counterexample). C80_messages_counterexample: C80 fails in every run to standard output that ends well: there are lines that belong to no text, in front of the first mutant."
  },
  {
   "property": "C81",
   "status": "partial",
   "theorems": [
    "Mutagenyx.C81_mutate_partial",
    "Mutagenyx.C81_error_counterexample",
    "Mutagenyx.C81_pretty_print_partial",
    "Mutagenyx.C81_unprinted_counterexample"
   ],
   "note": "C81_mutate_partial: Missing: a status other than 0 for errors, which the program does not give (C81_error_counterexample). C81_error_counterexample: C81 fails: whatever the error that ends the command mutate, the status is that of success. C81_pretty_print_partial: Missing: a status other than 0 if an input could not be printed, which the program does not give (C81_unprinted_counterexample). C81_unprinted_counterexample: C81 fails for the command pretty-print: the only input is no program, nothing is printed, and the status is 0."
  },
  {
   "property": "C82",
   "status": "proved",
   "theorems": [
    "Mutagenyx.C82_solidity",
    "Mutagenyx.C82_vyper",
    "Mutagenyx.C82_default",
    "Mutagenyx.C82_settings"
   ],
   "note": ""
  },
  {
   "property": "C83",
   "status": "partial",
   "theorems": [
    "Mutagenyx.C83_call_partial",
    "Mutagenyx.C83_root",
    "Mutagenyx.C83_counterexample"
   ],
   "note": "C83_call_partial: Missing: that the compiler finds the file under the path given to it, which is only so for files in the directory /code. C83_counterexample: C83 counterexample. Of a file in any directory outside /code, the compiler in the container does not find the file: nothing is there under the path given to it."
  },
  {
   "property": "C84",
   "status": "partial",
   "theorems": [
    "Mutagenyx.SolPrint.C84_tree_partial",
    "Mutagenyx.SolPrint.C84_swap_partial",
    "Mutagenyx.SolPrint.C84_line",
    "Mutagenyx.SolPrint.C84_written_partial"
   ],
   "note": "C84_tree_partial: Missing: trees that are nested deeper than the printer can indent (C58_deep_nesting_counterexample). C84_swap_partial: Missing: trees that are nested deeper than the printer can indent (C58_deep_nesting_counterexample). C84_written_partial: Missing: trees nested deeper than the printer can indent (C58_deep_nesting_counterexample), and the comments missing from C78."
  },
  {
   "property": "C85",
   "status": "partial",
   "theorems": [
    "Mutagenyx.VyGrammar.C85_vyper_change",
    "Mutagenyx.VyGrammar.C85_vyper_other",
    "Mutagenyx.VyPrint.C85_vyper_partial",
    "Mutagenyx.VyPrint.IdleDemo.C85_vyper_counterexample",
    "Mutagenyx.SolGrammar.C85_solidity_change",
    "Mutagenyx.SolPrint.C85_solidity_partial",
    "Mutagenyx.SolPrint.IdleDemo.C85_solidity_counterexample",
    "Mutagenyx.SolPrint.IdleDemo.C85_regrouped_counterexample"
   ],
   "note": "C85_vyper_partial: Missing: the algorithms that change nothing (C85_vyper_counterexample), and the mutants that are missing in property C75. C85_vyper_counterexample: C85: counterexample. In a run with SwapOperatorArguments the function that returns a - a is mutated. The file for the mutant is the program with a new comment, and is read as the program itself. C85_solidity_partial: Missing: the algorithms that change nothing (C85_solidity_counterexample), and the mutants that are missing in property C76. C85_solidity_counterexample: C85: counterexample. In a run with SwapOperatorArguments the function with x - x is mutated. The file for the mutant has a new comment, and the tokens of the source file. C85_regrouped_counterexample: C85: counterexample. The text may be the same although the tree is not: in a run with SwapOperatorArguments the function with x - x - x is mutated to one with x - (x - x), but it is written as x - x - x."
  },
  {
   "property": "C86",
   "status": "partial",
   "theorems": [
    "Mutagenyx.VyGrammar.C86_change",
    "Mutagenyx.VyGrammar.C86_unquoted",
    "Mutagenyx.VyGrammar.C86_comment",
    "Mutagenyx.VyPrint.C86_written_partial"
   ],
   "note": "C86_written_partial: Missing: the mutants that are missing in property C75, like programs with lines that do not fit."
  },
  {
   "property": "C87",
   "status": "proved",
   "theorems": [
    "Mutagenyx.C87_command",
    "Mutagenyx.C87_mutants",
    "Mutagenyx.C87_names"
   ],
   "note": ""
  },
  {
   "property": "C88",
   "status": "partial",
   "theorems": [
    "Mutagenyx.VyPrint.C88_stable_partial",
    "Mutagenyx.VyPrint.C88_bare_partial",
    "Mutagenyx.VyPrint.C88_same_partial"
   ],
   "note": "C88_stable_partial: Missing: the programs that C74 and C92 do not cover. C88_bare_partial: Missing: as for C88_stable_partial. C88_same_partial: Missing: as for C88_stable_partial."
  },
  {
   "property": "C89",
   "status": "partial",
   "theorems": [
    "Mutagenyx.C89_solidity_operator",
    "Mutagenyx.C89_solidity_if",
    "Mutagenyx.C89_solidity_call",
    "Mutagenyx.C89_solidity_lines",
    "Mutagenyx.C89_solidity_delete",
    "Mutagenyx.C89_solidity_unary",
    "Mutagenyx.C89_solidity_integer",
    "Mutagenyx.C89_solidity_unchecked",
    "Mutagenyx.C89_solidity_arguments_partial",
    "Mutagenyx.C89_solidity_assignment_partial",
    "Mutagenyx.C89_vyper_operator",
    "Mutagenyx.C89_vyper_if",
    "Mutagenyx.C89_vyper_integer",
    "Mutagenyx.C89_vyper_call",
    "Mutagenyx.C89_vyper_lines",
    "Mutagenyx.C89_vyper_delete_partial",
    "Mutagenyx.C89_vyper_arguments",
    "Mutagenyx.C89_vyper_assignment",
    "Mutagenyx.C89_bool_counterexample",
    "Mutagenyx.C89_largest_counterexample",
    "Mutagenyx.C89_arguments_counterexample",
    "Mutagenyx.C89_result_counterexample",
    "Mutagenyx.C89_run"
   ],
   "note": "C89_solidity_arguments_partial: Missing: further arguments of the type (C89_arguments_counterexample). C89_solidity_assignment_partial: Missing: the largest number (C89_largest_counterexample), true for bool (C89_bool_counterexample), and numbers of more than 128 bits. C89_vyper_delete_partial: Missing: what is returned instead of an only statement can be nearly nothing of what was meant (C89_result_counterexample). C89_bool_counterexample: C89 fails for booleans. Whatever is drawn, true is never assigned to a variable of type bool: the value is drawn from the half-open range from 0 to 1 (solidity/mutators.rs:660). C89_largest_counterexample: C89 fails for the largest number. Whatever is drawn, the largest number of a type uintN is never assigned (solidity/mutators.rs:636-650). C89_arguments_counterexample: C89 fails for further arguments. Whatever is drawn, only the first two arguments of a type change places; a third of the same type never moves (solidity/mutators.rs:1075-1090). C89_result_counterexample: C89 fails for the result of an emptied function. When the only statement of a Vyper function with a signed result type is deleted, the number returned instead is always one of -10, -6, 6 and 10 (vyper/mutators.rs:794: & where % is meant)."
  },
  {
   "property": "C90",
   "status": "partial",
   "theorems": [
    "Mutagenyx.SolPrint.Demo.C90_call_counterexample",
    "Mutagenyx.SolPrint.Demo.C90_try_counterexample",
    "Mutagenyx.SolPrint.C90_file_partial",
    "Mutagenyx.SolPrint.C90_documented_partial",
    "Mutagenyx.SolPrint.C90_same_partial",
    "Mutagenyx.SolPrint.C90_written_partial",
    "Mutagenyx.SolPrint.C90_modifiers_counterexample",
    "Mutagenyx.SolPrint.Demo.C90_regrouped_counterexample"
   ],
   "note": "C90_call_counterexample: C90: counterexample. In a run with FunctionCall the function with g(a + b) * c is mutated to one with the sum of a and b times c, but what is written for it is read as one with the sum of a and b * c. C90_try_counterexample: C90: counterexample. In a run with FunctionCall the call of a try is replaced by its argument. With the call the word returns is lost, and what is written is not read as any program. C90_file_partial: Missing: programs whose expressions are grouped otherwise than they would be read without parentheses (C90_regrouped_counterexample), several modifiers (C90_modifiers_counterexample), try without results, and what C56 does not cover. Documentation is in C90_documented_partial. C90_documented_partial: Missing: as for C90_file_partial. C90_same_partial: Missing: as for C90_file_partial. C90_written_partial: Missing: as for C76_written_partial, and changed files that are not read as they are (C90_regrouped_counterexample). C90_modifiers_counterexample: C90: counterexample. What is printed for a contract that has a function with two modifiers is not read as any program. C90_regrouped_counterexample: C90: counterexample. In a run with SwapOperatorArguments the function with x - x - x is mutated to one with x - (x - x), but what is written for it is read as the function before the mutation."
  },
  {
   "property": "C91",
   "status": "partial",
   "theorems": [
    "Mutagenyx.VyPrint.C91_bytes",
    "Mutagenyx.VyPrint.C91_string",
    "Mutagenyx.VyPrint.C91_string_counterexample"
   ],
   "note": "C91_string_counterexample: C91: counterexample. The string a\"b is printed as \"a\"b\", which is no literal, and the string of a backslash and an n as \"\\n\", which is a line break."
  },
  {
   "property": "C92",
   "status": "partial",
   "theorems": [
    "Mutagenyx.VyPrint.C92_kept_partial",
    "Mutagenyx.VyPrint.C92_same_partial",
    "Mutagenyx.VyPrint.C92_blanks_counterexample",
    "Mutagenyx.VyPrint.C92_quote_counterexample"
   ],
   "note": "C92_kept_partial: Missing: comments with several blanks in a row (C92_blanks_counterexample), documentation with quotation marks or backslashes (C92_quote_counterexample), and the programs that C74 does not cover. C92_same_partial: Missing: as for C92_kept_partial. C92_blanks_counterexample: C92: counterexample. Several blanks in a row in a comment are printed as one, so that comments that are lined up in columns are not kept. C92_quote_counterexample: C92: counterexample. Documentation that ends with a quotation mark is printed with a fourth quotation mark at its end. This is not read as a program at all."
  },
  {
   "property": "C93",
   "status": "partial",
   "theorems": [
    "Mutagenyx.VyPrint.C93_vyper_partial",
    "Mutagenyx.VyPrint.C93_dict_counterexample",
    "Mutagenyx.VyPrint.C93_bytes_counterexample",
    "Mutagenyx.VyPrint.C93_defaults_counterexample",
    "Mutagenyx.VyPrint.C93_word_counterexample",
    "Mutagenyx.SolPrint.C93_solidity_partial",
    "Mutagenyx.SolPrint.C93_names_counterexample",
    "Mutagenyx.SolPrint.C93_documentation_counterexample",
    "Mutagenyx.SolPrint.C93_solidity_mutants_partial",
    "Mutagenyx.SolPrint.Demo.C93_comment_counterexample",
    "Mutagenyx.SolPrint.Demo.C93_mutant_counterexample",
    "Mutagenyx.VyPrint.C93_vyper_mutants_partial",
    "Mutagenyx.VyPrint.C93_vyper_deleted_partial"
   ],
   "note": "C93_vyper_partial: Missing: other trees, for which see the counterexamples. C93_dict_counterexample: C93 fails: a dictionary with a key too many brings the tool down. C93_bytes_counterexample: C93 fails: a byte string with an odd number of digits brings the tool down. C93_defaults_counterexample: C93 fails: more default values than parameters bring a build with overflow checks down. C93_word_counterexample: C93 fails: documentation with a word that is wider than the page, such as a long address, is printed forever. C93_solidity_partial: Missing: other trees, for which see the counterexamples. C93_names_counterexample: C93 fails: a call with more names than arguments brings the tool down. C93_documentation_counterexample: C93 fails: documentation with a word that is wider than the page, such as a long address, is printed forever. C93_solidity_mutants_partial: Missing: comments that quote a word of the program too long for the page (C93_mutant_counterexample); comments for the blocks of branches and catch clauses, which do not just add a comment (C16_solidity_counterexample); and a call replaced by an argument that is no object, which no compiler gives. C93_comment_counterexample: C93 fails: comments with wide words. A program with a comment that has a stretch without blanks of more than 150 bytes is not printed, whatever the other statements of the function are: printing crashes or does not end. C93_mutant_counterexample: C93 fails: mutants of a program with a long literal. A program with a string literal that is wider than the page is printed, but the mutant without the statement with the literal is not: the comment beside the mutant quotes the statement as running text. C93_vyper_mutants_partial: Missing: comments that quote a word of the program too long for the page; a node replaced by something that is no object, which no compiler gives; and trees with deleted statements in them, for which see C93_vyper_deleted_partial. C93_vyper_deleted_partial: Missing: comments with words too long for the page, and a node replaced by something that is no object."
  },
  {
   "property": "C94",
   "status": "partial",
   "theorems": [
    "Mutagenyx.C94_run",
    "Mutagenyx.C94_fair",
    "Mutagenyx.VyPrint.C94_vyper_partial",
    "Mutagenyx.SolPrint.C94_solidity_partial"
   ],
   "note": "C94_vyper_partial: Missing: comments, and deleted statements that are kept as comments, with words too long for the page. C94_solidity_partial: Missing: comments with words too long for the page (C93_mutant_counterexample), comments for the blocks of branches and catch clauses (C16_solidity_counterexample)."
  },
  {
   "property": "C95",
   "status": "partial",
   "theorems": [
    "Mutagenyx.VyPrint.C95_partial",
    "Mutagenyx.VyPrint.C95_counterexample"
   ],
   "note": "C95_partial: Missing: functions that are declared pure, see C95_counterexample; the function can still go with the whole interface, and numbers in its signature can be changed. C95_counterexample: C95 fails for pure. The word is not in the list of words to be kept: deleting statements takes a function of an interface that is declared pure, and puts the word in a comment. The mutant has a line that is no declaration."
  },
  {
   "property": "C96",
   "status": "partial",
   "theorems": [
    "Mutagenyx.VyPrint.C96_partial",
    "Mutagenyx.VyPrint.C96_counterexample",
    "Mutagenyx.VyPrint.C96_unchanged_counterexample"
   ],
   "note": "C96_partial: Missing: integers of 2^63 and more, see C96_counterexample. C96_counterexample: C96 fails for large integers. They are printed as floating point numbers: however those are written, different integers are printed as the same text, which cannot be read as both. C96_unchanged_counterexample: C96 fails for mutants of large integers. Adding one to them or taking one away does nothing, though the mutant is written like any other."
  },
  {
   "property": "C97",
   "status": "partial",
   "theorems": [
    "Mutagenyx.C97_passed_over_partial",
    "Mutagenyx.C97_run_counterexample",
    "Mutagenyx.C97_integer_counterexample",
    "Mutagenyx.C97_arguments_counterexample"
   ],
   "note": "C97_passed_over_partial: Missing: integers replaced by random numbers in both languages, and the swapping of function arguments in Solidity. C97_run_counterexample: C97 is false for numbers: the digest covers which of the three changes was made, not the number that was drawn (solidity/mutators.rs:1309-1378). In this run a mutant is passed over that was never written. C97_integer_counterexample: C97 is false for numbers, in both languages and for every digest: other numbers, same report. C97_arguments_counterexample: C97 is false for the arguments of Solidity's function calls: the digest covers the number of the group of arguments with one type, but the groups are numbered in the order of a hash map (solidity/mutators.rs:1045-1075), which differs between two calls. Only that order differs here."
  },
  {
   "property": "C98",
   "status": "partial",
   "theorems": [
    "Mutagenyx.C98_partial",
    "Mutagenyx.C98_counterexample",
    "Mutagenyx.C98_vyper_counterexample"
   ],
   "note": "C98_partial: Missing: the other algorithms, for which it is false or depends on the tree; mutations of different nodes; and that different nodes stay different when comments are added. C98_counterexample: C98 is false for swapped lines: the digest covers the two places in the order in which they were drawn (solidity/mutators.rs:1537-1631, vyper/mutators.rs:1618-1715). In this run one mutant is written to two files. C98_vyper_counterexample: C98 is false for swapped lines in Vyper too: the same mutation with different reports."
  }
 ]
}
