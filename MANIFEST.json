{
 "claims": [
  {
   "property": "C01",
   "status": "proved",
   "theorems": [
    "C01_parse_terminates"
   ],
   "note": ""
  },
  {
   "property": "C02",
   "status": "partial",
   "theorems": [
    "C02_parse_never_panics_partial",
    "C02_parse_panics_iff",
    "C02_parse_can_panic"
   ],
   "note": "False as stated: texts starting with '==' panic. The iff gives exactly those texts."
  },
  {
   "property": "C03",
   "status": "proved",
   "theorems": [
    "C03_print_parse",
    "C03_unambiguous",
    "C03_every_program_has_a_text"
   ],
   "note": ""
  },
  {
   "property": "C04",
   "status": "proved",
   "theorems": [
    "C04_whitespace",
    "C04_leading_eq"
   ],
   "note": ""
  },
  {
   "property": "C05",
   "status": "partial",
   "theorems": [
    "C05_prefix_partial",
    "C05_tail_is_dropped",
    "C05_final_semicolon",
    "C05_after_cast_is_dropped",
    "C05_trailing_text_is_ignored",
    "C05_ternary_on_property_is_dropped",
    "C05_first_token_error_is_swallowed"
   ],
   "note": "False as stated. Proved for every accepted text: it is a program of the language (after an optional =), the tree is the tree of that program, and what follows is nothing, a final ; or a text starting with a token that is not ;, ? or a binary operator. The negation is proved for every program and every tail starting with a token of a listed kind; C05_after_cast_is_dropped and the other witnesses show the remaining kinds."
  },
  {
   "property": "C06",
   "status": "proved",
   "theorems": [
    "C06_numeric_literals",
    "C06_denotes_unique"
   ],
   "note": ""
  },
  {
   "property": "C07",
   "status": "proved",
   "theorems": [
    "C07_string_literal_transparent",
    "C07_quoted_text"
   ],
   "note": ""
  },
  {
   "property": "C08",
   "status": "proved",
   "theorems": [
    "C08_names_case_insensitive",
    "C08_variables_case_sensitive"
   ],
   "note": ""
  },
  {
   "property": "C09",
   "status": "proved",
   "theorems": [
    "C09_coincidence",
    "C09_entry_points",
    "C09_assignments"
   ],
   "note": ""
  },
  {
   "property": "C10",
   "status": "partial",
   "theorems": [
    "C10_evaluate_is_evaluate_with_empty",
    "C10_assignments_without_assignment",
    "C10_custom_with_empty_registry_differs",
    "C10_custom_with_empty_registry_differs_more",
    "C10_custom_with_empty_registry_partial",
    "C10_custom_with_empty_registry_lambdas_partial"
   ],
   "note": "evaluate = evaluate_with {} and assignments = evaluate_with are proved for all programs. evaluate_with_custom with an empty registry differs from evaluate_with (witnesses); the partial theorems give equality for programs without lambda methods, and the same value or a common failure for programs whose method lambdas name no parameters of nested higher-order functions and index and slice by literals below 2^31."
  },
  {
   "property": "C11",
   "status": "proved",
   "theorems": [
    "C11_assignment_semantics",
    "C11_first_error_aborts",
    "C11_single_statement",
    "C11_value_only"
   ],
   "note": ""
  },
  {
   "property": "C12",
   "status": "partial",
   "theorems": [
    "C12_nested_assignment_is_lost",
    "C12_expression_statements_bind_nothing",
    "C12_statement_assignment_visible_partial"
   ],
   "note": "False as stated: assignments below the top level bind nothing."
  },
  {
   "property": "C13",
   "status": "proved",
   "theorems": [
    "C13_ternary_lazy"
   ],
   "note": ""
  },
  {
   "property": "C14",
   "status": "partial",
   "theorems": [
    "C14_no_short_circuit",
    "C14_right_operand_always_evaluated",
    "C14_and_or_partial"
   ],
   "note": "False as stated: the right operand is always evaluated."
  },
  {
   "property": "C15",
   "status": "proved",
   "theorems": [
    "C15_ne_is_not_eq",
    "C15_flip",
    "C15_le_is_lt_or_eq",
    "C15_trichotomy",
    "C15_lt_trans",
    "C15_numbers_by_value",
    "C15_unordered"
   ],
   "note": ""
  },
  {
   "property": "C16",
   "status": "partial",
   "theorems": [
    "C16_eq_not_reflexive",
    "C16_eq_reflexive_iff",
    "C16_eq_reflexive_partial"
   ],
   "note": "False as stated for null, arrays, currencies, JSON, dates and NaN; the iff says exactly when it holds."
  },
  {
   "property": "C17",
   "status": "proved",
   "theorems": [
    "C17_filter",
    "C17_map",
    "C17_find",
    "C17_find_error",
    "C17_reduce",
    "C17_countif",
    "C17_filter_total"
   ],
   "note": ""
  },
  {
   "property": "C18",
   "status": "proved",
   "theorems": [
    "C18_variables_unchanged",
    "C18_map_append",
    "C18_map_pointwise"
   ],
   "note": ""
  },
  {
   "property": "C19",
   "status": "partial",
   "theorems": [
    "C19_forms_differ",
    "C19_filter_map_find_partial",
    "C19_reduce_partial"
   ],
   "note": "False as stated: the forms run in different evaluators; the partial theorems cover lambdas both read alike, up to error texts."
  },
  {
   "property": "C20",
   "status": "partial",
   "theorems": [
    "C20_custom_not_everywhere",
    "C20_outside_lambdas_partial",
    "C20_method_lambdas_partial",
    "FrontEnds.C20_text_hides_functions"
   ],
   "note": "False as stated: function-form lambdas, plain method arguments and assignment programs do not see custom functions, and the tools take every expression with ; or := in a text for an assignment program."
  },
  {
   "property": "C21",
   "status": "proved",
   "theorems": [
    "C21_custom_shadows",
    "C21_arity_error",
    "C21_success_means_called"
   ],
   "note": ""
  },
  {
   "property": "C22",
   "status": "proved",
   "theorems": [
    "C22_sumif_text",
    "C22_sumif_text_same_range",
    "C22_sumif_number",
    "C22_sumif_lambda",
    "C22_avgif"
   ],
   "note": ""
  },
  {
   "property": "C23",
   "status": "proved",
   "theorems": [
    "C23_null_receiver",
    "C23_property",
    "C23_agrees",
    "C23_method"
   ],
   "note": ""
  },
  {
   "property": "C24",
   "status": "partial",
   "theorems": [
    "C24_index_wrong",
    "C24_index_partial",
    "C24_infinity_partial"
   ],
   "note": "False as stated: an index of -2^63 or below panics in a debug build and NaN reads element 0; proved for every other number."
  },
  {
   "property": "C25",
   "status": "proved",
   "theorems": [
    "C25_slice",
    "C25_numbers_always_slice",
    "C25_split"
   ],
   "note": ""
  },
  {
   "property": "C26",
   "status": "proved",
   "theorems": [
    "C26_flatten",
    "C26_flatten_total_idempotent",
    "C26_method"
   ],
   "note": ""
  },
  {
   "property": "C27",
   "status": "partial",
   "theorems": [
    "C27_reverse_string",
    "C27_reverse_partial",
    "C27_reverse_reverse_partial",
    "C27_method_reverse_reverse_partial"
   ],
   "note": "False as stated: REVERSE of a string is an error in function form; arrays and the method forms are proved."
  },
  {
   "property": "C28",
   "status": "partial",
   "theorems": [
    "C28_sort_wrong",
    "C28_sort_partial",
    "C28_sort_method_partial"
   ],
   "note": "False as stated: NaN panics, non-numbers are refused; proved for numbers without NaN."
  },
  {
   "property": "C29",
   "status": "partial",
   "theorems": [
    "C29_unique_wrong",
    "C29_first_occurrences",
    "C29_unique_partial",
    "C29_unique_method",
    "C137_unique"
   ],
   "note": "False as stated: UNIQUE drops non-numbers and keeps both zeros; proved for the numbers of the array by bits, and for .unique() on values of all types, provided {:?} prints different numbers differently; C137_unique derives that from the documentation of {:?}."
  },
  {
   "property": "C30",
   "status": "proved",
   "theorems": [
    "C30_membership"
   ],
   "note": ""
  },
  {
   "property": "C31",
   "status": "partial",
   "theorems": [
    "C31_split_join_wrong",
    "C31_split_join_partial",
    "C31_split_join_char_partial",
    "C31_join_split"
   ],
   "note": "JOIN after SPLIT is proved in full; SPLIT after JOIN is false for overlapping delimiters and no parts, proved otherwise."
  },
  {
   "property": "C32",
   "status": "partial",
   "theorems": [
    "C32_left_substring_wrong",
    "C32_left_substring_partial",
    "C32_left",
    "C32_right",
    "C32_left_right_default",
    "C32_substring",
    "C32_substring_method",
    "C32_mid",
    "C32_replace",
    "C32_no_panic"
   ],
   "note": "LEFT & SUBSTRING is false at +inf; everything else is proved for every finite position, absence of panics for all arguments."
  },
  {
   "property": "C33",
   "status": "proved",
   "theorems": [
    "C33_concat_strings",
    "C33_concat_grouping",
    "C33_length"
   ],
   "note": ""
  },
  {
   "property": "C34",
   "status": "partial",
   "theorems": [
    "C34_length_differs",
    "C34_length_partial",
    "C34_length_arrays"
   ],
   "note": "False as stated: .length() counts bytes; proved for ASCII texts and arrays."
  },
  {
   "property": "C35",
   "status": "partial",
   "theorems": [
    "C35_cast_wrong",
    "C35_type_partial",
    "C35_twice_partial",
    "C35_same_type"
   ],
   "note": "False for digit strings beyond the range of a double or of 64 bits; proved otherwise, up to the sign of zero."
  },
  {
   "property": "C36",
   "status": "partial",
   "theorems": [
    "C36_and",
    "C36_or",
    "C36_not",
    "C36_xor_wrong",
    "C36_xor_partial",
    "C36_de_morgan",
    "C36_if",
    "C36_ifs"
   ],
   "note": "XOR takes two arguments only; everything else is proved for every argument list."
  },
  {
   "property": "C37",
   "status": "partial",
   "theorems": [
    "C37_between_wrong",
    "C37_between_method_partial",
    "C37_between_lambda_partial"
   ],
   "note": "The function form is unknown to the evaluator; the method form and calls inside method lambdas are proved."
  },
  {
   "property": "C38",
   "status": "proved",
   "theorems": [
    "C38_aggregates",
    "C38_grouping",
    "C38_flatten"
   ],
   "note": ""
  },
  {
   "property": "C39",
   "status": "proved",
   "theorems": [
    "C39_min_max"
   ],
   "note": ""
  },
  {
   "property": "C40",
   "status": "partial",
   "theorems": [
    "C40_wrong",
    "C40_permutation_partial",
    "C40_no_panic_partial",
    "C40_median_bounds_partial",
    "C40_quartile",
    "C40_median_odd_partial",
    "C40_ends_partial",
    "C40_percentile_partial",
    "C40_interpolation_partial",
    "C40_nan_percentile"
   ],
   "note": "False with NaN (panic), at overflow and for rounded interpolation; proved for NaN-free inputs as the theorems state. How far a percentile can leave the range of the numbers, and how far it is from the exact interpolation, is bounded for all finite numbers (C40_interpolation_partial)."
  },
  {
   "property": "C41",
   "status": "partial",
   "theorems": [
    "C41_mode_zeros",
    "C41_mode_partial"
   ],
   "note": "Proved with the two zeros told apart; false with them identified."
  },
  {
   "property": "C42",
   "status": "partial",
   "theorems": [
    "C42_object_round_trip",
    "C42_object_document",
    "C42_null_wrong",
    "C42_to_json_partial",
    "C42_jq_round_trip"
   ],
   "note": "All three conversions are proved, given that the JSON library reads back what it writes (C127; for which numbers it does is C138); to_json of null is {} instead."
  },
  {
   "property": "C43",
   "status": "proved",
   "theorems": [
    "C43_dig_found",
    "C43_dig_missing",
    "C43_dig_method",
    "C43_dig_chain"
   ],
   "note": ""
  },
  {
   "property": "C44",
   "status": "partial",
   "theorems": [
    "C44_wrong",
    "C44_bindings_partial",
    "C44_read_partial"
   ],
   "note": "Keys that agree after sanitizing collide, a member called arguments hides the document, and keys beginning with a digit cannot be written; proved for the other keys."
  },
  {
   "property": "C45",
   "status": "proved",
   "theorems": [
    "C45_last_registration",
    "C45_invalid_rejected",
    "C45_case_insensitive",
    "C45_list"
   ],
   "note": ""
  },
  {
   "property": "C46",
   "status": "partial",
   "theorems": [
    "C46_stale",
    "C46_fresh_partial",
    "C46_once_registered_partial",
    "C46_stats"
   ],
   "note": "The cache is never invalidated; proved for names registered once, and right after a clear."
  },
  {
   "property": "C47",
   "status": "partial",
   "theorems": [
    "C47_deadlock",
    "C47_no_deadlock_partial",
    "C47_readers_partial",
    "C47_ends_partial"
   ],
   "note": "A nested call in the arguments of a custom function can deadlock with a registration; proved free of deadlock without such nesting and without registrations."
  },
  {
   "property": "C48",
   "status": "proved",
   "theorems": [
    "C48_contexts",
    "C48_bounded",
    "C48_counted"
   ],
   "note": ""
  },
  {
   "property": "C49",
   "status": "proved",
   "theorems": [
    "C49_like_a_copy",
    "C49_independent"
   ],
   "note": ""
  },
  {
   "property": "C50",
   "status": "partial",
   "theorems": [
    "C50_provenance",
    "C50_transparent_partial",
    "C50_transparent_by_form_partial",
    "C50_variables_lost",
    "C50_clock_stale",
    "C50_registry_stale",
    "C50_collision"
   ],
   "note": "False as stated, in four ways with witnesses; proved under the conditions that exclude exactly these, and provenance of every answer proved without conditions."
  },
  {
   "property": "C51",
   "status": "proved",
   "theorems": [
    "C51_bounded",
    "C51_last_put",
    "C51_eviction",
    "C51_kept"
   ],
   "note": ""
  },
  {
   "property": "C52",
   "status": "partial",
   "theorems": [
    "C52_lookups",
    "C52_hits",
    "C52_entries",
    "C52_evictions_wrong"
   ],
   "note": "Lookups, hits, misses and entries are right; the eviction counter stays 0 on capacity drops and counts replacements."
  },
  {
   "property": "C53",
   "status": "partial",
   "theorems": [
    "C53_collision",
    "C53_injective_partial",
    "C53_order_irrelevant",
    "C137_keys"
   ],
   "note": "Keys collide when the expression contains '|'; injective otherwise, provided {:?} prints different numbers differently and without a closing parenthesis, which C137_keys derives from the documentation of {:?}."
  },
  {
   "property": "C54",
   "status": "partial",
   "theorems": [
    "C54_no_token",
    "C54_passes",
    "C54_headers_partial",
    "C54_body_counts",
    "C54_empty_token"
   ],
   "note": "False as stated: a line of the body that looks like a header counts, and with an empty token a request without a header passes. Proved exactly which line decides, and the stated equivalence when no earlier body line interferes and the token is not empty."
  },
  {
   "property": "C55",
   "status": "proved",
   "theorems": [
    "C55_management_guarded",
    "C55_nothing_without_tokens",
    "C55_refused",
    "C55_tokens"
   ],
   "note": ""
  },
  {
   "property": "C56",
   "status": "partial",
   "theorems": [
    "C56_only_the_named",
    "C56_inside_partial",
    "C56_outside"
   ],
   "note": "False as stated: names with .. or an absolute path reach outside. Proved that only the named path is touched, and that names without a slash stay inside."
  },
  {
   "property": "C57",
   "status": "partial",
   "theorems": [
    "C57_saved_are_functions",
    "C57_failing_example_saved",
    "C57_never_unregistered",
    "C57_registered_from_files",
    "C57_restart_partial",
    "C57_delete_and_reload"
   ],
   "note": "False as stated: a function whose own example fails is saved, and a deleted function stays callable until a restart. Proved what a saved file satisfies and what a restart registers."
  },
  {
   "property": "C58",
   "status": "partial",
   "theorems": [
    "HttpRead.C58_received",
    "HttpRead.C58_limit",
    "HttpRead.C58_independent_partial",
    "HttpRead.C58_same_partial",
    "HttpRead.C58_depends",
    "HttpRead.C58_standard",
    "HttpRead.C58_bodyless"
   ],
   "note": "False as stated: bytes beyond the announced body are included or not depending on how they arrive. Proved what is received for every segmentation, and independence when the client sends exactly the announced bytes."
  },
  {
   "property": "C59",
   "status": "partial",
   "theorems": [
    "C59_form_received_partial",
    "C59_upload_received_partial",
    "C59_content_changed",
    "C59_names"
   ],
   "note": "False as stated: surrounding white space, dashes and boundary-like text are lost. Proved unchanged for contents without these."
  },
  {
   "property": "C60",
   "status": "partial",
   "theorems": [
    "C60_lists_changed_partial",
    "C60_expression_lists_nothing",
    "C60_same_value_not_listed",
    "C60_cached_lists_nothing"
   ],
   "note": "False as stated: a variable assigned its old value is not listed and cached answers list nothing. Proved exactly which variables are listed otherwise."
  },
  {
   "property": "C61",
   "status": "partial",
   "theorems": [
    "Tcp.C61_in_order",
    "Tcp.C61_ends",
    "Tcp.C61_all_answered_partial",
    "Tcp.C61_lines",
    "Tcp.C61_lines_answered_partial",
    "Tcp.C61_ids",
    "Tcp.C61_panic_drops",
    "Tcp.C61_bad_line_drops"
   ],
   "note": "False as stated: a line whose evaluation panics or that is not UTF-8 ends the connection. Proved in order and without gaps for every interleaving, complete when no line does that, and ids distinct below 2^64 requests."
  },
  {
   "property": "C62",
   "status": "partial",
   "theorems": [
    "Cli.C62_panics_iff",
    "Cli.C62_lone_quote",
    "Cli.C62_no_quotes_partial",
    "Cli.C62_quoted",
    "Cli.C62_plain",
    "Cli.C62_words",
    "Cli.C62_list"
   ],
   "note": "False as stated: a lone quote crashes. Proved exactly which texts crash, and what all others are read as. Stack exhaustion is not modelled."
  },
  {
   "property": "C63",
   "status": "proved",
   "theorems": [
    "C63_round_trip",
    "C63_rejects",
    "C63_rejects_infinite",
    "C63_epoch",
    "C63_every_instant",
    "C63_day_after"
   ],
   "note": "chrono's calendar is modelled by the usual civil-day arithmetic; the theorems show it is the Gregorian calendar."
  },
  {
   "property": "C64",
   "status": "partial",
   "theorems": [
    "C64_wrong",
    "C64_fixed_units_partial",
    "C64_fixed_units_no_panic_partial",
    "C64_add_difference",
    "C64_months_partial",
    "C64_years_partial"
   ],
   "note": "DATEADD panics outside the supported years and wraps months to 32 bits; proved within those bounds."
  },
  {
   "property": "C65",
   "status": "partial",
   "theorems": [
    "C65_formulas",
    "C65_pmt_fv",
    "C65_fv_account",
    "C65_paid_off",
    "C65_ipmt_wrong",
    "C65_ipmt_wrong_f64",
    "C65_ipmt_first_partial"
   ],
   "note": "PMT and FV proved over the reals; IPMT is wrong from the second period on."
  },
  {
   "property": "C66",
   "status": "proved",
   "theorems": [
    "C66_clock_independent",
    "C66_now_reads_the_clock"
   ],
   "note": ""
  },
  {
   "property": "C67",
   "status": "proved",
   "theorems": [
    "HttpRead.C67_no_leftovers"
   ],
   "note": ""
  },
  {
   "property": "C68",
   "status": "proved",
   "theorems": [
    "Tcp.C68_refused",
    "Tcp.C68_passes",
    "Tcp.C68_results",
    "Tcp.C68_empty_token"
   ],
   "note": ""
  },
  {
   "property": "C69",
   "status": "partial",
   "theorems": [
    "Cli.C69_variables",
    "Cli.C69_json_drops_variables",
    "Cli.C69_refused"
   ],
   "note": "False as stated: with --json the other assignments are dropped. Proved for every sequence of words without --json."
  },
  {
   "property": "C70",
   "status": "partial",
   "theorems": [
    "FrontEnds.C70_agree_partial",
    "FrontEnds.C70_names_differ"
   ],
   "note": "False for names with special characters and for arguments; proved otherwise, for the HTTP server on the first request (C50 is about later ones)."
  },
  {
   "property": "C71",
   "status": "partial",
   "theorems": [
    "C71_panics",
    "C71_calm_partial",
    "C71_reasons"
   ],
   "note": "False as stated, with witnesses. Proved: expressions without sorting functions, DATEADD, .sort and computed indices never panic; for every expression a panic is one of five named ones."
  },
  {
   "property": "C72",
   "status": "proved",
   "theorems": [
    "C72_coincidence",
    "C72_register",
    "C72_unregister",
    "C72_called_changes"
   ],
   "note": ""
  },
  {
   "property": "C73",
   "status": "proved",
   "theorems": [
    "C73_boolean",
    "C73_amount",
    "C73_text_round_trip",
    "C73_integer",
    "C73_array_date",
    "C73_string"
   ],
   "note": "Integers within 64 bits; text round trip given that the standard library reads back the number it prints, which C137 derives from its documentation."
  },
  {
   "property": "C74",
   "status": "partial",
   "theorems": [
    "C74_floor_ceil_abs",
    "C74_round_int",
    "C74_round_forms_partial",
    "C74_forms_differ",
    "C74_round_decimals",
    "C74_round_fixes_decimals",
    "C74_round_idempotent",
    "C74_round_not_nearest"
   ],
   "note": "FLOOR, CEIL, CEILING, ABS and ROUND to an integer: proved for every finite double, exact, both forms. The agreement of the forms is false: INT(-1.5) = -2 but (-1.5).int() = -1, FLOOR of a text is 0 but the method fails, ROUND(x, -2) ignores the negative decimals but the method does not (C74_forms_differ). With positive decimals both forms agree (C74_round_forms_partial); ROUND(x, d) is the double nearest to k/10^d with k within a half of x*10^d up to the rounding of that product (C74_round_decimals, up to 22 decimals), leaves decimals of 15 digits alone and is idempotent; ROUND(2.675, 2) shows that the allowance is needed."
  },
  {
   "property": "C75",
   "status": "proved",
   "theorems": [
    "C75_remainder",
    "C75_special"
   ],
   "note": "The remainder of two binary64 numbers is itself a binary64 number (proved), so modelling fmod as the exact remainder is sound."
  },
  {
   "property": "C76",
   "status": "proved",
   "theorems": [
    "C76_includes",
    "C76_starts_ends",
    "C76_substitute",
    "C76_substitute_empty",
    "C76_trim",
    "C76_case"
   ],
   "note": "Unicode case mapping is external; on it only the agreement of the forms is claimed."
  },
  {
   "property": "C77",
   "status": "proved",
   "theorems": [
    "C77_first_last",
    "C77_count",
    "C77_compact"
   ],
   "note": "COUNT is exact up to 2^53 elements."
  },
  {
   "property": "C78",
   "status": "partial",
   "theorems": [
    "C78_sign",
    "C78_parity_partial",
    "C78_parity_wrong",
    "C78_blank",
    "C78_types"
   ],
   "note": "Parity is wrong beyond the 64-bit range (1e20.odd? holds) and is that of the integer part for fractions (2.5.even? holds)."
  },
  {
   "property": "C79",
   "status": "partial",
   "theorems": [
    "C79_total_idempotent",
    "C79_numbers",
    "C79_float_cast",
    "C79_bool_cast",
    "C79_casts_differ"
   ],
   "note": "to_f extends the float cast (proved); to_bool and the boolean cast differ exactly on white-space texts, the epoch and blank documents (proved, iff); text, array and integer conversions differ from the casts (C79_casts_differ)."
  },
  {
   "property": "C80",
   "status": "proved",
   "theorems": [
    "C80_keys_values",
    "C80_has_key",
    "C80_others"
   ],
   "note": "JSON parsing is external; the keys of a parsed object are assumed distinct (a map)."
  },
  {
   "property": "C81",
   "status": "partial",
   "theorems": [
    "C81_eval_extends",
    "C81_with_vars_partial",
    "C81_assignments_partial",
    "C81_differ"
   ],
   "note": "False as stated, with witnesses (text comparison in runtime::eval, nested assignments, BETWEEN). Proved: every value or panic of runtime::eval is one of eval_with_vars, for every expression; eval_with_vars and the assignment functions agree with the entry points on expressions both evaluators read alike, including the variables afterwards, up to error texts."
  },
  {
   "property": "C82",
   "status": "partial",
   "theorems": [
    "C82_called_names",
    "C82_every_name_can_be_called",
    "C82_other_builtins_can_be_called",
    "C82_dotted_functions_cannot_be_called",
    "C82_dotted_call_fails"
   ],
   "note": "The first half is proved for every text. The second is false of the five functions with a dot in their name: no text calls them (proved from parser soundness); every other built in function can be called."
  },
  {
   "property": "C83",
   "status": "partial",
   "theorems": [
    "C83_join",
    "C83_join_array",
    "C83_method_partial",
    "C83_method_differs",
    "C83_concat_partial",
    "C83_concat_drops_amounts"
   ],
   "note": "JOIN is proved for all arrays. The method agrees for texts and numbers only (it writes booleans in lower case and refuses nulls, amounts, dates, documents: witnesses). CONCAT agrees except that it drops amounts, dates and documents."
  },
  {
   "property": "C84",
   "status": "partial",
   "theorems": [
    "C84_product",
    "C84_product_operator",
    "C84_powers",
    "C84_not_numbers_are_zero"
   ],
   "note": "Proved for numbers. False otherwise: SQRT and .sqrt() differ below zero, and POW and SQRT take anything that is not a number (amounts included) for zero, for every such value."
  },
  {
   "property": "C85",
   "status": "partial",
   "theorems": [
    "C85_variance",
    "C85_nonnegative",
    "C85_one_number",
    "C85_equal_numbers_differ",
    "C85_error",
    "C85_integers",
    "C85_equal_integers"
   ],
   "note": "That equal numbers have variance 0 is false: VARP(0.1, 0.1, 0.1) is positive (proved); it holds for equal integers whose sum is at most 2^53. The distance from the exact variance is bounded for all finite numbers (C85_error), and integers with an integral mean give the exact variance correctly rounded. The other claims are proved for all values."
  },
  {
   "property": "C86",
   "status": "partial",
   "theorems": [
    "C86_formula",
    "C86_declining_balance",
    "C86_whole_life",
    "C86_not_negative",
    "C86_partial_first_year_falls_short",
    "C86_first_year_negative",
    "C86_year_zero_is_year_two"
   ],
   "note": "The totals are proved in exact real arithmetic for the formula, and the function is proved to compute that formula in floating point. False and proved false: with a partial first year the total always falls short, the first year is negative when the salvage value exceeds the cost (for a power function that is right on 2^1), and year 0 gives the second year."
  },
  {
   "property": "C87",
   "status": "partial",
   "theorems": [
    "Client.C87_variables",
    "Client.C87_document",
    "Client.C87_token",
    "Client.C87_panics_iff",
    "Client.C87_values_partial",
    "Client.C87_values_differ",
    "Client.C87_same_as_sk_partial"
   ],
   "note": "Proved for every sequence of words. Values are read as by `sk` except arrays, capitalized words and non-finite numbers (witnesses); with --json the assignments are dropped; a lone quote crashes the client (exactly then)."
  },
  {
   "property": "C88",
   "status": "partial",
   "theorems": [
    "Stats.C88_counters",
    "Stats.C88_exact",
    "Stats.C88_report",
    "Stats.C88_torn"
   ],
   "note": "Exact at rest, modulo 2^64. A report made meanwhile reads the two counters at different moments: it may show a count without its time and the other way round (witness)."
  },
  {
   "property": "C89",
   "status": "partial",
   "theorems": [
    "Output.C89_http_round_trip_partial",
    "Output.C89_http_injective_partial",
    "Output.C89_structured",
    "Output.C89_lost",
    "Output.C89_tcp_partial",
    "Output.C89_tcp_structured_partial",
    "Output.C89_tcp_differs",
    "Output.C89_sk",
    "Output.C89_sk_round_trip_partial"
   ],
   "note": "Proved for finite numbers, texts, booleans, null and arrays of these (HTTP); the TCP server and `sk --output-json` agree on flat arrays. Amounts, dates, documents and non-finite numbers do not survive; inner arrays are sent as debug text over TCP (witnesses)."
  },
  {
   "property": "C90",
   "status": "partial",
   "theorems": [
    "Js.C90_identity_partial",
    "Js.C90_arguments_partial",
    "Js.C90_types_lost",
    "Js.C90_results",
    "Js.C90_returned",
    "Js.C90_identity_fails"
   ],
   "note": "Proved for numbers, texts, booleans, null and arrays of these. Amounts and dates arrive as numbers, documents as texts, and the function cannot tell (C90_types_lost)."
  },
  {
   "property": "C91",
   "status": "partial",
   "theorems": [
    "C91_position_partial",
    "C91_inside",
    "C91_no_position",
    "C91_shifted",
    "C91_end",
    "C91_equals",
    "C91_first"
   ],
   "note": "Proved for every text, counting from after a leading `=` (with one, the position is off by what precedes it: witness). Errors about type names are exactly those without a position. Witnesses: an `=` is reported one byte early, errors at the end are reported at the last token, an unknown first character is reported as an empty text."
  },
  {
   "property": "C92",
   "status": "proved",
   "theorems": [
    "Startup.C92_http_options",
    "Startup.C92_http_tokens",
    "Startup.C92_http_protected",
    "Startup.C92_tcp_options",
    "Startup.C92_started",
    "Startup.C92_no_threads",
    "Startup.C92_swallowed"
   ],
   "note": "Proved for all command lines. `C92_no_threads`: the TCP server panics for 0 threads. `C92_swallowed`: a forgotten value makes the next option a value, so that `--log-file --token` runs without a token."
  },
  {
   "property": "C93",
   "status": "proved",
   "theorems": [
    "HttpWrite.C93_unambiguous",
    "HttpWrite.C93_response",
    "HttpWrite.C93_preflight",
    "HttpWrite.C93_statuses"
   ],
   "note": "All content types used in the code are constants without line breaks. Write failures are not modelled."
  },
  {
   "property": "C94",
   "status": "partial",
   "theorems": [
    "Workers.C94_accounted",
    "Workers.C94_in_order",
    "Workers.C94_tcp_graceful",
    "Workers.C94_no_more",
    "Workers.C94_tcp_can_stop",
    "Workers.C94_http_drops",
    "Workers.C94_idle_clients_block"
   ],
   "note": "Proved for both servers up to shutdown, and for the shutdown of the TCP server. False for the HTTP server, which ends without waiting for its workers (witness), and for clients that stay connected to the TCP server: as many idle clients as there are workers keep everyone else waiting, and the server from ending, in every continuation."
  },
  {
   "property": "C95",
   "status": "partial",
   "theorems": [
    "AggregateMethods.C95_sum_avg",
    "AggregateMethods.C95_min_max",
    "AggregateMethods.C95_methods_refuse",
    "AggregateMethods.C95_empty"
   ],
   "note": "Proved for arrays of numbers and amounts (min and max for non-empty ones, up to the sign of zero). False otherwise: the methods refuse anything else and inner arrays, which the functions skip or enter; on an empty array MIN is 0 and min() null (witnesses)."
  },
  {
   "property": "C96",
   "status": "proved",
   "theorems": [
    "Extensions.C96_last_registered",
    "Extensions.C96_first_handler",
    "Extensions.C96_arity",
    "Extensions.C96_components",
    "Extensions.C96_case_sensitive"
   ],
   "note": "Names are case-sensitive here, unlike in the function registry (`C96_case_sensitive`). Nothing in the crate evaluates with this registry."
  },
  {
   "property": "C97",
   "status": "proved",
   "theorems": [
    "C97_correctly_rounded",
    "C97_rounds_unique",
    "C97_division_by_zero",
    "C97_needs_numbers",
    "C97_exact",
    "C97_integers",
    "C97_comparisons"
   ],
   "note": "Amounts of money (Currency) are not numbers here: `:price + 1` is an error for them although SUM accepts them (`C97_needs_numbers`)."
  },
  {
   "property": "C98",
   "status": "proved",
   "theorems": [
    "C98_sum_error",
    "C98_integers",
    "C98_order",
    "C98_order_matters",
    "C98_average",
    "C98_product",
    "C98_average_error",
    "C98_product_error"
   ],
   "note": "Beyond the bound the order matters (`C98_order_matters`)."
  },
  {
   "property": "C99",
   "status": "proved",
   "theorems": [
    "HttpList.C99_lists_the_files",
    "HttpList.C99_valid_are_loaded",
    "HttpList.C99_reload",
    "HttpList.C99_upload",
    "HttpList.C99_delete",
    "HttpList.C99_nameless"
   ],
   "note": "For uploads with a plain name in an existing hooks directory. A file named just `.js` is accepted with 200 but never listed nor loaded (`C99_nameless`). File times and unreadable files are not modelled."
  },
  {
   "property": "C100",
   "status": "proved",
   "theorems": [
    "C100_add_sub",
    "C100_mul_div",
    "C100_commutative",
    "C100_difference",
    "C100_sum_avg",
    "C100_rounding",
    "C100_average_of_two",
    "C100_average_of_three"
   ],
   "note": "The average of three need not be between them: AVG(0.1, 0.1, 0.1) > 0.1 (`C100_average_of_three`). `LeTrue` is the value of the text `:a <= :b`; powers of ten up to 10^22 are assumed right for ROUND."
  },
  {
   "property": "C101",
   "status": "proved",
   "theorems": [
    "HttpQuery.C101_evaluates",
    "HttpQuery.C101_missing",
    "HttpQuery.C101_like_post",
    "HttpQuery.C101_refused",
    "HttpQuery.C101_values_changed"
   ],
   "note": "Parameter names are not decoded by the code, so names are those that need no encoding; values are sent in any encoding (characters as they are or as bytes, with large or small digits). The decoder of the crate urlencoding is modelled."
  },
  {
   "property": "C102",
   "status": "proved",
   "theorems": [
    "C102_replace",
    "C102_replace_here",
    "C102_naming",
    "C102_naming_fails",
    "C102_not_inside",
    "Hoist.C102_hoist",
    "Hoist.C102_hoist_needs_value",
    "Hoist.C102_hoist_dot",
    "Hoist.C102_hoist_dot_differs"
   ],
   "note": "Method arguments go to the older evaluator, so `SameEverywhere` asks for the same there; texts in quotes and `...e` are treated specially as arguments and excluded. `C102_not_inside`: naming a part of a MAP body can change the result; `C102_hoist` says when it does not (FILTER, FIND, MAP and REDUCE with the usual names of the element and the accumulator), `C102_hoist_dot` when it does not for methods."
  },
  {
   "property": "C103",
   "status": "proved",
   "theorems": [
    "C103_functions",
    "C103_anywhere",
    "C103_method_arguments",
    "C103_wording",
    "C103_methods",
    "C103_substitute"
   ],
   "note": "`C103_wording`: in method arguments a failing call is reported as unknown under the name that was used. CEILING reads its second argument and ignores it, as CEIL does."
  },
  {
   "property": "C104",
   "status": "proved",
   "theorems": [
    "HttpBody.C104_read",
    "HttpBody.C104_refused",
    "HttpBody.C104_complete",
    "HttpBody.C104_alike",
    "HttpBody.C104_surprises"
   ],
   "note": "serde's reading of a text into a JSON tree is external; what the derived and the hand-written deserializers do with the tree is modelled. `C104_surprises`: the text \"true\" selects a variable of that name, unlike in a GET request, and an array of four members is a request."
  },
  {
   "property": "C105",
   "status": "partial",
   "theorems": [
    "C105_not_reported",
    "C105_reported",
    "C105_count",
    "C105_expression",
    "C105_unreported"
   ],
   "note": "The code violates it for expressions (`C105_unreported`): FILTER, FIND, MAP, REDUCE, SUMIF, AVGIF, COUNTIF and JQ can be called but are not reported, and the dotted names are reported but cannot be called from an expression (C82). `C105_reported` assumes that the platform lower-cases `days` and reads the JSON `null`."
  },
  {
   "property": "C106",
   "status": "proved",
   "theorems": [
    "C106_extract",
    "C106_aggregates"
   ],
   "note": ""
  },
  {
   "property": "C107",
   "status": "partial",
   "theorems": [
    "FileSteps.C107_untouched",
    "FileSteps.C107_alone",
    "FileSteps.C107_alone_delete",
    "FileSteps.C107_bytes",
    "FileSteps.C107_deletes",
    "FileSteps.C107_upload_serial",
    "FileSteps.C107_update_serial",
    "FileSteps.C107_delete_serial",
    "FileSteps.C107_torn",
    "FileSteps.C107_cut",
    "FileSteps.C107_race"
   ],
   "note": "Proved: other files; undisturbed requests (each stopping point, and equality with handling the request in one piece); where every byte comes from; deletions among themselves. The code violates the rest: `C107_torn` (two successful uploads leave a mixture that loads as a function nobody sent), `C107_cut` (a crash leaves a beginning that loads as another function), `C107_race` (a successful update and a successful deletion, and the file is there). Assumed: the hooks directory exists, paths are resolved and name no directories."
  },
  {
   "property": "C108",
   "status": "proved",
   "theorems": [
    "C108_selects",
    "C108_answers_iff",
    "C108_aggregates",
    "C108_dig",
    "C108_single_not_array",
    "C108_ambiguous",
    "C108_not_in_methods"
   ],
   "note": "The path library is a parameter: which nodes a path selects is its answer. How numbers, amounts, dates and arrays are written as a document is the inductive `Spec.JqDoc`."
  },
  {
   "property": "C109",
   "status": "partial",
   "theorems": [
    "Daemon.C109_one_process",
    "Daemon.C109_detached_partial",
    "Daemon.C109_stdin",
    "Daemon.C109_one_server",
    "Daemon.C109_status_partial",
    "Daemon.C109_file_partial",
    "Daemon.C109_serves",
    "Daemon.C109_status_fails",
    "Daemon.C109_second_start",
    "Daemon.C109_file_stays"
   ],
   "note": "Proved: one process, its session, output and error, one server; the file when one server is started; status 1 leaves no process, status 0 leaves one; a start without failures serves. The code violates the rest: `C109_stdin` (descriptor 0 is closed again when `daemonize` returns, in every run, and the next file opened gets it), `C109_status_fails` (status 0 although the port is taken), `C109_second_start` (a second start replaces the number of the running server in the file), `C109_file_stays` (the file stays when the server ends)."
  },
  {
   "property": "C110",
   "status": "proved",
   "theorems": [
    "Http.C110_pages",
    "Http.C110_changes",
    "Http.C110_statuses",
    "Http.C110_clears",
    "Http.C110_malformed",
    "Http.C110_history"
   ],
   "note": "Two HTTP requests are two steps here; their interleavings are in C45, C88, C94 and C107. That an evaluation, an upload or an update can stay without an answer is the panic of C71 and C59."
  },
  {
   "property": "C111",
   "status": "proved",
   "theorems": [
    "Types.C111_total",
    "Types.C111_sound",
    "Types.C111_programs",
    "Types.C111_custom",
    "Types.C111_failures_happen",
    "Types.C111_range_failures_happen"
   ],
   "note": "The rules are in Spec/Types.lean and mention the syntax only. Left out of the rules: SUMIF, FIND and the first, last, min and max methods (they can give null for some data), the sort method (what it does with NaN is left open), NOW, DATE() and TIME (the clock), the cast of a number to a date (it can lie beyond the calendar), JSON, null. Inside method arguments REDUCE must name its parameters and FIRST, LAST and the other functions that can fail are not typed: the older evaluator that runs them calls the accumulator x and reports their failures as an unknown function."
  },
  {
   "property": "C112",
   "status": "proved",
   "theorems": [
    "Order.C112_first",
    "Order.C112_culprit",
    "Order.C112_blameless",
    "Order.C112_program"
   ],
   "note": "Which parts are evaluated when is written down in Order.parts and Order.Later, without reference to how the evaluator computes. The arguments of methods count as the method's own business: a failure in them has the method call as its origin. The criterion of SUMIF may fail by itself (it is then a lambda), so only its panics count."
  },
  {
   "property": "C113",
   "status": "proved",
   "theorems": [
    "PlainOutput.C113_determines",
    "PlainOutput.C113_one_line",
    "PlainOutput.C113_json_ambiguous",
    "C137_apart"
   ],
   "note": "Assumes that {:?} prints different floats differently, without a closing parenthesis or a control character; C137_apart derives this from the documentation of {:?}. C113_json_ambiguous shows that the JSON output is ambiguous."
  },
  {
   "property": "C114",
   "status": "proved",
   "theorems": [
    "Bench.C114_encoding",
    "Bench.C114_asks",
    "Bench.C114_health",
    "Bench.C114_not_ascii"
   ],
   "note": "C114_not_ascii: other characters lose all but their low byte."
  },
  {
   "property": "C115",
   "status": "proved",
   "theorems": [
    "Bench.C115_arguments",
    "Bench.C115_shares",
    "Bench.C115_counts",
    "Bench.C115_ends",
    "Bench.C115_panics",
    "Bench.C115_warmup",
    "Bench.C115_concurrent_ignored"
   ],
   "note": "Each push and each fetch_add is one atomic step. C115_panics: 2^32 successes make the division panic. C115_warmup: -w 0 panics, and the remainder by ten is dropped. C115_concurrent_ignored: -c has no effect."
  },
  {
   "property": "C116",
   "status": "proved",
   "theorems": [
    "Client.C116_request",
    "Client.C116_accepts",
    "Client.C116_statistics",
    "Client.C116_order",
    "Client.C116_failures",
    "Client.C116_server_times"
   ],
   "note": "The place of a percentile is computed in doubles (0.95 and 0.99 are not exact): shown equal to the exact place for up to 2^40 latencies. C116_server_times: if no server time is positive, their average is NaN. C116_failures: zero iterations end with \"All requests failed!\"."
  },
  {
   "property": "C117",
   "status": "proved",
   "theorems": [
    "C117_rename",
    "C117_program",
    "C117_parameter",
    "C117_reduce",
    "C117_method",
    "C117_reduce_method",
    "C117_capture",
    "C117_computed_name",
    "C117_ignored_name"
   ],
   "note": "The parameter theorems are about FILTER, FIND, MAP and REDUCE where the new evaluator runs them and about the methods; inside a method's arguments, with custom functions, the name given to MAP is ignored (C117_ignored_name). C117_capture and C117_computed_name show why the names bound by lambdas must stay and be written as texts: MAP([1, 2], :y) with y renamed to x means something else, and a parameter's name may itself be read from a variable."
  },
  {
   "property": "C118",
   "status": "proved",
   "theorems": [
    "C118_session",
    "C118_pieces",
    "C118_append",
    "C118_exchange",
    "C118_unused",
    "C118_overwritten",
    "C118_repeated",
    "C118_idle",
    "C118_exchange_failures",
    "C118_unused_failure",
    "C118_dot"
   ],
   "note": "Texts are those of programs (C03), not ending in a dot: `1.` next to a semicolon is read differently (C118_dot). C118_exchange_failures and C118_unused_failure show what the conditions are for."
  },
  {
   "property": "C119",
   "status": "proved",
   "theorems": [
    "FileStore.C119_history",
    "FileStore.C119_determined",
    "FileStore.C119_runs_determined",
    "FileStore.C119_last"
   ],
   "note": "For a function directory that is there and holds no directory with the name of a function file, writes that succeed, names without a slash (C56 shows what others do), and code whose example does not panic. Reading a body text into a JSON tree is external (Reads)."
  },
  {
   "property": "C120",
   "status": "partial",
   "theorems": [
    "Missing.C120_missing_partial",
    "Missing.C120_kept_partial",
    "Missing.C120_assignments_partial",
    "Missing.C120_text_partial",
    "Missing.C120_sumif_reads",
    "Missing.C120_reduce_name"
   ],
   "note": "False where failures are not reported, shown by witnesses: SUMIF([1, 2, 3], :x) is 0, but 2 when x = 2 is given; in a method argument REDUCE(..., :p, \"acc\") uses x when p is missing. Proved for expressions in which the criterion of SUMIF and the names of REDUCE read none of the added variables."
  },
  {
   "property": "C121",
   "status": "partial",
   "theorems": [
    "Fx.C121_runs",
    "Fx.C121_lambda",
    "Fx.C121_reduce",
    "Fx.C121_find",
    "Fx.C121_quiet",
    "Fx.C121_named",
    "Fx.C121_none",
    "Fx.C121_once_partial",
    "Fx.C121_exact_partial",
    "Fx.C121_map_partial",
    "Fx.C121_filter_partial",
    "Fx.C121_find_partial",
    "Fx.C121_lambda_partial",
    "Fx.C121_reduce_partial",
    "Fx.C121_conditional",
    "Fx.C121_not_taken",
    "Fx.C121_sumif",
    "Fx.C121_and"
   ],
   "note": "C121_runs: for every expression, registry and variables, the sequence of calls is one that a grammar read off the expression allows (Spec/EffectRuns.lean): arguments in order, then the function, nothing after a failure, one branch of a conditional, lambdas of methods once per element. C121_lambda, C121_reduce and C121_find: how many times, for every lambda. The theorems ending in _partial give exact lists for simpler expressions. False for SUMIF, shown by a witness: SUMIF([], G()) calls G and drops its failure. Both sides of && and || are always run."
  },
  {
   "property": "C122",
   "status": "proved",
   "theorems": [
    "Health.C122_open",
    "Health.C122_requests",
    "Health.C122_lookups",
    "Health.C122_together",
    "Health.C122_clear",
    "Health.C122_rate",
    "Health.C122_again"
   ],
   "note": "Requests one after the other; C52 and C88 are about the interleavings of cache accesses and counters. total_saved_time_ms is C144; the evictions shown are wrong (C52)."
  },
  {
   "property": "C123",
   "status": "proved",
   "theorems": [
    "Laws.C123_countif",
    "Laws.C123_find",
    "Laws.C123_filter_twice",
    "Laws.C123_filter_filter",
    "Laws.C123_reverse",
    "Laws.C123_sumif",
    "Laws.C123_partition",
    "Laws.C123_map_length",
    "Laws.C123_map_index",
    "Laws.C123_map_map",
    "Laws.C123_identity",
    "Laws.C123_reduce",
    "Laws.C123_conditions",
    "Laws.C123_dot_filter_twice",
    "Laws.C123_dot_filter_filter",
    "Laws.C123_dot_find",
    "Laws.C123_dot_map_length",
    "Laws.C123_dot_reverse",
    "Laws.C123_dot_partition",
    "Laws.C123_dot_map_filter",
    "Laws.C123_dot_reduce",
    "Laws.C123_dot_map_reduce"
   ],
   "note": "The laws of counting, filtering and summing hold for failures too; those of REVERSE and of two MAPs for values, as failures may come from different elements (C123_conditions, which also shows why SUMIF needs arrays without inner arrays and FIND a FILTER that succeeds)."
  },
  {
   "property": "C124",
   "status": "partial",
   "theorems": [
    "Console.C124_http_runs",
    "Console.C124_http_tokens_unseen",
    "Console.C124_unprotected_partial",
    "Console.C124_one_token",
    "Console.C124_http_foreground",
    "Console.C124_http_refused",
    "Console.C124_tcp_runs",
    "Console.C124_tcp_tokens_unseen",
    "Console.C124_tcp_enabled",
    "Console.C124_empty_token",
    "Console.C124_daemon_silent",
    "Console.C124_tcp_no_warning",
    "Console.C124_tcp_no_threads"
   ],
   "note": "The warning: for tokens that are not empty. False for an empty token (C124_empty_token: \"token auth: enabled\", no warning, everything open). Also false, by witnesses: in the background the terminal and the status are the same when the port is taken (C124_daemon_silent); sk_server never warns that it is unprotected (C124_tcp_no_warning); with 0 threads it says it has started and is ready, and panics (C124_tcp_no_threads)."
  },
  {
   "property": "C125",
   "status": "proved",
   "theorems": [
    "TokenSecrecy.C125_http",
    "TokenSecrecy.C125_tcp"
   ],
   "note": "Answers and state, not the time they take: the comparison of tokens is an ordinary string comparison. Assumes that lower-casing non-ASCII texts makes no header name appear (as in C54)."
  },
  {
   "property": "C126",
   "status": "partial",
   "theorems": [
    "HttpReply.C126_same",
    "HttpReply.C126_truthful",
    "HttpReply.C126_evaluation",
    "HttpReply.C126_ids",
    "HttpReply.C126_form",
    "HttpReply.C126_store",
    "HttpReply.C126_failed_example_success",
    "HttpReply.C126_list",
    "HttpReply.C126_reload",
    "HttpReply.C126_reload_counts",
    "HttpReply.C126_bytes",
    "HttpReply.C126_unreadable",
    "HttpReply.C126_not_413",
    "HttpReply.C126_health",
    "HttpReply.C126_blind",
    "HttpReply.C126_text",
    "HttpReply.C126_why_delete",
    "HttpReply.C126_why_store",
    "HttpReply.C126_list_comments"
   ],
   "note": "Fails by witnesses in three places: a reload counts two files with functions of one name twice, and says 0 when it stopped after registering some (C126_reload_counts); a function that fails its own example is \"uploaded and validated successfully\" (C126_failed_example_success); a request that is too large is answered with status 400 and the text 413 (C126_not_413). The text of a document is the printing of serde_json, which is a parameter."
  },
  {
   "property": "C127",
   "status": "partial",
   "theorems": [
    "JsonText.C127_reads",
    "JsonText.C127_unambiguous",
    "JsonText.C127_round_trip",
    "JsonText.C127_writes",
    "JsonText.C127_whitespace",
    "JsonText.C127_reread",
    "JsonText.C127_through_object",
    "JsonText.C127_through_text",
    "JsonText.C127_variables",
    "JsonText.C127_variables_refused"
   ],
   "note": "A model of the JSON library, which is not in the repository, from its documentation. Writing and reading of doubles is a parameter; that a double is read back as it was written is a hypothesis (FloatBack), since serde_json without the feature float_roundtrip does not promise it; C138 shows for which numbers it holds and that it fails for others. Fails for values nested deeper than 126 (C127_through_object)."
  },
  {
   "property": "C128",
   "status": "partial",
   "theorems": [
    "Wire.C128_request",
    "Wire.C128_answer",
    "Wire.C128_too_deep",
    "Wire.C128_reply",
    "Wire.C128_closed",
    "Wire.C128_client",
    "Wire.C128_client_document",
    "Wire.C128_client_token",
    "Wire.C128_results",
    "Wire.C128_history",
    "Wire.C128_accepted",
    "Wire.C128_understood"
   ],
   "note": "Fails for documents nested deeper than what the reader of JSON allows once they are inside a request: variables nested more than 125 deep, which the client takes, are called an invalid request (C128_too_deep), and results nested more than 126 deep are lost by the client (last part of C128_reply). That doubles are read back as they were written is a hypothesis (FloatBack), as for C127; C138 proves it for numbers of up to 15 digits and whole numbers up to 1801439850948198."
  },
  {
   "property": "C129",
   "status": "partial",
   "theorems": [
    "HttpWire.C129_reads",
    "HttpWire.C129_post",
    "HttpWire.C129_refused",
    "HttpWire.C129_get"
   ],
   "note": "Missing: names of variables must consist of letters and digits and the expression must not mention :arguments, since the server changes the one and defines the other (C70); reported variables are not asked for (C60); values are nested at most 125 deep, since a JSON reader refuses deeper responses. That doubles are read back as they were written is a hypothesis (FloatBack), as for C127; C138 proves it for numbers of up to 15 digits and whole numbers up to 1801439850948198."
  },
  {
   "property": "C130",
   "status": "partial",
   "theorems": [
    "Bench.C130_get",
    "Bench.C130_json",
    "Bench.C130_health",
    "Bench.C130_cases",
    "Bench.C130_variables",
    "Bench.C130_braces",
    "Bench.C130_quotes"
   ],
   "note": "False of the code as stated for expressions in bodies: quotes and backslashes are not escaped (C130_quotes: a request that would succeed is not counted) and `{}` is replaced by the host (C130_braces: a failure is counted as a success); hence the hypotheses of C130_json. In the path, expressions are ASCII (C114). The server handles the requests in turn and has no token. That the number of milliseconds is written as a number is a hypothesis (FloatBack), as for C127."
  },
  {
   "property": "C131",
   "status": "proved",
   "theorems": [
    "JsFile.C131_defines",
    "JsFile.C131_lines",
    "JsFile.C131_refused",
    "JsFile.C131_one",
    "JsFile.C131_written",
    "JsFile.C131_anywhere"
   ],
   "note": "C131_anywhere: a line inside a text of the program counts as well, an empty name is accepted, and so is a limit below the fewest arguments. The description is not modelled."
  },
  {
   "property": "C132",
   "status": "proved",
   "theorems": [
    "Deploy.C132_reload",
    "Deploy.C132_reload_twice",
    "Deploy.C132_uploaded",
    "Deploy.C132_deploy"
   ],
   "note": "What the JavaScript code computes is a parameter (JavaScript is not modelled), and so is the order of directory entries. That no other file defines a function of the same name is a hypothesis: otherwise the order of the directory decides. Without the clearing, results stored before can still be sent (C50_registry_stale); a deleted function stays callable (C57). Requests come one after the other (C107 for several at a time)."
  },
  {
   "property": "C133",
   "status": "partial",
   "theorems": [
    "C133_length",
    "C133_plus",
    "C133_map_conversions",
    "C133_filter_empty",
    "C133_filter_present",
    "C133_safe_chain_fails",
    "C133_safe_chain",
    "C133_map_length",
    "C133_concat",
    "C133_sum_of_one",
    "C133_null"
   ],
   "note": "`C133_safe_chain_fails`: the filter recommended for \"ultimate null safety\", `:data.filter(:x&.date&.to_s().length() > 0)`, fails as soon as one date is null, because `&.to_s()` of null is null and not the empty text; `C133_safe_chain` says what it does otherwise. That a document has a date is stated by what the JSON library reads in it (`Spec.DateIs`)."
  },
  {
   "property": "C134",
   "status": "proved",
   "theorems": [
    "ObjectLiterals.C134_object",
    "ObjectLiterals.C134_fails",
    "ObjectLiterals.C134_complete",
    "ObjectLiterals.C134_member",
    "ObjectLiterals.C134_keys_values",
    "ObjectLiterals.C134_order",
    "ObjectLiterals.C134_overwritten",
    "ObjectLiterals.C134_plain",
    "ObjectLiterals.C134_written_order_wrong"
   ],
   "note": "The JSON library is a parameter that reads back what it wrote in `C134_member` and `C134_keys_values`, and the model of it (C127) in `C134_plain`; which numbers it reads back is C138. `C134_written_order_wrong`: the reference shows `{\"name\": ..., \"age\": ...}.keys()` as `[\"name\", \"age\"]`; it is `[\"age\", \"name\"]`."
  },
  {
   "property": "C135",
   "status": "partial",
   "theorems": [
    "Reference.C135_words_ignored",
    "Reference.C135_count",
    "Reference.C135_int_wrong",
    "Reference.C135_no_such_function",
    "Reference.C135_time_wrong",
    "Reference.C135_units_required",
    "Reference.C135_text_to_array",
    "Reference.C135_question_mark",
    "Reference.C135_bare_names",
    "Reference.C135_no_spread_in_arrays",
    "Reference.C135_members_are_no_variables"
   ],
   "note": "The property is false in each of these points; the theorems say what the code does instead, for all arguments. The rest of the reference is the subject of the properties on the functions (C30 to C90, C111). `XOR` with other than two arguments fails (C36), `{...}.keys()` is sorted (C134), text after a complete expression is dropped in general (C05)."
  },
  {
   "property": "C136",
   "status": "partial",
   "theorems": [
    "JsonPath.C136_jq",
    "JsonPath.C136_aggregates",
    "JsonPath.C136_accounts",
    "JsonPath.C136_departments",
    "JsonPath.C136_products",
    "JsonPath.C136_over",
    "JsonPath.C136_bonus",
    "JsonPath.C136_follows",
    "JsonPath.C136_stepwise",
    "JsonPath.C136_stepwise_many",
    "JsonPath.C136_single_wrong",
    "JsonPath.C136_dig",
    "JsonPath.C136_tcp_wrong"
   ],
   "note": "What a path selects is defined in Spec/JsonPath.lean after RFC 9535, for the steps that the documentation uses; that the library `jsonpath-rust` selects this is the assumption `Follows`, which C136_follows shows can be met. The last two claims of the property are false: C136_single_wrong and C136_tcp_wrong."
  },
  {
   "property": "C137",
   "status": "partial",
   "theorems": [
    "C137_exists",
    "C137_back",
    "C137_cast",
    "C137_to_s",
    "C137_whole",
    "C137_small_whole",
    "C137_literal",
    "C137_variable",
    "C137_amount",
    "C137_json",
    "C137_json_exists",
    "C137_reread",
    "C137_documents",
    "C137_apart",
    "C137_unique",
    "C137_keys",
    "C137_tenth",
    "C137_minus_zero"
   ],
   "note": "Rust's formatting is specified in Spec/NumText.lean as its documentation says: the shortest decimal that is read as the double, the nearest of those (`Std`); C137_exists shows that every double has one, so the assumption can be met. Reading is the model's own correctly rounded parser (C06). Partial because the JSON part assumes correct rounding when serde_json reads (`JsonStd`), which needs its feature float_roundtrip; Cargo.toml does not turn it on: what happens without it is C138. C137_tenth gives the texts of 0.1 and of 0.1 + 0.2; C137_minus_zero is the exception -0."
  },
  {
   "property": "C138",
   "status": "partial",
   "theorems": [
    "JsonRead.C138_reads",
    "JsonRead.C138_text",
    "JsonRead.C138_short",
    "JsonRead.C138_whole",
    "JsonRead.C138_close",
    "JsonRead.C138_object",
    "JsonRead.C138_documents",
    "JsonRead.C138_reread",
    "JsonRead.C138_object_close",
    "JsonRead.C138_changed",
    "JsonRead.C138_whole_changed",
    "JsonRead.C138_variable",
    "JsonRead.C138_exists"
   ],
   "note": "Partial because numbers do not always survive, which a user would expect: `100 * 1.1` is not 110, but read out of an object it is (C138_changed); the first whole number beyond the bound becomes a fraction (C138_whole_changed); and `:x == 110.00000000000001` is false for {\"x\": 110.00000000000001} (C138_variable). Cargo.toml asks for serde_json without its feature float_roundtrip; Cargo.lock names the version, 1.0.149. Its reader is modelled from knowledge of that version, since its source is not in the repository; that no other dependency (jsonpath-rust, scalar-doc, tera) turns the feature on is assumed. Writing is the shortest decimal, as in C137. Of numbers below 10^-290 (texts below 10^-288) only C138_short speaks, and of texts of 2^29 characters or more nothing."
  },
  {
   "property": "C139",
   "status": "proved",
   "theorems": [
    "PrintedJson.C139_pretty",
    "PrintedJson.C139_sk",
    "PrintedJson.C139_sk_values",
    "PrintedJson.C139_sk_number",
    "PrintedJson.C139_client"
   ],
   "note": "The layout of serde_json::to_string_pretty is modelled from its documentation. `Ordinary` asks that numbers are read back by the reader (all are by one that rounds correctly, C137; for serde_json itself see C138), that dates are integers of 64 bits and documents nested at most 124 deep. Arrays inside of arrays are printed as debug texts (C89). The time is any text. The benchmark's report is not modelled."
  },
  {
   "property": "C140",
   "status": "partial",
   "theorems": [
    "Sizes.C140_tree",
    "Sizes.C140_deep",
    "Sizes.C140_parens",
    "Sizes.C140_maps",
    "Sizes.C140_no_bound",
    "Sizes.C140_doublings"
   ],
   "note": "Proved for trees, for every text. False for values: nested MAPs of 11n+1 characters, or n assignments of 12 characters each, give a value with 2^n numbers, for every n (C140_maps, C140_doublings), so no power of the length bounds it (C140_no_bound). Depth can be as large as the length of the text (C140_deep) and parentheses are accepted at any depth (C140_parens): neither the parser nor the evaluator has a limit. The stack is the subject of C146 and C147; the code recurses at least once per level, so a text that is long enough overflows it."
  },
  {
   "property": "C141",
   "status": "partial",
   "theorems": [
    "C141_unaffected",
    "C141_one_place",
    "C141_call",
    "C141_not_atomic",
    "C141_lambda"
   ],
   "note": "Functions that are not called do not matter (C141_unaffected). If the functions that change are called at one place outside lambdas, the result is that of one of the registries found (C141_one_place). A call of a custom function is evaluated with one registry, arguments included, since the read guard is held (C141_call). Beyond this the claim is false: the registry is read anew at each call, so [F(), F()] or one lambda that calls F may mix an old and a new F and give a result that no registry gives (C141_not_atomic, C141_lambda). The order in which the lock admits readers and writers is any; deadlocks are C47's."
  },
  {
   "property": "C142",
   "status": "partial",
   "theorems": [
    "HttpGet.C142_page",
    "HttpGet.C142_run",
    "HttpGet.C142_not_run",
    "HttpGet.C142_failure_hidden",
    "HttpGet.C142_braces",
    "HttpGet.C142_dash"
   ],
   "note": "For URLs that do not begin with a dash and have no braces or brackets, one curl runs with that URL and the page is given, or a text that begins with 'HTTP error: ' (C142_page); no shell sees the URL, whatever it is (C142_run). Three parts are false: every text of a failure is also the text of a page, and pages with an error status are pages (C142_failure_hidden); a URL with a list in braces asks for several URLs (C142_braces); a URL that begins with a dash is an option of curl (C142_dash). curl is specified after its manual, the JavaScript engine is not modelled."
  },
  {
   "property": "C143",
   "status": "proved",
   "theorems": [
    "MemPool.C143_pool",
    "MemPool.C143_pool_moves",
    "C143_cache",
    "C143_counted",
    "C143_cache_moves"
   ],
   "note": "Within 2^-45 of the exact percentage; 100 only if all, which never happens since the first context is made and what is cached was once missed. Beyond 2^53 counted operations nothing is said."
  },
  {
   "property": "C144",
   "status": "proved",
   "theorems": [
    "HttpCache.C144_same",
    "HttpCache.C144_hit",
    "HttpCache.C144_else",
    "HttpCache.C144_sum",
    "HttpCache.C144_grows"
   ],
   "note": "Sums are sums of floats in the order of the hits; C98 bounds their error. What is saved is what the first evaluation took, not what a second one would have taken."
  },
  {
   "property": "C145",
   "status": "partial",
   "theorems": [
    "OpenApi.C145_answers_partial",
    "OpenApi.C145_departures",
    "OpenApi.C145_never",
    "OpenApi.C145_missing_file",
    "OpenApi.C145_nulls",
    "OpenApi.C145_evaluated",
    "OpenApi.C145_described",
    "OpenApi.C145_report"
   ],
   "note": "False as stated, in thirteen ways, each with a request that shows it (C145_departures): 401 and 500 are undocumented for most operations, and the 400 for a body that cannot be read is another document than described. With these, and with null taken for an absent member, the description is complete (C145_answers_partial). 413 and the 404 of a deletion are never sent; a missing file gives 500. Every 200 of seven operations has \"error\": null, which OpenAPI 3.0 does not allow without nullable. That what openapi.yml says of examples and of prose is true is not stated."
  },
  {
   "property": "C146",
   "status": "proved",
   "theorems": [
    "Stack.C146_same",
    "Stack.C146_more",
    "Stack.C146_enough",
    "Stack.C146_parens",
    "Stack.C146_signs",
    "Stack.C146_no_stack_suffices",
    "Stack.C146_products"
   ],
   "note": "The size of the stack is counted in nested calls of the methods of the parser (parse_expr and parse_assignment as one), all of the same size; calls that do not lead back to the parser are not counted. The stack that evaluation takes is the subject of C147, for which C146_products shows that trees of every depth come out of a parser with a fixed stack."
  },
  {
   "property": "C147",
   "status": "proved",
   "theorems": [
    "Stack.C147_same",
    "Stack.C147_more",
    "Stack.C147_texts",
    "Stack.C147_enough",
    "Stack.C147_length",
    "Stack.C147_exact",
    "Stack.C147_products",
    "Stack.C147_values",
    "Stack.C147_copy",
    "Stack.C147_copy_fails"
   ],
   "note": "The size of the stack is counted in nested calls of the evaluators, all of the same size as those of the parser; the functions between two such calls (a fixed number for each) are not counted, nor is the release of a tree, which recurses too. The copying of values is counted apart (C147_copy), not inside the bounds C147_enough and C147_length, which are about the calls of the parser and the evaluator."
  },
  {
   "property": "C148",
   "status": "proved",
   "theorems": [
    "Identities.C148_signs",
    "Identities.C148_units",
    "Identities.C148_cancel",
    "Identities.C148_choice_outside",
    "Identities.C148_choice",
    "Identities.C148_logic",
    "Identities.C148_extremes",
    "Identities.C148_not_laws"
   ],
   "note": "Each identity is stated at given variables and custom functions; that such parts may replace each other inside larger expressions is C102. && and || evaluate both operands (C14), so their laws need operands that have values. The last theorem shows by witnesses which identities of real numbers fail for doubles."
  },
  {
   "property": "C149",
   "status": "proved",
   "theorems": [
    "ArrayLaws.C149_reverse",
    "ArrayLaws.C149_sort_again",
    "ArrayLaws.C149_sort_order",
    "ArrayLaws.C149_sort_ends",
    "ArrayLaws.C149_sort_unique",
    "ArrayLaws.C149_both_zeros"
   ],
   "note": "The condition on the zeros is needed, as the last theorem shows; NaN makes the order of sorting unspecified (C28). FIRST and LAST of the empty array fail with different texts, so the equality of the functions is between results."
  },
  {
   "property": "C150",
   "status": "proved",
   "theorems": [
    "TextLaws.C150_parts",
    "TextLaws.C150_together",
    "TextLaws.C150_apart",
    "TextLaws.C150_trim",
    "TextLaws.C150_includes",
    "TextLaws.C150_substitute",
    "TextLaws.C150_pieces",
    "TextLaws.C150_reverse",
    "TextLaws.C150_not_laws"
   ],
   "note": "Nested calls are stated with the worth of the inner calls as arguments; that such parts may stand inside expressions is C102. The last theorem shows that the laws of single characters fail for longer parts."
  },
  {
   "property": "C151",
   "status": "proved",
   "theorems": [
    "RoundLaws.C151_again",
    "RoundLaws.C151_sign",
    "RoundLaws.C151_int",
    "RoundLaws.C151_between",
    "RoundLaws.C151_not_laws"
   ],
   "note": "Results are equal as doubles, so with the sign of zero. That 10 to the power 0 is 1, which ROUND uses, is the only fact about the power function that is assumed."
  },
  {
   "property": "C152",
   "status": "proved",
   "theorems": [
    "DateLaws.C152_fixed",
    "DateLaws.C152_months",
    "DateLaws.C152_years",
    "DateLaws.C152_found",
    "DateLaws.C152_differences",
    "DateLaws.C152_reads",
    "DateLaws.C152_not_laws"
   ],
   "note": "Stated on DATEADD and DATEDIFF with the reading functions of the specification of C63; the days counted by the calendar are strictly increasing in year and month, which is proved from the lengths of months."
  },
  {
   "property": "C153",
   "status": "proved",
   "theorems": [
    "LogicLaws.C153_groups",
    "LogicLaws.C153_lattice",
    "LogicLaws.C153_units",
    "LogicLaws.C153_xor",
    "LogicLaws.C153_choice",
    "LogicLaws.C153_ifs",
    "LogicLaws.C153_operators",
    "LogicLaws.C153_not_laws"
   ],
   "note": "Equations between calls whose arguments are results of calls; arguments are values, so nothing is said here about branches that fail (C13, C14, C112)."
  },
  {
   "property": "C154",
   "status": "proved",
   "theorems": [
    "SignLaws.C154_totals",
    "SignLaws.C154_spread",
    "SignLaws.C154_product",
    "SignLaws.C154_middle",
    "SignLaws.C154_mode",
    "SignLaws.C154_not_laws"
   ],
   "note": "MEDIAN of numbers with NaN panics (C40). Sums start from the positive zero, so that zero does not always change its sign."
  },
  {
   "property": "C155",
   "status": "proved",
   "theorems": [
    "LoanLaws.C155_direction",
    "LoanLaws.C155_defaults"
   ],
   "note": "The power function is an external function; it is only assumed that its results are doubles."
  },
  {
   "property": "C156",
   "status": "proved",
   "theorems": [
    "SliceLaws.C156_nested",
    "SliceLaws.C156_reversed",
    "SliceLaws.C156_elements",
    "SliceLaws.C156_spread",
    "SliceLaws.C156_parts",
    "SliceLaws.C156_not_laws"
   ],
   "note": "C156_not_laws shows why n must be positive for bounds from the end, and that a[-1] is not preserved by a slice."
  },
  {
   "property": "C157",
   "status": "proved",
   "theorems": [
    "ExtremeLaws.C157_set",
    "ExtremeLaws.C157_parts",
    "ExtremeLaws.C157_bounds",
    "ExtremeLaws.C157_lattice",
    "ExtremeLaws.C157_sums",
    "ExtremeLaws.C157_average",
    "ExtremeLaws.C157_not_laws"
   ],
   "note": "Results are compared as numbers, so the sign of a zero, which the library leaves open, does not matter. C157_not_laws shows what fails for fractions (AVG(0.1, 0.1, 0.1) is greater than each of them) and for parts without numbers."
  }
 ]
}