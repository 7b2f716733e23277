{
 "claims": [
  {
   "property": "C01",
   "status": "proved",
   "theorems": [
    "Flatland.C01_set_tandem",
    "Flatland.C01_history_independent",
    "Flatland.C01_other_exceptions",
    "Flatland.C01_builtin_disciplined"
   ],
   "note": ""
  },
  {
   "property": "C02",
   "status": "proved",
   "theorems": [
    "Flatland.C02_rejected_none",
    "Flatland.C02_rejected_native",
    "Flatland.C02_rejected_literal_changes",
    "Flatland.C02_text_roundtrip",
    "Flatland.C02_native_roundtrip",
    "Flatland.C02_none_roundtrip",
    "Flatland.C02_not_exact_datetime"
   ],
   "note": ""
  },
  {
   "property": "C03",
   "status": "proved",
   "theorems": [
    "Flatland.C03_set_date",
    "Flatland.C03_set_time",
    "Flatland.C03_set_dateTime",
    "Flatland.C03_date_iff",
    "Flatland.C03_time_iff",
    "Flatland.C03_dateTime_iff",
    "Flatland.C03_own_form"
   ],
   "note": ""
  },
  {
   "property": "C04",
   "status": "proved",
   "theorems": [
    "Flatland.C04_constrained_invariant",
    "Flatland.C04_enum_invariant",
    "Flatland.C04_enum_success",
    "Flatland.C04_constrained_success"
   ],
   "note": ""
  },
  {
   "property": "C05",
   "status": "proved",
   "theorems": [
    "Flatland.C05_integer_text_iff",
    "Flatland.C05_set_text",
    "Flatland.C05_unsigned_never_negative"
   ],
   "note": ""
  },
  {
   "property": "C06",
   "status": "proved",
   "theorems": [
    "Flatland.C06_set_text",
    "Flatland.C06_boolean_text",
    "Flatland.C06_boolean_native",
    "Flatland.C06_literal_readback"
   ],
   "note": ""
  },
  {
   "property": "C07",
   "status": "partial",
   "theorems": [
    "Flatland.C07_display_roundtrip",
    "Flatland.C07_adapt_text_iff",
    "Flatland.C07_set_crashes",
    "Flatland.C07_set_total_partial",
    "Flatland.C07_set_raises_iff",
    "Flatland.C07_fourteen_digits_lost"
   ],
   "note": "The last clause is false of the code: set raises ValueError for 15 or more dashes or blanks (C07_set_crashes; exact condition in C07_set_raises_iff). C07_set_total_partial is what remains. Also, 14 digit numbers do not survive (C07_fourteen_digits_lost), which the statement excludes."
  },
  {
   "property": "C08",
   "status": "partial",
   "theorems": [
    "Flatland.C08_card_type_partial",
    "Flatland.C08_visa13_rejected",
    "Flatland.C08_exclusive",
    "Flatland.C08_accepted_iff"
   ],
   "note": "The 13 digit Visa clause is false of the code (C08_visa13_rejected: a lazy quantifier where an optional group was meant); everything else is proved, as an equivalence."
  },
  {
   "property": "C09",
   "status": "proved",
   "theorems": [
    "Flatland.C09_roundtrip",
    "Flatland.C09_same_element",
    "Flatland.C09_builtin_reads_back"
   ],
   "note": ""
  },
  {
   "property": "C10",
   "status": "proved",
   "theorems": [
    "Flatland.C10_any_submission",
    "Flatland.C10_untidy_order_matters",
    "Flatland.C10_order_irrelevant"
   ],
   "note": ""
  },
  {
   "property": "C11",
   "status": "partial",
   "theorems": [
    "Flatland.C11_unrelated_ignored_partial",
    "Flatland.C11_unnamed_dict",
    "Flatland.C11_newline_key_not_ignored"
   ],
   "note": "False of the code for one key only: an Array of named members takes the key 'name + newline' (C11_newline_key_not_ignored). The partial theorem excludes that key for such Arrays and no other."
  },
  {
   "property": "C12",
   "status": "partial",
   "theorems": [
    "Flatland.C12_raises_iff",
    "Flatland.C12_library_iff",
    "Flatland.C12_decimal_nan_raises",
    "Flatland.C12_never_raises_iff",
    "Flatland.C12_safe_schemas_partial",
    "Flatland.C12_list_of_dicts_raises"
   ],
   "note": "False of the code: C12_list_of_dicts_raises. C12_never_raises_iff gives the exact condition on the submission, C12_safe_schemas_partial the class of schemas for which nothing is raised. C12_raises_iff and C12_library_iff extend this to scalar classes that raise for some texts (Decimal for NaN and sNaN, C12_decimal_nan_raises)."
  },
  {
   "property": "C13",
   "status": "proved",
   "theorems": [
    "Flatland.C13_whole_form",
    "Flatland.C13_new_form",
    "Flatland.C13_bounded",
    "Flatland.C13_pruned",
    "Flatland.C13_unpruned"
   ],
   "note": ""
  },
  {
   "property": "C14",
   "status": "proved",
   "theorems": [
    "Flatland.C14_names_identify",
    "Flatland.C14_flatten_names"
   ],
   "note": ""
  },
  {
   "property": "C15",
   "status": "proved",
   "theorems": [
    "Flatland.C15_array_members",
    "Flatland.C15_dict_fields",
    "Flatland.C15_new_fields",
    "Flatland.C15_sparse_new",
    "Flatland.C15_sequences_replaced",
    "Flatland.C15_sparse_prefix_quirk"
   ],
   "note": ""
  },
  {
   "property": "C16",
   "status": "proved",
   "theorems": [
    "Flatland.C16_el_fq_name",
    "Flatland.C16_fq_name_form",
    "Flatland.C16_fq_name_injective",
    "Flatland.C16_array_member_raises",
    "Flatland.C16_named_array_member_lost",
    "Flatland.C16_separator_in_name_lost"
   ],
   "note": ""
  },
  {
   "property": "C17",
   "status": "proved",
   "theorems": [
    "Flatland.C17_find_addresses",
    "Flatland.C17_absolute_path",
    "Flatland.C17_relative_path",
    "Flatland.C17_plain_names",
    "Flatland.C17_backslash_name_not_addressable",
    "Flatland.C17_bracket_undoes_escape"
   ],
   "note": ""
  },
  {
   "property": "C18",
   "status": "proved",
   "theorems": [
    "Flatland.C18_list_parent_is_slot",
    "Flatland.C18_list_sibling_raises",
    "Flatland.C18_path_text",
    "Flatland.C18_find_text",
    "Flatland.C18_find_dots",
    "Flatland.C18_find_branches",
    "Flatland.C18_strict_raises_iff",
    "Flatland.C18_other_errors_escape",
    "Flatland.C18_result_unique",
    "Flatland.C18_falsy_parent_skipped"
   ],
   "note": ""
  },
  {
   "property": "C19",
   "status": "partial",
   "theorems": [
    "Flatland.C19_selects_member",
    "Flatland.C19_selects_slice",
    "Flatland.C19_slice_zero",
    "Flatland.C19_stride_zero_all",
    "Flatland.C19_slice_partial",
    "Flatland.C19_stride_partial",
    "Flatland.C19_negative_index",
    "Flatland.C19_index",
    "Flatland.C19_stop_zero",
    "Flatland.C19_stride_zero",
    "Flatland.C19_final_newline",
    "Flatland.C19_minus_raises"
   ],
   "note": "False of the code for a stop or stride of 0 (C19_stop_zero, C19_stride_zero) and for '[-]' (C19_minus_raises). C19_slice_zero and C19_stride_zero_all say what every slice selects; the partial theorems exclude exactly a written 0 there."
  },
  {
   "property": "C20",
   "status": "partial",
   "theorems": [
    "Flatland.C20_tree_partial",
    "Flatland.C20_list_up_differs",
    "Flatland.C20_simplified",
    "Flatland.C20_one_form",
    "Flatland.C20_idempotent",
    "Flatland.C20_canonicalize_partial",
    "Flatland.C20_slice_up_differs",
    "Flatland.C20_missing_child_unnoticed"
   ],
   "note": "False of the code where '..' follows a slice, a missing child or a List member (C20_slice_up_differs, C20_missing_child_unnoticed, C20_list_up_differs). The partial theorems exclude these."
  },
  {
   "property": "C21",
   "status": "partial",
   "theorems": [
    "Flatland.C21_cache_transparent_partial",
    "Flatland.C21_never_stale",
    "Flatland.C21_full_cache_breaks",
    "Flatland.C21_threads_answers",
    "Flatland.C21_threads_same",
    "Flatland.C21_threads_never_builtin",
    "Flatland.C21_threads_no_waiting",
    "Flatland.C21_threads_bound",
    "Flatland.C21_threads_outgrow",
    "Flatland.C21_threads_builtin_race"
   ],
   "note": "False of the code once the cache is full: pathexpr returns the builtin compile (C21_full_cache_breaks). Proved for up to 1024 paths, and that nothing else but that builtin is ever returned wrongly (C21_never_stale)."
  },
  {
   "property": "C22",
   "status": "proved",
   "theorems": [
    "Flatland.C22_single",
    "Flatland.C22_raises_iff"
   ],
   "note": ""
  },
  {
   "property": "C23",
   "status": "proved",
   "theorems": [
    "Flatland.C23_part",
    "Flatland.C23_rich",
    "Flatland.C23_all_children"
   ],
   "note": ""
  },
  {
   "property": "C24",
   "status": "proved",
   "theorems": [
    "Flatland.C24_numbered",
    "Flatland.C24_lookup",
    "Flatland.C24_failed_sort_misnumbers"
   ],
   "note": ""
  },
  {
   "property": "C25",
   "status": "proved",
   "theorems": [
    "Flatland.C25_bad_argument",
    "Flatland.C25_bad_iterable",
    "Flatland.C25_append",
    "Flatland.C25_extend",
    "Flatland.C25_insert",
    "Flatland.C25_setitem",
    "Flatland.C25_setslice",
    "Flatland.C25_delitem",
    "Flatland.C25_delslice",
    "Flatland.C25_pop",
    "Flatland.C25_remove",
    "Flatland.C25_reverse",
    "Flatland.C25_sort",
    "Flatland.C25_sort_is_stable",
    "Flatland.C25_sort_reverse_is_stable",
    "Flatland.C25_sequence",
    "Flatland.C25_sequence_extend",
    "Flatland.C25_sequence_setslice",
    "Flatland.C25_remove_first",
    "Flatland.C25_iadd_breaks",
    "Flatland.C25_python_index",
    "Flatland.C25_python_insert",
    "Flatland.C25_python_slice",
    "Flatland.C25_python_delslice",
    "Flatland.C25_python_setslice",
    "Flatland.C25_python_setslice_extended",
    "Flatland.C25_python_remove"
   ],
   "note": ""
  },
  {
   "property": "C26",
   "status": "proved",
   "theorems": [
    "Flatland.C26_set",
    "Flatland.C26_sequence_set",
    "Flatland.C26_true_iff",
    "Flatland.C26_not_iterable",
    "Flatland.C26_old_content_gone",
    "Flatland.C26_raises",
    "Flatland.C26_tree_set",
    "Flatland.C26_tree_cases"
   ],
   "note": ""
  },
  {
   "property": "C27",
   "status": "proved",
   "theorems": [
    "Flatland.C27_read",
    "Flatland.C27_write",
    "Flatland.C27_write_empty",
    "Flatland.C27_write_raises",
    "Flatland.C27_truth",
    "Flatland.C27_true_with_blank_value"
   ],
   "note": ""
  },
  {
   "property": "C28",
   "status": "proved",
   "theorems": [
    "Flatland.C28_keys_never_change",
    "Flatland.C28_lookup"
   ],
   "note": ""
  },
  {
   "property": "C29",
   "status": "proved",
   "theorems": [
    "Flatland.C29_keys_within_schema",
    "Flatland.C29_required_stay",
    "Flatland.C29_optional_instance_deletable"
   ],
   "note": ""
  },
  {
   "property": "C30",
   "status": "proved",
   "theorems": [
    "Flatland.C30_set",
    "Flatland.C30_set_dict",
    "Flatland.C30_unknown_key",
    "Flatland.C30_missing_key",
    "Flatland.C30_duck_ignores",
    "Flatland.C30_refused_changes_nothing",
    "Flatland.C30_tree_set",
    "Flatland.C30_tree_raises"
   ],
   "note": ""
  },
  {
   "property": "C31",
   "status": "proved",
   "theorems": [
    "Flatland.C31_keyslice",
    "Flatland.C31_selects",
    "Flatland.C31_empty_include_selects_all",
    "Flatland.C31_slice",
    "Flatland.C31_slice_plain",
    "Flatland.C31_update_object",
    "Flatland.C31_set_by_object_only_selected",
    "Flatland.C31_set_by_object_plain",
    "Flatland.C31_omit_beats_rename",
    "Flatland.C31_collision_depends_on_order"
   ],
   "note": ""
  },
  {
   "property": "C32",
   "status": "proved",
   "theorems": [
    "Flatland.C32_holds_default",
    "Flatland.C32_independent",
    "Flatland.C32_undeclared_keeps",
    "Flatland.C32_from_defaults"
   ],
   "note": ""
  },
  {
   "property": "C33",
   "status": "proved",
   "theorems": [
    "Flatland.C33_reproduces",
    "Flatland.C33_builtin_readapts",
    "Flatland.C33_unset_readapts",
    "Flatland.C33_refused_text_is_lost",
    "Flatland.C33_unset_boolean"
   ],
   "note": ""
  },
  {
   "property": "C34",
   "status": "proved",
   "theorems": [
    "Flatland.C34_false_object",
    "Flatland.C34_returns",
    "Flatland.C34_conjunction",
    "Flatland.C34_each_once",
    "Flatland.C34_visits_all",
    "Flatland.C34_parents_first",
    "Flatland.C34_children_first",
    "Flatland.C34_flags",
    "Flatland.C34_all_valid",
    "Flatland.C34_terminates",
    "Flatland.C34_non_recursive",
    "Flatland.C34_class_validators",
    "Flatland.C34_container_without_descent_validators",
    "Flatland.C34_false_object_raises",
    "Flatland.C34_non_recursive_differs"
   ],
   "note": ""
  },
  {
   "property": "C35",
   "status": "proved",
   "theorems": [
    "Flatland.C35_visited",
    "Flatland.C35_descendants_skipped",
    "Flatland.C35_skipping_element",
    "Flatland.C35_stale_flags_remain"
   ],
   "note": ""
  },
  {
   "property": "C36",
   "status": "proved",
   "theorems": [
    "Flatland.C36_optional_empty",
    "Flatland.C36_no_validators",
    "Flatland.C36_chain",
    "Flatland.C36_fixed_results"
   ],
   "note": ""
  },
  {
   "property": "C37",
   "status": "proved",
   "theorems": [
    "Flatland.C37_repeatable",
    "Flatland.C37_class_validators",
    "Flatland.C37_no_duplicate_messages"
   ],
   "note": ""
  },
  {
   "property": "C38",
   "status": "proved",
   "theorems": [
    "Flatland.C38_part",
    "Flatland.C38_get",
    "Flatland.C38_set",
    "Flatland.C38_set_get",
    "Flatland.C38_terminates"
   ],
   "note": ""
  },
  {
   "property": "C39",
   "status": "proved",
   "theorems": [
    "Flatland.C39_at_position",
    "Flatland.C39_negative_position",
    "Flatland.C39_beyond_end",
    "Flatland.C39_always_a_splice",
    "Flatland.C39_wraps_around"
   ],
   "note": ""
  },
  {
   "property": "C40",
   "status": "proved",
   "theorems": [
    "Flatland.C40_between_incomparable",
    "Flatland.C40_exact",
    "Flatland.C40_result",
    "Flatland.C40_one_error",
    "Flatland.C40_incomparable",
    "Flatland.C40_none_incomparable",
    "Flatland.C40_not_a_sequence",
    "Flatland.C40_has_between_bounds",
    "Flatland.C40_trichotomy",
    "Flatland.C40_multivalue_counts_characters",
    "Flatland.C40_multivalue_counts"
   ],
   "note": ""
  },
  {
   "property": "C41",
   "status": "proved",
   "theorems": [
    "Flatland.C41_member",
    "Flatland.C41_all",
    "Flatland.C41_no_parent",
    "Flatland.C41_stops_comparing"
   ],
   "note": ""
  },
  {
   "property": "C42",
   "status": "proved",
   "theorems": [
    "Flatland.C42_values_equal",
    "Flatland.C42_unis_equal",
    "Flatland.C42_unknown_path",
    "Flatland.C42_paths_needed",
    "Flatland.C42_function_on_class",
    "Flatland.C42_message"
   ],
   "note": ""
  },
  {
   "property": "C43",
   "status": "proved",
   "theorems": [
    "Flatland.C43_accepts",
    "Flatland.C43_rejects",
    "Flatland.C43_newline_accepted"
   ],
   "note": ""
  },
  {
   "property": "C44",
   "status": "proved",
   "theorems": [
    "Flatland.C44_url_accepts",
    "Flatland.C44_url_messages",
    "Flatland.C44_http_accepts",
    "Flatland.C44_http_messages",
    "Flatland.C44_default_any_scheme",
    "Flatland.C44_required_blank",
    "Flatland.C44_discard",
    "Flatland.C44_canonicalize",
    "Flatland.C44_canonicalize_other"
   ],
   "note": ""
  },
  {
   "property": "C45",
   "status": "partial",
   "theorems": [
    "Flatland.C45_luhn_correct_partial",
    "Flatland.C45_negative_diverges",
    "Flatland.C45_single_digit_error"
   ],
   "note": "False of the code for negative numbers, where luhn10 never returns (C45_negative_diverges). Proved for all others."
  },
  {
   "property": "C46",
   "status": "proved",
   "theorems": [
    "Flatland.C46_history",
    "Flatland.C46_views_agree",
    "Flatland.C46_equality",
    "Flatland.C46_read_after_write",
    "Flatland.C46_class_setdefault",
    "Flatland.C46_setdefault_hides_inherited",
    "Flatland.C46_instance_setdefault_after_delete",
    "Flatland.C46_other_declaration_not_seen"
   ],
   "note": ""
  },
  {
   "property": "C47",
   "status": "proved",
   "theorems": [
    "Flatland.C47_class_isolated",
    "Flatland.C47_class_inherited",
    "Flatland.C47_instance_isolated",
    "Flatland.C47_instance_pop_reaches_class",
    "Flatland.C47_shared_declaration_leaks"
   ],
   "note": ""
  },
  {
   "property": "C48",
   "status": "proved",
   "theorems": [
    "Flatland.C48_fields",
    "Flatland.C48_no_name_lost",
    "Flatland.C48_attributes_left",
    "Flatland.C48_single_inheritance",
    "Flatland.C48_program_one_per_name",
    "Flatland.C48_diamond_differs"
   ],
   "note": ""
  },
  {
   "property": "C49",
   "status": "proved",
   "theorems": [
    "Flatland.C49_others_unchanged",
    "Flatland.C49_history",
    "Flatland.C49_new_class",
    "Flatland.C49_named",
    "Flatland.C49_validated_by",
    "Flatland.C49_including_validators",
    "Flatland.C49_using",
    "Flatland.C49_using_unknown",
    "Flatland.C49_with_properties",
    "Flatland.C49_valued",
    "Flatland.C49_dict_of",
    "Flatland.C49_sequence_of",
    "Flatland.C49_plain_dict_leaks"
   ],
   "note": ""
  },
  {
   "property": "C50",
   "status": "proved",
   "theorems": [
    "Flatland.C50_once",
    "Flatland.C50_before",
    "Flatland.C50_no_deadlock",
    "Flatland.C50_served",
    "Flatland.C50_base_init_early",
    "Flatland.C50_self_instantiation"
   ],
   "note": ""
  },
  {
   "property": "C51",
   "status": "proved",
   "theorems": [
    "Flatland.C51_from_children",
    "Flatland.C51_any_children",
    "Flatland.C51_any_classes",
    "Flatland.C51_iso_text",
    "Flatland.C51_set_date",
    "Flatland.C51_set_text",
    "Flatland.C51_set_other",
    "Flatland.C51_history"
   ],
   "note": ""
  },
  {
   "property": "C52",
   "status": "proved",
   "theorems": [
    "Flatland.C52_text_kept",
    "Flatland.C52_members",
    "Flatland.C52_roundtrip",
    "Flatland.C52_flat",
    "Flatland.C52_single",
    "Flatland.C52_zero_pruned",
    "Flatland.C52_empty_unpruned",
    "Flatland.C52_empty_separator",
    "Flatland.C52_none_raises"
   ],
   "note": ""
  },
  {
   "property": "C53",
   "status": "proved",
   "theorems": [
    "Flatland.C53_chain_reads",
    "Flatland.C53_chain_writes",
    "Flatland.C53_chain_first",
    "Flatland.C53_form_submitted",
    "Flatland.C53_form_sent_back",
    "Flatland.C53_form_raises",
    "Flatland.C53_form_own_value",
    "Flatland.C53_form_stored",
    "Flatland.C53_form_unknown",
    "Flatland.C53_form_last_word",
    "Flatland.C53_mirrors",
    "Flatland.C53_writes",
    "Flatland.C53_ignores",
    "Flatland.C53_refuses",
    "Flatland.C53_attributes",
    "Flatland.C53_submitted",
    "Flatland.C53_untouched",
    "Flatland.C53_stale"
   ],
   "note": ""
  },
  {
   "property": "C54",
   "status": "proved",
   "theorems": [
    "Flatland.C54_attribute",
    "Flatland.C54_contents",
    "Flatland.C54_x_xa",
    "Flatland.C54_injective",
    "Flatland.C54_value",
    "Flatland.C54_open",
    "Flatland.C54_call",
    "Flatland.C54_textarea",
    "Flatland.C54_contents_raw",
    "Flatland.C54_names_raw"
   ],
   "note": ""
  },
  {
   "property": "C55",
   "status": "proved",
   "theorems": [
    "Flatland.C55_new",
    "Flatland.C55_begin_fails",
    "Flatland.C55_begin",
    "Flatland.C55_push_pop",
    "Flatland.C55_base",
    "Flatland.C55_restores",
    "Flatland.C55_end_unmatched",
    "Flatland.C55_outer",
    "Flatland.C55_options",
    "Flatland.C55_full",
    "Flatland.C55_read",
    "Flatland.C55_item",
    "Flatland.C55_set",
    "Flatland.C55_set_unknown",
    "Flatland.C55_set_not_atomic"
   ],
   "note": ""
  },
  {
   "property": "C56",
   "status": "proved",
   "theorems": [
    "Flatland.C56_filters",
    "Flatland.C56_no_leak",
    "Flatland.C56_others",
    "Flatland.C56_name",
    "Flatland.C56_off",
    "Flatland.C56_keeps",
    "Flatland.C56_value",
    "Flatland.C56_contents",
    "Flatland.C56_auto"
   ],
   "note": ""
  },
  {
   "property": "C57",
   "status": "proved",
   "theorems": [
    "Flatland.C57_consecutive",
    "Flatland.C57_others",
    "Flatland.C57_steady"
   ],
   "note": ""
  },
  {
   "property": "C58",
   "status": "proved",
   "theorems": [
    "Flatland.C58_checked",
    "Flatland.C58_selected",
    "Flatland.C58_boolean",
    "Flatland.C58_others"
   ],
   "note": ""
  },
  {
   "property": "C59",
   "status": "proved",
   "theorems": [
    "Flatland.C59_id",
    "Flatland.C59_format",
    "Flatland.C59_id_unbound",
    "Flatland.C59_suffix",
    "Flatland.C59_default_valid",
    "Flatland.C59_for",
    "Flatland.C59_pair",
    "Flatland.C59_distinct",
    "Flatland.C59_box_label",
    "Flatland.C59_collision",
    "Flatland.C59_name_raw"
   ],
   "note": ""
  },
  {
   "property": "C60",
   "status": "proved",
   "theorems": [
    "Flatland.C60_lookup",
    "Flatland.C60_lookup_raises",
    "Flatland.C60_lookup_unknown",
    "Flatland.C60_contains",
    "Flatland.C60_format",
    "Flatland.C60_format_raises",
    "Flatland.C60_note",
    "Flatland.C60_note_unknown_key",
    "Flatland.C60_note_adds_once",
    "Flatland.C60_given_message",
    "Flatland.C60_empty_message",
    "Flatland.C60_plural",
    "Flatland.C60_plural_no_number",
    "Flatland.C60_plural_unknown",
    "Flatland.C60_translated",
    "Flatland.C60_ungettext",
    "Flatland.C60_ungettext_no_number",
    "Flatland.C60_plural_translated",
    "Flatland.C60_transformer",
    "Flatland.C60_sequence_state_raises"
   ],
   "note": ""
  },
  {
   "property": "C61",
   "status": "proved",
   "theorems": [
    "Flatland.C61_and",
    "Flatland.C61_or",
    "Flatland.C61_not",
    "Flatland.C61_truth",
    "Flatland.C61_rank_injective",
    "Flatland.C61_absorbs",
    "Flatland.C61_other",
    "Flatland.C61_words",
    "Flatland.C61_case",
    "Flatland.C61_idempotent"
   ],
   "note": ""
  },
  {
   "property": "C62",
   "status": "proved",
   "theorems": [
    "Flatland.C62_value_and_text",
    "Flatland.C62_value_and_u",
    "Flatland.C62_only_value_and_u",
    "Flatland.C62_refl",
    "Flatland.C62_symm",
    "Flatland.C62_trans",
    "Flatland.C62_other_objects",
    "Flatland.C62_other_element",
    "Flatland.C62_sequence_lookup",
    "Flatland.C62_sequence_remove",
    "Flatland.C62_raw_value",
    "Flatland.C62_scalars_in_sequences",
    "Flatland.C62_filling_order"
   ],
   "note": ""
  },
  {
   "property": "C63",
   "status": "proved",
   "theorems": [
    "Flatland.C63_ordered",
    "Flatland.C63_deterministic",
    "Flatland.C63_unordered",
    "Flatland.C63_order",
    "Flatland.C63_output"
   ],
   "note": ""
  },
  {
   "property": "C64",
   "status": "proved",
   "theorems": [
    "Flatland.C64_children_know_parent",
    "Flatland.C64_one_place",
    "Flatland.C64_parents",
    "Flatland.C64_others_keep_parent",
    "Flatland.C64_others_keep_members",
    "Flatland.C64_leaving_is_loose",
    "Flatland.C64_append_joins",
    "Flatland.C64_insert_joins",
    "Flatland.C64_rearrange",
    "Flatland.C64_members_after",
    "Flatland.C64_item_assignment_unlinked",
    "Flatland.C64_shared_element",
    "Flatland.C64_failed_slice",
    "Flatland.C64_removed_keeps_parent"
   ],
   "note": ""
  },
  {
   "property": "C65",
   "status": "proved",
   "theorems": [
    "Flatland.C65_rich_roundtrip",
    "Flatland.C65_rich_input_page",
    "Flatland.C65_text",
    "Flatland.C65_box",
    "Flatland.C65_page",
    "Flatland.C65_renders",
    "Flatland.C65_radio",
    "Flatland.C65_roundtrip",
    "Flatland.C65_same_element",
    "Flatland.C65_input_page",
    "Flatland.C65_own_value",
    "Flatland.C65_password"
   ],
   "note": ""
  },
  {
   "property": "C66",
   "status": "proved",
   "theorems": [
    "Flatland.C66_phone",
    "Flatland.C66_phone_other_digits",
    "Flatland.C66_phone_idempotent",
    "Flatland.C66_phone_same_digits",
    "Flatland.C66_phone_element",
    "Flatland.C66_nxx",
    "Flatland.C66_nxx_unbounded",
    "Flatland.C66_luhn",
    "Flatland.C66_luhn_negative",
    "Flatland.C66_luhn_other",
    "Flatland.C66_npa_nxx"
   ],
   "note": ""
  },
  {
   "property": "C67",
   "status": "proved",
   "theorems": [
    "Flatland.C67_innermost",
    "Flatland.C67_open_close",
    "Flatland.C67_nested",
    "Flatland.C67_failed_open_stays",
    "Flatland.C67_inner_closes_outer"
   ],
   "note": ""
  },
  {
   "property": "C68",
   "status": "partial",
   "theorems": [
    "Flatland.C68_tag_partial",
    "Flatland.C68_which_tags",
    "Flatland.C68_not_equivalent"
   ],
   "note": "False of the code (C68_not_equivalent): generator.tag loses the flags for empty HTML tags and for tags that are always paired. The partial theorem says exactly when the texts agree."
  },
  {
   "property": "C69",
   "status": "proved",
   "theorems": [
    "Flatland.C69_answers",
    "Flatland.C69_singletons",
    "Flatland.C69_call_order",
    "Flatland.C69_no_deadlock",
    "Flatland.C69_lock_released"
   ],
   "note": ""
  },
  {
   "property": "C70",
   "status": "proved",
   "theorems": [
    "Flatland.C70_order",
    "Flatland.C70_unique",
    "Flatland.C70_rewrite",
    "Flatland.C70_rewrite_raises",
    "Flatland.C70_attributes",
    "Flatland.C70_generator",
    "Flatland.C70_text_contents",
    "Flatland.C70_other_contents",
    "Flatland.C70_select",
    "Flatland.C70_bound_once",
    "Flatland.C70_options",
    "Flatland.C70_with",
    "Flatland.C70_with_inside",
    "Flatland.C70_set",
    "Flatland.C70_scopes",
    "Flatland.C70_unknown_option",
    "Flatland.C70_with_leaks",
    "Flatland.C70_switched_option",
    "Flatland.C70_safe_text_lost",
    "Flatland.C70_stream_contents"
   ],
   "note": ""
  },
  {
   "property": "C71",
   "status": "partial",
   "theorems": [
    "Flatland.C71_validate_partial",
    "Flatland.C71_refused_raises",
    "Flatland.C71_one_verdict",
    "Flatland.C71_negative",
    "Flatland.C71_typed",
    "Flatland.C71_optional",
    "Flatland.C71_class_validators_ignored",
    "Flatland.C71_text_repeats_last",
    "Flatland.C71_text_few",
    "Flatland.C71_accepted_by_default"
   ],
   "note": "False of the code for a class that is not accepted: validate raises TypeError (C71_refused_raises), negative numbers never return (C71_negative) and validators of the class are ignored (C71_class_validators_ignored). C71_validate_partial covers every other verdict; C71_typed is the full equivalence for 'is valid'."
  },
  {
   "property": "C72",
   "status": "proved",
   "theorems": [
    "Flatland.C72_read",
    "Flatland.C72_read_class",
    "Flatland.C72_refused_unchanged",
    "Flatland.C72_delete",
    "Flatland.C72_keywords",
    "Flatland.C72_using",
    "Flatland.C72_lazy_once",
    "Flatland.C72_label",
    "Flatland.C72_label_class",
    "Flatland.C72_cloner_hidden"
   ],
   "note": ""
  },
  {
   "property": "C73",
   "status": "proved",
   "theorems": [
    "Flatland.C73_access",
    "Flatland.C73_same",
    "Flatland.C73_lazy",
    "Flatland.C73_dir",
    "Flatland.C73_star",
    "Flatland.C73_star_after",
    "Flatland.C73_star_loads",
    "Flatland.C73_util_plain",
    "Flatland.C73_util_missing",
    "Flatland.C73_util_star_fails",
    "Flatland.C73_clash",
    "Flatland.C73_own_name"
   ],
   "note": ""
  },
  {
   "property": "C74",
   "status": "proved",
   "theorems": [
    "Flatland.C74_part",
    "Flatland.C74_all_valid",
    "Flatland.C74_part_of_whole",
    "Flatland.C74_validate",
    "Flatland.C74_again",
    "Flatland.C74_checks"
   ],
   "note": ""
  },
  {
   "property": "C75",
   "status": "proved",
   "theorems": [
    "Flatland.C75_repeatable",
    "Flatland.C75_iterator",
    "Flatland.C75_first_field_only",
    "Flatland.C75_lost"
   ],
   "note": ""
  },
  {
   "property": "C76",
   "status": "proved",
   "theorems": [
    "Flatland.C76_field",
    "Flatland.C76_missing",
    "Flatland.C76_unreadable",
    "Flatland.C76_valid",
    "Flatland.C76_sparse_not_required"
   ],
   "note": ""
  },
  {
   "property": "C77",
   "status": "proved",
   "theorems": [
    "Flatland.C77_same_calls",
    "Flatland.C77_well_formed",
    "Flatland.C77_recovers",
    "Flatland.C77_set_flat_dict",
    "Flatland.C77_set_flat_list",
    "Flatland.C77_bounded",
    "Flatland.C77_set_flat_containers",
    "Flatland.C77_set_flat_array",
    "Flatland.C77_set_sequence",
    "Flatland.C77_set_dict",
    "Flatland.C77_default_dict",
    "Flatland.C77_default_sparse",
    "Flatland.C77_default_sequence"
   ],
   "note": ""
  },
  {
   "property": "C78",
   "status": "proved",
   "theorems": [
    "Flatland.C78_flatten_joined",
    "Flatland.C78_flatten_exactly",
    "Flatland.C78_any_order",
    "Flatland.C78_roundtrip",
    "Flatland.C78_unnamed_compounds",
    "Flatland.C78_joined_replaced",
    "Flatland.C78_members_leak"
   ],
   "note": ""
  },
  {
   "property": "C79",
   "status": "proved",
   "theorems": [
    "Flatland.C79_content",
    "Flatland.C79_package_rules",
    "Flatland.C79_flattened",
    "Flatland.C79_sent_back",
    "Flatland.C79_value",
    "Flatland.C79_find",
    "Flatland.C79_values_equal",
    "Flatland.C79_unis_equal",
    "Flatland.C79_unclear_path",
    "Flatland.C79_empty_slice",
    "Flatland.C79_not_duplicated",
    "Flatland.C79_no_container",
    "Flatland.C79_all_different"
   ],
   "note": ""
  },
  {
   "property": "C80",
   "status": "proved",
   "theorems": [
    "Flatland.C80_parts",
    "Flatland.C80_nothing_else",
    "Flatland.C80_unique",
    "Flatland.C80_handed",
    "Flatland.C80_field",
    "Flatland.C80_array",
    "Flatland.C80_key",
    "Flatland.C80_valid"
   ],
   "note": ""
  },
  {
   "property": "C81",
   "status": "proved",
   "theorems": [
    "Flatland.C81_dict_assign",
    "Flatland.C81_dict_fixed",
    "Flatland.C81_sparse_assign",
    "Flatland.C81_sparse_remove",
    "Flatland.C81_setdefault",
    "Flatland.C81_clear",
    "Flatland.C81_update_independent",
    "Flatland.C81_update_raises",
    "Flatland.C81_update",
    "Flatland.C81_get"
   ],
   "note": ""
  },
  {
   "property": "C82",
   "status": "proved",
   "theorems": [
    "Flatland.C82_well_formed",
    "Flatland.C82_here",
    "Flatland.C82_elsewhere",
    "Flatland.C82_flatten",
    "Flatland.C82_nowhere",
    "Flatland.C82_independent",
    "Flatland.C82_list",
    "Flatland.C82_array",
    "Flatland.C82_dict",
    "Flatland.C82_dict_set",
    "Flatland.C82_dict_default",
    "Flatland.C82_dict_flat",
    "Flatland.C82_list_set",
    "Flatland.C82_array_set",
    "Flatland.C82_round_trip"
   ],
   "note": ""
  },
  {
   "property": "C83",
   "status": "proved",
   "theorems": [
    "Flatland.C83_brought_back",
    "Flatland.C83_any_order",
    "Flatland.C83_builtin",
    "Flatland.C83_proper",
    "Flatland.C83_settles_at_once",
    "Flatland.C83_settles",
    "Flatland.C83_settles_builtin",
    "Flatland.C83_submission",
    "Flatland.C83_page",
    "Flatland.C83_rounds_needed",
    "Flatland.C83_unnamed_array_keeps_blanks"
   ],
   "note": ""
  },
  {
   "property": "C84",
   "status": "proved",
   "theorems": [
    "Flatland.C84_validate",
    "Flatland.C84_ends",
    "Flatland.C84_answers",
    "Flatland.C84_reading",
    "Flatland.C84_own",
    "Flatland.C84_again",
    "Flatland.C84_settles",
    "Flatland.C84_phone",
    "Flatland.C84_checked_after",
    "Flatland.C84_all_different",
    "Flatland.C84_text_stays",
    "Flatland.C84_canonical_text"
   ],
   "note": ""
  },
  {
   "property": "C85",
   "status": "proved",
   "theorems": [
    "Flatland.C85_float_set",
    "Flatland.C85_float_refused",
    "Flatland.C85_float_unique",
    "Flatland.C85_text_unique",
    "Flatland.C85_none",
    "Flatland.C85_float_settles",
    "Flatland.C85_float_settles_number",
    "Flatland.C85_float_close",
    "Flatland.C85_float_kept",
    "Flatland.C85_float_unsigned",
    "Flatland.C85_decimal_set",
    "Flatland.C85_decimal_unique",
    "Flatland.C85_decimal_settles",
    "Flatland.C85_decimal_kept",
    "Flatland.C85_decimal_kept_six",
    "Flatland.C85_decimal_large_negated",
    "Flatland.C85_decimal_lost",
    "Flatland.C85_decimal_unsigned",
    "Flatland.C85_submission",
    "Flatland.C85_float_value",
    "Flatland.C85_decimal_value",
    "Flatland.C85_stored",
    "Flatland.C85_float_text_safe",
    "Flatland.C85_decimal_raises_iff"
   ],
   "note": ""
  },
  {
   "property": "C86",
   "status": "proved",
   "theorems": [
    "Flatland.C86_proper",
    "Flatland.C86_field",
    "Flatland.C86_order",
    "Flatland.C86_unrelated",
    "Flatland.C86_never_raises_iff",
    "Flatland.C86_joined_safe",
    "Flatland.C86_list_pruned",
    "Flatland.C86_list_unpruned",
    "Flatland.C86_dict_fields"
   ],
   "note": ""
  },
  {
   "property": "C87",
   "status": "proved",
   "theorems": [
    "Flatland.C87_brought_back",
    "Flatland.C87_any_order",
    "Flatland.C87_page",
    "Flatland.C87_proper",
    "Flatland.C87_settles",
    "Flatland.C87_settles_classes",
    "Flatland.C87_submission",
    "Flatland.C87_builtin_settle",
    "Flatland.C87_joined_settle",
    "Flatland.C87_joined_strings_settle",
    "Flatland.C87_date_blank",
    "Flatland.C87_compounds_matter"
   ],
   "note": ""
  },
  {
   "property": "C88",
   "status": "proved",
   "theorems": [
    "Flatland.C88_new",
    "Flatland.C88_value_and_text",
    "Flatland.C88_sequence_set",
    "Flatland.C88_dict_set",
    "Flatland.C88_dict_raises",
    "Flatland.C88_reproduces",
    "Flatland.C88_date_keeps",
    "Flatland.C88_date_set_keeps",
    "Flatland.C88_half_date",
    "Flatland.C88_joined_keeps",
    "Flatland.C88_holds_default",
    "Flatland.C88_date_default",
    "Flatland.C88_joined_list_default",
    "Flatland.C88_joined_text_default",
    "Flatland.C88_parts_set",
    "Flatland.RichValueExample.C88_joined_text_default_case"
   ],
   "note": ""
  },
  {
   "property": "C89",
   "status": "proved",
   "theorems": [
    "Flatland.C89_reloaded",
    "Flatland.C89_builtin",
    "Flatland.C89_settles",
    "Flatland.C89_submitted",
    "Flatland.C89_accepted",
    "Flatland.C89_refused",
    "Flatland.C89_list_lost"
   ],
   "note": ""
  },
  {
   "property": "C90",
   "status": "proved",
   "theorems": [
    "Flatland.C90_unchanged",
    "Flatland.C90_edited",
    "Flatland.C90_scalar",
    "Flatland.C90_date",
    "Flatland.C90_joined"
   ],
   "note": ""
  },
  {
   "property": "C91",
   "status": "proved",
   "theorems": [
    "Flatland.C91_scalar",
    "Flatland.C91_failed",
    "Flatland.C91_fresh",
    "Flatland.C91_container",
    "Flatland.C91_rich_container",
    "Flatland.C91_date",
    "Flatland.C91_date_history",
    "Flatland.C91_joined",
    "Flatland.C91_up",
    "Flatland.C91_not_shown"
   ],
   "note": ""
  },
  {
   "property": "C92",
   "status": "proved",
   "theorems": [
    "Flatland.C92_false_parents",
    "Flatland.C92_find_branches",
    "Flatland.C92_strict_raises_iff",
    "Flatland.C92_other_errors_escape",
    "Flatland.C92_find_addresses",
    "Flatland.C92_up",
    "Flatland.C92_stuck",
    "Flatland.C92_el_fq_name"
   ],
   "note": ""
  },
  {
   "property": "C93",
   "status": "proved",
   "theorems": [
    "Flatland.C93_part",
    "Flatland.C93_all_valid",
    "Flatland.C93_validate",
    "Flatland.C93_date",
    "Flatland.C93_date_converted"
   ],
   "note": ""
  },
  {
   "property": "C94",
   "status": "proved",
   "theorems": [
    "Flatland.C94_valid",
    "Flatland.C94_date"
   ],
   "note": ""
  },
  {
   "property": "C95",
   "status": "proved",
   "theorems": [
    "Flatland.C95_well_formed",
    "Flatland.C95_here",
    "Flatland.C95_elsewhere",
    "Flatland.C95_nowhere",
    "Flatland.C95_independent",
    "Flatland.C95_date_of_parts",
    "Flatland.C95_set_part",
    "Flatland.C95_set_date",
    "Flatland.C95_joined_of_members",
    "Flatland.C95_set",
    "Flatland.C95_date_set",
    "Flatland.C95_set_default",
    "Flatland.C95_set_flat",
    "Flatland.C95_list",
    "Flatland.C95_list_append",
    "Flatland.C95_sequences",
    "Flatland.C95_dict",
    "Flatland.C95_setitem",
    "Flatland.C95_joined_append",
    "Flatland.C95_repeated_none"
   ],
   "note": ""
  },
  {
   "property": "C96",
   "status": "proved",
   "theorems": [
    "Flatland.C96_set_flat_dict",
    "Flatland.C96_set_flat_list",
    "Flatland.C96_set_flat_array",
    "Flatland.C96_set_flat_containers",
    "Flatland.C96_set_flat_date",
    "Flatland.C96_set_sequence",
    "Flatland.C96_set_joined",
    "Flatland.C96_set_date",
    "Flatland.C96_set_dict",
    "Flatland.C96_default_dict",
    "Flatland.C96_default_sparse",
    "Flatland.C96_default_sequence",
    "Flatland.C96_default_joined"
   ],
   "note": ""
  },
  {
   "property": "C97",
   "status": "proved",
   "theorems": [
    "Flatland.C97_scalar",
    "Flatland.C97_joined",
    "Flatland.C97_date",
    "Flatland.C97_array",
    "Flatland.C97_nothing_else",
    "Flatland.C97_valid",
    "Flatland.C97_real_date"
   ],
   "note": ""
  },
  {
   "property": "C98",
   "status": "proved",
   "theorems": [
    "Flatland.C98_members",
    "Flatland.C98_valid",
    "Flatland.C98_checkboxes",
    "Flatland.C98_counts"
   ],
   "note": ""
  },
  {
   "property": "C99",
   "status": "proved",
   "theorems": [
    "Flatland.C99_content",
    "Flatland.C99_package_rules",
    "Flatland.C99_sent_back",
    "Flatland.C99_value",
    "Flatland.C99_edited",
    "Flatland.C99_seen",
    "Flatland.C99_seen_fields",
    "Flatland.C99_counts",
    "Flatland.C99_find",
    "Flatland.C99_values_equal",
    "Flatland.C99_unis_equal",
    "Flatland.C99_find_raises",
    "Flatland.C99_unclear_path",
    "Flatland.C99_empty_slice",
    "Flatland.C99_not_duplicated",
    "Flatland.C99_all_different"
   ],
   "note": ""
  }
 ]
}