{
 "claims": [
  {
   "property": "C01",
   "status": "proved",
   "theorems": [
    "Flut.C01_quote_roundtrip",
    "Flut.C01_char",
    "Flut.C01_char_length_refuted",
    "Flut.C01_quote_roundtrip_total",
    "Flut.C01_unquote_past_end",
    "Flut.C01_utf8_lost",
    "Flut.C01_plain_text"
   ],
   "note": "Exact characterisation of the strings that survive; totality; witnesses of out-of-range reads on hand-made text. The length that decode_char reports is zero for a character that stands for itself (C01_char_length_refuted)."
  },
  {
   "property": "C02",
   "status": "proved",
   "theorems": [
    "Flut.C02_quoted_token",
    "Flut.C02_quoted_before_operator",
    "Flut.C02_empty_before_operator_refuted"
   ],
   "note": "Also when an operator follows, for non-empty s; the empty string before an operator is lost (C02_empty_before_operator_refuted)."
  },
  {
   "property": "C03",
   "status": "proved",
   "theorems": [
    "Flut.C03_trim_str",
    "Flut.C03_trim_str_total",
    "Flut.C03_trim_right_str",
    "Flut.C03_trim_right_str_total"
   ],
   "note": ""
  },
  {
   "property": "C04",
   "status": "proved",
   "theorems": [
    "Flut.C04_split_str",
    "Flut.C04_split_str_total",
    "Flut.C04_split_str_pieces"
   ],
   "note": ""
  },
  {
   "property": "C05",
   "status": "proved",
   "theorems": [
    "Flut.C05_left_of_str",
    "Flut.C05_right_of_str",
    "Flut.C05_make_key_value_none",
    "Flut.C05_make_key_value",
    "Flut.C05_make_key_value_default"
   ],
   "note": ""
  },
  {
   "property": "C06",
   "status": "partial",
   "theorems": [
    "Flut.C06_in_str",
    "Flut.C06_begins_with",
    "Flut.C06_ends_with_partial",
    "Flut.C06_ends_with_refuted",
    "Flut.C06_ends_with_sound"
   ],
   "note": "Prefix half proved. Suffix half is false of the code (C06_ends_with_refuted); C06_ends_with_partial gives the exact condition the code decides."
  },
  {
   "property": "C07",
   "status": "proved",
   "theorems": [
    "Flut.C07_left_str",
    "Flut.C07_left_str_neg",
    "Flut.C07_right_str",
    "Flut.C07_right_str_too_long",
    "Flut.C07_right_str_neg",
    "Flut.C07_doc_refuted",
    "Flut.C07_mid_str"
   ],
   "note": "The header comment for negative n is contradicted by the code (C07_doc_refuted)."
  },
  {
   "property": "C08",
   "status": "partial",
   "theorems": [
    "Flut.C08_ext",
    "Flut.C08_ext_found",
    "Flut.C08_folder",
    "Flut.C08_without_folder_plain",
    "Flut.C08_folder_refuted"
   ],
   "note": "False of the code for the folder of a name without separator (C08_folder_refuted); everything else proved."
  },
  {
   "property": "C09",
   "status": "proved",
   "theorems": [
    "Flut.C09_join_cases",
    "Flut.C09_join_assign",
    "Flut.C09_join_parent_filename",
    "Flut.C09_join_assoc"
   ],
   "note": ""
  },
  {
   "property": "C10",
   "status": "partial",
   "theorems": [
    "Flut.C10_decompose",
    "Flut.C10_no_separator",
    "Flut.C10_replace_filename",
    "Flut.C10_recompose",
    "Flut.C10_root_refuted",
    "Flut.C10_make_preferred"
   ],
   "note": "Proved except that the root separator is lost (C10_root_refuted)."
  },
  {
   "property": "C11",
   "status": "partial",
   "theorems": [
    "Flut.C11_stem_extension",
    "Flut.C11_replace_extension",
    "Flut.C11_remove_extension",
    "Flut.C11_no_dot",
    "Flut.C11_replace_extension_partial",
    "Flut.C11_dotted_folder_refuted"
   ],
   "note": "Proved for names whose last dot is in the file name; false of the code otherwise (C11_dotted_folder_refuted)."
  },
  {
   "property": "C12",
   "status": "proved",
   "theorems": [
    "Flut.C12_tidy_cases",
    "Flut.C12_tidy"
   ],
   "note": ""
  },
  {
   "property": "C13",
   "status": "proved",
   "theorems": [
    "Flut.C13_safe",
    "Flut.C13_forward_and_sticky",
    "Flut.C13_high_byte_ub"
   ],
   "note": "On 7-bit buffers; a byte >= 128 makes string extraction undefined (C13_high_byte_ub)."
  },
  {
   "property": "C14",
   "status": "proved",
   "theorems": [
    "Flut.C14_peek",
    "Flut.C14_terminates_iff",
    "Flut.C14_hangs",
    "Flut.C14_bound",
    "Flut.C14_no_final_backslash",
    "Flut.C14_hang_family"
   ],
   "note": ""
  },
  {
   "property": "C15",
   "status": "proved",
   "theorems": [
    "Flut.C15_str_to_vec",
    "Flut.C15_scan_str",
    "Flut.C15_scan_count_refuted"
   ],
   "note": "scan_str count is off by one when the text is used up (C15_scan_count_refuted), as stated."
  },
  {
   "property": "C16",
   "status": "proved",
   "theorems": [
    "Flut.C16_total",
    "Flut.C16_both_occur",
    "Flut.C16_hang_family"
   ],
   "note": ""
  },
  {
   "property": "C17",
   "status": "proved",
   "theorems": [
    "Flut.C17_round_trip",
    "Flut.C17_special_refuted",
    "Flut.C17_value_and_children_refuted",
    "Flut.C17_space_refuted",
    "Flut.C17_key_refuted"
   ],
   "note": "The side conditions are shown to be needed by four witnesses."
  },
  {
   "property": "C18",
   "status": "partial",
   "theorems": [
    "Flut.C18_comment_partial",
    "Flut.C18_comment_file_partial",
    "Flut.C18_empty_comment_refuted",
    "Flut.C18_lost_line"
   ],
   "note": "Proved for comments with something after the percent sign; false of the code otherwise (C18_empty_comment_refuted: the next line is swallowed)."
  },
  {
   "property": "C19",
   "status": "partial",
   "theorems": [
    "Flut.C19_siblings_refuted",
    "Flut.C19_nested_refuted",
    "Flut.C19_single_partial"
   ],
   "note": "False of the code for every file with two plain key/value pairs (C19_siblings_refuted) and for nested groups; proved for a single pair."
  },
  {
   "property": "C20",
   "status": "proved",
   "theorems": [
    "Flut.C20_try_get_child_or",
    "Flut.C20_set_get",
    "Flut.C20_set_frame",
    "Flut.C20_set_other",
    "Flut.C20_has_key",
    "Flut.C20_get_child",
    "Flut.C20_get",
    "Flut.C20_try_get_child",
    "Flut.C20_get_or_add",
    "Flut.C20_get_default",
    "Flut.C20_set_history",
    "Flut.C20_set_history_values"
   ],
   "note": ""
  },
  {
   "property": "C21",
   "status": "proved",
   "theorems": [
    "Flut.C21_set_delimited",
    "Flut.C21_get_delimited",
    "Flut.C21_round_trip",
    "Flut.C21_try_get",
    "Flut.C21_segments"
   ],
   "note": ""
  },
  {
   "property": "C22",
   "status": "proved",
   "theorems": [
    "Flut.C22_erase",
    "Flut.C22_insert",
    "Flut.C22_push_back",
    "Flut.C22_view",
    "Flut.C22_select"
   ],
   "note": "select_pattern is covered by C22_view, which is about every predicate."
  },
  {
   "property": "C23",
   "status": "proved",
   "theorems": [
    "Flut.C23_eq",
    "Flut.C23_equivalence"
   ],
   "note": ""
  },
  {
   "property": "C24",
   "status": "proved",
   "theorems": [
    "Flut.C24_parsed",
    "Flut.C24_written",
    "Flut.C24_count",
    "Flut.C24_clear",
    "Flut.C24_reads",
    "Flut.C24_count_mono",
    "Flut.C24_get_marks"
   ],
   "note": "Reads of a fixed tree; growing a vector of children may reset flags (see DESIGN.md)."
  },
  {
   "property": "C25",
   "status": "proved",
   "theorems": [
    "Flut.C25_keep",
    "Flut.C25_overwrite",
    "Flut.C25_keys",
    "Flut.C25_others",
    "Flut.C25_accessed"
   ],
   "note": ""
  },
  {
   "property": "C26",
   "status": "proved",
   "theorems": [
    "Flut.C26_terminates",
    "Flut.C26_terminates_prop",
    "Flut.C26_no_directive",
    "Flut.C26_chain",
    "Flut.C26_cycle",
    "Flut.C26_expansion"
   ],
   "note": "For every loader of single files that ends; instance C26_terminates_prop for prop files."
  },
  {
   "property": "C27",
   "status": "partial",
   "theorems": [
    "Flut.C27_vector",
    "Flut.C27_vec3",
    "Flut.C27_quat",
    "Flut.C27_transform",
    "Flut.C27_string",
    "Flut.C27_vector_keys",
    "Flut.C27_real_partial",
    "Flut.C27_real_refuted"
   ],
   "note": "proved for whatever the conversion of the elements does; for real numbers the elements do not survive exactly (C27_real_refuted), but within a millionth (C27_real_partial)"
  },
  {
   "property": "C28",
   "status": "proved",
   "theorems": [
    "Flut.C28_get_any",
    "Flut.C28_get_any_default"
   ],
   "note": ""
  },
  {
   "property": "C29",
   "status": "partial",
   "theorems": [
    "Flut.C29_file_round_trip",
    "Flut.C29_round_trip",
    "Flut.C29_total",
    "Flut.C29_comment_refuted",
    "Flut.C29_comment_swallows",
    "Flut.C29_order_refuted",
    "Flut.C29_empty_value_refuted"
   ],
   "note": "Round trip and totality proved. A comment hides the following line too (C29_comment_refuted, C29_comment_swallows)."
  },
  {
   "property": "C30",
   "status": "proved",
   "theorems": [
    "Flut.C30_map",
    "Flut.C30_erase_absent"
   ],
   "note": ""
  },
  {
   "property": "C31",
   "status": "proved",
   "theorems": [
    "Flut.C31_factory"
   ],
   "note": ""
  },
  {
   "property": "C32",
   "status": "proved",
   "theorems": [
    "Flut.C32_insert",
    "Flut.C32_sorted",
    "Flut.C32_defined",
    "Flut.C32_contents",
    "Flut.C32_stable"
   ],
   "note": ""
  },
  {
   "property": "C33",
   "status": "partial",
   "theorems": [
    "Flut.C33_within_capacity_partial",
    "Flut.C33_or_undefined_partial",
    "Flut.C33_back_only_partial",
    "Flut.C33_no_push_back_partial",
    "Flut.C33_undefined_exactly",
    "Flut.C33_pop_empty",
    "Flut.C33_push_back_refuted",
    "Flut.C33_const_back_refuted",
    "Flut.C33_const_back_slot",
    "Flut.C33_reserve_refuted"
   ],
   "note": "Proved while the contents fit in the capacity, and beyond it for use at the back only or without push_back; C33_undefined_exactly says which push_back is undefined. That one, const back and reserve are wrong in the code (three _refuted theorems)."
  },
  {
   "property": "C34",
   "status": "partial",
   "theorems": [
    "Flut.C34_write_last",
    "Flut.C34_retains",
    "Flut.C34_at_partial",
    "Flut.C34_at_refuted",
    "Flut.C34_add_frame_index_refuted",
    "Flut.C34_add_channel_refuted",
    "Flut.C34_resize",
    "Flut.C34_resize_frames",
    "Flut.C34_resize_then",
    "Flut.C34_find_or_add",
    "Flut.C34_add_channel_keeps_refuted",
    "Flut.C34_add_channel_resets",
    "Flut.C34_const_refuted"
   ],
   "note": "Reading the last N frames is proved for every history. at() is right once N frames were added and rejects everything before (C34_at_refuted); add_channel on an empty buffer breaks it (C34_add_channel_refuted), the const operator() is undefined, as it returns nothing (C34_const_refuted), and what add_frame returns is not the index of the new frame (C34_add_frame_index_refuted). resize_buffer is proved for all buffers and find_or_add_channel after every history (C34_resize, C34_resize_frames, C34_find_or_add); adding a channel to a buffer with frames loses the frames (C34_add_channel_keeps_refuted, C34_add_channel_resets)."
  },
  {
   "property": "C35",
   "status": "partial",
   "theorems": [
    "Flut.C35_header",
    "Flut.C35_find_sound",
    "Flut.C35_set_refuted",
    "Flut.C35_relabel_refuted",
    "Flut.C35_of_labels_refuted"
   ],
   "note": "Proved for every history of add, append-and-set, resize and clear; set on another index, relabelling and construction from labels are wrong in the code (three _refuted theorems)."
  },
  {
   "property": "C36",
   "status": "partial",
   "theorems": [
    "Flut.C36_storage",
    "Flut.C36_growth_keeps_cells",
    "Flut.C36_duplicate_label_refuted"
   ],
   "note": "Proved for every history; a repeated label throws but leaves an additional unlabelled channel (C36_duplicate_label_refuted)."
  },
  {
   "property": "C37",
   "status": "partial",
   "theorems": [
    "Flut.C37_table_partial",
    "Flut.C37_resize_columns_partial",
    "Flut.C37_resize_rows_refuted",
    "Flut.C37_resize_shrink",
    "Flut.C37_column_default_refuted",
    "Flut.C37_label_order"
   ],
   "note": "Proved for every history in which add_column adds T(); the default value is ignored otherwise and resize with more rows is undefined (two _refuted theorems)."
  },
  {
   "property": "C38",
   "status": "proved",
   "theorems": [
    "Flut.C38_debug"
   ],
   "note": ""
  },
  {
   "property": "C39",
   "status": "proved",
   "theorems": [
    "Flut.C39_name",
    "Flut.C39_elem",
    "Flut.C39_lookup",
    "Flut.C39_inverse"
   ],
   "note": ""
  },
  {
   "property": "C40",
   "status": "proved",
   "theorems": [
    "Flut.C40_memoize"
   ],
   "note": ""
  },
  {
   "property": "C41",
   "status": "proved",
   "theorems": [
    "Flut.C41_set",
    "Flut.C41_set_clear",
    "Flut.C41_any",
    "Flut.C41_list",
    "Flut.C41_commute",
    "Flut.C41_out_of_range"
   ],
   "note": ""
  },
  {
   "property": "C42",
   "status": "proved",
   "theorems": [
    "Flut.C42_median",
    "Flut.C42_median_order",
    "Flut.C42_median_between",
    "Flut.C42_average",
    "Flut.C42_top_average",
    "Flut.C42_top_average_excess",
    "Flut.C42_top_average_excess_refuted",
    "Flut.C42_average_empty",
    "Flut.C42_find_index",
    "Flut.C42_back_index",
    "Flut.C42_sort_indices",
    "Flut.C42_view_if"
   ],
   "note": "top_average with count larger than the size averages zeros in; the exact value is proved and the plain-mean reading is refuted."
  },
  {
   "property": "C43",
   "status": "proved",
   "theorems": [
    "Flut.C43_log",
    "Flut.C43_global_level",
    "Flut.C43_messagef_cut"
   ],
   "note": ""
  },
  {
   "property": "C44",
   "status": "proved",
   "theorems": [
    "Flut.C44_profiler",
    "Flut.C44_balanced",
    "Flut.C44_exclusive_nonneg",
    "Flut.C44_end_without_start"
   ],
   "note": "Section names are compared as pointers by the code; the model takes names to be such pointers."
  },
  {
   "property": "C45",
   "status": "proved",
   "theorems": [
    "Flut.C45_start_first",
    "Flut.C45_no_time_lost",
    "Flut.C45_measures",
    "Flut.C45_report"
   ],
   "note": ""
  },
  {
   "property": "C46",
   "status": "proved",
   "theorems": [
    "Flut.C46_same",
    "Flut.C46_fnv1a",
    "Flut.C46_fnv1a_refuted",
    "Flut.C46_incremental",
    "Flut.C46_nul"
   ],
   "note": ""
  },
  {
   "property": "C47",
   "status": "partial",
   "theorems": [
    "Flut.C47_round_trip_partial",
    "Flut.C47_no_build",
    "Flut.C47_round_trip_refuted"
   ],
   "note": "Proved for build > 0 and a postfix without white space; every other kind of version fails (C47_round_trip_refuted, C47_no_build)."
  },
  {
   "property": "C48",
   "status": "partial",
   "theorems": [
    "Flut.C48_counts",
    "Flut.C48_returns",
    "Flut.C48_reset_refuted"
   ],
   "note": "Counts and return value proved; reset() leaves the counts of failed tests behind (C48_reset_refuted)."
  },
  {
   "property": "C49",
   "status": "proved",
   "theorems": [
    "Flut.C49_int",
    "Flut.C49_long",
    "Flut.C49_ulong",
    "Flut.C49_long_exact",
    "Flut.C49_ulong_exact",
    "Flut.C49_ulong_invalid",
    "Flut.C49_string_is_int",
    "Flut.C49_string_is_long",
    "Flut.C49_enum",
    "Flut.C49_bool",
    "Flut.C49_bool_words_refuted"
   ],
   "note": ""
  },
  {
   "property": "C50",
   "status": "partial",
   "theorems": [
    "Flut.C50_create_directories_fresh",
    "Flut.C50_create_directories",
    "Flut.C50_trailing_slash_refuted",
    "Flut.C50_names",
    "Flut.C50_unique_fresh",
    "Flut.C50_unique_least_partial",
    "Flut.C50_unique_slash_refuted"
   ],
   "note": "Freshness, names and that nothing is removed: proved for every file system and name. Least name: proved for ordinary paths with permission to write; a name ending in a slash breaks it (C50_unique_slash_refuted)."
  },
  {
   "property": "C51",
   "status": "partial",
   "theorems": [
    "Flut.C51_copies_partial",
    "Flut.C51_succeeds",
    "Flut.C51_no_overwrite",
    "Flut.C51_false_partial",
    "Flut.C51_refuted"
   ],
   "note": "Proved when source and destination differ, and that only the destination can change; a missing source and a copy onto itself empty the destination (C51_refuted)."
  },
  {
   "property": "C52",
   "status": "partial",
   "theorems": [
    "Flut.C52_missing",
    "Flut.C52_present_partial",
    "Flut.C52_stale_error_refuted",
    "Flut.C52_folder",
    "Flut.C52_save_load"
   ],
   "note": "load_string in full. load_prop when the error code passed holds no earlier error; otherwise a good file loads as empty (C52_stale_error_refuted). A failing parse throws even when an error code is passed (C16)."
  },
  {
   "property": "C53",
   "status": "proved",
   "theorems": [
    "Flut.C53_power_of_two",
    "Flut.C53_power_of_two_signed",
    "Flut.C53_even_odd"
   ],
   "note": "Signed types: proved except for the least value, where the subtraction overflows."
  },
  {
   "property": "C54",
   "status": "proved",
   "theorems": [
    "Flut.C54_between",
    "Flut.C54_set_if",
    "Flut.C54_sign",
    "Flut.C54_clamp",
    "Flut.C54_clamp_mono",
    "Flut.C54_bounds",
    "Flut.C54_neg"
   ],
   "note": ""
  },
  {
   "property": "C55",
   "status": "proved",
   "theorems": [
    "Flut.C55_bounds",
    "Flut.C55_inside",
    "Flut.C55_increasing"
   ],
   "note": ""
  },
  {
   "property": "C56",
   "status": "proved",
   "theorems": [
    "Flut.C56_wrap",
    "Flut.C56_wrap_id",
    "Flut.C56_upper_end",
    "Flut.C56_periodic_refuted"
   ],
   "note": "As stated, including the exception; that wrapping is therefore not periodic is C56_periodic_refuted."
  },
  {
   "property": "C57",
   "status": "partial",
   "theorems": [
    "Flut.C57_square_wave",
    "Flut.C57_negative",
    "Flut.C57_periodic_refuted"
   ],
   "note": "Proved for v >= 0; false for negative v (C57_periodic_refuted, C57_negative)."
  },
  {
   "property": "C58",
   "status": "proved",
   "theorems": [
    "Flut.C58_hamilton",
    "Flut.C58_monoid",
    "Flut.C58_rotation",
    "Flut.C58_action",
    "Flut.C58_unit_needed",
    "Flut.C58_between"
   ],
   "note": ""
  },
  {
   "property": "C59",
   "status": "proved",
   "theorems": [
    "Flut.C59_compose",
    "Flut.C59_inverse",
    "Flut.C59_undo"
   ],
   "note": ""
  },
  {
   "property": "C60",
   "status": "proved",
   "theorems": [
    "Flut.C60_quat_from_axes"
   ],
   "note": ""
  },
  {
   "property": "C61",
   "status": "proved",
   "theorems": [
    "Flut.C61_axis_angle",
    "Flut.C61_additive",
    "Flut.C61_assertion",
    "Flut.C61_euler",
    "Flut.C61_axis_angle_from_quat",
    "Flut.C61_small",
    "Flut.C61_axis_angle_back"
   ],
   "note": ""
  },
  {
   "property": "C62",
   "status": "partial",
   "theorems": [
    "Flut.C62_directions",
    "Flut.C62_same",
    "Flut.C62_opposite",
    "Flut.C62_opposite_refuted"
   ],
   "note": "Proved for directions that are neither counted as the same nor opposite; a bound on the error for those counted as the same; for opposite ones exactly when the source is perpendicular to x (C62_opposite, C62_opposite_refuted)."
  },
  {
   "property": "C63",
   "status": "proved",
   "theorems": [
    "Flut.C63_point",
    "Flut.C63_order",
    "Flut.C63_bounding_box"
   ],
   "note": "exact arithmetic; coordinates within the numeric limits of the type"
  },
  {
   "property": "C64",
   "status": "proved",
   "theorems": [
    "Flut.C64_average",
    "Flut.C64_delta"
   ],
   "note": "exact arithmetic; includes delta"
  },
  {
   "property": "C65",
   "status": "proved",
   "theorems": [
    "Flut.C65_polynomial",
    "Flut.C65_intersect"
   ],
   "note": "exact arithmetic"
  },
  {
   "property": "C66",
   "status": "proved",
   "theorems": [
    "Flut.C66_least_squares",
    "Flut.C66_recovers",
    "Flut.C66_fixed_step",
    "Flut.C66_no_line"
   ],
   "note": "exact arithmetic; also uniqueness, and that the fixed-step form equals the general one for every input"
  },
  {
   "property": "C67",
   "status": "proved",
   "theorems": [
    "Flut.C67_before",
    "Flut.C67_after",
    "Flut.C67_between",
    "Flut.C67_cases",
    "Flut.C67_at_sample",
    "Flut.C67_total",
    "Flut.C67_empty",
    "Flut.C67_index",
    "Flut.C67_index_far_refuted"
   ],
   "note": "exact arithmetic; the index form is undefined from 2^64-1 on (C67_index_far_refuted)"
  },
  {
   "property": "C68",
   "status": "proved",
   "theorems": [
    "Flut.C68_difference_equation",
    "Flut.C68_linear",
    "Flut.C68_time_invariant",
    "Flut.C68_butterworth_gain",
    "Flut.C68_butterworth_converges",
    "Flut.C68_last_output"
   ],
   "note": "exact arithmetic; Butterworth over the reals, including convergence of the step response from any state"
  },
  {
   "property": "C69",
   "status": "proved",
   "theorems": [
    "Flut.C69_irange",
    "Flut.C69_irange_mem",
    "Flut.C69_irange_step",
    "Flut.C69_diverges_refuted"
   ],
   "note": "unbounded integers; C69_diverges_refuted shows the ranges that never end"
  },
  {
   "property": "C70",
   "status": "proved",
   "theorems": [
    "Flut.C70_general",
    "Flut.C70_integral",
    "Flut.C70_sentinel_refuted",
    "Flut.C70_floating"
   ],
   "note": "C70_sentinel_refuted: one value per integral type cannot be stored"
  },
  {
   "property": "C71",
   "status": "partial",
   "theorems": [
    "Flut.C71_interval",
    "Flut.C71_grid",
    "Flut.C71_affine",
    "Flut.C71_in_range",
    "Flut.C71_far_refuted"
   ],
   "note": "false for x whose interval number does not fit an int (C71_far_refuted); C71_in_range says exactly when there is a value"
  },
  {
   "property": "C72",
   "status": "partial",
   "theorems": [
    "Flut.C72_initial_refuted",
    "Flut.C72_constant",
    "Flut.C72_convex_partial",
    "Flut.C72_convex_refuted",
    "Flut.C72_exact_delay",
    "Flut.C72_smooth_convex",
    "Flut.C72_smooth_constant"
   ],
   "note": "the initial value is lost (C72_initial_refuted) and delayer can overshoot (C72_convex_refuted); constants, bounds within the window, and exact delays for steps that divide the window are proved"
  },
  {
   "property": "C73",
   "status": "partial",
   "theorems": [
    "Flut.C73_length",
    "Flut.C73_vec4_partial",
    "Flut.C73_refuted"
   ],
   "note": "Addition proved; the other operations leave the fourth component as it is (C73_refuted)."
  },
  {
   "property": "C74",
   "status": "proved",
   "theorems": [
    "Flut.C74_means",
    "Flut.C74_covariance",
    "Flut.C74_properties",
    "Flut.C74_cells"
   ],
   "note": "exact arithmetic"
  },
  {
   "property": "C75",
   "status": "proved",
   "theorems": [
    "Flut.C75_union",
    "Flut.C75_pieces",
    "Flut.C75_none",
    "Flut.C75_throws"
   ],
   "note": "for any underlying pattern_match"
  },
  {
   "property": "C76",
   "status": "proved",
   "theorems": [
    "Flut.C76_values",
    "Flut.C76_inverse",
    "Flut.C76_convert"
   ],
   "note": ""
  },
  {
   "property": "C77",
   "status": "partial",
   "theorems": [
    "Flut.C77_single_axis_partial",
    "Flut.C77_beyond_right_angle",
    "Flut.C77_refuted"
   ],
   "note": "Proved for rotations about one axis by at most a right angle; false beyond it and for general angles in every order (C77_beyond_right_angle, C77_refuted)."
  },
  {
   "property": "C78",
   "status": "partial",
   "theorems": [
    "Flut.C78_saved_text",
    "Flut.C78_round_trip_partial",
    "Flut.C78_save_load_partial",
    "Flut.C78_refuted"
   ],
   "note": "Round trip proved for trees with one root whose nodes have a value or children but not both, values without zeros that are not only blanks, and keys that are element names. The rest is refuted: a value beside children, further roots and blank values are lost, other keys give files that do not load."
  },
  {
   "property": "C79",
   "status": "partial",
   "theorems": [
    "Flut.C79_documents",
    "Flut.C79_reference_refuted",
    "Flut.C79_cdata_refuted",
    "Flut.C79_mixed_refuted",
    "Flut.C79_malformed_refuted"
   ],
   "note": "Proved for every document of the grammar. Refuted for CDATA sections (their text is lost) and for text split by markup (only the first part is kept); documents with wrong closing tags are accepted, and character numbers count modulo 2^64 (C79_reference_refuted)."
  },
  {
   "property": "C80",
   "status": "proved",
   "theorems": [
    "Flut.C80_any_bytes",
    "Flut.C80_error_code",
    "Flut.C80_no_error_code",
    "Flut.C80_stale_error",
    "Flut.C80_load_file"
   ],
   "note": "Any bytes end in a tree or an exception; nothing is thrown when an error code is given. An error code that is already set makes the result empty. Depth of recursion (stack size) is not modelled."
  },
  {
   "property": "C81",
   "status": "partial",
   "theorems": [
    "Flut.C81_refl",
    "Flut.C81_scale",
    "Flut.C81_interval",
    "Flut.C81_zero",
    "Flut.C81_symm_partial",
    "Flut.C81_symm_refuted"
   ],
   "note": "exact arithmetic; symmetry is false (C81_symm_refuted), with a larger tolerance it holds (C81_symm_partial)"
  },
  {
   "property": "C82",
   "status": "partial",
   "theorems": [
    "Flut.C82_text",
    "Flut.C82_read",
    "Flut.C82_invalid",
    "Flut.C82_round_trip_partial",
    "Flut.C82_exact_partial",
    "Flut.C82_special",
    "Flut.C82_stable",
    "Flut.C82_refuted",
    "Flut.C82_digits_refuted",
    "Flut.C82_char_stream",
    "Flut.C82_char_stream_none",
    "Flut.C82_hex",
    "Flut.C82_words",
    "Flut.C82_nan_text"
   ],
   "note": "exact binary formats (double and float), correctly rounded C library conversions; the round trip is refuted in general and proved to be within a millionth, stable after the first trip, and exact where stated"
  },
  {
   "property": "C83",
   "status": "proved",
   "theorems": [
    "Flut.C83_length",
    "Flut.C83_distance",
    "Flut.C83_normalized",
    "Flut.C83_quat_normalized",
    "Flut.C83_polar",
    "Flut.C83_components"
   ],
   "note": "exact real arithmetic"
  },
  {
   "property": "C84",
   "status": "partial",
   "theorems": [
    "Flut.C84_storage",
    "Flut.C84_no_channels_refuted",
    "Flut.C84_tab_refuted",
    "Flut.C84_table_partial",
    "Flut.C84_vector",
    "Flut.C84_vector_refuted"
   ],
   "note": "storages with a channel, non-empty vectors and tables whose added columns have the default value are proved; storages without channels, fields with tabs and empty vectors are refuted"
  },
  {
   "property": "C85",
   "status": "proved",
   "theorems": [
    "Flut.C85_label",
    "Flut.C85_vectors"
   ],
   "note": "for every reachable storage"
  },
  {
   "property": "C86",
   "status": "partial",
   "theorems": [
    "Flut.C86_interpolated_partial",
    "Flut.C86_negative",
    "Flut.C86_last_frame_refuted",
    "Flut.C86_channel_refuted"
   ],
   "note": "linear interpolation below the last frame is proved for every reachable storage; access to the last frame and checking of the channel are refuted"
  },
  {
   "property": "C87",
   "status": "proved",
   "theorems": [
    "Flut.C87_samples",
    "Flut.C87_text"
   ],
   "note": "exact arithmetic"
  },
  {
   "property": "C88",
   "status": "partial",
   "theorems": [
    "Flut.C88_report",
    "Flut.C88_same_text_refuted"
   ],
   "note": "proved for every history in which different sections called from the same place have different texts; equal texts at different addresses are refuted; formatting of the numbers is a parameter here and the subject of C126"
  },
  {
   "property": "C89",
   "status": "partial",
   "theorems": [
    "Flut.C89_listing",
    "Flut.C89_determines",
    "Flut.C89_root_refuted"
   ],
   "note": "proved for trees with the same value at the root; the value of the root is not listed (C89_root_refuted)"
  },
  {
   "property": "C90",
   "status": "partial",
   "theorems": [
    "Flut.C90_messages",
    "Flut.C90_silent",
    "Flut.C90_afterwards",
    "Flut.C90_repeat_refuted"
   ],
   "note": "messages, silence and unchanged content are proved; the messages are not repeatable (C90_repeat_refuted)"
  },
  {
   "property": "C91",
   "status": "partial",
   "theorems": [
    "Flut.C91_signed",
    "Flut.C91_signed_long",
    "Flut.C91_unsigned",
    "Flut.C91_unsigned_long",
    "Flut.C91_invalid",
    "Flut.C91_range_refuted"
   ],
   "note": "values in range, position and failure are proved; integers out of range are not reported (C91_range_refuted)"
  },
  {
   "property": "C92",
   "status": "partial",
   "theorems": [
    "Flut.C92_single",
    "Flut.C92_real_range",
    "Flut.C92_int_range",
    "Flut.C92_keys",
    "Flut.C92_nothing",
    "Flut.C92_refuted",
    "Flut.C92_stream"
   ],
   "note": "proved for lower limits that are decimal numbers not ending with a point; trailing point and non-numbers refuted (C92_refuted)"
  },
  {
   "property": "C93",
   "status": "partial",
   "theorems": [
    "Flut.C93_history",
    "Flut.C93_ownership",
    "Flut.C93_moved_refuted",
    "Flut.C93_self_refuted"
   ],
   "note": "A moved-from array keeps a dangling end pointer and self-assignment replaces its data before asking for its size; both are proved (C93_moved_refuted, C93_self_refuted). C93_history and C93_ownership hold for all other histories."
  },
  {
   "property": "C94",
   "status": "partial",
   "theorems": [
    "Flut.C94_clone",
    "Flut.C94_null_refuted"
   ],
   "note": "For vectors without null pointers the property holds (C94_clone); a null pointer is undefined behaviour (C94_null_refuted)."
  },
  {
   "property": "C95",
   "status": "partial",
   "theorems": [
    "Flut.C95_hermite",
    "Flut.C95_segment",
    "Flut.C95_alpha",
    "Flut.C95_alpha_refuted",
    "Flut.C95_length",
    "Flut.C95_length_bounds",
    "Flut.C95_length_line"
   ],
   "note": "Exact real arithmetic. Coinciding neighbours divide by zero in the alpha version (C95_alpha_refuted)."
  },
  {
   "property": "C96",
   "status": "partial",
   "theorems": [
    "Flut.C96_units",
    "Flut.C96_monotone",
    "Flut.C96_counter",
    "Flut.C96_counter_refuted"
   ],
   "note": "Seconds, minutes and hours in exact arithmetic. The counter overflows when the count times 10^9 exceeds 63 bits, after about fifteen minutes at 10 MHz (C96_counter_refuted)."
  },
  {
   "property": "C97",
   "status": "proved",
   "theorems": [
    "Flut.C97_files",
    "Flut.C97_crash",
    "Flut.C97_stream"
   ],
   "note": "Every sink has a file of its own; a stream that failed stays bad. C97_files, C97_crash; C97_stream is the same for plain stream sinks."
  },
  {
   "property": "C98",
   "status": "partial",
   "theorems": [
    "Flut.C98_clamp",
    "Flut.C98_clamp_refuted",
    "Flut.C98_between",
    "Flut.C98_set_if",
    "Flut.C98_sign",
    "Flut.C98_violation"
   ],
   "note": "IEEE arithmetic (float and double). NaN passes through clamp (C98_clamp_refuted); all numbers, infinite ones included, are proved."
  },
  {
   "property": "C99",
   "status": "partial",
   "theorems": [
    "Flut.C99_wrap",
    "Flut.C99_error",
    "Flut.C99_identity_partial",
    "Flut.C99_identity_refuted",
    "Flut.C99_upper_refuted",
    "Flut.C99_overflow_refuted"
   ],
   "note": "C99_wrap, C99_error; unchanged values only under exactness (C99_identity_partial); C99_identity_refuted, C99_upper_refuted, C99_overflow_refuted."
  },
  {
   "property": "C100",
   "status": "partial",
   "theorems": [
    "Flut.C100_inside_refuted",
    "Flut.C100_overflow_refuted",
    "Flut.C100_monotone_refuted",
    "Flut.C100_near",
    "Flut.C100_infinite",
    "Flut.C100_middle",
    "Flut.C100_monotone_upper_partial",
    "Flut.C100_monotone_lower_partial"
   ],
   "note": "C100_near, C100_middle, monotone within each part; C100_inside_refuted, C100_monotone_refuted, C100_overflow_refuted give witnesses for the rest."
  },
  {
   "property": "C101",
   "status": "partial",
   "theorems": [
    "Flut.C101_pi_float",
    "Flut.C101_pi_double_refuted",
    "Flut.C101_pi_double_partial",
    "Flut.C101_multiples",
    "Flut.C101_rad_to_deg",
    "Flut.C101_deg_to_rad",
    "Flut.C101_monotone",
    "Flut.C101_round_trip_refuted",
    "Flut.C101_round_trip_partial"
   ],
   "note": "C101_pi_double_refuted and C101_round_trip_refuted; the rest is proved, with real pi from Mathlib."
  },
  {
   "property": "C102",
   "status": "partial",
   "theorems": [
    "Flut.C102_equals_complete",
    "Flut.C102_equals_sound",
    "Flut.C102_equals_special",
    "Flut.C102_equals_exact_refuted",
    "Flut.C102_default_exact",
    "Flut.C102_square_wave",
    "Flut.C102_square_wave_refuted"
   ],
   "note": "C102_equals_exact_refuted (tolerance that is no power of two) and C102_square_wave_refuted (negative numbers); the rest is proved."
  },
  {
   "property": "C103",
   "status": "partial",
   "theorems": [
    "Flut.C103_documents_partial",
    "Flut.C103_blank_before_brace_refuted",
    "Flut.C103_blank_before_open_refuted",
    "Flut.C103_blank_before_comment_refuted",
    "Flut.C103_quoted_percent_refuted",
    "Flut.C103_empty_before_brace_refuted",
    "Flut.C103_text_before_quote_refuted",
    "Flut.C103_escaped_single_quote_refuted",
    "Flut.C103_unclosed_accepted",
    "Flut.C103_lone_key_refuted"
   ],
   "note": "C103_documents_partial: every document of the grammar of Spec/PropDoc.lean is read as its tree. The grammar leaves out the layouts that the code misreads, each with a witness (_refuted): blanks before a brace or a comment where no word precedes them (so space-indented closing braces and `g { h { b = 1 } }` are errors, and a space-indented comment line silently ends the document), a quoted percent sign, an empty pair of quotes just before a brace, text before a quote in the same word, an escaped single quote, and a key without a value."
  },
  {
   "property": "C104",
   "status": "partial",
   "theorems": [
    "Flut.C104_index_between",
    "Flut.C104_index_at",
    "Flut.C104_index_outside",
    "Flut.C104_index_undefined",
    "Flut.C104_index_poison_refuted",
    "Flut.C104_constant_refuted",
    "Flut.C104_key_between",
    "Flut.C104_key_at",
    "Flut.C104_key_outside"
   ],
   "note": "C104_index_poison_refuted: at a whole index the element is lost if the next one is infinite. C104_constant_refuted: between two equal elements the result can lie above them. The rest is proved, with explicit error bounds, for values up to a quarter of the largest number"
  },
  {
   "property": "C105",
   "status": "partial",
   "theorems": [
    "Flut.C105_average_partial",
    "Flut.C105_average_empty",
    "Flut.C105_between_refuted",
    "Flut.C105_average_overflow_refuted",
    "Flut.C105_median_partial",
    "Flut.C105_median_overflow_refuted"
   ],
   "note": "C105_average_overflow_refuted, C105_median_overflow_refuted, C105_between_refuted are the defects; C105_average_partial assumes that the sum of the magnitudes does not overflow (and fewer than 2^24 or 2^53 values), C105_median_partial that the sum of the two middle values does not"
  },
  {
   "property": "C106",
   "status": "partial",
   "theorems": [
    "Flut.C106_error_partial",
    "Flut.C106_integers",
    "Flut.C106_at_zero",
    "Flut.C106_linear_infinite",
    "Flut.C106_infinite",
    "Flut.C106_overflow_refuted",
    "Flut.C106_intersect",
    "Flut.C106_intersect_horizontal"
   ],
   "note": "C106_overflow_refuted: a power that overflows gives not-a-number although its coefficient is zero. C106_error_partial assumes that nothing overflows and that neither the powers nor the terms are below the least number of full precision"
  },
  {
   "property": "C107",
   "status": "partial",
   "theorems": [
    "Flut.C107_text",
    "Flut.C107_whole",
    "Flut.C107_special",
    "Flut.C107_read",
    "Flut.C107_read_nothing",
    "Flut.C107_read_no_number",
    "Flut.C107_read_bad_exponent",
    "Flut.C107_vec3",
    "Flut.C107_vec3_refuted",
    "Flut.C107_again",
    "Flut.C107_infinite_refuted",
    "Flut.C107_quat",
    "Flut.C107_angle",
    "Flut.C107_node",
    "Flut.C107_bounds"
   ],
   "note": "Proved for finite values: C107_text, C107_whole, C107_read, C107_vec3, C107_quat, C107_angle, C107_node, C107_bounds, C107_again. Refuted: numbers with more than six digits change (C107_vec3_refuted), and a vector that begins with an infinity or NaN is read by operator>> as zero (C107_infinite_refuted), although the prop_node constructor reads it (C107_node). Streams of the C++ library are modelled as libstdc++ has them, in the C locale."
  },
  {
   "property": "C108",
   "status": "proved",
   "theorems": [
    "Flut.C108_any_beginning",
    "Flut.C108_saved_text",
    "Flut.C108_interrupted_save",
    "Flut.C108_old_or_new_refuted",
    "Flut.C108_empty_accepted_refuted"
   ],
   "note": "Loading the beginning of any accepted text (C108_any_beginning), the exact answer for saved trees (C108_saved_text) and the same through a file (C108_interrupted_save). The spec of an interrupted save is Spec/Cut.lean: the file holds a beginning of the text. Two things users may expect are refuted: the old file is not kept (C108_old_or_new_refuted), and an empty file is accepted silently (C108_empty_accepted_refuted)."
  },
  {
   "property": "C109",
   "status": "proved",
   "theorems": [
    "Flut.C109_saved_text",
    "Flut.C109_complete_nodes",
    "Flut.C109_interrupted_save",
    "Flut.C109_noticed_refuted",
    "Flut.C109_ends_refuted",
    "Flut.C109_loads_refuted",
    "Flut.C109_beginning_refuted"
   ],
   "note": "C109_saved_text gives the answer for every cut as the relation CutKids of Spec/Cut.lean, C109_complete_nodes the consequence for complete nodes and C109_interrupted_save the same through a file. What users may expect beyond that is refuted: an interruption is usually not noticed (C109_noticed_refuted), loading can run forever (C109_ends_refuted) or throw (C109_loads_refuted), and a word can end in a character it never had (C109_beginning_refuted)."
  },
  {
   "property": "C110",
   "status": "proved",
   "theorems": [
    "Flut.C110_saved_text",
    "Flut.C110_interrupted_save",
    "Flut.C110_noticed_refuted",
    "Flut.C110_loads_refuted",
    "Flut.C110_kind_refuted"
   ],
   "note": "C110_saved_text gives the answer for every cut as the relation CutIni of Spec/Cut.lean, which the written text determines; C110_interrupted_save is the same through a file. An interruption is not always noticed (C110_noticed_refuted) and does not always load (C110_loads_refuted). Without the condition on brackets and equals signs, a cut can turn a group into an item and an item into a group (C110_kind_refuted)."
  },
  {
   "property": "C111",
   "status": "proved",
   "theorems": [
    "Flut.C111_root_nearest",
    "Flut.C111_root_exact",
    "Flut.C111_invsqrt",
    "Flut.C111_signed_root",
    "Flut.C111_squared_length",
    "Flut.C111_length",
    "Flut.C111_axis",
    "Flut.C111_integers",
    "Flut.C111_number",
    "Flut.C111_infinite",
    "Flut.C111_vanishing",
    "Flut.C111_length_refuted",
    "Flut.C111_quat_length"
   ],
   "note": "C111_length and C111_quat_length are the error bounds, in the real numbers; C111_axis and C111_integers the exact cases; C111_infinite and C111_vanishing the ends of the range. That the length is right for all vectors whose length is in range is refuted (C111_length_refuted): ( 2^600, 0, 0 ) has length infinity and ( 2^-600, 0, 0 ) has length zero."
  },
  {
   "property": "C112",
   "status": "proved",
   "theorems": [
    "Flut.C112_normalize",
    "Flut.C112_member",
    "Flut.C112_huge",
    "Flut.C112_special",
    "Flut.C112_normalize_refuted",
    "Flut.C112_is_normalized",
    "Flut.C112_normalized_refuted",
    "Flut.C112_axes",
    "Flut.C112_quat_normalize",
    "Flut.C112_quat_is_normalized",
    "Flut.C112_normalized_quat_refuted"
   ],
   "note": "C112_normalize, C112_member and C112_quat_normalize say what normalising gives; C112_is_normalized and C112_quat_is_normalized what the test accepts. Two things one may expect are refuted with witnesses: that every finite vector that is not null gets length one (C112_normalize_refuted), and that what has been normalised is found to be normalised (C112_normalized_refuted, C112_normalized_quat_refuted; then `quat_from_axis_angle` fails its assertion)."
  },
  {
   "property": "C113",
   "status": "partial",
   "theorems": [
    "Flut.C113_dot_comm",
    "Flut.C113_dot",
    "Flut.C113_dot_integers",
    "Flut.C113_cross",
    "Flut.C113_cross_integers",
    "Flut.C113_cross_anti",
    "Flut.C113_cross_self",
    "Flut.C113_cross_self_refuted",
    "Flut.C113_distance_length",
    "Flut.C113_distance_comm",
    "Flut.C113_distance_self",
    "Flut.C113_distance",
    "Flut.C113_distance_refuted",
    "Flut.C113_divide",
    "Flut.C113_divide_exact",
    "Flut.C113_divide_refuted",
    "Flut.C113_is_null"
   ],
   "note": "C113_dot, C113_cross, C113_distance and C113_divide are the error bounds; C113_dot_comm, C113_cross_anti and C113_distance_comm hold for all arguments. Refuted without the range conditions: the cross product of a vector with itself is not a number if a product overflows (C113_cross_self_refuted), different vectors can have distance zero (C113_distance_refuted), and division multiplies with a rounded inverse, so that 49 / 49 is below one and a small vector divided by its size becomes infinite (C113_divide_refuted)."
  },
  {
   "property": "C114",
   "status": "partial",
   "theorems": [
    "Flut.C114_values",
    "Flut.C114_default",
    "Flut.C114_prime",
    "Flut.C114_range",
    "Flut.C114_period",
    "Flut.C114_once",
    "Flut.C114_seeds_refuted",
    "Flut.C114_seeds_partial",
    "Flut.C114_seeds",
    "Flut.C114_reseed",
    "Flut.C114_small_seeds"
   ],
   "note": "With std::default_random_engine as libstdc++ defines it (minstd_rand0). Different seeds give different sequences only if they differ modulo 2147483647 and are not 0 and 1: C114_seeds_refuted and C114_seeds_partial."
  },
  {
   "property": "C115",
   "status": "partial",
   "theorems": [
    "Flut.C115_range",
    "Flut.C115_equal",
    "Flut.C115_below_refuted",
    "Flut.C115_unit",
    "Flut.C115_below_partial"
   ],
   "note": "With generate_canonical and uniform_real_distribution as libstdc++ defines them. The half-open interval that the standard promises holds only in part: C115_below_refuted, C115_unit, C115_below_partial."
  },
  {
   "property": "C116",
   "status": "proved",
   "theorems": [
    "Flut.C116_ends",
    "Flut.C116_value",
    "Flut.C116_bound",
    "Flut.C116_constant"
   ],
   "note": "With normal_distribution as libstdc++ defines it (polar method); the logarithm is a parameter. Nothing is claimed about the statistical distribution."
  },
  {
   "property": "C117",
   "status": "partial",
   "theorems": [
    "Flut.C117_memory",
    "Flut.C117_group_refuted",
    "Flut.C117_prop",
    "Flut.C117_xml",
    "Flut.C117_ini"
   ],
   "note": "Proved for the trees each format can hold (C17, C29 and C78 state the limits). Reals come back within 1e-6 (C82), not exactly. XML needs a single root and ini exactly one level of groups. C117_group_refuted: a value written over a group removes its settings."
  },
  {
   "property": "C118",
   "status": "proved",
   "theorems": [
    "Flut.C118_product",
    "Flut.C118_conjugate",
    "Flut.C118_identity",
    "Flut.C118_sequence",
    "Flut.C118_normalize"
   ],
   "note": "Stated against Mathlib's quaternions over the reals and their norm. Finite arguments only; infinities and not-a-number are left out."
  },
  {
   "property": "C119",
   "status": "proved",
   "theorems": [
    "Flut.C119_rotation",
    "Flut.C119_identity",
    "Flut.C119_normalize",
    "Flut.C119_product",
    "Flut.C119_sequence"
   ],
   "note": "Needs vectors of length at most a sixteenth (for sequences a thirty-second) of the largest number."
  },
  {
   "property": "C120",
   "status": "proved",
   "theorems": [
    "Flut.C120_vector",
    "Flut.C120_inverse_vector",
    "Flut.C120_there_and_back",
    "Flut.C120_back_and_there",
    "Flut.C120_product",
    "Flut.C120_inverse",
    "Flut.C120_inverse_product"
   ],
   "note": "Nearly normalised: length one to six units, what normalize gives. Lengths are limited to a fraction of the largest number so that nothing overflows."
  },
  {
   "property": "C121",
   "status": "partial",
   "theorems": [
    "Flut.C121_contains",
    "Flut.C121_attained",
    "Flut.C121_least",
    "Flut.C121_infinite_refuted",
    "Flut.C121_nan",
    "Flut.C121_nan_refuted",
    "Flut.C121_order",
    "Flut.C121_order_refuted",
    "Flut.C121_union"
   ],
   "note": "The box of a point at infinity is not the least one (C121_infinite_refuted), a box made from a point that is not a number stays empty (C121_nan_refuted), and the sign of zero bounds depends on the order (C121_order_refuted). All else is proved."
  },
  {
   "property": "C122",
   "status": "partial",
   "theorems": [
    "Flut.C122_value",
    "Flut.C122_nodes",
    "Flut.C122_at_node",
    "Flut.C122_undefined",
    "Flut.C122_defined_refuted",
    "Flut.C122_at_node_refuted"
   ],
   "note": "The code does not return the stored value at each of its own points (C122_at_node_refuted: ten intervals from 0 to 1) and is undefined for finite arguments far outside the range (C122_defined_refuted); the rest of the statement is proved."
  },
  {
   "property": "C123",
   "status": "partial",
   "theorems": [
    "Flut.C123_file",
    "Flut.C123_column",
    "Flut.C123_number",
    "Flut.C123_mark",
    "Flut.C123_untouched",
    "Flut.C123_sentinel_refuted"
   ],
   "note": "The sentinel itself, -max of float, is lost when it is written (C123_sentinel_refuted); all other values are covered."
  },
  {
   "property": "C124",
   "status": "partial",
   "theorems": [
    "Flut.C124_clock",
    "Flut.C124_exact",
    "Flut.C124_value",
    "Flut.C124_delay",
    "Flut.C124_stuck_refuted"
   ],
   "note": "Holds for steps up to the window; that time always moves is refuted (C124_stuck_refuted). T is float as is the clock; smooth_delayer is covered in exact arithmetic only (C72)."
  },
  {
   "property": "C125",
   "status": "partial",
   "theorems": [
    "Flut.C125_weighted",
    "Flut.C125_mean",
    "Flut.C125_empty",
    "Flut.C125_between_refuted"
   ],
   "note": "C125_between_refuted: averages can lie above all values when the sum of weights no longer grows. The error bound is proved below that number of values."
  },
  {
   "property": "C126",
   "status": "partial",
   "theorems": [
    "Flut.C126_line",
    "Flut.C126_aligned",
    "Flut.C126_open_refuted"
   ],
   "note": "the line of a section with a positive total time is proved for all times; for a section without a finished invocation the overhead is refuted"
  },
  {
   "property": "C127",
   "status": "partial",
   "theorems": [
    "Flut.Threads.C127_apart",
    "Flut.Threads.C127_same_node_refuted",
    "Flut.Threads.C127_alone"
   ],
   "note": "separate parts are proved for every schedule; reading the same node from two threads is refuted: const members write the access flag"
  },
  {
   "property": "C128",
   "status": "partial",
   "theorems": [
    "Flut.Threads.C128_lines",
    "Flut.Threads.C128_file_refuted",
    "Flut.Threads.C128_levels_refuted",
    "Flut.Threads.C128_alone",
    "Flut.Threads.C128_mixed_refuted"
   ],
   "note": "the console, and files with one thread each, are proved for every schedule; whole lines on the console, files shared by threads and changes of levels during logging are refuted"
  },
  {
   "property": "C129",
   "status": "partial",
   "theorems": [
    "Flut.Threads.C129_alone",
    "Flut.Threads.C129_other_thread_refuted",
    "Flut.Threads.C129_only_ask"
   ],
   "note": "one thread, and threads that only ask, are proved; interrupting another thread, which the class is for, is refuted"
  },
  {
   "property": "C130",
   "status": "partial",
   "theorems": [
    "Flut.Threads.C130_guarded",
    "Flut.Threads.C130_reset_refuted",
    "Flut.Threads.C130_static_order_refuted"
   ],
   "note": "the guarded calls are proved for every schedule; reset from another thread, and use after initialisation of the thread identifier at run time, are refuted"
  },
  {
   "property": "C131",
   "status": "partial",
   "theorems": [
    "Flut.C131_stringf",
    "Flut.C131_arguments",
    "Flut.C131_defined",
    "Flut.C131_text",
    "Flut.C131_long_refuted",
    "Flut.C131_text_as_format",
    "Flut.C131_text_as_format_refuted",
    "Flut.C131_version",
    "Flut.C131_unique_folder",
    "Flut.C131_escape",
    "Flut.C131_report",
    "Flut.C131_item_refuted",
    "Flut.C131_item",
    "Flut.C131_log",
    "Flut.C131_log_off",
    "Flut.C131_log_on_refuted"
   ],
   "note": "Proved for formats with arguments that fit, that every other argument list is undefined, and that no other format is defined (C131_defined). Not true in general: stringf cuts after 255 characters (C131_long_refuted) and messagef after 1023, text with a percent sign cannot be the format (C131_text_as_format_refuted), and the keys of list items are made with a conversion that does not fit the argument (C131_item_refuted)."
  },
  {
   "property": "C132",
   "status": "partial",
   "theorems": [
    "Flut.C132_rewrite",
    "Flut.C132_stable",
    "Flut.C132_plain",
    "Flut.C132_quotes_refuted",
    "Flut.C132_sign_refuted",
    "Flut.C132_value"
   ],
   "note": "Proved under the condition on keys and values, and for single values the condition is proved to be necessary too. Refuted without it: a value that was quoted because of = { } % ; or ' is written without quotes and is cut off when it is loaded again (C132_quotes_refuted, C132_sign_refuted)."
  },
  {
   "property": "C133",
   "status": "partial",
   "theorems": [
    "Flut.C133_near",
    "Flut.C133_start",
    "Flut.C133_end_partial",
    "Flut.C133_end_refuted",
    "Flut.C133_constant_refuted",
    "Flut.C133_large_refuted"
   ],
   "note": "The error bound and the exact start are proved; the exact end is proved on a grid and refuted in general. Refuted too: constant curves and large points. Points and parameter of one scalar type."
  },
  {
   "property": "C134",
   "status": "proved",
   "theorems": [
    "Flut.C134_content",
    "Flut.C134_erase_content",
    "Flut.C134_room",
    "Flut.C134_full",
    "Flut.C134_uses",
    "Flut.C134_set_new",
    "Flut.C134_set",
    "Flut.C134_merge",
    "Flut.C134_reserve",
    "Flut.C134_growth",
    "Flut.C134_erase",
    "Flut.C134_assign",
    "Flut.C134_lost_refuted",
    "Flut.C134_erase_refuted",
    "Flut.C134_assign_refuted"
   ],
   "note": "that a value once read stays accessed is refuted: C134_lost_refuted, C134_erase_refuted and C134_assign_refuted."
  },
  {
   "property": "C135",
   "status": "proved",
   "theorems": [
    "Flut.C135_assign",
    "Flut.C135_assign_ub",
    "Flut.C135_copied",
    "Flut.C135_move",
    "Flut.C135_merge",
    "Flut.C135_entry",
    "Flut.C135_entry_refuted",
    "Flut.C135_assign_refuted",
    "Flut.C135_wrong_refuted",
    "Flut.C135_merge_refuted"
   ],
   "note": "that the assignment always gives the contents of the child is refuted: C135_assign_refuted, C135_wrong_refuted, C135_merge_refuted and C135_entry_refuted."
  },
  {
   "property": "C136",
   "status": "proved",
   "theorems": [
    "Flut.C136_step",
    "Flut.C136_arrays",
    "Flut.C136_run",
    "Flut.C136_response",
    "Flut.C136_gain",
    "Flut.C136_gain_two",
    "Flut.C136_not_finite",
    "Flut.C136_not_a_number",
    "Flut.C136_negative",
    "Flut.C136_delay",
    "Flut.C136_forget_refuted",
    "Flut.C136_settle_refuted",
    "Flut.C136_linear_refuted",
    "Flut.C136_velocity"
   ],
   "note": "The coefficients are any numbers of the format; those that make_lowpass_butterworth_2nd_order computes with tan and sqrt of the C library are not modelled in floating-point arithmetic (C68 has them over the reals). C136_forget_refuted, C136_settle_refuted and C136_linear_refuted are proved negations."
  },
  {
   "property": "C137",
   "status": "partial",
   "theorems": [
    "Flut.C137_channels",
    "Flut.C137_means",
    "Flut.C137_symmetric",
    "Flut.C137_variance",
    "Flut.C137_not_finite",
    "Flut.C137_empty",
    "Flut.C137_error",
    "Flut.C137_constant_refuted",
    "Flut.C137_schwarz_refuted"
   ],
   "note": "C137_constant_refuted and C137_schwarz_refuted are proved negations: the variance of a constant channel need not be zero, and the inequality of Cauchy and Schwarz may fail. The error bounds, symmetry, signs and the spreading of NaN are proved."
  },
  {
   "property": "C138",
   "status": "partial",
   "theorems": [
    "Flut.C138_exact",
    "Flut.C138_error",
    "Flut.C138_refused",
    "Flut.C138_not_finite",
    "Flut.C138_negate",
    "Flut.C138_vertical_refuted",
    "Flut.C138_line_refuted",
    "Flut.C138_far_refuted"
   ],
   "note": "The form for two ranges; the form with a fixed step is modelled in exact arithmetic only (C66). C138_vertical_refuted, C138_line_refuted and C138_far_refuted are proved negations of what one would expect without rounding."
  },
  {
   "property": "C139",
   "status": "partial",
   "theorems": [
    "Flut.C139_values",
    "Flut.C139_own",
    "Flut.C139_borrowed",
    "Flut.C139_copy",
    "Flut.C139_copy_refuted",
    "Flut.C139_assign_refuted",
    "Flut.C139_reuse_refuted"
   ],
   "note": "C139_values: the pointers of the code and streams that are values with one keeper of the text give the same results for every program; C139_own, C139_borrowed and C139_copy are the first three sentences. The last sentence is false: a copy holds pointers into the string of the stream it was copied from. C139_copy_refuted, C139_assign_refuted (s = char_stream( string ) never leaves a stream that can be read) and C139_reuse_refuted prove it for every text and every program around it."
  },
  {
   "property": "C140",
   "status": "partial",
   "theorems": [
    "Flut.C140_references",
    "Flut.C140_stays",
    "Flut.C140_assign",
    "Flut.C140_assign_refuted"
   ],
   "note": "C140_references: for every program, the code reads what a dictionary with references by key reads, and is undefined exactly when that has lost the reference. C140_stays: a reference works until a key is erased or there are more keys than there was room for; C140_assign: map[ k ] = map[ j ] works if there are both keys, or room. The property without these conditions is false: C140_assign_refuted shows, for every policy of making room, maps of any size for which map[ new ] = map[ old ] is undefined (right side first)."
  },
  {
   "property": "C141",
   "status": "partial",
   "theorems": [
    "Flut.C141_references",
    "Flut.C141_stays",
    "Flut.C141_assign",
    "Flut.C141_add_channel_refuted",
    "Flut.C141_assign_refuted",
    "Flut.C141_own_frame_refuted",
    "Flut.C141_own_channel_refuted",
    "Flut.C141_table",
    "Flut.C141_table_refuted"
   ],
   "note": "Proved for storage and table within the stated limits. Refuted: after add_column of a table with room a reference outside the first row is valid but refers to another cell; sto[new] = sto[old] is undefined for two or more frames; add_frame(sto.data()) and add_channel(label, sto.data()) are undefined when there is data."
  },
  {
   "property": "C142",
   "status": "partial",
   "theorems": [
    "Flut.C142_results",
    "Flut.C142_ends",
    "Flut.C142_once",
    "Flut.C142_zero_refuted"
   ],
   "note": "Proved for functions that respect the equivalence of the map and do not catch what inner calls throw. Refuted for functions that do not: 1/x of 0.0 and then of -0.0. Unordered arguments (NaN) are outside what std::map allows."
  },
  {
   "property": "C143",
   "status": "partial",
   "theorems": [
    "Flut.C143_iterators",
    "Flut.C143_stays",
    "Flut.C143_full_refuted",
    "Flut.C143_loop_refuted"
   ],
   "note": "Reading is proved as stated. Refuted: comparing after pop_front has wrapped around (an iterator to the first element is not begin(), and a loop to end() does not stop); push_front on a full deque moves every iterator to the element before. The postfix ++ returns a dangling reference and is not modelled."
  },
  {
   "property": "C144",
   "status": "partial",
   "theorems": [
    "Flut.Fs.C144_relative",
    "Flut.Fs.C144_absolute",
    "Flut.Fs.C144_return",
    "Flut.Fs.C144_missing_refuted",
    "Flut.Fs.C144_overwrites_refuted",
    "Flut.Fs.C144_removed_refuted",
    "Flut.Fs.C144_backslash_refuted",
    "Flut.Fs.C144_documents",
    "Flut.Fs.C144_application_refuted",
    "Flut.Fs.C144_include_refuted"
   ],
   "note": "C144_relative and C144_absolute cover file_exists, folder_exists, load_string, save_prop, copy_file, mkdir and current_path; C144_return covers every sequence of calls in a proper file system. The other parts are refuted with witnesses. get_config_folder does not compile outside Windows."
  },
  {
   "property": "C145",
   "status": "proved",
   "theorems": [
    "Flut.Fs.C145_move",
    "Flut.Fs.C145_above_refuted"
   ],
   "note": "C145_move; the names of the folders must not end in a slash or backslash and hold no NUL. C145_above_refuted is the witness against names with two dots."
  },
  {
   "property": "C146",
   "status": "partial",
   "theorems": [
    "Flut.C146_code",
    "Flut.C146_spec",
    "Flut.C146_ends",
    "Flut.C146_order_refuted",
    "Flut.C146_ends_refuted",
    "Flut.C146_change_refuted"
   ],
   "note": "C146_code and C146_spec: the code does what the specification says, and all of it. C146_ends: termination. The other parts are refuted with witnesses (C146_order_refuted, C146_ends_refuted, C146_change_refuted). Iterators of a vector that was changed are taken to be invalid, as the standard says of the one past the end."
  },
  {
   "property": "C147",
   "status": "partial",
   "theorems": [
    "Flut.C147_first",
    "Flut.C147_early",
    "Flut.C147_any_order",
    "Flut.C147_no_sink",
    "Flut.C147_sink_refuted",
    "Flut.C147_critical_refuted",
    "Flut.C147_level_refuted",
    "Flut.C147_leak_refuted"
   ],
   "note": "C147_first, C147_early, C147_any_order and C147_no_sink are the positive parts. C147_sink_refuted, C147_critical_refuted, C147_level_refuted and C147_leak_refuted give the orders in which programs are undefined by the standard; a compiler may initialise the vector earlier than it has to."
  },
  {
   "property": "C148",
   "status": "proved",
   "theorems": [
    "Flut.C148_storage",
    "Flut.C148_same",
    "Flut.C148_keeps",
    "Flut.C148_unchanged",
    "Flut.C148_repeated_refuted",
    "Flut.C148_label_refuted",
    "Flut.C148_values_refuted",
    "Flut.C148_table",
    "Flut.C148_table_keeps",
    "Flut.C148_column_refuted"
   ],
   "note": "C148_storage and C148_table describe all histories; C148_keeps, C148_unchanged and C148_table_keeps say what a throwing call leaves; C148_same ties the calls to those of C36. That a failed call changes nothing is refuted for calls that make a channel (C148_repeated_refuted, C148_label_refuted, C148_values_refuted, C148_column_refuted). Exceptions from memory allocation are not modelled."
  },
  {
   "property": "C149",
   "status": "proved",
   "theorems": [
    "Flut.C149_refs",
    "Flut.C149_elsewhere",
    "Flut.C149_room",
    "Flut.C149_lost",
    "Flut.C149_reserve",
    "Flut.C149_push_refuted",
    "Flut.C149_index_refuted",
    "Flut.C149_set_refuted"
   ],
   "note": "C149_refs describes all programs; C149_elsewhere, C149_room, C149_reserve and C149_lost are what users rely on. That the references returned by push_back, operator[] and kept across set stay good is refuted (C149_push_refuted, C149_index_refuted, C149_set_refuted). Erase, insert, assignment of whole nodes and exceptions that are caught are not part of these programs; a node that is given to push_back by copy is."
  },
  {
   "property": "C150",
   "status": "proved",
   "theorems": [
    "Flut.C150_files",
    "Flut.C150_convert",
    "Flut.C150_load_file_refuted"
   ],
   "note": "C150_files and C150_convert. Which trees fit a format is as in C17, C78 and C29 (a single root element for XML, items before groups for ini). That load_file finds out the format is refuted for ini files and for upper case names (C150_load_file_refuted). Permissions are fixed and there are no other processes and no links."
  },
  {
   "property": "C151",
   "status": "partial",
   "theorems": [
    "Flut.C151_prop",
    "Flut.C151_prop_exactly",
    "Flut.C151_prop_overflow_refuted",
    "Flut.C151_prop_short",
    "Flut.C151_xml",
    "Flut.C151_xml_overflow_refuted",
    "Flut.C151_xml_short",
    "Flut.C151_save",
    "Flut.C151_destroy",
    "Flut.C151_enough"
   ],
   "note": "All but the last sentence is proved. The last sentence is refuted: whatever the limit d, the text a{a{... of 2d+1 characters overflows it (C151_prop_overflow_refuted), and so does an XML text of 3d+1 (C151_xml_overflow_refuted); no shorter text does. Calls of one function are counted, all other calls are taken to fit."
  },
  {
   "property": "C152",
   "status": "partial",
   "theorems": [
    "Flut.C152_between",
    "Flut.C152_at",
    "Flut.C152_last_refuted",
    "Flut.C152_undefined",
    "Flut.C152_poison_refuted",
    "Flut.C152_no_index_refuted",
    "Flut.C152_constant_refuted",
    "Flut.C152_channel_refuted"
   ],
   "note": "The first sentence is proved (C152_between, C152_at). The second sentence is refuted part by part: C152_last_refuted (all positions from the last frame on), C152_undefined (exactly which positions are undefined), C152_channel_refuted, C152_no_index_refuted, C152_poison_refuted, C152_constant_refuted."
  },
  {
   "property": "C153",
   "status": "partial",
   "theorems": [
    "Flut.C153_tree_keep",
    "Flut.C153_tree_overwrite",
    "Flut.C153_keep",
    "Flut.C153_overwrite",
    "Flut.C153_written",
    "Flut.C153_nested_refuted",
    "Flut.C153_duplicate_refuted"
   ],
   "note": "The first sentence is proved, for settings (C153_keep, C153_overwrite, C153_written) and for what is at any path of any trees (C153_tree_keep, C153_tree_overwrite); with overwriting, the trees must not have a key twice. The second sentence is refuted: merging does not go into groups, so the defaults of a group are lost as soon as the user sets one of its settings (C153_nested_refuted). The third is refuted for trees with a key twice (C153_duplicate_refuted)."
  },
  {
   "property": "C154",
   "status": "partial",
   "theorems": [
    "Flut.C154_axes",
    "Flut.C154_rotation",
    "Flut.C154_left_refuted",
    "Flut.C154_unchecked"
   ],
   "note": "The first sentence is proved (C154_axes, C154_rotation; rounded_frame meets their hypotheses). The second one is refuted: the assertion about the axes is commented out, and left-handed axes give a quaternion that does not have length one (C154_left_refuted), as do axes of other lengths (C154_unchecked)."
  },
  {
   "property": "C155",
   "status": "proved",
   "theorems": [
    "Flut.C155_axis_angle",
    "Flut.C155_euler"
   ],
   "note": "accurate_exists shows that there are libraries of the required accuracy."
  },
  {
   "property": "C156",
   "status": "partial",
   "theorems": [
    "Flut.C156_axis_angle_partial",
    "Flut.C156_again_partial",
    "Flut.C156_vector_partial",
    "Flut.C156_double_refuted",
    "Flut.C156_nan_refuted",
    "Flut.C156_small_refuted"
   ],
   "note": "Proved: the axis is within 11 / 2^24 (3 / 2^24 for double, not better: it is made as a vec3f), the angle, the threshold and the rotation vector (C156_axis_angle_partial, C156_vector_partial), and a quaternion made again is within the root of the precision if the axis is accepted (C156_again_partial). Refuted: for double the axis is refused, as it was rounded to float (C156_double_refuted); a real part above one gives an angle that is not a number for a quaternion accepted by is_normalized (C156_nan_refuted); a rotation by 1/4096 in float gives an angle of less than 1 / 2^20 (C156_small_refuted)."
  },
  {
   "property": "C157",
   "status": "partial",
   "theorems": [
    "Flut.C157_directions_partial",
    "Flut.C157_same",
    "Flut.C157_same_refuted",
    "Flut.C157_nan_refuted",
    "Flut.C157_opposite_refuted"
   ],
   "note": "Proved: if the square of the sine of the angle is at least 100 units of rounding, the result is within (3 k + 168) units divided by the sine of that rotation (C157_directions_partial); for a vector and itself the result is the identity exactly if the direction computed is accepted by is_normalized, and otherwise a half of a turn about the first axis (C157_same). Refuted: there is a double vector for which that half of a turn is returned (C157_same_refuted); (6, -8, 0) and (-18, 24, 0) give a quaternion that is not a number, if cos of not-a-number is not a number (C157_nan_refuted); (-2, 660, -11) and (6, -1980, 33) give a half of a turn about the second axis, which nearly leaves the vector as it is (C157_opposite_refuted). Missing: bounds for nearly equal directions."
  },
  {
   "property": "C158",
   "status": "partial",
   "theorems": [
    "Flut.C158_directions",
    "Flut.C158_angles",
    "Flut.C158_single_partial",
    "Flut.C158_beyond_refuted"
   ],
   "note": "Proved: the point at the angle read, as far out as the image of the axis, is within (9 w + 15 + k) units of rounding of that image, for every quaternion within w units of a unit quaternion, also at the poles (C158_directions); the angle is within pi / 2 times that, divided by the distance of the image from the remaining axis (C158_angles); a rotation about one axis by less than a right angle is read back (C158_single_partial). Refuted: of a rotation by two radians about the first axis a yaw of more than two radians is read (C158_beyond_refuted). That rotations about several axes are not read back is C77_refuted."
  },
  {
   "property": "C159",
   "status": "proved",
   "theorems": [
    "Flut.C159_polar",
    "Flut.C159_length"
   ],
   "note": "In degrees the bound grows with the angles, as the conversion is rounded."
  },
  {
   "property": "C160",
   "status": "partial",
   "theorems": [
    "Flut.C160_error",
    "Flut.C160_one",
    "Flut.C160_none",
    "Flut.C160_far_refuted",
    "Flut.C160_large_refuted",
    "Flut.C160_small_refuted"
   ],
   "note": "Proved: bounds for slope and intercept (C160_error); one value or none gives no line (C160_one, C160_none). Refuted without conditions on the step: positions that are lost when the step is added to a large number give a level line through rising values (C160_far_refuted); steps of 2 to the 50th in single precision overflow the closed formula and give a slope of zero (C160_large_refuted); steps of 2 to the -60th make it vanish and give an infinite slope (C160_small_refuted), where the general form finds the line exactly in both cases."
  },
  {
   "property": "C161",
   "status": "partial",
   "theorems": [
    "Flut.C161_last",
    "Flut.C161_name",
    "Flut.C161_register",
    "Flut.C161_distinct",
    "Flut.C161_namespaces_refuted",
    "Flut.C161_template_refuted",
    "Flut.C161_text"
   ],
   "note": "Proved: C161_last, C161_name, C161_register, C161_distinct; text that the compiler would not make is undefined behaviour, as a string is made of a null pointer (C161_text). Refuted: of two classes of the same name in different namespaces only the last can be made (C161_namespaces_refuted); the name of a class made from a template is cut in the middle of its arguments, so that std::vector of int is called just a closing bracket (C161_template_refuted)."
  },
  {
   "property": "C162",
   "status": "partial",
   "theorems": [
    "Flut.C162_backward",
    "Flut.C162_clock",
    "Flut.C162_constant",
    "Flut.C162_stuck_refuted"
   ],
   "note": "Proved for steps between a window and a 16776th of it, if nothing overflows: C162_backward, C162_clock, C162_constant. Refuted for shorter steps: they are lost, so that the clock stands still and the output stays what it was (C162_stuck_refuted)."
  },
  {
   "property": "C163",
   "status": "partial",
   "theorems": [
    "Flut.C163_alone",
    "Flut.C163_distinct",
    "Flut.C163_throws",
    "Flut.C163_copy_refuted",
    "Flut.C163_load_refuted"
   ],
   "note": "Proved: C163_alone (the programs are the functions of C50 to C52 when run alone), C163_distinct, C163_throws. Refuted: copy_file without overwriting can replace a copy that was made since it looked, and both calls return true (C163_copy_refuted); load_string can read an empty file while it is replaced, without an error (C163_load_refuted). Each system call is taken to happen at once."
  },
  {
   "property": "C164",
   "status": "partial",
   "theorems": [
    "Flut.C164_undisturbed",
    "Flut.C164_loaders",
    "Flut.C164_beginning",
    "Flut.C164_xml",
    "Flut.C164_prop",
    "Flut.C164_ini",
    "Flut.C164_saved",
    "Flut.C164_places",
    "Flut.C164_old_or_new_refuted",
    "Flut.C164_again_refuted",
    "Flut.C164_savers_refuted",
    "Flut.C164_holes_refuted"
   ],
   "note": "Proved: C164_undisturbed, C164_loaders, C164_beginning, C164_xml, C164_prop, C164_ini, C164_saved, and C164_places (for any texts, each character is at its place in one of them or has code 0). Refuted: a program that has begun to load a file before it is saved again can get a third tree without an error (C164_old_or_new_refuted) or throw although the same tree is saved again (C164_again_refuted); when two programs have saved different trees, the file can load as neither (C164_savers_refuted) and hold characters that nobody saved (C164_holes_refuted). Each system call is taken to happen at once, and only opening a file that does not exist fails."
  },
  {
   "property": "C165",
   "status": "partial",
   "theorems": [
    "Flut.Threads.C165_apart",
    "Flut.Threads.C165_reproducible",
    "Flut.Threads.C165_values",
    "Flut.Threads.C165_locked",
    "Flut.Threads.C165_shared_refuted"
   ],
   "note": "Proved: C165_apart, C165_reproducible, C165_values, C165_locked. Refuted: a call that is more than looking, such as drawing a number, registering a class or calling memoize with a new argument, together with any call of the same object by another thread is a data race in every schedule in which both threads finish (C165_shared_refuted); this holds in particular for rand_uni and rand_norm, which use one generator. Each object is one place in memory."
  },
  {
   "property": "C166",
   "status": "partial",
   "theorems": [
    "Flut.C166_filter",
    "Flut.C166_filter_float",
    "Flut.C166_filter_older",
    "Flut.C166_filter_older_refuted",
    "Flut.C166_push",
    "Flut.C166_turns",
    "Flut.C166_popped",
    "Flut.C166_popped_refuted",
    "Flut.C166_assign"
   ],
   "note": "Proved: C166_filter, C166_filter_float, C166_push, C166_turns, C166_assign. Refuted: an older input or output of a filter, such as its member y_[ 1 ], is shifted before it is remembered, so later outputs are wrong (C166_filter_older says exactly what is remembered; C166_filter_older_refuted). A reference to a popped element shows another one after a push_back if the deque was full (C166_popped, C166_popped_refuted). push_back( d[ i ] ) is undefined where push_back is for any value (C33_undefined_exactly)."
  },
  {
   "property": "C167",
   "status": "partial",
   "theorems": [
    "Flut.C167_order",
    "Flut.C167_float",
    "Flut.C167_nan_first_refuted",
    "Flut.C167_empty",
    "Flut.C167_find_if",
    "Flut.C167_find_float",
    "Flut.C167_find_nan_refuted"
   ],
   "note": "Proved: C167_order, C167_float, C167_empty, C167_find_if, C167_find_float. Refuted: if the first element is not a number, min_element and max_element return it whatever follows (C167_nan_first_refuted); an element that is not a number is not found, although it is in the container (C167_find_nan_refuted). find for a const container cannot be called, as one of its template parameters cannot be deduced. The loops of the standard library are modelled."
  },
  {
   "property": "C168",
   "status": "partial",
   "theorems": [
    "Flut.C168_deque",
    "Flut.C168_pop_refuted",
    "Flut.C168_header",
    "Flut.C168_header_refuted",
    "Flut.C168_access",
    "Flut.C168_index",
    "Flut.C168_access_refuted"
   ],
   "note": "Proved: C168_deque, C168_header, C168_access, C168_index. The last sentence is refuted: pop_back on an empty deque leaves a deque of size 2^64 - 1, and the next element that is added is lost without an error (C168_pop_refuted); a label can be added twice, and is found outside of the labels after shrinking them (C168_header_refuted); at of a storage for a channel that is not there reads the next frame, and a child by an index that is not there is undefined (C168_access_refuted). Assertions of quat_from_axis_angle, linear_regression, interpolated_value, median and char_stream are not part of this."
  },
  {
   "property": "C169",
   "status": "partial",
   "theorems": [
    "Flut.Macro.C169_with_exceptions",
    "Flut.Macro.C169_fails",
    "Flut.Macro.C169_exits_refuted",
    "Flut.Macro.C169_refuted",
    "Flut.Macro.C169_bounds_refuted",
    "Flut.Macro.C169_partial"
   ],
   "note": "Proved: with exceptions the calls are those of the other models (C169_with_exceptions); without, errors are shown and end the program (C169_fails); lookup and load_string have the whole property (C169_partial). Refuted for the others: the macro has no braces, so the exit behind the message is not under the condition, and every call that would have returned ends the program without a word (C169_refuted, C169_exits_refuted, C169_bounds_refuted). Not modelled: whether all of flut compiles in that configuration (assert.hpp does not include iostream), the evaluation of get_child's access() and of from_str in that build, and errors of the standard library."
  },
  {
   "property": "C170",
   "status": "partial",
   "theorems": [
    "Flut.FloatMath.C170_equal",
    "Flut.FloatMath.C170_equivalence",
    "Flut.FloatMath.C170_length",
    "Flut.FloatMath.C170_distance",
    "Flut.FloatMath.C170_distance_refuted",
    "Flut.FloatMath.C170_angles"
   ],
   "note": "Proved: C170_equal, C170_equivalence, C170_length, C170_distance, C170_angles. One direction of the last sentence is refuted: different vectors can have distance 0, because the squares of small numbers are rounded to 0 (C170_distance_refuted)."
  },
  {
   "property": "C171",
   "status": "partial",
   "theorems": [
    "Flut.Lend.C171_pointer",
    "Flut.Lend.C171_round_trip",
    "Flut.Lend.C171_temporary_refuted",
    "Flut.Lend.C171_dictionary",
    "Flut.Lend.C171_follows",
    "Flut.Lend.C171_dictionary_refuted"
   ],
   "note": "Proved for strings and defaults that are objects of the program and are not changed: C171_pointer, C171_round_trip, C171_dictionary, C171_follows. Refuted for strings that the expression makes: the pointer can never be used (C171_temporary_refuted), and the reference of a dictionary can be used only if the name is there (C171_dictionary_refuted). Dictionaries are those with string elements; the elements of the dictionary are taken to stay where they are."
  },
  {
   "property": "C172",
   "status": "partial",
   "theorems": [
    "Flut.IntAngle.C172_to_real",
    "Flut.IntAngle.C172_sum",
    "Flut.IntAngle.C172_refuted",
    "Flut.IntAngle.C172_degrees_refuted",
    "Flut.IntAngle.C172_sin_refuted",
    "Flut.IntAngle.C172_same_unit",
    "Flut.IntAngle.C172_part",
    "Flut.IntAngle.C172_multiple",
    "Flut.IntAngle.C172_scale_refuted",
    "Flut.IntAngle.C172_of_real_refuted",
    "Flut.IntAngle.C172_less_refuted"
   ],
   "note": "Proved in exact arithmetic: converting to an angle of a real type (C172_to_real), comparing angles of the same unit (C172_same_unit), sums (C172_sum), whole multiples (C172_multiple) and parts (C172_part) in the range of int. Refuted: in radians every whole number of degrees is 0 (C172_refuted), so that its sine is 0 and its cosine 1 (C172_sin_refuted); a radian is 60 degrees (C172_degrees_refuted); an angle times a fraction is 0, and dividing by one is undefined (C172_scale_refuted); an angle of type int made from a real one with the other unit is cut off first, so that 1.9 radians give 60 degrees (C172_of_real_refuted); deg( 90 ) < rad( 1.9 ) is false (C172_less_refuted)."
  },
  {
   "property": "C173",
   "status": "partial",
   "theorems": [
    "Flut.IntStat.C173_average",
    "Flut.IntStat.C173_median",
    "Flut.IntStat.C173_means_partial",
    "Flut.IntStat.C173_means_power",
    "Flut.IntStat.C173_covariance_partial",
    "Flut.IntStat.C173_covariance_refuted",
    "Flut.IntStat.C173_means_refuted",
    "Flut.IntStat.C173_overflow_refuted"
   ],
   "note": "Proved: C173_average and C173_median as long as the sums on the way are in the range of int, and C173_means_partial and C173_covariance_partial for channels and covariances whose sums are moreover not negative; with 1, 2, 4, 8 and so on frames the means are rounded down whatever the signs (C173_means_power). Refuted: with negative sums the division by the number of frames is one without sign, and three frames with -1 have the mean 1431655764 (C173_means_refuted), and likewise negative covariances are wrong (C173_covariance_refuted); sums out of range are undefined (C173_overflow_refuted)."
  },
  {
   "property": "C174",
   "status": "partial",
   "theorems": [
    "Flut.IntWrap.C174_int",
    "Flut.IntWrap.C174_int_refuted",
    "Flut.IntWrap.C174_unsigned_partial",
    "Flut.IntWrap.C174_unsigned_refuted"
   ],
   "note": "Proved: for int, up to upper being given instead of lower for numbers that are a whole number of widths below lower, and only for these (C174_int, C174_int_refuted); for unsigned int, for numbers that are not below lower (C174_unsigned_partial), and below it wrong numbers are given (C174_unsigned_refuted). Differences of int that overflow are undefined."
  },
  {
   "property": "C175",
   "status": "partial",
   "theorems": [
    "Flut.IntVec.C175_sum",
    "Flut.IntVec.C175_length",
    "Flut.IntVec.C175_divide_refuted",
    "Flut.IntVec.C175_divide_one",
    "Flut.IntVec.C175_normalize_refuted",
    "Flut.IntVec.C175_normalize_short"
   ],
   "note": "Proved: C175_sum, C175_length, C175_divide_one, C175_normalize_short. Refuted: the inverse of a number is cut off before the components are multiplied, so that every vector divided by a number other than 1 and -1 (C175_divide_refuted) and every normalized vector of length 2 or more (C175_normalize_refuted) is the null vector."
  },
  {
   "property": "C176",
   "status": "partial",
   "theorems": [
    "Flut.IntPoly.C176_polynomial_partial",
    "Flut.IntPoly.C176_polynomial_refuted",
    "Flut.IntPoly.C176_unsigned",
    "Flut.IntPoly.C176_delta",
    "Flut.IntPoly.C176_delta_unsigned",
    "Flut.IntPoly.C176_delta_refuted",
    "Flut.IntPoly.C176_soft_clamp_partial",
    "Flut.IntPoly.C176_soft_clamp_refuted"
   ],
   "note": "Proved: C176_unsigned for polynomials of numbers without sign, C176_polynomial_partial for int if moreover the power of the argument one above the degree is in range, C176_delta and C176_delta_unsigned, and C176_soft_clamp_partial for the boundary 0. Refuted: one power too many is computed, so that a linear_function< int > is undefined from 46341 on (C176_polynomial_refuted); differences of numbers without sign that get smaller are near 2^32 (C176_delta_refuted); soft_clamp with a boundary of 1 does not keep the order, and is undefined for ranges wider than 46340 (C176_soft_clamp_refuted)."
  }
 ]
}