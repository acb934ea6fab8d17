{
 "claims": [
  {
   "property": "C01",
   "status": "proved",
   "theorems": [
    "Dyna.c01_index_for_id_exact",
    "Dyna.c01_empty_is_ub"
   ],
   "note": "Empty id list is undefined behaviour (c01_empty_is_ub); the property excludes it."
  },
  {
   "property": "C02",
   "status": "proved",
   "theorems": [
    "Dyna.c02_directory_insert_point",
    "Dyna.c02_keyword_insert_point"
   ],
   "note": ""
  },
  {
   "property": "C03",
   "status": "proved",
   "theorems": [
    "Dyna.c03_path_components",
    "Dyna.c03_components_of_pieces"
   ],
   "note": ""
  },
  {
   "property": "C04",
   "status": "partial",
   "theorems": [
    "Dyna.c04_order_disagrees_non_ascii",
    "Dyna.c04_comparison_partial"
   ],
   "note": "False for bytes >= 0x80 (witness theorem); proved for 7-bit names; equality exact for all bytes."
  },
  {
   "property": "C05",
   "status": "proved",
   "theorems": [
    "Dyna.c05_path_join",
    "Dyna.c05_path_join_text",
    "Dyna.c05_empty_lhs_is_ub"
   ],
   "note": ""
  },
  {
   "property": "C06",
   "status": "partial",
   "theorems": [
    "Dyna.c06_relative_wrong",
    "Dyna.c06_relative_wrong'",
    "Dyna.c06_path_move_up_partial",
    "Dyna.c06_relative"
   ],
   "note": "False for relative paths (witnesses); proved for absolute paths, the only ones binout uses."
  },
  {
   "property": "C07",
   "status": "proved",
   "theorems": [
    "Dyna.c07_children_sorted"
   ],
   "note": ""
  },
  {
   "property": "C08",
   "status": "proved",
   "theorems": [
    "Dyna.c08_last_writer_wins",
    "Dyna.c08_non_ascii_not_found"
   ],
   "note": "Histories quantify over all op lists; c08_non_ascii_not_found shows why the 7-bit restriction in the property is needed."
  },
  {
   "property": "C09",
   "status": "proved",
   "theorems": [
    "Dyna.c09_children_complete"
   ],
   "note": ""
  },
  {
   "property": "C10",
   "status": "proved",
   "theorems": [
    "Dyna.c10_only_components_matter"
   ],
   "note": ""
  },
  {
   "property": "C11",
   "status": "partial",
   "theorems": [
    "Dyna.c11_file_over_folder_is_ub",
    "Dyna.c11_clash_partial"
   ],
   "note": "False when a file is written over a folder (use after free witness); proved for all other histories."
  },
  {
   "property": "C12",
   "status": "proved",
   "theorems": [
    "Dyna.c12_round_trip"
   ],
   "note": ""
  },
  {
   "property": "C13",
   "status": "partial",
   "theorems": [
    "Dyna.c13_seek",
    "Dyna.c13_terminates_inside_partial",
    "Dyna.c13_zero_length_loops",
    "Dyna.c13_huge_variable"
   ],
   "note": "False for record lengths shorter than the record's own fields: infinite loop and 2^64-2 byte variable (witness theorems); proved for all byte sequences whose lengths cover their fixed parts."
  },
  {
   "property": "C14",
   "status": "proved",
   "theorems": [
    "Dyna.c14_unknown_records_ignored",
    "Dyna.c14_skip"
   ],
   "note": ""
  },
  {
   "property": "C15",
   "status": "partial",
   "theorems": [
    "Dyna.c15_cd_resolution_partial",
    "Dyna.c15_path_limit",
    "Dyna.c15_cd_root_ignored",
    "Dyna.c15_root_witnesses"
   ],
   "note": "Deviates for CD to root, above root, '//'(witness theorems); proved for all other sequences."
  },
  {
   "property": "C16",
   "status": "proved",
   "theorems": [
    "Dyna.c16_truncated",
    "Dyna.c16_header_damage",
    "Dyna.c16_cut_is_reported",
    "Dyna.c16_data_before_cd_aborts"
   ],
   "note": ""
  },
  {
   "property": "C17",
   "status": "partial",
   "theorems": [
    "Dyna.c17_file_association_partial",
    "Dyna.c17_failed_file_breaks_others"
   ],
   "note": "False if a file of the set fails to parse (witness theorem); proved for sets of well formed files."
  },
  {
   "property": "C18",
   "status": "proved",
   "theorems": [
    "Dyna.c18_read"
   ],
   "note": ""
  },
  {
   "property": "C19",
   "status": "partial",
   "theorems": [
    "Dyna.c19_read_timed_partial",
    "Dyna.c19_name_order_is_time_order",
    "Dyna.c19_varying_size_overflows",
    "Dyna.c19_wrong_variable",
    "Dyna.c19_missing_component_skipped"
   ],
   "note": "False for varying sizes (buffer overflow), index mismatch in sub folders and missing components (witness theorems); proved for uniform time steps."
  },
  {
   "property": "C20",
   "status": "partial",
   "theorems": [
    "Dyna.c20_num_timesteps_partial",
    "Dyna.c20_unknown",
    "Dyna.c20_exact",
    "Dyna.c20_span",
    "Dyna.c20_witnesses"
   ],
   "note": "Exact for every folder (c20_exact): the number of names from the first to the last time step, or ~0 if the first name is a variable. Violated if other names lie between them or variables before them (c20_witnesses); c20_unknown covers unknown paths."
  },
  {
   "property": "C21",
   "status": "proved",
   "theorems": [
    "Dyna.c21_error_string",
    "Dyna.c21_no_files"
   ],
   "note": ""
  },
  {
   "property": "C22",
   "status": "proved",
   "theorems": [
    "Dyna.MF.c22_exclusive"
   ],
   "note": ""
  },
  {
   "property": "C23",
   "status": "proved",
   "theorems": [
    "Dyna.MF.c23_reads"
   ],
   "note": ""
  },
  {
   "property": "C24",
   "status": "proved",
   "theorems": [
    "Dyna.MF.c24_handles_are_reused",
    "Dyna.MF.c24_failing_open_grows"
   ],
   "note": ""
  },
  {
   "property": "C25",
   "status": "proved",
   "theorems": [
    "Dyna.MF.c25_held_file_is_open",
    "Dyna.MF.c25_no_undefined_behaviour",
    "Dyna.MF.c25_idle_files_are_closed"
   ],
   "note": ""
  },
  {
   "property": "C26",
   "status": "proved",
   "theorems": [
    "Dyna.D3.c26_read_is_slice"
   ],
   "note": ""
  },
  {
   "property": "C27",
   "status": "partial",
   "theorems": [
    "Dyna.D3.c27_errors_partial",
    "Dyna.D3.c27_read_from_pointer",
    "Dyna.D3.c27_huge_position_accepted",
    "Dyna.D3.c27_closed_pointer"
   ],
   "note": "False for positions whose byte offset does not fit into 64 bits (witness theorem); proved for all others."
  },
  {
   "property": "C28",
   "status": "proved",
   "theorems": [
    "Dyna.D3.c28_read_read",
    "Dyna.D3.c28_skip_read",
    "Dyna.D3.c28_skip_to_end_is_error"
   ],
   "note": ""
  },
  {
   "property": "C29",
   "status": "partial",
   "theorems": [
    "Dyna.D3.c29_word_size_partial",
    "Dyna.D3.c29_short_family_is_ub"
   ],
   "note": "Families shorter than 184 bytes are undefined behaviour (witness theorem); proved for all longer ones."
  },
  {
   "property": "C30",
   "status": "proved",
   "theorems": [
    "Dyna.D3.c30_family",
    "Dyna.D3.c30_open",
    "Dyna.D3.c30_no_root"
   ],
   "note": ""
  },
  {
   "property": "C31",
   "status": "partial",
   "theorems": [
    "Dyna.D3.c31_geometry_partial",
    "Dyna.D3.c31_overflow_accepted",
    "Dyna.D3.c31_ten_node_solids_gap"
   ],
   "note": "Proved for control words below 2^32; files with larger words overflow (witness theorem), and a gap of 2*|NEL8| words for ten node solids is not described by the pointers (witness theorem)."
  },
  {
   "property": "C32",
   "status": "proved",
   "theorems": [
    "Dyna.D3.c32_states",
    "Dyna.D3.c32_displacements_rejected"
   ],
   "note": ""
  },
  {
   "property": "C33",
   "status": "partial",
   "theorems": [
    "Dyna.D3.c33_out_of_range_partial",
    "Dyna.D3.c33_no_elements_no_error"
   ],
   "note": "False for element kinds of which the file has none (witness theorem); proved for all other calls."
  },
  {
   "property": "C34",
   "status": "partial",
   "theorems": [
    "Dyna.D3.c34_all_time",
    "Dyna.D3.c34_all_node_data_partial",
    "Dyna.D3.c34_absent_data"
   ],
   "note": "False for node data that is not in the file (witness theorem); proved otherwise."
  },
  {
   "property": "C35",
   "status": "proved",
   "theorems": [
    "Dyna.D3.c35_connectivity"
   ],
   "note": ""
  },
  {
   "property": "C36",
   "status": "proved",
   "theorems": [
    "Dyna.D3.c36_part",
    "Dyna.D3.c36_part_by_id",
    "Dyna.D3.c36_unsorted_part_not_found",
    "Dyna.D3.c36_missing_ids"
   ],
   "note": "By index for all files; by id for ascending ids; unsorted ids are not found and missing ids (NARBS = 0) return header words (witness theorems)."
  },
  {
   "property": "C37",
   "status": "partial",
   "theorems": [
    "Dyna.D3.c37_exact",
    "Dyna.D3.c37_insert_partial",
    "Dyna.D3.c37_touching",
    "Dyna.D3.c37_nothing_lost",
    "Dyna.D3.c37_interleaved_not_sorted",
    "Dyna.D3.c37_overlapping_copy"
   ],
   "note": "False for interleaving lists and undefined for others (witness theorems); proved for lists that fit in one place; multiset preservation for all."
  },
  {
   "property": "C38",
   "status": "partial",
   "theorems": [
    "Dyna.D3.c38_shells_exact",
    "Dyna.D3.c38_thick_exact",
    "Dyna.D3.c38_thick_overflow",
    "Dyna.D3.c38_beams",
    "Dyna.D3.c38_beam_memory",
    "Dyna.D3.c38_solids",
    "Dyna.D3.c38_solids_exact",
    "Dyna.D3.c38_memory_safe_partial",
    "Dyna.D3.c38_solid_too_short",
    "Dyna.D3.c38_solids_exact_example",
    "Dyna.D3.c38_strain_flag_unset",
    "Dyna.D3.c38_thick_heap_overflow",
    "Dyna.D3.c38_shell_strain_guess"
   ],
   "note": "False in four ways for accepted control data (witness theorems); exact characterisation of the undefined behaviour for solids, thick shells, shells and beams."
  },
  {
   "property": "C39",
   "status": "proved",
   "theorems": [
    "Dyna.D3.c39_shell_points",
    "Dyna.D3.c39_thick_points",
    "Dyna.D3.c39_mean_points",
    "Dyna.D3.c39_mean_of_two_points"
   ],
   "note": "Shells and thick shells; the mean with less than three points is undefined (witness theorem)."
  },
  {
   "property": "C40",
   "status": "proved",
   "theorems": [
    "Dyna.D3.c40_deletion_round_trip",
    "Dyna.D3.c40_digits",
    "Dyna.D3.c40_derived",
    "Dyna.D3.c40_strain_flag",
    "Dyna.D3.c40_output_flags",
    "Dyna.D3.c40_strain_flag_thick",
    "Dyna.D3.c40_strain_flag_unset"
   ],
   "note": ""
  },
  {
   "property": "C41",
   "status": "partial",
   "theorems": [
    "Dyna.Key.c41_lines_partial",
    "Dyna.Key.c41_lines_multiple",
    "Dyna.Key.c41_chunks",
    "Dyna.Key.c41_small",
    "Dyna.Key.c41_safe",
    "Dyna.Key.c41_extra_line",
    "Dyna.Key.c41_stale_newline"
   ],
   "note": "Proved for every chunk size that does not divide the file size, if the uninitialised line memory has no newline or the file fits into one chunk (every non-empty file < 1 MiB). Otherwise the code is wrong: c41_extra_line, c41_stale_newline. Termination and memory safety hold for all inputs (c41_safe)."
  },
  {
   "property": "C42",
   "status": "proved",
   "theorems": [
    "Dyna.Key.c42_comment"
   ],
   "note": ""
  },
  {
   "property": "C43",
   "status": "partial",
   "theorems": [
    "Dyna.Key.c43_callbacks_partial",
    "Dyna.Key.c43_empty_file",
    "Dyna.Key.c43_long_header_ub",
    "Dyna.Key.c43_calls_well_formed"
   ],
   "note": "Exact callback sequence proved for every file without *INCLUDE lines (c43_callbacks_partial); for files with includes c43_calls_well_formed and C53. Empty files report an empty keyword (c43_empty_file), very long header lines are undefined behaviour (c43_long_header_ub)."
  },
  {
   "property": "C44",
   "status": "partial",
   "theorems": [
    "Dyna.c44_keyword_list_partial",
    "Dyna.c44_overrun_ub",
    "Dyna.c44_keyword_list_at_most_twice",
    "Dyna.c44_keyword_list_perm",
    "Dyna.Key.c44_key_file_parse",
    "Dyna.Key.c44_text_to_list_partial"
   ],
   "note": "c44_key_file_parse holds for all files; the keyword list theorem is partial because a third block of the last sorted name overruns the list (c44_overrun_ub, exact condition)."
  },
  {
   "property": "C45",
   "status": "partial",
   "theorems": [
    "Dyna.c45_key_file_get_partial",
    "Dyna.c45_key_file_get_existing",
    "Dyna.c45_get_ub"
   ],
   "note": "Proved for all indices but the ones of c45_get_ub, for which the code reads outside the list (exact condition)."
  },
  {
   "property": "C46",
   "status": "partial",
   "theorems": [
    "Dyna.c46_slice_misses_first",
    "Dyna.c46_key_file_get_slice_partial",
    "Dyna.c46_slice_first_name"
   ],
   "note": "Proved but for the first sorted name occurring more than once, where the slice misses the first block (c46_slice_misses_first)."
  },
  {
   "property": "C47",
   "status": "partial",
   "theorems": [
    "Dyna.Card.c47_cursor_partial",
    "Dyna.Card.c47_next_width",
    "Dyna.Card.c47_short",
    "Dyna.Card.c47_short_all",
    "Dyna.Card.c47_long"
   ],
   "note": "Proved for cards of at most 255 characters whose length is a multiple of the width. Otherwise the code reads behind the terminator (c47_short, c47_short_all) or does not end (c47_long)."
  },
  {
   "property": "C48",
   "status": "partial",
   "theorems": [
    "Dyna.Card.c48_int",
    "Dyna.Card.c48_field_partial",
    "Dyna.Card.c48_exact",
    "Dyna.Card.c48_lenient",
    "Dyna.Card.c48_overflow"
   ],
   "note": "The round trip (c48_int) is complete for |v| <= 2^63-1, and c48_exact says exactly what is done with every field of any width that ends before character 256. Violated: the code is more lenient than the property (c48_lenient) and overflows (c48_overflow)."
  },
  {
   "property": "C49",
   "status": "proved",
   "theorems": [
    "Dyna.Card.c49_string",
    "Dyna.Card.c49_round_trip",
    "Dyna.Card.c49_whole",
    "Dyna.Card.c49_no_trim",
    "Dyna.Card.c49_no_trim_short"
   ],
   "note": ""
  },
  {
   "property": "C50",
   "status": "partial",
   "theorems": [
    "Dyna.Card.c50_exact_int",
    "Dyna.Card.c50_exact_float",
    "Dyna.Card.c50_safe",
    "Dyna.Card.c50_float",
    "Dyna.Card.c50_float_no_error",
    "Dyna.Card.c50_int_partial",
    "Dyna.Card.c50_plus",
    "Dyna.Card.c50_wide"
   ],
   "note": "Complete for floats in fields of up to 11 characters (never an error in any width); for integers the code violates the property for a plus sign (c50_plus)."
  },
  {
   "property": "C51",
   "status": "partial",
   "theorems": [
    "Dyna.Card.c51_empty_partial",
    "Dyna.Card.c51_wrap",
    "Dyna.Card.c51_endless"
   ],
   "note": "Exact for fields that end before character 256; behind that the 8 bit counter wraps (c51_wrap, c51_endless)."
  },
  {
   "property": "C52",
   "status": "proved",
   "theorems": [
    "Dyna.c52_string_builder"
   ],
   "note": ""
  },
  {
   "property": "C53",
   "status": "partial",
   "theorems": [
    "Dyna.Key.c53_search",
    "Dyna.Key.c53_include_partial",
    "Dyna.Key.c53_include_path",
    "Dyna.Key.c53_include_path_relative",
    "Dyna.Key.c53_search_list",
    "Dyna.Key.c53_included_like_main",
    "Dyna.Key.c53_absolute_inside",
    "Dyna.Key.c53_absolute_not_found",
    "Dyna.Key.c53_short_name_ub",
    "Dyna.Key.c53_comment_keeps_blank",
    "Dyna.Key.c53_self_include",
    "Dyna.Key.c53_name_memory",
    "Dyna.Key.c53_name_cards",
    "Dyna.Key.c53_name_exact"
   ],
   "note": "c53_include_partial: one include line of at least two characters and not absolute; absolute and one character names fail (witness theorems), self inclusion never ends (c53_self_include)."
  },
  {
   "property": "C54",
   "status": "partial",
   "theorems": [
    "Dyna.Cpp.c54_array_at",
    "Dyna.Cpp.c54_array_set",
    "Dyna.Cpp.c54_array_iter",
    "Dyna.Cpp.c54_array_eq",
    "Dyna.Cpp.c54_string_text",
    "Dyna.Cpp.c54_string_at",
    "Dyna.Cpp.c54_string_eq",
    "Dyna.Cpp.c54_string_eq_std",
    "Dyna.Cpp.c54_std_cut",
    "Dyna.Cpp.c54_sized_eq",
    "Dyna.Cpp.c54_sized_eq_std",
    "Dyna.Cpp.c54_sized_str",
    "Dyna.Cpp.c54_mixed_eq_exact",
    "Dyna.Cpp.c54_mixed_eq_partial",
    "Dyna.Cpp.c54_mixed_eq_wrong"
   ],
   "note": "Exact for arrays, strings and sized strings against texts. String against SizedString is false for long texts (c54_mixed_eq_exact gives the exact condition)."
  },
  {
   "property": "C55",
   "status": "partial",
   "theorems": [
    "Dyna.D3.c55_history_partial",
    "Dyna.D3.c55_failed_access_is_undefined"
   ],
   "note": "A failed file access is undefined behaviour (witness theorem); proved for all histories without it."
  },
  {
   "property": "C56",
   "status": "proved",
   "theorems": [
    "Dyna.MF.c56_no_deadlock",
    "Dyna.MF.c56_section_terminates"
   ],
   "note": ""
  },
  {
   "property": "C57",
   "status": "proved",
   "theorems": [
    "Dyna.Card.c57_reject",
    "Dyna.Card.c57_error_iff",
    "Dyna.Card.c57_value",
    "Dyna.Card.c57_position",
    "Dyna.Card.c57_int",
    "Dyna.Card.c57_dot_exponent"
   ],
   "note": "Value with exact arithmetic; rounding of float/double is not modelled."
  },
  {
   "property": "C58",
   "status": "partial",
   "theorems": [
    "Dyna.Cpp.c58_arrays_are_values",
    "Dyna.Cpp.c58_no_leak_partial",
    "Dyna.Cpp.c58_assign_leaks",
    "Dyna.Cpp.c58_self_assign"
   ],
   "note": "Value semantics for all histories; memory is given back unless an array is assigned to, in which case it is lost (c58_assign_leaks). malloc is assumed to succeed."
  },
  {
   "property": "C59",
   "status": "proved",
   "theorems": [
    "Dyna.D3.c59_part_node_ids",
    "Dyna.D3.c59_part_node_indices",
    "Dyna.D3.c59_missing_id_ub"
   ],
   "note": "Proved for plots whose element ids are ascending per kind (which the index search needs). An id of the part that the plot does not have makes the code index out of bounds: c59_missing_id_ub."
  },
  {
   "property": "C60",
   "status": "partial",
   "theorems": [
    "Dyna.D3.c60_one_kind_partial",
    "Dyna.D3.c60_nothing_lost",
    "Dyna.D3.c60_moved_is_undefined",
    "Dyna.D3.c60_not_sorted"
   ],
   "note": "Proved for parts with elements of one kind only. With several kinds the code ignores the result of realloc (undefined if the block moves, c60_moved_is_undefined) and leaves the list unsorted otherwise (c60_not_sorted); c60_nothing_lost shows that no id is lost when the block stays."
  },
  {
   "property": "C61",
   "status": "proved",
   "theorems": [
    "Dyna.c61_simple_path",
    "Dyna.c61_existing_path",
    "Dyna.c61_real_path_is_variable",
    "Dyna.c61_timed_variable",
    "Dyna.c61_variable_named_metadata",
    "Dyna.c61_timed_flag_without_result"
   ],
   "note": "Proved. A variable called metadata makes the code follow an unset pointer (c61_variable_named_metadata); after a failed search the timed flag may be set (c61_timed_flag_without_result)."
  },
  {
   "property": "C62",
   "status": "proved",
   "theorems": [
    "Dyna.ExtraString.c62_compare",
    "Dyna.ExtraString.c62_compare_long",
    "Dyna.ExtraString.c62_compare_very_long",
    "Dyna.ExtraString.c62_compare_164",
    "Dyna.ExtraString.c62_starts_with",
    "Dyna.ExtraString.c62_starts_with_short",
    "Dyna.ExtraString.c62_get",
    "Dyna.ExtraString.c62_cut",
    "Dyna.ExtraString.c62_copy",
    "Dyna.ExtraString.c62_copy_wraps",
    "Dyna.ExtraString.c62_copy_to_string",
    "Dyna.ExtraString.c62_take_name",
    "Dyna.ExtraString.c62_take_name_ub",
    "Dyna.ExtraString.c62_card_text",
    "Dyna.ExtraString.c62_callback_name",
    "Dyna.ExtraString.c62_reader",
    "Dyna.ExtraString.c62_compare_long_witness",
    "Dyna.ExtraString.c62_starts_with_wrong"
   ],
   "note": "Exact results of the six functions for all texts, their use by the parser for keyword names and cards (c62_take_name, c62_card_text refine the text level parser model of C43), and the exact conditions of undefined behaviour. Allocation failures are not modelled."
  },
  {
   "property": "C63",
   "status": "proved",
   "theorems": [
    "Dyna.Transform.c63_include_transform",
    "Dyna.Transform.c63_no_cards",
    "Dyna.Transform.c63_ignored",
    "Dyna.Transform.c63_short"
   ],
   "note": "Column contents that the code reads otherwise are shown: '+5' in an integer column is 0, '1.' and '.5' are ignored (c63_ignored), an incomplete last column reads behind the text (c63_short)."
  },
  {
   "property": "C64",
   "status": "proved",
   "theorems": [
    "Dyna.Transform.c64_define_transformation",
    "Dyna.Transform.c64_define_transformation_title",
    "Dyna.Transform.c64_no_cards"
   ],
   "note": "A card without columns gives an option named NULL; an incomplete last column reads behind the text (c63_short)."
  },
  {
   "property": "C65",
   "status": "proved",
   "theorems": [
    "Dyna.c65_no_such_variable",
    "Dyna.c65_all_or_error",
    "Dyna.c65_shrunk",
    "Dyna.c65_missing_bytes"
   ],
   "note": "c65_all_or_error covers variables directly in the time steps (not in a sub folder of them) with one size; the failures for different sizes and sub folders are the witnesses c19_*."
  },
  {
   "property": "C66",
   "status": "proved",
   "theorems": [
    "Dyna.D3.c66_accepted",
    "Dyna.D3.c66_rejected",
    "Dyna.D3.c66_file_type",
    "Dyna.D3.c66_supported",
    "Dyna.D3.c66_end_marker",
    "Dyna.D3.c66_marker"
   ],
   "note": "Acceptance and rejection in both directions for complete single and double precision files. A database with NEIPB = 2^64-5 makes the C code divide by zero; this case is excluded and reported in DESIGN.md."
  },
  {
   "property": "C67",
   "status": "proved",
   "theorems": [
    "Dyna.D3.c67_title",
    "Dyna.D3.c67_ids",
    "Dyna.D3.c67_part_count"
   ],
   "note": "Part ids are right if NMMAT of the control data is not larger than the number of materials in the ids section; otherwise other words are returned as ids (c67_part_count). Without a section with ids (NARBS = 0) header words are returned (c36 witness)."
  },
  {
   "property": "C68",
   "status": "proved",
   "theorems": [
    "Dyna.Key.c68_root",
    "Dyna.Key.c68_meaning",
    "Dyna.Key.c68_unique",
    "Dyna.Key.c68_complete",
    "Dyna.Key.c68_exact",
    "Dyna.Key.c68_good_world"
   ],
   "note": "c68_exact: for all file systems whose files meet the syntactic condition GoodWorld (names of files written as specified), the call returns o if and only if o is the meaning of the file."
  },
  {
   "property": "C69",
   "status": "proved",
   "theorems": [
    "Dyna.c69_sessions",
    "Dyna.c69_long_path_overruns",
    "Dyna.c69_error_or_data",
    "Dyna.c69_type_or_error"
   ],
   "note": ""
  },
  {
   "property": "C70",
   "status": "partial",
   "theorems": [
    "Dyna.Card.c70_int_partial",
    "Dyna.Card.c70_text_is_zero",
    "Dyna.Card.c70_float_text"
   ],
   "note": "Violated by the code for text: a field whose first word is no number is returned as 0 without an exception (c70_text_is_zero, c70_float_text); the rest is proved."
  },
  {
   "property": "C71",
   "status": "partial",
   "theorems": [
    "Dyna.Card.c71_parse_whole_widths_partial",
    "Dyna.Card.c71_parse_whole_partial",
    "Dyna.Card.c71_exception",
    "Dyna.Card.c71_cut_ub"
   ],
   "note": "Violated by the code: a card that ends inside of a field that is not the last one is read behind its end (c71_cut_ub); for all others the values are proved."
  },
  {
   "property": "C72",
   "status": "partial",
   "theorems": [
    "Dyna.c72_slice",
    "Dyna.c72_loop_partial",
    "Dyna.c72_first_name",
    "Dyna.c72_long_name_ub",
    "Dyna.c72_slice_outside",
    "Dyna.c72_cards"
   ],
   "note": "Violated by the code: the first keyword of the first name of the list may be missed (c72_first_name), and a name of more than 990 bytes that does not occur overruns the memory of the message (c72_long_name_ub)."
  },
  {
   "property": "C73",
   "status": "partial",
   "theorems": [
    "Dyna.D3.c73_part_titles_partial",
    "Dyna.D3.c73_exact",
    "Dyna.D3.c73_no_section",
    "Dyna.D3.c73_no_parts_ub",
    "Dyna.D3.c73_title",
    "Dyna.D3.c73_cpp_exact",
    "Dyna.D3.c73_cpp_title",
    "Dyna.D3.c73_sample_blank"
   ],
   "note": "Violated by the code: without a section bytes of the control data are returned as titles (c73_no_section), without parts an unset pointer is closed (c73_no_parts_ub), files that end in the section make it follow an unset pointer (c73_exact), the C++ functions cut a title at its first blank and read behind the memory if it has none (c73_cpp_exact, c73_cpp_title)."
  },
  {
   "property": "C74",
   "status": "partial",
   "theorems": [
    "Dyna.Part.c74_values_partial",
    "Dyna.Part.c74_double_free",
    "Dyna.Part.c74_copy_leaks",
    "Dyna.Part.c74_move_assign_leaks"
   ],
   "note": "Violated by the code: a copy shares the indices of the thick shells with the original, so that destroying both frees them twice (c74_double_free); every copy loses a block (c74_copy_leaks); move assignment loses the memory of the target (c74_move_assign_leaks). Proved for programs that copy no part with thick shells: all values are right and nothing is freed twice (c74_values_partial)."
  },
  {
   "property": "C75",
   "status": "partial",
   "theorems": [
    "Dyna.D3.c75_node_ids_partial",
    "Dyna.D3.c75_node_indices_partial",
    "Dyna.D3.c75_exact",
    "Dyna.D3.c75_solids_ignored",
    "Dyna.D3.c75_wrong_nodes"
   ],
   "note": "Violated by the code: the connectivity of the thick shells is passed on as the one of the solids, so that the nodes of thick shells are returned for solids, or memory behind the table is read (c75_exact, c75_wrong_nodes); the connectivity of solids is never used (c75_solids_ignored). Proved for calls without the connectivity of thick shells."
  },
  {
   "property": "C76",
   "status": "partial",
   "theorems": [
    "Dyna.Handle.c76_exact",
    "Dyna.Handle.c76_message_partial",
    "Dyna.Handle.c76_unwinding",
    "Dyna.Handle.c76_next_call",
    "Dyna.Handle.c76_open_message"
   ],
   "note": "Violated by the code: the exception borrows the error string of the file, so that looking at it after the file was destroyed (stack unwinding out of a try block) or after the next call reads freed memory (c76_unwinding, c76_next_call); names are borrowed from the file. c76_exact determines for every program whether this happens; exceptions of the constructor are not affected (c76_open_message)."
  },
  {
   "property": "C77",
   "status": "partial",
   "theorems": [
    "Dyna.TransformObj.c77_exact",
    "Dyna.TransformObj.c77_include_transform_partial",
    "Dyna.TransformObj.c77_define_transformation_partial",
    "Dyna.TransformObj.c77_copy_of_untitled",
    "Dyna.TransformObj.c77_copy_without_file_name",
    "Dyna.TransformObj.c77_stale_title",
    "Dyna.TransformObj.c77_self_assignment",
    "Dyna.TransformObj.c77_fcttem_leaks",
    "Dyna.TransformObj.c77_move_assignment_leaks",
    "Dyna.TransformObj.c77_copy_assignment_leaks",
    "Dyna.TransformObj.c77_no_leak_partial",
    "Dyna.TransformObj.c77_sample_untitled",
    "Dyna.TransformObj.c77_sample_stale"
   ],
   "note": "Violated by the code: destroying a copy of a DefineTransformation without title (every keyword that is no _TITLE) or without options frees uninitialised pointers (c77_copy_of_untitled), assigning such an object keeps the old title or options of the target (c77_stale_title), assigning an object with options to itself reads uninitialised memory (c77_self_assignment), copying an IncludeTransform without file name duplicates a null pointer (c77_copy_without_file_name), the temperature flag is never freed (c77_fcttem_leaks) and assignments lose what the target held (c77_move_assignment_leaks, c77_copy_assignment_leaks). c77_exact determines the outcome of every program; programs that avoid these cases behave as programs on values (c77_include_transform_partial, c77_define_transformation_partial) and free everything (c77_no_leak_partial)."
  },
  {
   "property": "C78",
   "status": "proved",
   "theorems": [
    "Dyna.D3.c78_mean",
    "Dyna.D3.c78_exact_arithmetic",
    "Dyna.D3.c78_shells_of_file",
    "Dyna.D3.c78_thick_shells_of_file",
    "Dyna.D3.c78_too_few_points",
    "Dyna.D3.c78_sample"
   ],
   "note": "Violated by elements with less than three integration points (c78_too_few_points, c39_mean_of_two_points)."
  },
  {
   "property": "C79",
   "status": "partial",
   "theorems": [
    "Dyna.Py.c79_items",
    "Dyna.Py.c79_list_eq",
    "Dyna.Py.c79_other_eq",
    "Dyna.Py.c79_text_eq_exact",
    "Dyna.Py.c79_text_eq_partial",
    "Dyna.Py.c79_last_character",
    "Dyna.Py.c79_empty_text",
    "Dyna.Py.c79_text_other",
    "Dyna.Py.c79_order_exact",
    "Dyna.Py.c79_mirror",
    "Dyna.Py.c79_order_partial",
    "Dyna.Py.c79_order_same_length",
    "Dyna.Py.c79_prefix_not_ordered",
    "Dyna.Py.c79_view",
    "Dyna.Py.c79_new",
    "Dyna.Py.c79_new_of_list",
    "Dyna.Py.c79_setitem",
    "Dyna.Py.c79_setitem_cut"
   ],
   "note": "Violated: text == str does not look at the last character and throws for two empty texts (c79_last_character, c79_empty_text); a text and a longer text that begins with it are not ordered (c79_prefix_not_ordered)."
  },
  {
   "property": "C80",
   "status": "partial",
   "theorems": [
    "Dyna.Card.c80_parse_partial",
    "Dyna.Card.c80_whole_widths_partial",
    "Dyna.Card.c80_whole_partial",
    "Dyna.Card.c80_default_cut",
    "Dyna.Card.c80_cut",
    "Dyna.Card.c80_bad_width",
    "Dyna.Card.c80_plus",
    "Dyna.Card.c80_words",
    "Dyna.Card.c80_dot",
    "Dyna.Card.c80_no_trim"
   ],
   "note": "Violated: parse_whole() reads behind every card whose length is not a multiple of 10 (c80_default_cut), with widths behind cards that end inside of a field (c80_cut); '+5' is 0 (c80_plus), a text that begins with a number is this number (c80_words), '1.' and '.5' are texts (c80_dot)."
  },
  {
   "property": "C81",
   "status": "partial",
   "theorems": [
    "Dyna.PyBin.c81_variable",
    "Dyna.PyBin.c81_folder_partial",
    "Dyna.PyBin.c81_empty_folder",
    "Dyna.PyBin.c81_listed_names",
    "Dyna.PyBin.c81_missing",
    "Dyna.PyBin.c81_type",
    "Dyna.PyBin.c81_folder_in_step",
    "Dyna.PyBin.c81_timed_partial",
    "Dyna.PyBin.c81_num_timesteps_partial",
    "Dyna.PyBin.c81_empty_path",
    "Dyna.PyBin.c81_name_twice"
   ],
   "note": "Violated: a folder without anything in it accesses an empty vector (c81_empty_folder), the empty path is an assertion failure (c81_empty_path), the message for a folder inside of a time step overruns its buffer for paths of more than 975 characters (c81_folder_in_step), names in both metadata and d000001 are listed twice (c81_name_twice). Time steps of different content: C19."
  },
  {
   "property": "C82",
   "status": "partial",
   "theorems": [
    "Dyna.Rows.c82_exact",
    "Dyna.Rows.c82_values_partial",
    "Dyna.Rows.c82_first_dropped",
    "Dyna.Rows.c82_list_dropped",
    "Dyna.Rows.c82_no_leak",
    "Dyna.Rows.c82_no_steps_leaks"
   ],
   "note": "Violated: only the array of the first time step owns the common block; all others are views into it. read(path)[k] with k > 0 in Python, or a C++ array that outlives the vector, is used after it has been freed (c82_first_dropped, c82_list_dropped). A read without time steps loses the block (c82_no_steps_leaks). c82_exact says exactly which histories are fine, c82_values_partial that those in which the first array is kept are."
  },
  {
   "property": "C83",
   "status": "partial",
   "theorems": [
    "Dyna.Key.c83_same_calls",
    "Dyna.Key.c83_card",
    "Dyna.Key.c83_keyword_partial",
    "Dyna.Key.c83_paths",
    "Dyna.Key.c83_not_own_line",
    "Dyna.Key.c83_example"
   ],
   "note": "c83_same_calls: the calls without the structure are those of C43, C53 and C68. Violated: a keyword without cards is reported when the next keyword is found, with the line of that keyword, or with the number of lines of the file (c83_not_own_line, c83_example); current_keyword_line is computed but not used."
  },
  {
   "property": "C84",
   "status": "partial",
   "theorems": [
    "Dyna.Single.c84_cursors_partial",
    "Dyna.Single.c84_seek_read",
    "Dyna.Single.c84_from_end",
    "Dyna.Single.c84_failed_seek"
   ],
   "note": "Violated: an offset with SEEK_END has the wrong sign (c84_from_end); after a failed seek the position is the negative target instead of the old position (c84_failed_seek). The library itself does not use SEEK_END."
  },
  {
   "property": "C85",
   "status": "partial",
   "theorems": [
    "Dyna.Window.c85_open",
    "Dyna.Window.c85_enough_partial",
    "Dyna.Window.c85_next",
    "Dyna.Window.c85_walk",
    "Dyna.Window.c85_far",
    "Dyna.Window.c85_near_fails",
    "Dyna.Window.c85_near_free",
    "Dyna.Window.c85_near_free_on",
    "Dyna.Window.c85_open_none",
    "Dyna.Window.c85_outside",
    "Dyna.Window.c85_single_ub",
    "Dyna.Window.c85_first_unopened",
    "Dyna.Window.c85_back_to_start"
   ],
   "note": "Holds for reading on (c85_walk) and for seeks further away than the number of open files (c85_far). Violated for all other seeks: they open one file more than they have closed, which fails at the limit (c85_near_fails, c85_first_unopened, c85_back_to_start), or loses a FILE object or goes outside of the array for the first file (c85_near_free); with a single open file a seek uses a null pointer (c85_single_ub)."
  },
  {
   "property": "C86",
   "status": "partial",
   "theorems": [
    "Dyna.KeyMem.c86_parse_partial",
    "Dyna.KeyMem.c86_free",
    "Dyna.KeyMem.c86_key_file_parse_partial",
    "Dyna.KeyMem.c86_no_leak",
    "Dyna.KeyMem.c86_example",
    "Dyna.KeyMem.c86_leak"
   ],
   "note": "Proved for all callbacks and for key_file_parse, up to the blocks `leak`, which are empty if no line ends with +. Violated: the buffer of a continued line is lost if a file ends in a continued line of a keyword that already has a card (c86_leak)."
  },
  {
   "property": "C87",
   "status": "partial",
   "theorems": [
    "Dyna.StateMem.c87_programs_partial",
    "Dyna.StateMem.c87_c_shells_partial",
    "Dyna.StateMem.c87_c_beams",
    "Dyna.StateMem.c87_c_beams_no_points",
    "Dyna.StateMem.c87_c_beams_no_points_null",
    "Dyna.StateMem.c87_c_shells_no_points",
    "Dyna.StateMem.c87_lost_each_read",
    "Dyna.StateMem.c87_lost_nothing",
    "Dyna.StateMem.c87_copy",
    "Dyna.StateMem.c87_empty_copy",
    "Dyna.StateMem.c87_mean_copy"
   ],
   "note": "Proved for programs without copies: no double release, and exactly the blocks counted by `lost` are lost. Violated: blocks are lost after errors of the file and for beams in C++ (`lost`), with three integration points and no history variables (c87_lost_each_read), copies release twice (c87_copy, c87_mean_copy, c87_empty_copy), and without integration points pointers that were never set are released (c87_c_shells_no_points, c87_c_beams_no_points)."
  },
  {
   "property": "C88",
   "status": "partial",
   "theorems": [
    "Dyna.BinoutMem.c88_open_agrees",
    "Dyna.BinoutMem.c88_close_partial",
    "Dyna.BinoutMem.c88_name_of_folder",
    "Dyna.BinoutMem.c88_names",
    "Dyna.BinoutMem.c88_lost_each_time",
    "Dyna.BinoutMem.c88_clash"
   ],
   "note": "Proved: current_folder always leads into allocated memory, exactly the blocks of the binout are allocated, and closing releases all of them up to one block if no variable has got the name of a folder. Violated: the array of files is never released (c88_lost_each_time), and a variable with the name of a folder makes binout_close release a name twice (c88_name_of_folder, c88_clash)."
  },
  {
   "property": "C89",
   "status": "proved",
   "theorems": [
    "Dyna.D3Mem.c89_agrees",
    "Dyna.D3Mem.c89_memory",
    "Dyna.D3Mem.c89_failed_open",
    "Dyna.D3Mem.c89_close",
    "Dyna.D3Mem.c89_close_twice",
    "Dyna.D3Mem.c89_sample",
    "Dyna.D3Mem.c89_handle_in_use"
   ],
   "note": "Proved for everything that Verif.D3Mem models (states of elements and the queries of node ids of parts are not part of a session). The buffer of 1024 characters into which the names of the files are printed is not modelled. A second d3plot_close is undefined (c89_close_twice); after a failed d3plot_open a handle can still be in use until the file is closed (c89_handle_in_use)."
  },
  {
   "property": "C90",
   "status": "partial",
   "theorems": [
    "Dyna.D3.c90_nothing_lost",
    "Dyna.D3.c90_sorted_partial",
    "Dyna.D3.c90_cpp",
    "Dyna.D3.c90_overlap",
    "Dyna.D3.c90_not_sorted",
    "Dyna.D3.c90_fits"
   ],
   "note": "No id is lost (c90_nothing_lost); c90_sorted_partial says exactly when the result is in ascending order. Violated otherwise: overlapping memcpy (c90_overlap), not sorted (c90_not_sorted). In C++ only a failure of the thick shells is an exception (c90_cpp)."
  },
  {
   "property": "C91",
   "status": "partial",
   "theorems": [
    "Dyna.D3Mem.c91_agrees",
    "Dyna.D3Mem.c91_memory",
    "Dyna.D3Mem.c91_nothing_lost_partial",
    "Dyna.D3Mem.c91_lost_exactly",
    "Dyna.D3Mem.c91_cpp_all_ids",
    "Dyna.D3Mem.c91_lost_each_call",
    "Dyna.D3Mem.c91_sample"
   ],
   "note": "Everything but the loss is proved (c91_agrees, c91_memory). Nothing is lost if the caller passes the connectivity (c91_nothing_lost_partial). Violated otherwise: loaded_cons is never set, so every call loses the connectivity it loads: exactly one block per kind of elements of the part (c91_lost_exactly, c91_lost_each_call)."
  },
  {
   "property": "C92",
   "status": "proved",
   "theorems": [
    "Dyna.BinoutCalls.c92_memory",
    "Dyna.BinoutCalls.c92_close",
    "Dyna.BinoutCalls.c92_timed_error_or_data",
    "Dyna.BinoutCalls.c92_timed_type_unchecked",
    "Dyna.BinoutCalls.c92_sample"
   ],
   "note": "The block lost by closing (c92_memory: lost) is the array files of C88, not one of these calls. Found on the way: binout_read_timed_<type> does not compare the type of the variable with the type it reads (c92_timed_type_unchecked, c92_sample), unlike binout_read_<type>."
  },
  {
   "property": "C93",
   "status": "partial",
   "theorems": [
    "Dyna.KeyOwn.c93_objects_partial",
    "Dyna.KeyOwn.c93_no_leak",
    "Dyna.KeyOwn.c93_config_leak",
    "Dyna.KeyOwn.c93_moved_card",
    "Dyna.KeyOwn.c93_not_begun",
    "Dyna.KeyOwn.c93_example",
    "Dyna.KeyOwn.c93_assign_leak",
    "Dyna.KeyOwn.c93_python_dangling"
   ],
   "note": "Violated: ParseConfig never frees the strings of the extra include paths (c93_config_leak); assigning to a Card that owns a copy loses it (c93_assign_leak); self assignment and moved-from cards are undefined (c93_moved_card); cards have no position before begin (c93_not_begun); in Python the Keywords is not kept alive by its slices and cards (c93_python_dangling). c93_objects_partial counts the leaked blocks exactly."
  },
  {
   "property": "C94",
   "status": "partial",
   "theorems": [
    "Dyna.PathReal.c94_linux",
    "Dyna.PathReal.c94_join",
    "Dyna.PathReal.c94_move_up_absolute",
    "Dyna.PathReal.c94_move_up_relative_partial",
    "Dyna.PathReal.c94_exceptions"
   ],
   "note": "Violated for paths that begin with a component: for two components of which the first has a single character 0 is returned (the empty path), and a single component of at least two characters followed by a separator has the empty path as parent instead of none (c94_exceptions). path_join_real with an empty first argument reads before the string (as path_join, C05)."
  },
  {
   "property": "C95",
   "status": "partial",
   "theorems": [
    "Dyna.KeyOwn.c95_callback_partial",
    "Dyna.KeyOwn.c95_no_leak",
    "Dyna.KeyOwn.c95_example",
    "Dyna.KeyOwn.c95_throw_leak",
    "Dyna.KeyOwn.c95_wrong"
   ],
   "note": "Violated: an exception of the callback leaves key_file_parse_with_callback without releasing what it has allocated (c95_throw_leak); besides that the leaks of C93 (extra include paths, assignments) and C86 (lines that end with '+'). c95_wrong: using the nullopt card, or reading a field of a card before begin, is undefined."
  },
  {
   "property": "C96",
   "status": "partial",
   "theorems": [
    "Dyna.PyKey.c96_index",
    "Dyna.PyKey.c96_for_partial",
    "Dyna.PyKey.c96_keywords_loop",
    "Dyna.PyKey.c96_items_partial",
    "Dyna.PyKey.c96_example"
   ],
   "note": "Violated: operator[] throws std::runtime_error (and not std::out_of_range, Python's IndexError), and the classes have no __iter__: every for loop over a KeywordSlice or a Keyword ends with RuntimeError after the last element (c96_for_partial), a loop over Keywords with TypeError at once (c96_keywords_loop). Besides the limits of C72."
  },
  {
   "property": "C97",
   "status": "proved",
   "theorems": [
    "Dyna.c97_steps",
    "Dyna.c97_cause",
    "Dyna.c97_example",
    "Dyna.c97_first_bad_step",
    "Dyna.c97_first_bad_step_sample"
   ],
   "note": "Assumes that no variable has the name of a time step folder (as C65) and that the file can be opened again; a message that does not fit into 1024 bytes overruns the buffer (C66)."
  },
  {
   "property": "C98",
   "status": "proved",
   "theorems": [
    "Dyna.Prof.c98_sections",
    "Dyna.Prof.c98_report",
    "Dyna.Prof.c98_long_name",
    "Dyna.Prof.c98_open",
    "Dyna.Prof.c98_example"
   ],
   "note": "Times are exact (the code adds doubles); assumes that level and name of a section have at most 1023 characters together; one thread. Missing ends in the code: binout_get_children for a path that does not exist, binout_directory_get_file of an empty binout, the parsing of a floating point number with an invalid character."
  },
  {
   "property": "C99",
   "status": "partial",
   "theorems": [
    "Dyna.Prof.c99_order_partial",
    "Dyna.Prof.c99_unsorted"
   ],
   "note": "Partial: quick_sort_execution_times only sorts the sections within the first element of each array (it always follows `stack->sub_executions`), so the lines within all other sections are in the order of their names (c99_unsorted)."
  },
  {
   "property": "C100",
   "status": "partial",
   "theorems": [
    "Dyna.CppState.c100_shells",
    "Dyna.CppState.c100_thick_shells_partial",
    "Dyna.CppState.c100_beams_partial",
    "Dyna.CppState.c100_mean",
    "Dyna.CppState.c100_thick_index_wraps",
    "Dyna.CppState.c100_beam_index_wraps",
    "Dyna.CppState.c100_too_few_points",
    "Dyna.CppState.c100_shells_sample"
   ],
   "note": "Partial: the parameters of D3plotThickShell::get_add_ip_history_variables and D3plotBeam::get_history_variables are uint8_t, so index 256 is taken for index 0 instead of being rejected (c100_thick_index_wraps, c100_beam_index_wraps), and an element with less than three points claims 253 or more additional points and reads through NULL (c100_too_few_points). Not modelled: in Python read_beams_state returns Array<d3plot_beam>, for which no class is registered."
  },
  {
   "property": "C101",
   "status": "partial",
   "theorems": [
    "Dyna.WinGlob.c101_names_partial",
    "Dyna.WinGlob.c101_longer_than_folder",
    "Dyna.WinGlob.c101_empty_pattern",
    "Dyna.WinGlob.c101_sample"
   ],
   "note": "Partial: if a name is longer than the folder part of the pattern, memcpy is called with overlapping ranges (c101_longer_than_folder; this is already so for binout0000 in a folder whose name has less than nine characters), and with an empty pattern the search for the folder reads far outside of the text (c101_empty_pattern)."
  },
  {
   "property": "C102",
   "status": "partial",
   "theorems": [
    "Dyna.PathOpen.c102_stable_partial",
    "Dyna.PathOpen.c102_drives",
    "Dyna.PathOpen.c102_long_directory",
    "Dyna.PathOpen.c102_no_directory",
    "Dyna.PathOpen.c102_sample"
   ],
   "note": "Partial: on Windows a path with a lower case drive is taken for a relative one and the working directory is put in front of it (c102_drives); on Linux with a working directory of 1024 characters or more the stored path is relative (c102_long_directory); on Windows without a working directory the replacement is not terminated (c102_no_directory). Paths are compared by their components, . and .. and links are not resolved."
  },
  {
   "property": "C103",
   "status": "partial",
   "theorems": [
    "Dyna.CppPrint.c103_solid",
    "Dyna.CppPrint.c103_surface",
    "Dyna.CppPrint.c103_thick_shell_partial",
    "Dyna.CppPrint.c103_group",
    "Dyna.CppPrint.c103_shell_partial",
    "Dyna.CppPrint.c103_beam",
    "Dyna.CppPrint.c103_num",
    "Dyna.CppPrint.c103_con",
    "Dyna.CppPrint.c103_beam_con",
    "Dyna.CppPrint.c103_array",
    "Dyna.CppPrint.c103_array_words",
    "Dyna.CppPrint.c103_bytes",
    "Dyna.CppPrint.c103_unwritten",
    "Dyna.CppPrint.c103_sample"
   ],
   "note": "Partial: the text of a shell or thick shell with less than three integration points, or whose strains are not in the file, prints members that have never been written (c103_unwritten); complete for all other elements. The format of floating point numbers is a parameter."
  },
  {
   "property": "C104",
   "status": "proved",
   "theorems": [
    "Dyna.Sync.c104_step",
    "Dyna.Sync.c104_exclusive",
    "Dyna.Sync.c104_waits",
    "Dyna.Sync.c104_wakes",
    "Dyna.Sync.c104_same",
    "Dyna.Sync.c104_not_created",
    "Dyna.Sync.c104_foreign_unlock",
    "Dyna.Sync.c104_sample"
   ],
   "note": "The functions of the operating system are modelled as documented. Deviations: on Windows a lock whose event cannot be created returns EINVAL at once (c104_not_created), and no caller looks at the value; an unlock by a thread that does not hold the lock breaks the exclusion on Windows and is undefined with POSIX threads (c104_foreign_unlock)."
  },
  {
   "property": "C105",
   "status": "proved",
   "theorems": [
    "Dyna.D3.c105_round_trip",
    "Dyna.D3.c105_parts",
    "Dyna.D3.c105_parts_sample",
    "Dyna.D3.c105_values",
    "Dyna.D3.c105_sample"
   ],
   "note": "The writer (D3Writer) is a specification that does not use the reader. Not written by it: adaptivity, ten node solids, the optional second block of control words, blocks between geometry and states, arbitrary numbering without NSORT < 0. The hypotheses exclude what the library cannot read: a last value of time equal to the end marker, more than three integration points with history variables in thick shells (c38_thick_heap_overflow), ISTRN that cannot be inferred (c38_strain_flag_unset), first words that look like a database with words of the other size."
  },
  {
   "property": "C106",
   "status": "proved",
   "theorems": [
    "Dyna.Key.c106_round_trip",
    "Dyna.Key.c106_fields",
    "Dyna.Key.c106_sample"
   ],
   "note": "The writer (KeyWriter) is a specification that does not use the parser. Excluded, because the library does not read it: keyword lines of 82 characters or more (c43_long_header_ub), a keyword that reads behind the list (c44_overrun_ub), cards of more than 255 characters (c47_long), file sizes that are a multiple of the size of the chunks and large files with a newline in the memory that has not been initialised (c41_extra_line, c41_stale_newline). Not written: files without keywords (c43_empty_file), INCLUDE keywords (C68). Floating point values are computed exactly; the rounding of the arithmetic is that of C57."
  },
  {
   "property": "C107",
   "status": "proved",
   "theorems": [
    "Dyna.c107_round_trip",
    "Dyna.c107_sample",
    "Dyna.c107_children"
   ],
   "note": "The writer (BinoutWriter) is a specification that does not use the reader; it uses the encoding of records of C12. Time steps that do not have the same variables or sizes are those of the witnesses of C19 (c19_varying_size_overflows, c19_wrong_variable). Names longer than the fields of a record, paths of 1 KiB, characters that are not 7-bit and more than 256 files are excluded (C15, c08_non_ascii_not_found, C17)."
  },
  {
   "property": "C108",
   "status": "proved",
   "theorems": [
    "Dyna.D3.c108_node_data",
    "Dyna.D3.c108_all_node_data",
    "Dyna.D3.c108_times",
    "Dyna.D3.c108_written",
    "Dyna.D3.c108_words",
    "Dyna.D3.c108_words_sample",
    "Dyna.D3.c108_exact",
    "Dyna.D3.c108_distinct",
    "Dyna.D3.c108_numbers",
    "Dyna.D3.c108_sample"
   ],
   "note": "Hypothesis of the theorems for any open file: the size of the result in bytes fits into 64 bits; c108_written shows that it holds for every database that the format can describe (C105). The rounding of a double to a float is a parameter; the reverse direction (widen) is the bit pattern of IEEE 754 and exact (c108_exact). IU = 2 is excluded (c32_displacements_rejected)."
  }
 ]
}