{
 "claims": [
  {
   "property": "C01",
   "status": "partial",
   "theorems": [
    "JsonStruct.C01_round_trip_partial",
    "JsonStruct.C01_round_trip_new_variable_partial",
    "JsonStruct.C01_false_root_scalar",
    "JsonStruct.C01_false_nan",
    "JsonStruct.C01_false_pointer_to_null",
    "JsonStruct.C01_false_optional_elements",
    "JsonStruct.C01_strict_partial",
    "JsonStruct.C01_false_strict"
   ],
   "note": "false for scalars at the root, NaN and infinities, the doubles 2^-140 and -2^-140, some time points (C62), keys that need escapes (C38), pointers to something written as null, and empty optionals in arrays (witnesses); proved for all other values of the modelled types"
  },
  {
   "property": "C02",
   "status": "proved",
   "theorems": [
    "JsonStruct.C02_document_tokenized",
    "JsonStruct.C02_not_with_newline_delimiters"
   ],
   "note": "all options except new-line-as-delimiter, which changes the grammar (witness)"
  },
  {
   "property": "C03",
   "status": "partial",
   "theorems": [
    "JsonStruct.C03_written_text_tokenizes_back_partial",
    "JsonStruct.C03_false_empty_name"
   ],
   "note": "empty member names are dropped (witness) and at most 255 brackets may be open (C47)"
  },
  {
   "property": "C04",
   "status": "partial",
   "theorems": [
    "JsonStruct.C04_styles_agree_partial",
    "JsonStruct.C04_compact_shift2_writes_new_lines"
   ],
   "note": "values with non empty member names and at most 255 open brackets, as C03"
  },
  {
   "property": "C05",
   "status": "proved",
   "theorems": [
    "JsonStruct.C05_buffers_do_not_matter",
    "JsonStruct.C05_writes_succeed"
   ],
   "note": ""
  },
  {
   "property": "C06",
   "status": "proved",
   "theorems": [
    "JsonStruct.C06_brackets_match",
    "JsonStruct.C06_mismatch_reported",
    "JsonStruct.C06_delivered_matches"
   ],
   "note": ""
  },
  {
   "property": "C07",
   "status": "proved",
   "theorems": [
    "JsonStruct.C07_tokens_in_bounds",
    "JsonStruct.C07_cursor_in_bounds",
    "JsonStruct.C07_scans_in_bounds"
   ],
   "note": ""
  },
  {
   "property": "C08",
   "status": "proved",
   "theorems": [
    "JsonStruct.C08_tokens_le_bytes",
    "JsonStruct.C08_tokenizing_stops",
    "JsonStruct.C08_loops_terminate",
    "JsonStruct.C08_goToEndOfScope_stops"
   ],
   "note": ""
  },
  {
   "property": "C09",
   "status": "partial",
   "theorems": [
    "JsonStruct.C09_split_partial",
    "JsonStruct.C09_fed_partial",
    "JsonStruct.C09_callback_partial",
    "JsonStruct.C09_documents_on_track",
    "JsonStruct.C09_false_behind_name",
    "JsonStruct.C09_false_behind_colon",
    "JsonStruct.C09_false_behind_element",
    "JsonStruct.C09_false_number_name",
    "JsonStruct.C09_false_escape",
    "JsonStruct.C09_false_nul",
    "JsonStruct.C09_false_comment",
    "JsonStruct.C09_false_slashes"
   ],
   "note": "false for cuts at seven kinds of places, two of them within comments, and for NUL bytes (witnesses); proved for all other cuts of any text and all options, for buffers in advance, buffers after NeedMoreData and callbacks"
  },
  {
   "property": "C10",
   "status": "partial",
   "theorems": [
    "JsonStruct.C10_simd_one_buffer",
    "JsonStruct.C10_simd_buffers_partial",
    "JsonStruct.C10_simd_histories_partial",
    "JsonStruct.C10_escape_builds_agree",
    "JsonStruct.C10_scanners",
    "JsonStruct.C10_false_with_pending_escape"
   ],
   "note": "full for one buffer; false when a buffer ends inside an escape (witness), proved otherwise"
  },
  {
   "property": "C11",
   "status": "proved",
   "theorems": [
    "JsonStruct.C11_escape_round_trip"
   ],
   "note": ""
  },
  {
   "property": "C12",
   "status": "proved",
   "theorems": [
    "JsonStruct.C12_no_break_out"
   ],
   "note": ""
  },
  {
   "property": "C13",
   "status": "proved",
   "theorems": [
    "JsonStruct.C13_unicode_escape",
    "JsonStruct.C13_literal_denotes"
   ],
   "note": ""
  },
  {
   "property": "C14",
   "status": "proved",
   "theorems": [
    "JsonStruct.C14_integer_round_trip"
   ],
   "note": ""
  },
  {
   "property": "C15",
   "status": "partial",
   "theorems": [
    "JsonStruct.C15_exact",
    "JsonStruct.C15_value_partial",
    "JsonStruct.C15_integer_literal_partial",
    "JsonStruct.C15_accepted_partial",
    "JsonStruct.C15_false_wraps",
    "JsonStruct.C15_false_exponent_wraps",
    "JsonStruct.C15_false_unsigned_minus",
    "JsonStruct.C15_false_zero_exponent",
    "JsonStruct.C15_false_long_fraction",
    "JsonStruct.C15_false_fraction_256",
    "JsonStruct.C15_false_accepts_minus"
   ],
   "note": "false in general (witnesses: values out of range wrap, sign on unsigned types, long fractions); proved for numbers whose digits and exponent fit; C15_exact says what is read for every accepted text"
  },
  {
   "property": "C16",
   "status": "proved",
   "theorems": [
    "JsonStruct.C16_canonical_decimal",
    "JsonStruct.C16_valid_number"
   ],
   "note": ""
  },
  {
   "property": "C17",
   "status": "proved",
   "theorems": [
    "JsonStruct.C17_keywords_exact",
    "JsonStruct.C17_bool_exact",
    "JsonStruct.C17_bool_round_trip"
   ],
   "note": ""
  },
  {
   "property": "C18",
   "status": "partial",
   "theorems": [
    "JsonStruct.C18_member_order_partial",
    "JsonStruct.C18_false_for_aliases",
    "JsonStruct.C18_false_string"
   ],
   "note": "false if a member occurs both by name and by alias (witness); proved for objects whose members mean different struct members, as far as no string is given a container"
  },
  {
   "property": "C19",
   "status": "partial",
   "theorems": [
    "JsonStruct.C19_any_object_partial",
    "JsonStruct.C19_reports_exact_partial",
    "JsonStruct.C19_unknown_rejected_partial",
    "JsonStruct.C19_nested_reports_partial",
    "JsonStruct.C19_unassigned_spec",
    "JsonStruct.C19_required_types",
    "JsonStruct.C19_false_string"
   ],
   "note": "proved for every object that gives no string a container, whether its members are read without error or not"
  },
  {
   "property": "C20",
   "status": "partial",
   "theorems": [
    "JsonStruct.C20_unknown_members_skipped_partial",
    "JsonStruct.C20_false_strings_swallow"
   ],
   "note": "false where a string is given a bracket (witness); proved for all objects on which this does not happen"
  },
  {
   "property": "C21",
   "status": "proved",
   "theorems": [
    "JsonStruct.C21_primary_name",
    "JsonStruct.C21_alias"
   ],
   "note": ""
  },
  {
   "property": "C22",
   "status": "proved",
   "theorems": [
    "JsonStruct.C22_enum_round_trip",
    "JsonStruct.C22_unknown_name_rejected",
    "JsonStruct.C22_number_unchecked"
   ],
   "note": "numbers are accepted unchecked (witness, beyond the property)"
  },
  {
   "property": "C23",
   "status": "partial",
   "theorems": [
    "JsonStruct.C23_scope_ends_at_bracket_partial",
    "JsonStruct.C23_false_at_depth_65536",
    "JsonStruct.C23_false_with_nested_scopes"
   ],
   "note": "false 65536 brackets deep and for nested scopes (witnesses), proved below that depth for one scope"
  },
  {
   "property": "C24",
   "status": "proved",
   "theorems": [
    "JsonStruct.C24_skips_exactly_one_value"
   ],
   "note": ""
  },
  {
   "property": "C25",
   "status": "proved",
   "theorems": [
    "JsonStruct.C25_metadata_exact",
    "JsonStruct.C25_positions",
    "JsonStruct.C25_ranges"
   ],
   "note": "counters unbounded in the model (uint32_t in C++)"
  },
  {
   "property": "C26",
   "status": "partial",
   "theorems": [
    "JsonStruct.C26_map_shows_object_partial",
    "JsonStruct.C26_nested_map_partial",
    "JsonStruct.C26_false_closing_bracket",
    "JsonStruct.C26_whole_map"
   ],
   "note": "iteration also visits the closing bracket, and find of the empty name gives it (witness); proved otherwise"
  },
  {
   "property": "C27",
   "status": "partial",
   "theorems": [
    "JsonStruct.C27_history_partial",
    "JsonStruct.C27_history_of_parsed_map_partial",
    "JsonStruct.C27_set_member",
    "JsonStruct.C27_set_then_get_partial",
    "JsonStruct.C27_false_scalar_replaced",
    "JsonStruct.C27_whole_map_partial",
    "JsonStruct.C27_last_call_partial"
   ],
   "note": "false when a scalar in front of an array or object is replaced (witness); proved for all other histories with names that are written as they are"
  },
  {
   "property": "C28",
   "status": "partial",
   "theorems": [
    "JsonStruct.C28_equal_documents_partial",
    "JsonStruct.C28_false_same_name",
    "JsonStruct.C28_false_scalar_root"
   ],
   "note": "arrays and objects without two members of one name; false otherwise (witnesses). std::stod and the comparison of doubles are parameters"
  },
  {
   "property": "C29",
   "status": "partial",
   "theorems": [
    "JsonStruct.C29_no_difference_iff_equal_partial",
    "JsonStruct.C29_false_outside_json"
   ],
   "note": "array and object roots; both directions. For texts beyond RFC 8259 the tokenizer accepts it is false (witnesses)"
  },
  {
   "property": "C30",
   "status": "partial",
   "theorems": [
    "JsonStruct.C30_invalidate_recomputes_partial",
    "JsonStruct.C30_false_missing_items_kept"
   ],
   "note": "all histories; everything but the missing array items, which invalidate() does not clear (witness)"
  },
  {
   "property": "C31",
   "status": "partial",
   "theorems": [
    "JsonStruct.C31_calls_each_member_partial",
    "JsonStruct.C31_functions_behave",
    "JsonStruct.C31_context_functions_behave",
    "JsonStruct.C31_calls_exact_partial",
    "JsonStruct.C31_false_called_twice",
    "JsonStruct.C31_false_at_depth_65536"
   ],
   "note": "proved for all tables of functions that do not report MissingFunction themselves and values at most 65535 deep; false otherwise (witnesses)"
  },
  {
   "property": "C32",
   "status": "partial",
   "theorems": [
    "JsonStruct.C32_update_partial",
    "JsonStruct.C32_next_token_partial",
    "JsonStruct.C32_message",
    "JsonStruct.C32_token_vector_partial",
    "JsonStruct.C32_false_huge_range",
    "JsonStruct.C32_false_token_vector"
   ],
   "note": "proved after any history for settings whose sum with the position fits an int64_t, false beyond (witness). Token vectors: proved for values in one block of memory, undefined otherwise (witness)"
  },
  {
   "property": "C33",
   "status": "partial",
   "theorems": [
    "JsonStruct.C33_double_round_trip_partial",
    "JsonStruct.C33_float_round_trip",
    "JsonStruct.C33_nonfinite_null",
    "JsonStruct.C33_false_power_of_two"
   ],
   "note": "false for the doubles 2^-140 and -2^-140 (witness); proved for every other finite double and for every finite float"
  },
  {
   "property": "C34",
   "status": "proved",
   "theorems": [
    "JsonStruct.C34_powers",
    "JsonStruct.C34_inverses",
    "JsonStruct.C34_lengths"
   ],
   "note": "all entries of the four tables, copied from the source by tools/tables.py"
  },
  {
   "property": "C35",
   "status": "partial",
   "theorems": [
    "JsonStruct.C35_array_partial",
    "JsonStruct.C35_array_stringless",
    "JsonStruct.C35_tuple_partial",
    "JsonStruct.C35_tuple_stringless",
    "JsonStruct.C35_false_strings_swallow"
   ],
   "note": "proved for element types without strings; with strings false in general (witness), proved where no string meets a bracket"
  },
  {
   "property": "C36",
   "status": "partial",
   "theorems": [
    "JsonStruct.C36_variable_array_partial",
    "JsonStruct.C36_too_many",
    "JsonStruct.C36_false_when_full"
   ],
   "note": "false for exactly COUNT elements (witness), proved for fewer and for more"
  },
  {
   "property": "C37",
   "status": "partial",
   "theorems": [
    "JsonStruct.C37_last_value_partial",
    "JsonStruct.C37_false_never_returns"
   ],
   "note": "proved for documents; on truncated input the handler never returns (witness)"
  },
  {
   "property": "C38",
   "status": "partial",
   "theorems": [
    "JsonStruct.C38_map_round_trip_partial",
    "JsonStruct.C38_false_keys"
   ],
   "note": "false for empty keys and keys that need escapes (witnesses), proved for all others"
  },
  {
   "property": "C39",
   "status": "proved",
   "theorems": [
    "JsonStruct.C39_set"
   ],
   "note": ""
  },
  {
   "property": "C40",
   "status": "proved",
   "theorems": [
    "JsonStruct.C40_pointers_read",
    "JsonStruct.C40_nullable_read",
    "JsonStruct.C40_written"
   ],
   "note": ""
  },
  {
   "property": "C41",
   "status": "partial",
   "theorems": [
    "JsonStruct.C41_captured",
    "JsonStruct.C41_referred_partial",
    "JsonStruct.C41_verbatim",
    "JsonStruct.C41_root",
    "JsonStruct.C41_kinds",
    "JsonStruct.C41_refused",
    "JsonStruct.C41_written",
    "JsonStruct.C41_false_appends",
    "JsonStruct.C41_false_ref_split",
    "JsonStruct.C41_false_token_vector",
    "JsonStruct.C41_false_recording_left"
   ],
   "note": "owning forms: proved for every history and every split of the input, for a variable that was empty. Reference forms: proved within one buffer, undefined across two (witness). False for a variable that was not empty and for token vectors (witnesses)"
  },
  {
   "property": "C42",
   "status": "partial",
   "theorems": [
    "JsonStruct.C42_reset_after_document_partial",
    "JsonStruct.C42_false_inside_document"
   ],
   "note": "true after a complete document; false inside one (witness)"
  },
  {
   "property": "C43",
   "status": "partial",
   "theorems": [
    "JsonStruct.C43_reformat_partial",
    "JsonStruct.C43_false_empty_name"
   ],
   "note": "documents with non empty member names (false otherwise, witness) and at most 255 open brackets"
  },
  {
   "property": "C44",
   "status": "partial",
   "theorems": [
    "JsonStruct.C44_comments_invisible_partial",
    "JsonStruct.C44_false_behind_words"
   ],
   "note": "false for a comment directly behind null/true/false (witness), proved everywhere else"
  },
  {
   "property": "C45",
   "status": "partial",
   "theorems": [
    "JsonStruct.C45_superfluous_comma_ignored",
    "JsonStruct.C45_superfluous_comma_rejected_partial",
    "JsonStruct.C45_false_behind_scalars"
   ],
   "note": "false for arrays ending in a scalar (witness), proved for all others and for the option set"
  },
  {
   "property": "C46",
   "status": "partial",
   "theorems": [
    "JsonStruct.C46_illegal_char_partial",
    "JsonStruct.C46_wrong_bracket_partial",
    "JsonStruct.C46_missing_colon_partial",
    "JsonStruct.C46_number_as_name_partial",
    "JsonStruct.C46_unquoted_name_partial",
    "JsonStruct.C46_bare_word_value_partial",
    "JsonStruct.C46_missing_comma_array_partial",
    "JsonStruct.C46_missing_comma_partial",
    "JsonStruct.C46_false"
   ],
   "note": "false in general (witnesses); eight kinds of defect proved to be reported at any place of any document"
  },
  {
   "property": "C47",
   "status": "partial",
   "theorems": [
    "JsonStruct.C47_balanced_to_depth_255_partial",
    "JsonStruct.C47_false_depth_256"
   ],
   "note": "false at depth 256: the depth is an 8 bit number"
  },
  {
   "property": "C48",
   "status": "proved",
   "theorems": [
    "JsonStruct.C48_flush_is_exact"
   ],
   "note": ""
  },
  {
   "property": "C49",
   "status": "proved",
   "theorems": [
    "JsonStruct.C49_tokens_read",
    "JsonStruct.C49_tokens_written",
    "JsonStruct.C49_round_trip",
    "JsonStruct.C49_tokens_used"
   ],
   "note": ""
  },
  {
   "property": "C50",
   "status": "partial",
   "theorems": [
    "JsonStruct.C50_one_or_many_partial",
    "JsonStruct.C50_round_trip",
    "JsonStruct.C50_false_not_cleared"
   ],
   "note": "false if the variable is not empty before (witness), proved for new variables"
  },
  {
   "property": "C51",
   "status": "partial",
   "theorems": [
    "JsonStruct.C51_valid_string_partial",
    "JsonStruct.C51_false_for_control_characters"
   ],
   "note": "false for control characters without a short escape (witness), proved for all other strings"
  },
  {
   "property": "C52",
   "status": "partial",
   "theorems": [
    "JsonStruct.C52_shape_partial",
    "JsonStruct.C52_shape_with_strings_partial",
    "JsonStruct.C52_false_wrong_shape_accepted",
    "JsonStruct.C52_false_strings_for_numbers"
   ],
   "note": "false for strings given a container and for numbers given a string (witnesses); brackets proved at every depth for types without strings"
  },
  {
   "property": "C53",
   "status": "partial",
   "theorems": [
    "JsonStruct.C53_report_partial",
    "JsonStruct.C53_marks_partial",
    "JsonStruct.C53_root_replaced_partial",
    "JsonStruct.C53_false_new_items"
   ],
   "note": "marks of new array items are wrong if the first one is an array (witness); the mark of every token is proved as the code sets it, and as it should be if no array is the first new item"
  },
  {
   "property": "C54",
   "status": "partial",
   "theorems": [
    "JsonStruct.C54_documents_partial",
    "JsonStruct.C54_false_no_error",
    "JsonStruct.C54_false_malformed",
    "JsonStruct.C54_false_change_base"
   ],
   "note": "holds for documents; false for malformed texts and for an empty base (witnesses)"
  },
  {
   "property": "C55",
   "status": "partial",
   "theorems": [
    "JsonStruct.C55_results_partial"
   ],
   "note": "as C31; results nested at most 254 deep"
  },
  {
   "property": "C56",
   "status": "partial",
   "theorems": [
    "JsonStruct.C56_success_partial",
    "JsonStruct.C56_false_for_maps"
   ],
   "note": "proved for every type without std::map and std::unordered_map, after any history, for any input; false for maps (witness)"
  },
  {
   "property": "C57",
   "status": "partial",
   "theorems": [
    "JsonStruct.C57_terminates_partial",
    "JsonStruct.C57_text_partial",
    "JsonStruct.C57_false_for_maps"
   ],
   "note": "proved for every type without std::map and std::unordered_map, after any history, for any input; false for maps: an object that breaks off behind a comma is read for ever"
  },
  {
   "property": "C58",
   "status": "partial",
   "theorems": [
    "JsonStruct.C58_one_line_partial",
    "JsonStruct.C58_several_lines_partial",
    "JsonStruct.C58_false_one_right",
    "JsonStruct.C58_false_first_line",
    "JsonStruct.C58_false_not_shown",
    "JsonStruct.C58_false_twice"
   ],
   "note": "proved for reports of one line; false for reports of several lines, where the column is proved to be one too large or that of the report before, and for functions called from JSON (witnesses)"
  },
  {
   "property": "C59",
   "status": "partial",
   "theorems": [
    "JsonStruct.C59_exact_partial",
    "JsonStruct.C59_float_exact_partial",
    "JsonStruct.C59_defined_partial",
    "JsonStruct.C59_gentle_partial",
    "JsonStruct.C59_float_gentle_partial",
    "JsonStruct.C59_false_zeros",
    "JsonStruct.C59_false_shift",
    "JsonStruct.C59_float_defined_partial",
    "JsonStruct.C59_false_float",
    "JsonStruct.C60_nearest_partial",
    "JsonStruct.C60_nearest_long_partial"
   ],
   "note": "false for some texts that start with 0: division by zero and shift by more than 63 (witnesses); proved for every text that starts with neither 0 nor a point, and for every text without exponent whose first 19 digits are not all 0 where there are more (for floats: of less than 2^30 bytes); for JSON numbers it is proved exactly which ones cannot be read (C59_exact_partial)"
  },
  {
   "property": "C60",
   "status": "partial",
   "theorems": [
    "JsonStruct.C60_nearest_partial",
    "JsonStruct.C60_integers_partial",
    "JsonStruct.C60_nearest_long_partial",
    "JsonStruct.C60_false_large_exponent",
    "JsonStruct.C60_false_long_integer",
    "JsonStruct.C60_false_leading_zeros",
    "JsonStruct.C60_false_long_fraction"
   ],
   "note": "false for long integers and long fractions (witnesses), and for every number that starts with 0 and has an exponent above 308; proved for all other numbers of up to 19 digits whose reading is defined, and up to three units of the 19th digit for more"
  },
  {
   "property": "C61",
   "status": "partial",
   "theorems": [
    "JsonStruct.C61_nearest_partial",
    "JsonStruct.C61_false_overflow",
    "JsonStruct.C61_false_underflow",
    "JsonStruct.C61_false_digits"
   ],
   "note": "false next to the overflow and underflow thresholds, for long integers and for leading zeros with a large exponent (witnesses); proved with ties to even for every other number with up to 19 digits in front of the point"
  },
  {
   "property": "C62",
   "status": "partial",
   "theorems": [
    "JsonStruct.C62_high_resolution_partial",
    "JsonStruct.C62_before_epoch_partial",
    "JsonStruct.C62_other_clocks_partial",
    "JsonStruct.C62_false_close_to_epoch",
    "JsonStruct.C62_false_before_epoch",
    "JsonStruct.C62_false_2286",
    "JsonStruct.C62_false_overflow",
    "JsonStruct.C62_defined_partial"
   ],
   "note": "proved for the high resolution clock from 1973 on and for other clocks from 1973 to 2286; false close to the epoch, for some times before it, and after 2286 (witnesses)"
  },
  {
   "property": "C63",
   "status": "partial",
   "theorems": [
    "JsonStruct.C63_names_partial",
    "JsonStruct.C63_round_trip_partial",
    "JsonStruct.C63_false_underscore"
   ],
   "note": "proved for identifiers that do not start with an underscore; false for those (witness)"
  },
  {
   "property": "C64",
   "status": "partial",
   "theorems": [
    "JsonStruct.C64_missing_partial",
    "JsonStruct.C64_accessors_partial",
    "JsonStruct.C64_count_partial",
    "JsonStruct.C28_false_scalar_root"
   ],
   "note": "proved for all arrays and objects without two members of the same name; scalar roots are not compared by the code (witness)"
  },
  {
   "property": "C65",
   "status": "proved",
   "theorems": [
    "JsonStruct.C65_accepted_texts",
    "JsonStruct.C65_one_reading",
    "JsonStruct.C65_otherwise"
   ],
   "note": "both directions, for all bytes and options; the grammar (Spec/Lenient) shows how far beyond RFC 8259 the tokenizer goes"
  },
  {
   "property": "C66",
   "status": "partial",
   "theorems": [
    "JsonStruct.C66_up_to_an_error_partial",
    "JsonStruct.C66_all_calls",
    "JsonStruct.C66_same_tokens_partial",
    "JsonStruct.C66_same_tokens_no_error",
    "JsonStruct.C66_white_space",
    "JsonStruct.C66_comments",
    "JsonStruct.C66_commas",
    "JsonStruct.C66_reformatted",
    "JsonStruct.C66_split_partial",
    "JsonStruct.C66_split_no_error_partial",
    "JsonStruct.C66_callback_partial",
    "JsonStruct.C66_callback_no_error_partial",
    "JsonStruct.C66_simd_partial",
    "JsonStruct.C66_false_for_maps",
    "JsonStruct.C66_false_for_tokens"
   ],
   "note": "all types if the tokenizer reports nothing but the end of the text; else types without maps, which read on behind an error, and JsonTokens keep the token of the failed call (negations)"
  },
  {
   "property": "C67",
   "status": "proved",
   "theorems": [
    "JsonStruct.C67_release_in_order",
    "JsonStruct.C67_each_once",
    "JsonStruct.C67_token_not_released"
   ],
   "note": ""
  },
  {
   "property": "C68",
   "status": "partial",
   "theorems": [
    "JsonStruct.C68_tokens",
    "JsonStruct.C68_one_by_one",
    "JsonStruct.C68_round_trip_partial",
    "JsonStruct.C68_buffers_partial",
    "JsonStruct.C68_not_with_commas"
   ],
   "note": "white space between the documents, no commas (negation); scalars at the root are not accepted (C01_false_root_scalar); the round trip has the conditions of C01, the cuts those of C09"
  },
  {
   "property": "C69",
   "status": "partial",
   "theorems": [
    "JsonStruct.C69_false_shortest",
    "JsonStruct.C69_false_nearest",
    "JsonStruct.C69_double_partial",
    "JsonStruct.C69_float_partial",
    "JsonStruct.C69_double_kept_partial",
    "JsonStruct.C69_float_kept_partial"
   ],
   "note": "false at the ends of the range of numbers that round to a value: 808.488 is written as 808.4880000000001; proved for decimal numbers within 94 percent of that range, for every finite double and float; the nearest is not always chosen"
  },
  {
   "property": "C70",
   "status": "partial",
   "theorems": [
    "JsonStruct.C70_false_twice",
    "JsonStruct.C70_what_is_defined_is_exact",
    "JsonStruct.C70_one_value_partial",
    "JsonStruct.C70_again_is_undefined"
   ],
   "note": "false: a write behind a flush leaves the string unless its length is the first length times a power of two; what is defined is exact; proved for one value and any number of flushes"
  },
  {
   "property": "C71",
   "status": "partial",
   "theorems": [
    "JsonStruct.C71_unknown_partial",
    "JsonStruct.C71_unassigned_partial",
    "JsonStruct.C71_names_the_error_partial",
    "JsonStruct.C71_false_untracked",
    "JsonStruct.C71_false_nested",
    "JsonStruct.C71_false_used_before"
   ],
   "note": "false without tracking, for objects inside of the object and for contexts used before; proved for a new context that tracks names, and the name of the error for all other errors"
  },
  {
   "property": "C72",
   "status": "proved",
   "theorems": [
    "JsonStruct.C72_tokens",
    "JsonStruct.C72_read_alike",
    "JsonStruct.C72_written",
    "JsonStruct.C72_not_before_comma_or_colon"
   ],
   "note": "line breaks in front of a comma or colon are not covered by the property; the witnesses show that they are rejected. C01, C22, C38, C50 and C63 use C72_written to include the option"
  },
  {
   "property": "C73",
   "status": "partial",
   "theorems": [
    "JsonStruct.C73_messages_partial",
    "JsonStruct.C73_own_error_partial",
    "JsonStruct.C73_own_text",
    "JsonStruct.C73_report",
    "JsonStruct.C73_written_report",
    "JsonStruct.C73_false_text_of_another_call",
    "JsonStruct.C73_false_errors_are_not_read"
   ],
   "note": "false for a call that fails without a text after one that set a text: its message names NoError and the text of the other call (witness); proved: exactly how every message begins, in any context; with the own error if no texts are set; the JSON of the report for every list of records"
  },
  {
   "property": "C74",
   "status": "partial",
   "theorems": [
    "JsonStruct.C74_numbers_partial",
    "JsonStruct.C74_same_value_partial",
    "JsonStruct.C74_tolerance_partial",
    "JsonStruct.C74_symmetric",
    "JsonStruct.C74_documents_partial",
    "JsonStruct.C74_same_document_partial",
    "JsonStruct.C74_false_range",
    "JsonStruct.C74_false_small",
    "JsonStruct.C74_false_transitive",
    "JsonStruct.C74_false_integers"
   ],
   "note": "false for numbers outside of the range of the normal doubles: the comparison throws (witnesses); proved for all numbers in that range and for the documents made of them; symmetry holds for all texts; that it is not transitive, and that different integers can be equal, is shown as well"
  },
  {
   "property": "C75",
   "status": "partial",
   "theorems": [
    "JsonStruct.C75_written_is_json_partial",
    "JsonStruct.C75_written_structure_partial",
    "JsonStruct.C75_false_keys"
   ],
   "note": "all types but captured tokens (C49), values at most 255 deep; false for names and keys that need escapes (witness) and strings with other control characters (C51)"
  },
  {
   "property": "C76",
   "status": "partial",
   "theorems": [
    "JsonStruct.C76_unmentioned_kept_partial",
    "JsonStruct.C76_members_independent_partial",
    "JsonStruct.C76_false_same_name",
    "JsonStruct.C76_false_string"
   ],
   "note": "no string member is given an array or an object (negation by witness); members are different parts of the struct with different names (negation for the same name)"
  },
  {
   "property": "C77",
   "status": "partial",
   "theorems": [
    "JsonStruct.C77_reading_replaces_partial",
    "JsonStruct.C77_false_map",
    "JsonStruct.C77_false_nullable",
    "JsonStruct.C77_false_one_or_many",
    "JsonStruct.C77_false_unassigned",
    "JsonStruct.C77_false_error"
   ],
   "note": "proved for the types of Spec/Replace: scalars, strings, arrays, sets, optionals, pointers, tuples, and structs without optional members of which none is reported unassigned; false for maps, Nullable, OneOrMany, structs with unassigned members, and after an error (witnesses)"
  },
  {
   "property": "C78",
   "status": "partial",
   "theorems": [
    "JsonStruct.C78_tokens_stay",
    "JsonStruct.C78_errors_stay_partial",
    "JsonStruct.C78_values_stay_partial",
    "JsonStruct.C78_false_slash"
   ],
   "note": "tokens: proved for all texts and options. Errors: proved except where comments are allowed and the text ends with a slash (witness). Values: proved for types without maps, and for all types where the tokenizer finds nothing wrong with the beginning but its end"
  },
  {
   "property": "C79",
   "status": "partial",
   "theorems": [
    "JsonStruct.C79_cut_off_partial",
    "JsonStruct.C79_cut_off_reported_partial",
    "JsonStruct.C79_lenient_partial",
    "JsonStruct.C79_torn_output_partial",
    "JsonStruct.C79_false_string"
   ],
   "note": "proved for all types, maps included (which may read for ever, C57), where no string is given an array or an object (false there, witness); with maps, cuts behind a slash are left out where comments are allowed"
  },
  {
   "property": "C80",
   "status": "partial",
   "theorems": [
    "JsonStruct.C80_defined_partial",
    "JsonStruct.C80_numbers_partial",
    "JsonStruct.C80_map_partial",
    "JsonStruct.C59_gentle_partial",
    "JsonStruct.C59_float_gentle_partial",
    "JsonStruct.C62_defined_partial",
    "JsonStruct.C80_false_map",
    "JsonStruct.C80_false_numbers"
   ],
   "note": "proved for all types without JS::Map where numbers and time points can be read from the texts without undefined operations (all texts, for types without floating point numbers and time points), and for a JS::Map at the top; false for a JS::Map in a std::array or a tuple, and for the texts of C59 and C62 (witnesses); uninitialised variables are the subject of C82"
  },
  {
   "property": "C81",
   "status": "partial",
   "theorems": [
    "JsonStruct.C81_alive_partial",
    "JsonStruct.C81_false_replaced",
    "JsonStruct.C81_false_freed",
    "JsonStruct.setValue_owned"
   ],
   "note": "proved for all histories in which no scalar in front of an array or object is replaced, values are represented exactly and texts are documents with an object; false otherwise (the defect of C27), with a history that leads to a use after free; exhausted memory and indices beyond int are not modelled"
  },
  {
   "property": "C82",
   "status": "partial",
   "theorems": [
    "JsonStruct.C82_inside",
    "JsonStruct.C82_initialised_partial",
    "JsonStruct.C82_literals",
    "JsonStruct.C82_same",
    "JsonStruct.C82_false_pair"
   ],
   "note": "reads within the string: proved for all byte sequences. Reads of written variables: proved where four hexadecimal digits follow every backslash u (so for every literal of RFC 8259), false otherwise (witness)"
  },
  {
   "property": "C83",
   "status": "proved",
   "theorems": [
    "JsonStruct.C83_element"
   ],
   "note": "for all lengths; the types of the elements are one type in the model"
  },
  {
   "property": "C84",
   "status": "proved",
   "theorems": [
    "JsonStruct.C84_literal",
    "JsonStruct.C84_false_cut_off"
   ],
   "note": "a text that is cut off is not a document, and there the two differ (C84_false_cut_off)"
  },
  {
   "property": "C85",
   "status": "proved",
   "theorems": [
    "JsonStruct.C85_first_child"
   ],
   "note": "counters unbounded in the model (uint32_t in C++)"
  },
  {
   "property": "C86",
   "status": "partial",
   "theorems": [
    "JsonStruct.C86_last_values_partial",
    "JsonStruct.C86_always_json_partial",
    "JsonStruct.C86_false_order",
    "JsonStruct.C86_false_style"
   ],
   "note": "false: setShiftSize behind setDepth leaves the old indentation, and setStyle does not adapt the shift size, so that setStyle(Compact) on default options still writes new lines (witnesses); proved for all other orders, and that the output is JSON for every order"
  },
  {
   "property": "C87",
   "status": "proved",
   "theorems": [
    "JsonStruct.C87_strict",
    "JsonStruct.C87_success"
   ],
   "note": "all types, all contexts with any history, all inputs, well formed or not"
  },
  {
   "property": "C88",
   "status": "partial",
   "theorems": [
    "JsonStruct.C88_ends_partial",
    "JsonStruct.C88_success_partial",
    "JsonStruct.C88_values_stay_partial",
    "JsonStruct.C88_all_calls",
    "JsonStruct.C88_same_tokens_no_error",
    "JsonStruct.C88_white_space",
    "JsonStruct.C88_same_tokens_partial",
    "JsonStruct.C88_strict",
    "JsonStruct.C88_around",
    "JsonStruct.C88_false_hidden",
    "JsonStruct.C88_false_strict",
    "JsonStruct.C88_module_list_full"
   ],
   "note": "all programs over tokens, with loops and calls of other handlers; types with std::map are left out where C56, C57 and C78 leave them out; false for handlers that hide errors (witnesses)"
  },
  {
   "property": "C89",
   "status": "partial",
   "theorems": [
    "JsonStruct.C89_round_trip_partial",
    "JsonStruct.C89_strict_partial",
    "JsonStruct.C89_module_list",
    "JsonStruct.C89_vec3",
    "JsonStruct.C89_readme",
    "JsonStruct.C89_false_full",
    "JsonStruct.C89_required_types"
   ],
   "note": "all handlers that read back what they write, in all types of C01; the values left out are those of C01; false for a full list with the handler in examples/01"
  },
  {
   "property": "C90",
   "status": "partial",
   "theorems": [
    "JsonStruct.C90_captured_partial",
    "JsonStruct.C90_success_partial",
    "JsonStruct.C90_around",
    "JsonStruct.C90_false_for_maps",
    "JsonStruct.C90_false_recording_left",
    "JsonStruct.C90_false_member_twice"
   ],
   "note": "all types with raw captures but those with std::map, all histories; false for maps (as C56), after an error (a recording to a variable that is gone), and for a name that occurs twice (the string holds both values)"
  },
  {
   "property": "C91",
   "status": "partial",
   "theorems": [
    "JsonStruct.C91_captures_partial",
    "JsonStruct.C91_every_document",
    "JsonStruct.C91_remembered",
    "JsonStruct.C91_parsed_later",
    "JsonStruct.C91_required_types"
   ],
   "note": "all documents and types, maps included; not with new lines as separators, and one buffer (cuts: C90)"
  },
  {
   "property": "C92",
   "status": "partial",
   "theorems": [
    "JsonStruct.C92_round_trip_partial",
    "JsonStruct.C92_strict_partial",
    "JsonStruct.C92_root",
    "JsonStruct.C92_false_empty",
    "JsonStruct.C92_false_empty_ref",
    "JsonStruct.C92_false_blanks"
   ],
   "note": "texts that begin with a bracket, at most 255 levels without the captures, not with new lines as separators; captures must hold texts of JSON values: empty ones and blanks around the text do not survive"
  },
  {
   "property": "C93",
   "status": "partial",
   "theorems": [
    "JsonStruct.C93_load_save_load_partial",
    "JsonStruct.C93_loaded_values",
    "JsonStruct.C93_sorted",
    "JsonStruct.C93_appending",
    "JsonStruct.C93_false_infinity",
    "JsonStruct.C93_false_enumerator",
    "JsonStruct.C93_false_full_array",
    "JsonStruct.C93_false_empty_key",
    "JsonStruct.C93_false_empty_element",
    "JsonStruct.C93_false_one_array"
   ],
   "note": "values written as arrays or objects at most 255 levels deep; the scalars of the last value must be ones that C01 writes exactly, elements of containers ones for which something is written; no JsonTokens and no JS::Map"
  },
  {
   "property": "C94",
   "status": "partial",
   "theorems": [
    "JsonStruct.C94_optional_checked_partial",
    "JsonStruct.C94_nullable_checked_partial",
    "JsonStruct.C94_false_access",
    "JsonStruct.C94_false_hidden",
    "JsonStruct.C94_false_refused"
   ],
   "note": "data is changed in place only where a value is present (C94_false_access shows why); a moved-from default value is a default value; for NullableChecked what is read into an empty variable must not depend on hidden data (C94_false_hidden)"
  },
  {
   "property": "C95",
   "status": "partial",
   "theorems": [
    "JsonStruct.C95_evolution_partial",
    "JsonStruct.C95_evolution_new_variable_partial",
    "JsonStruct.C95_members_partial",
    "JsonStruct.C95_false_unsigned",
    "JsonStruct.C95_false_set",
    "JsonStruct.C95_false_vector",
    "JsonStruct.C95_false_pointer",
    "JsonStruct.C95_false_many",
    "JsonStruct.C95_false_merged",
    "JsonStruct.C95_false_strict"
   ],
   "note": "for the changes listed in Spec/Evolve.lean, containers at the root, at most 255 levels, and with missing and unassigned members allowed; other changes lose data (C95_false_*)"
  },
  {
   "property": "C96",
   "status": "partial",
   "theorems": [
    "JsonStruct.C96_edited_partial",
    "JsonStruct.C96_unharmed_partial",
    "JsonStruct.C96_members_partial",
    "JsonStruct.C96_cast_partial",
    "JsonStruct.C96_last_partial",
    "JsonStruct.C96_one_call",
    "JsonStruct.C96_false_scalars"
   ],
   "note": "All declarations, values and histories of calls of setValue with values of the declared types; missing are further calls after one affected by the defect of C27 (a scalar is replaced in front of an array or object), for which it is false, and values written as nothing."
  }
 ]
}