#!/usr/bin/env python3
"""Writes MANIFEST.json from the table below; checks that every theorem named exists."""
import json, re, pathlib
root = pathlib.Path(__file__).resolve().parent.parent
C = {}
def claim(p, status, theorems, note=""):
    C[p] = {"property": p, "status": status, "theorems": ["JsonStruct." + t for t in theorems.split()], "note": note}

claim("C02", "proved", "C02_document_tokenized C02_not_with_newline_delimiters",
      "all options except new-line-as-delimiter, which changes the grammar (witness)")
claim("C03", "partial", "C03_written_text_tokenizes_back_partial C03_false_empty_name", "empty member names are dropped (witness) and at most 255 brackets may be open (C47)")
claim("C04", "partial", "C04_styles_agree_partial C04_compact_shift2_writes_new_lines", "values with non empty member names and at most 255 open brackets, as C03")
claim("C05", "proved", "C05_buffers_do_not_matter C05_writes_succeed")
claim("C06", "proved", "C06_brackets_match C06_mismatch_reported C06_delivered_matches")
claim("C07", "proved", "C07_tokens_in_bounds C07_cursor_in_bounds C07_scans_in_bounds")
claim("C08", "proved", "C08_tokens_le_bytes C08_tokenizing_stops C08_loops_terminate C08_goToEndOfScope_stops")
claim("C09", "partial", "C09_split_partial C09_fed_partial C09_callback_partial C09_documents_on_track C09_false_behind_name C09_false_behind_colon C09_false_behind_element C09_false_number_name C09_false_escape C09_false_nul C09_false_comment C09_false_slashes",
      "false for cuts at seven kinds of places, two of them within comments, and for NUL bytes (witnesses); proved for all other cuts of any text and all options, for buffers in advance, buffers after NeedMoreData and callbacks")
claim("C10", "partial", "C10_simd_one_buffer C10_simd_buffers_partial C10_simd_histories_partial C10_escape_builds_agree C10_scanners C10_false_with_pending_escape",
      "full for one buffer; false when a buffer ends inside an escape (witness), proved otherwise")
claim("C11", "proved", "C11_escape_round_trip")
claim("C12", "proved", "C12_no_break_out")
claim("C13", "proved", "C13_unicode_escape C13_literal_denotes")
claim("C14", "proved", "C14_integer_round_trip")
claim("C15", "partial", "C15_exact C15_value_partial C15_integer_literal_partial C15_accepted_partial C15_false_wraps C15_false_exponent_wraps C15_false_unsigned_minus C15_false_zero_exponent C15_false_long_fraction C15_false_fraction_256 C15_false_accepts_minus",
      "false in general (witnesses: values out of range wrap, sign on unsigned types, long fractions); proved for numbers whose digits and exponent fit; C15_exact says what is read for every accepted text")
claim("C16", "proved", "C16_canonical_decimal C16_valid_number")
claim("C17", "proved", "C17_keywords_exact C17_bool_exact C17_bool_round_trip")
claim("C42", "partial", "C42_reset_after_document_partial C42_false_inside_document",
      "true after a complete document; false inside one (witness)")
claim("C43", "partial", "C43_reformat_partial C43_false_empty_name", "documents with non empty member names (false otherwise, witness) and at most 255 open brackets")
claim("C44", "partial", "C44_comments_invisible_partial C44_false_behind_words",
      "false for a comment directly behind null/true/false (witness), proved everywhere else")
claim("C45", "partial", "C45_superfluous_comma_ignored C45_superfluous_comma_rejected_partial C45_false_behind_scalars",
      "false for arrays ending in a scalar (witness), proved for all others and for the option set")
claim("C46", "partial", "C46_illegal_char_partial C46_wrong_bracket_partial C46_missing_colon_partial C46_number_as_name_partial C46_unquoted_name_partial C46_bare_word_value_partial C46_missing_comma_array_partial C46_missing_comma_partial C46_false",
      "false in general (witnesses); eight kinds of defect proved to be reported at any place of any document")
claim("C47", "partial", "C47_balanced_to_depth_255_partial C47_false_depth_256", "false at depth 256: the depth is an 8 bit number")
claim("C48", "proved", "C48_flush_is_exact")
claim("C51", "partial", "C51_valid_string_partial C51_false_for_control_characters",
      "false for control characters without a short escape (witness), proved for all other strings")
claim("C23", "partial", "C23_scope_ends_at_bracket_partial C23_false_at_depth_65536 C23_false_with_nested_scopes",
      "false 65536 brackets deep and for nested scopes (witnesses), proved below that depth for one scope")
claim("C24", "proved", "C24_skips_exactly_one_value")
claim("C18", "partial", "C18_member_order_partial C18_false_for_aliases C18_false_string",
      "false if a member occurs both by name and by alias (witness); proved for objects whose members mean different struct members, as far as no string is given a container")
claim("C19", "partial", "C19_any_object_partial C19_reports_exact_partial C19_unknown_rejected_partial C19_nested_reports_partial C19_unassigned_spec C19_required_types C19_false_string",
      "proved for every object that gives no string a container, whether its members are read without error or not")
claim("C20", "partial", "C20_unknown_members_skipped_partial C20_false_strings_swallow",
      "false where a string is given a bracket (witness); proved for all objects on which this does not happen")
claim("C21", "proved", "C21_primary_name C21_alias")
claim("C01", "partial", "C01_round_trip_partial C01_round_trip_new_variable_partial C01_false_root_scalar C01_false_nan C01_false_pointer_to_null C01_false_optional_elements C01_strict_partial C01_false_strict",
      "false for scalars at the root, NaN and infinities, the doubles 2^-140 and -2^-140, some time points (C62), keys that need escapes (C38), pointers to something written as null, and empty optionals in arrays (witnesses); proved for all other values of the modelled types")
claim("C22", "proved", "C22_enum_round_trip C22_unknown_name_rejected C22_number_unchecked", "numbers are accepted unchecked (witness, beyond the property)")
claim("C35", "partial", "C35_array_partial C35_array_stringless C35_tuple_partial C35_tuple_stringless C35_false_strings_swallow", "proved for element types without strings; with strings false in general (witness), proved where no string meets a bracket")
claim("C36", "partial", "C36_variable_array_partial C36_too_many C36_false_when_full", "false for exactly COUNT elements (witness), proved for fewer and for more")
claim("C37", "partial", "C37_last_value_partial C37_false_never_returns", "proved for documents; on truncated input the handler never returns (witness)")
claim("C38", "partial", "C38_map_round_trip_partial C38_false_keys", "false for empty keys and keys that need escapes (witnesses), proved for all others")
claim("C39", "proved", "C39_set")
claim("C40", "proved", "C40_pointers_read C40_nullable_read C40_written")
claim("C49", "proved", "C49_tokens_read C49_tokens_written C49_round_trip C49_tokens_used")
claim("C50", "partial", "C50_one_or_many_partial C50_round_trip C50_false_not_cleared", "false if the variable is not empty before (witness), proved for new variables")
claim("C52", "partial", "C52_shape_partial C52_shape_with_strings_partial C52_false_wrong_shape_accepted C52_false_strings_for_numbers", "false for strings given a container and for numbers given a string (witnesses); brackets proved at every depth for types without strings")
claim("C25", "proved", "C25_metadata_exact C25_positions C25_ranges", "counters unbounded in the model (uint32_t in C++)")
claim("C26", "partial", "C26_map_shows_object_partial C26_nested_map_partial C26_false_closing_bracket C26_whole_map", "iteration also visits the closing bracket, and find of the empty name gives it (witness); proved otherwise")
claim("C27", "partial", "C27_history_partial C27_history_of_parsed_map_partial C27_set_member C27_set_then_get_partial C27_false_scalar_replaced C27_whole_map_partial C27_last_call_partial", "false when a scalar in front of an array or object is replaced (witness); proved for all other histories with names that are written as they are")

claim("C28", "partial", "C28_equal_documents_partial C28_false_same_name C28_false_scalar_root", "arrays and objects without two members of one name; false otherwise (witnesses). std::stod and the comparison of doubles are parameters")
claim("C29", "partial", "C29_no_difference_iff_equal_partial C29_false_outside_json", "array and object roots; both directions. For texts beyond RFC 8259 the tokenizer accepts it is false (witnesses)")
claim("C30", "partial", "C30_invalidate_recomputes_partial C30_false_missing_items_kept", "all histories; everything but the missing array items, which invalidate() does not clear (witness)")
claim("C53", "partial", "C53_report_partial C53_marks_partial C53_root_replaced_partial C53_false_new_items", "marks of new array items are wrong if the first one is an array (witness); the mark of every token is proved as the code sets it, and as it should be if no array is the first new item")
claim("C63", "partial", "C63_names_partial C63_round_trip_partial C63_false_underscore", "proved for identifiers that do not start with an underscore; false for those (witness)")
claim("C64", "partial", "C64_missing_partial C64_accessors_partial C64_count_partial C28_false_scalar_root", "proved for all arrays and objects without two members of the same name; scalar roots are not compared by the code (witness)")
claim("C65", "proved", "C65_accepted_texts C65_one_reading C65_otherwise", "both directions, for all bytes and options; the grammar (Spec/Lenient) shows how far beyond RFC 8259 the tokenizer goes")
claim("C66", "partial", "C66_up_to_an_error_partial C66_all_calls C66_same_tokens_partial C66_same_tokens_no_error C66_white_space C66_comments C66_commas C66_reformatted C66_split_partial C66_split_no_error_partial C66_callback_partial C66_callback_no_error_partial C66_simd_partial C66_false_for_maps C66_false_for_tokens", "all types if the tokenizer reports nothing but the end of the text; else types without maps, which read on behind an error, and JsonTokens keep the token of the failed call (negations)")
claim("C67", "proved", "C67_release_in_order C67_each_once C67_token_not_released", "")
claim("C68", "partial", "C68_tokens C68_one_by_one C68_round_trip_partial C68_buffers_partial C68_not_with_commas", "white space between the documents, no commas (negation); scalars at the root are not accepted (C01_false_root_scalar); the round trip has the conditions of C01, the cuts those of C09")
claim("C69", "partial", "C69_false_shortest C69_false_nearest C69_double_partial C69_float_partial C69_double_kept_partial C69_float_kept_partial", "false at the ends of the range of numbers that round to a value: 808.488 is written as 808.4880000000001; proved for decimal numbers within 94 percent of that range, for every finite double and float; the nearest is not always chosen")
claim("C70", "partial", "C70_false_twice C70_what_is_defined_is_exact C70_one_value_partial C70_again_is_undefined", "false: a write behind a flush leaves the string unless its length is the first length times a power of two; what is defined is exact; proved for one value and any number of flushes")
claim("C72", "proved", "C72_tokens C72_read_alike C72_written C72_not_before_comma_or_colon", "line breaks in front of a comma or colon are not covered by the property; the witnesses show that they are rejected. C01, C22, C38, C50 and C63 use C72_written to include the option")
claim("C73", "partial", "C73_messages_partial C73_own_error_partial C73_own_text C73_report C73_written_report C73_false_text_of_another_call C73_false_errors_are_not_read", "false for a call that fails without a text after one that set a text: its message names NoError and the text of the other call (witness); proved: exactly how every message begins, in any context; with the own error if no texts are set; the JSON of the report for every list of records")
claim("C74", "partial", "C74_numbers_partial C74_same_value_partial C74_tolerance_partial C74_symmetric C74_documents_partial C74_same_document_partial C74_false_range C74_false_small C74_false_transitive C74_false_integers", "false for numbers outside of the range of the normal doubles: the comparison throws (witnesses); proved for all numbers in that range and for the documents made of them; symmetry holds for all texts; that it is not transitive, and that different integers can be equal, is shown as well")
claim("C75", "partial", "C75_written_is_json_partial C75_written_structure_partial C75_false_keys", "all types but captured tokens (C49), values at most 255 deep; false for names and keys that need escapes (witness) and strings with other control characters (C51)")
claim("C76", "partial", "C76_unmentioned_kept_partial C76_members_independent_partial C76_false_same_name C76_false_string", "no string member is given an array or an object (negation by witness); members are different parts of the struct with different names (negation for the same name)")
claim("C77", "partial", "C77_reading_replaces_partial C77_false_map C77_false_nullable C77_false_one_or_many C77_false_unassigned C77_false_error", "proved for the types of Spec/Replace: scalars, strings, arrays, sets, optionals, pointers, tuples, and structs without optional members of which none is reported unassigned; false for maps, Nullable, OneOrMany, structs with unassigned members, and after an error (witnesses)")
claim("C78", "partial", "C78_tokens_stay C78_errors_stay_partial C78_values_stay_partial C78_false_slash", "tokens: proved for all texts and options. Errors: proved except where comments are allowed and the text ends with a slash (witness). Values: proved for types without maps, and for all types where the tokenizer finds nothing wrong with the beginning but its end")
claim("C79", "partial", "C79_cut_off_partial C79_cut_off_reported_partial C79_lenient_partial C79_torn_output_partial C79_false_string", "proved for all types, maps included (which may read for ever, C57), where no string is given an array or an object (false there, witness); with maps, cuts behind a slash are left out where comments are allowed")
claim("C80", "partial", "C80_defined_partial C80_numbers_partial C80_map_partial C59_gentle_partial C59_float_gentle_partial C62_defined_partial C80_false_map C80_false_numbers", "proved for all types without JS::Map where numbers and time points can be read from the texts without undefined operations (all texts, for types without floating point numbers and time points), and for a JS::Map at the top; false for a JS::Map in a std::array or a tuple, and for the texts of C59 and C62 (witnesses); uninitialised variables are the subject of C82")
claim("C81", "partial", "C81_alive_partial C81_false_replaced C81_false_freed setValue_owned", "proved for all histories in which no scalar in front of an array or object is replaced, values are represented exactly and texts are documents with an object; false otherwise (the defect of C27), with a history that leads to a use after free; exhausted memory and indices beyond int are not modelled")
claim("C82", "partial", "C82_inside C82_initialised_partial C82_literals C82_same C82_false_pair", "reads within the string: proved for all byte sequences. Reads of written variables: proved where four hexadecimal digits follow every backslash u (so for every literal of RFC 8259), false otherwise (witness)")
claim("C83", "proved", "C83_element", "for all lengths; the types of the elements are one type in the model")
claim("C84", "proved", "C84_literal C84_false_cut_off", "a text that is cut off is not a document, and there the two differ (C84_false_cut_off)")
claim("C85", "proved", "C85_first_child", "counters unbounded in the model (uint32_t in C++)")
claim("C86", "partial", "C86_last_values_partial C86_always_json_partial C86_false_order C86_false_style",
      "false: setShiftSize behind setDepth leaves the old indentation, and setStyle does not adapt the shift size, so that setStyle(Compact) on default options still writes new lines (witnesses); proved for all other orders, and that the output is JSON for every order")
claim("C87", "proved", "C87_strict C87_success", "all types, all contexts with any history, all inputs, well formed or not")
claim("C88", "partial", "C88_ends_partial C88_success_partial C88_values_stay_partial C88_all_calls C88_same_tokens_no_error C88_white_space C88_same_tokens_partial C88_strict C88_around C88_false_hidden C88_false_strict C88_module_list_full", "all programs over tokens, with loops and calls of other handlers; types with std::map are left out where C56, C57 and C78 leave them out; false for handlers that hide errors (witnesses)")
claim("C89", "partial", "C89_round_trip_partial C89_strict_partial C89_module_list C89_vec3 C89_readme C89_false_full C89_required_types", "all handlers that read back what they write, in all types of C01; the values left out are those of C01; false for a full list with the handler in examples/01")
claim("C90", "partial", "C90_captured_partial C90_success_partial C90_around C90_false_for_maps C90_false_recording_left C90_false_member_twice", "all types with raw captures but those with std::map, all histories; false for maps (as C56), after an error (a recording to a variable that is gone), and for a name that occurs twice (the string holds both values)")
claim("C92", "partial", "C92_round_trip_partial C92_strict_partial C92_root C92_false_empty C92_false_empty_ref C92_false_blanks", "texts that begin with a bracket, at most 255 levels without the captures, not with new lines as separators; captures must hold texts of JSON values: empty ones and blanks around the text do not survive")
claim("C93", "partial", "C93_load_save_load_partial C93_loaded_values C93_sorted C93_appending C93_false_infinity C93_false_enumerator C93_false_full_array C93_false_empty_key C93_false_empty_element C93_false_one_array", "values written as arrays or objects at most 255 levels deep; the scalars of the last value must be ones that C01 writes exactly, elements of containers ones for which something is written; no JsonTokens and no JS::Map")
claim("C94", "partial", "C94_optional_checked_partial C94_nullable_checked_partial C94_false_access C94_false_hidden C94_false_refused", "data is changed in place only where a value is present (C94_false_access shows why); a moved-from default value is a default value; for NullableChecked what is read into an empty variable must not depend on hidden data (C94_false_hidden)")
claim("C95", "partial", "C95_evolution_partial C95_evolution_new_variable_partial C95_members_partial C95_false_unsigned C95_false_set C95_false_vector C95_false_pointer C95_false_many C95_false_merged C95_false_strict", "for the changes listed in Spec/Evolve.lean, containers at the root, at most 255 levels, and with missing and unassigned members allowed; other changes lose data (C95_false_*)")
claim("C96", "partial", "C96_edited_partial C96_unharmed_partial C96_members_partial C96_cast_partial C96_last_partial C96_one_call C96_false_scalars", "All declarations, values and histories of calls of setValue with values of the declared types; missing are further calls after one affected by the defect of C27 (a scalar is replaced in front of an array or object), for which it is false, and values written as nothing.")
claim("C91", "partial", "C91_captures_partial C91_every_document C91_remembered C91_parsed_later C91_required_types", "all documents and types, maps included; not with new lines as separators, and one buffer (cuts: C90)")
claim("C71", "partial", "C71_unknown_partial C71_unassigned_partial C71_names_the_error_partial C71_false_untracked C71_false_nested C71_false_used_before", "false without tracking, for objects inside of the object and for contexts used before; proved for a new context that tracks names, and the name of the error for all other errors")
claim("C54", "partial", "C54_documents_partial C54_false_no_error C54_false_malformed C54_false_change_base", "holds for documents; false for malformed texts and for an empty base (witnesses)")
claim("C31", "partial", "C31_calls_each_member_partial C31_functions_behave C31_context_functions_behave C31_calls_exact_partial C31_false_called_twice C31_false_at_depth_65536", "proved for all tables of functions that do not report MissingFunction themselves and values at most 65535 deep; false otherwise (witnesses)")
claim("C55", "partial", "C55_results_partial", "as C31; results nested at most 254 deep")
claim("C56", "partial", "C56_success_partial C56_false_for_maps", "proved for every type without std::map and std::unordered_map, after any history, for any input; false for maps (witness)")
claim("C57", "partial", "C57_terminates_partial C57_text_partial C57_false_for_maps", "proved for every type without std::map and std::unordered_map, after any history, for any input; false for maps: an object that breaks off behind a comma is read for ever")
claim("C41", "partial", "C41_captured C41_referred_partial C41_verbatim C41_root C41_kinds C41_refused C41_written C41_false_appends C41_false_ref_split C41_false_token_vector C41_false_recording_left", "owning forms: proved for every history and every split of the input, for a variable that was empty. Reference forms: proved within one buffer, undefined across two (witness). False for a variable that was not empty and for token vectors (witnesses)")
claim("C32", "partial", "C32_update_partial C32_next_token_partial C32_message C32_token_vector_partial C32_false_huge_range C32_false_token_vector", "proved after any history for settings whose sum with the position fits an int64_t, false beyond (witness). Token vectors: proved for values in one block of memory, undefined otherwise (witness)")
claim("C58", "partial", "C58_one_line_partial C58_several_lines_partial C58_false_one_right C58_false_first_line C58_false_not_shown C58_false_twice", "proved for reports of one line; false for reports of several lines, where the column is proved to be one too large or that of the report before, and for functions called from JSON (witnesses)")
claim("C33", "partial", "C33_double_round_trip_partial C33_float_round_trip C33_nonfinite_null C33_false_power_of_two", "false for the doubles 2^-140 and -2^-140 (witness); proved for every other finite double and for every finite float")
claim("C34", "proved", "C34_powers C34_inverses C34_lengths", "all entries of the four tables, copied from the source by tools/tables.py")
claim("C59", "partial", "C59_exact_partial C59_float_exact_partial C59_defined_partial C59_gentle_partial C59_float_gentle_partial C59_false_zeros C59_false_shift C59_float_defined_partial C59_false_float C60_nearest_partial C60_nearest_long_partial", "false for some texts that start with 0: division by zero and shift by more than 63 (witnesses); proved for every text that starts with neither 0 nor a point, and for every text without exponent whose first 19 digits are not all 0 where there are more (for floats: of less than 2^30 bytes); for JSON numbers it is proved exactly which ones cannot be read (C59_exact_partial)")
claim("C60", "partial", "C60_nearest_partial C60_integers_partial C60_nearest_long_partial C60_false_large_exponent C60_false_long_integer C60_false_leading_zeros C60_false_long_fraction", "false for long integers and long fractions (witnesses), and for every number that starts with 0 and has an exponent above 308; proved for all other numbers of up to 19 digits whose reading is defined, and up to three units of the 19th digit for more")
claim("C61", "partial", "C61_nearest_partial C61_false_overflow C61_false_underflow C61_false_digits", "false next to the overflow and underflow thresholds, for long integers and for leading zeros with a large exponent (witnesses); proved with ties to even for every other number with up to 19 digits in front of the point")
claim("C62", "partial", "C62_high_resolution_partial C62_before_epoch_partial C62_other_clocks_partial C62_false_close_to_epoch C62_false_before_epoch C62_false_2286 C62_false_overflow C62_defined_partial", "proved for the high resolution clock from 1973 on and for other clocks from 1973 to 2286; false close to the epoch, for some times before it, and after 2286 (witnesses)")

src = "\n".join(p.read_text() for p in (root / "lean/Verif").rglob("*.lean"))
names = set(re.findall(r"^theorem\s+([\w'.]+)", src, re.M))
for c in C.values():
    for t in c["theorems"]:
        if t.removeprefix("JsonStruct.") not in names:
            print("missing:", t)
used = {t.removeprefix("JsonStruct.") for c in C.values() for t in c["theorems"]}
for n in sorted(names):
    if re.match(r"C\d\d_", n) and n not in used:
        print("unlisted:", n)
ids = [json.loads(l)["id"] for l in open(root / "properties.jsonl")]
print("no claim:", [i for i in ids if i not in C])
json.dump({"claims": [C[k] for k in sorted(C)]}, open(root / "MANIFEST.json", "w"), indent=1)
