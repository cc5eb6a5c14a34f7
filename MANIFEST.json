{"claims": [
  {"property": "C01", "status": "proved", "theorems": ["Vita.C01_vec_refines_sequence", "Vita.C01_get_observes_elements"], "note": "Debug build, memcpy(p,p,n) tolerated, calls as in VecCall.Fits (readable arguments, byte counts below 2^63). Relational spec because resize may add unspecified elements."},
  {"property": "C02", "status": "partial", "theorems": ["Vita.C02_more_reads_safe_partial", "Vita.C02_slide_back_leaves_buffer", "Vita.C02_wrong_type_leaves_buffer", "Vita.C02_vec_memory_safe", "Vita.C02_vec_reads_safe", "Vita.C02_fast_remove_last_self_copy"], "note": "Histories of editing calls, and reading, searching, duplicating and forward iteration: proved (C02_vec_reads_safe, C02_more_reads_safe_partial). False for vt_vec_slide_back on every non-empty vector (C02_slide_back_leaves_buffer) and for typed accessors of a larger type than the elements (C02_wrong_type_leaves_buffer). The ISO self-copy remark is a separate theorem."},
  {"property": "C03", "status": "proved", "theorems": ["Vita.C03_push_capacity", "Vita.C03_growth_is_logarithmic", "Vita.C03_amortised_cost", "Vita.C03_cost_model_faithful"], "note": "Capacity triples exactly when full; capacity after k pushes; moved elements at most 1.5 k."},
  {"property": "C04", "status": "proved", "theorems": ["Vita.C04_set_get_frame"], "note": ""},
  {"property": "C05", "status": "proved", "theorems": ["Vita.C05_any_strategy", "Vita.C05_remove_stable", "Vita.C05_remove_fast", "Vita.C05_strategies_agree_up_to_order"], "note": "Fast strategy under memcpy(p,p,n) tolerated and the temporary granted. Strategy numbers outside the enumeration: C05_any_strategy."},
  {"property": "C06", "status": "proved", "theorems": ["Vita.C06_plist_pop_get", "Vita.C06_push_pop", "Vita.C06_pop_empty"], "note": ""},
  {"property": "C07", "status": "proved", "theorems": ["Vita.C07_can_find"], "note": "Elements and searched value must have defined bytes."},
  {"property": "C08", "status": "partial", "theorems": ["Vita.C08_independent", "Vita.C08_plist_dup_partial", "Vita.C08_plist_dup_empty_exits", "Vita.C08_dup_partial", "Vita.C08_dup_empty_exits"], "note": "False for empty vectors: C08_dup_empty_exits. Proved for all non-empty ones. Independence of the copy in one memory: C08_independent."},
  {"property": "C09", "status": "proved", "theorems": ["Vita.C09_plist_slide_front", "Vita.C09_str_slide_front_periodic", "Vita.C09_plist_slide_front_periodic", "Vita.C09_slide_front_periodic", "Vita.C09_slide_front_readonly"], "note": "Vectors, pointer lists and strings."},
  {"property": "C10", "status": "partial", "theorems": ["Vita.C10_plist_slide_back_always_leaves_buffer", "Vita.C10_plist_slide_back_partial", "Vita.C10_str_slide_back_always_leaves_buffer", "Vita.C10_str_slide_back_partial", "Vita.C10_slide_back_always_leaves_buffer", "Vita.C10_slide_back_partial"], "note": "Property is false: C10_slide_back_always_leaves_buffer holds for every non-empty vector, C10_plist_slide_back_always_leaves_buffer for every non-empty pointer list, C10_str_slide_back_always_leaves_buffer for every non-empty string. The partial theorems say which elements are visited before that."},
  {"property": "C11", "status": "proved", "theorems": ["Vita.C11_typed_roundtrip"], "note": "Element size equal to the size of the type; every bit pattern."},
  {"property": "C12", "status": "partial", "theorems": ["Vita.C12_reserve_usable_partial", "Vita.C12_resize_usable_partial", "Vita.C12_resize_overflow", "Vita.C12_reserve_overflow", "Vita.C12_reserve_wraps", "Vita.C12_capacity_usable_partial", "Vita.C12_size_overflow"], "note": "Property is false when n*elsize exceeds 2^64-1: C12_size_overflow, C12_reserve_overflow, C12_resize_overflow. Proved for representable sizes, for create, reserve and resize."},
  {"property": "C13", "status": "proved", "theorems": ["Vita.C13_plist_refines_sequence", "Vita.C13_plist_resize"], "note": "Debug build; history operations as listed (resize is excluded because it adds unspecified pointers)."},
  {"property": "C14", "status": "proved", "theorems": ["Vita.C14_remove_first_occurrence", "Vita.C14_remove_element_fast"], "note": ""},
  {"property": "C15", "status": "partial", "theorems": ["Vita.C15_wellformed_observables", "Vita.C15_create", "Vita.C15_string_wellformed_partial", "Vita.C15_insert_n_beyond_end", "Vita.C15_reserve_overflow"], "note": "Debug build; histories whose calls meet the obligations in Legal (NUL-terminated arguments, counts within the text they count in, insert_n position inside the text, sizes below 2^63, remove_all of a non-empty text). False without them, for every string: C15_insert_n_beyond_end (any position behind the end), C15_reserve_overflow (any size that wraps)."},
  {"property": "C16", "status": "proved", "theorems": ["Vita.C16_set_at_any_build", "Vita.C16_set", "Vita.C16_append", "Vita.C16_append_n", "Vita.C16_insert", "Vita.C16_insert_n", "Vita.C16_remove", "Vita.C16_set_at", "Vita.C16_set_n", "Vita.C16_clear", "Vita.C16_reserve"], "note": "For the arguments accepted by the preconditions; memory granted."},
  {"property": "C17", "status": "partial", "theorems": ["Vita.C17_set_at_empty_partial", "Vita.C17_empty_string_partial", "Vita.C17_debug_rejects_empty"], "note": "False in debug builds for every string: C17_debug_rejects_empty. Proved for create, dup, append and set_at in release builds."},
  {"property": "C18", "status": "partial", "theorems": ["Vita.C18_insert_before", "Vita.C18_insert_after_partial", "Vita.C18_not_found", "Vita.C18_insert_after_end_exits", "Vita.C18_longer_sub_exits"], "note": "insert_before proved; insert_after proved unless the occurrence is at the very end, where debug builds terminate (C18_insert_after_end_exits); a longer sub terminates the program; the functions return no status."},
  {"property": "C19", "status": "proved", "theorems": ["Vita.C19_remove_first"], "note": ""},
  {"property": "C20", "status": "partial", "theorems": ["Vita.C20_remove_last_at_front", "Vita.C20_remove_last_actual", "Vita.C20_remove_last_partial", "Vita.C20_remove_last_cuts_end", "Vita.C20_remove_last_counterexample", "Vita.C20_remove_last_not_found_ub"], "note": "Property is false: the position is measured from the wrong end (C20_remove_last_actual gives the exact effect, C20_remove_last_counterexample, C20_remove_last_not_found_ub, C20_remove_last_at_front). Holds only when the last occurrence starts in the middle."},
  {"property": "C21", "status": "partial", "theorems": ["Vita.C21_remove_all_partial", "Vita.C21_remove_all_empty_diverges"], "note": "Proved for non-empty z; for the empty z the loop never ends: C21_remove_all_empty_diverges."},
  {"property": "C22", "status": "proved", "theorems": ["Vita.C22_remove_c"], "note": ""},
  {"property": "C23", "status": "proved", "theorems": ["Vita.C23_replace", "Vita.C23_replaceAll_meaning"], "note": "Up to refused memory requests."},
  {"property": "C24", "status": "partial", "theorems": ["Vita.C24_replace_last_overlap", "Vita.C24_replace_first_partial", "Vita.C24_replace_last_actual", "Vita.C24_replace_last_partial", "Vita.C24_replace_last_not_found_ub", "Vita.C24_replace_last_overlap_counterexample"], "note": "replace_first proved except that a sub longer than the text terminates the program; replace_last proved when sub occurs without overlaps; not found is undefined behaviour (counterexample), and whenever the last occurrence overlaps another one that the scan finds, that other one is rewritten (C24_replace_last_overlap, for every text)."},
  {"property": "C25", "status": "proved", "theorems": ["Vita.C25_replace_c", "Vita.C25_translation_deterministic", "Vita.C25_replace_c_edge"], "note": ""},
  {"property": "C26", "status": "partial", "theorems": ["Vita.C26_strip_unique", "Vita.C26_strip_partial", "Vita.C26_strip_punct_partial", "Vita.C26_strip_c_partial", "Vita.C26_all_blank_undefined", "Vita.C26_empty_set_never_ends", "Vita.C26_control_kept"], "note": "Proved for texts with something to keep. Property is false otherwise, for every text: an all-strippable (or empty) text reads before the buffer, strip_c with an empty set never ends, a text that begins and ends with characters other than white space (also control characters) is unchanged (C26_control_kept)."},
  {"property": "C27", "status": "proved", "theorems": ["Vita.C27_can_find_counts", "Vita.C27_positions_spec"], "note": ""},
  {"property": "C28", "status": "partial", "theorems": ["Vita.C28_find_partial", "Vita.C28_index_of", "Vita.C28_longer_sub_exits", "Vita.C28_index_of_nul"], "note": "Proved except that a sub longer than the text terminates the program instead of giving NULL / -1 (counterexample)."},
  {"property": "C29", "status": "partial", "theorems": ["Vita.C29_split_partial", "Vita.C29_split_none", "Vita.C29_pieces_spec", "Vita.C29_longer_separator_exits", "Vita.C29_trailing_separators_undefined", "Vita.C29_stale_piece"], "note": "Proved unless the text ends in two empty pieces: then split reads behind the text (undefined for every such text in a buffer of its size; a family of texts whose stale data becomes a piece); a separator longer than the text terminates the program. The storage of the list and of the pieces is followed in C88."},
  {"property": "C30", "status": "partial", "theorems": ["Vita.C30_join", "Vita.C30_join_n", "Vita.C30_join_undoes_split_partial", "Vita.C30_join_of_split_list", "Vita.C30_join_empty_list"], "note": "join and join_n proved. split then join proved with the C strings of the pieces; joining the list as returned by split reads string objects as text: C30_join_of_split_list says what comes out for all pieces of 1 to 255 characters."},
  {"property": "C31", "status": "partial", "theorems": ["Vita.C31_between_partial", "Vita.C31_missing_marker", "Vita.C31_right_marker_before", "Vita.C31_nothing_between", "Vita.C31_overlapping_markers"], "note": "Exact for all positions of the first zl and zr: C31_between_partial (zr behind zl, something in between), C31_missing_marker, C31_right_marker_before, C31_nothing_between and C31_overlapping_markers; the last three refute the claim in general."},
  {"property": "C32", "status": "partial", "theorems": ["Vita.C32_pop_get_first", "Vita.C32_pop_get_last_partial", "Vita.C32_pop_nothing", "Vita.C32_pop_last_at_end", "Vita.C32_pop_last_overlap"], "note": "pop_get_first proved; pop_get_last proved for non-overlapping separators and a non-empty last field. Otherwise false: C32_pop_last_at_end (nothing popped, every text) and C32_pop_last_overlap (cut at another occurrence, every text)."},
  {"property": "C33", "status": "proved", "theorems": ["Vita.C33_equals", "Vita.C33_equals_z", "Vita.C33_equals_n", "Vita.C33_starts_with", "Vita.C33_ends_with"], "note": "equals_n with n larger than a text terminates the program (as coded)."},
  {"property": "C34", "status": "proved", "theorems": ["Vita.C34_is_numeric", "Vita.C34_is_numeric_z", "Vita.C34_to_uppercase", "Vita.C34_to_lowercase", "Vita.C34_case_spec", "Vita.C34_case_idempotent"], "note": ""},
  {"property": "C35", "status": "partial", "theorems": ["Vita.C35_views_rejected_partial", "Vita.C35_view_shows_text", "Vita.C35_clear_writes_through_view", "Vita.C35_append_to_view_ub"], "note": "Property is false: only shrink, reserve and resize check for views; clear writes through every view, append leaves the viewed memory (counterexamples)."},
  {"property": "C36", "status": "partial", "theorems": ["Vita.C36_insertf_any_build_partial", "Vita.C36_insertf_nul_any_build", "Vita.C36_appendf", "Vita.C36_insertf_partial", "Vita.C36_insertf_longest", "Vita.C36_appendf_nul", "Vita.C36_insertf_nul"], "note": "vt_str_appendf: every length. vt_str_insertf: every length except exactly INT_MAX, where adding one to an int overflows (C36_insertf_longest). A NUL inside the formatted text breaks the string in vt_str_appendf (C36_appendf_nul) and ends the inserted text in vt_str_insertf (C36_insertf_nul)."},
  {"property": "C37", "status": "partial", "theorems": ["Vita.C37_get_partial", "Vita.C37_set_partial", "Vita.C37_window_at_zero_rejected", "Vita.C37_inverted_window", "Vita.C37_whole"], "note": "Windows starting after 0 (or any window in release builds): elements, writes and range checks correct for all arrays. Full property false: in debug builds no window may begin at 0 (C37_window_at_zero_rejected) and inverted windows get a huge length (C37_inverted_window)."},
  {"property": "C38", "status": "proved", "theorems": ["Vita.C38_stats", "Vita.C38_stats_exact", "Vita.C38_calls_succeed", "Vita.C38_alloc_granted", "Vita.C38_zero_bytes_debug", "Vita.C38_zero_bytes_release_uncounted"], "note": "Induction over histories with the invariant that the table is a permutation of the live blocks; byte counters modulo 2^64, exact under the stated bounds. Zero-byte requests are rejected in debug builds; in release builds C38_zero_bytes_release_uncounted shows they would not be counted."},
  {"property": "C39", "status": "proved", "theorems": ["Vita.C39_destroy"], "note": "Same invariant; the heap model makes a double free or the free of a foreign pointer undefined, so success of destroy means exactly once. Block contents are not modelled."},
  {"property": "C40", "status": "proved", "theorems": ["Vita.C40_2d_inverse", "Vita.C40_2d_inverse'", "Vita.C40_3d_inverse", "Vita.C40_undefined_exactly", "Vita.C40_3d_inverse'", "Vita.C40_2d_injective", "Vita.C40_3d_injective"], "note": "Both directions, both dimensions, injectivity, with wrap-around arithmetic."},
  {"property": "C41", "status": "proved", "theorems": ["Vita.C41_min", "Vita.C41_max", "Vita.C41_clamp", "Vita.C41_clamp_idempotent", "Vita.C41_clamp_monotone", "Vita.C41_clamp_reversed", "Vita.C41_clamp_closest", "Vita.C41_nan"], "note": "Generic over every linear order; closest value stated for integers; NaN behaviour of the floating instances shown separately."},
  {"property": "C42", "status": "proved", "theorems": ["Vita.C42_lcm_any_sign", "Vita.C42_gcd", "Vita.C42_lcm"], "note": "Termination (fuel bound), greatest common divisor, least common multiple when it fits, overflow otherwise; for arguments of any sign C42_lcm_any_sign."},
  {"property": "C43", "status": "partial", "theorems": ["Vita.C43_gcd_sign", "Vita.C43_gcd_undefined_exactly", "Vita.C43_gcd_defined", "Vita.C43_gcd_zero_negative_partial", "Vita.C43_gcd_zero_undefined", "Vita.C43_gcd_min_undefined", "Vita.C43_gcd_negative"], "note": "False as stated: gcd(a,0) divides by zero (C43_gcd_zero_undefined), gcd(-2^63,-1) overflows, the result may be negative. C43_gcd_undefined_exactly says when there is no result, C43_gcd_defined that it is the gcd up to sign, C43_gcd_sign which sign numbers of one sign give."},
  {"property": "C44", "status": "proved", "theorems": ["Vita.C44_palindrome"], "note": "All 64-bit values, including those whose reversal wraps (digit sums mod 9 exclude coincidences)."},
  {"property": "C45", "status": "partial", "theorems": ["Vita.C45_random_in_documented_range", "Vita.C45_random_below_32768", "Vita.C45_random_deterministic", "Vita.C45_random_f32", "Vita.C45_random_f32_uniform_float_partial", "Vita.C45_uniform_reaches_bound"], "note": "vt_math_random_u64: proved for every seed and call sequence (documented range, and actual range below 2^15). vt_math_random_f32: [0, bound) with IEEE rounding, assuming the library's sin is within 2^-40 (uses that no integer below 2^15 is near an odd multiple of pi/2). vt_math_random_f32_uniform: never below the lower bound, not above the upper one if the difference is exact; the documented exclusion of the upper bound is false (C45_uniform_reaches_bound)."},
  {"property": "C46", "status": "proved", "theorems": ["Vita.C46_types", "Vita.C46_to_str", "Vita.C46_round_trip"], "note": "All eight integer types; strtoul/printf as contracts."},
  {"property": "C47", "status": "partial", "theorems": ["Vita.C47_round_trip_partial", "Vita.C47_negative_becomes_zero"], "note": "Nonnegative values round-trip; every negative value becomes 0 (C47_negative_becomes_zero), so the full property is false."},
  {"property": "C48", "status": "proved", "theorems": ["Vita.C48_not_numeric", "Vita.C48_value", "Vita.C48_out_of_range"], "note": "All texts; out-of-range digit strings described as well."},
  {"property": "C49", "status": "proved", "theorems": ["Vita.C49_to_secs", "Vita.C49_round_trip", "Vita.C49_increasing", "Vita.C49_secs_round_trip", "Vita.C49_year_zero"], "note": "Also for times before 1970 (negative seconds). The year 0, which no valid C49 date has, is taken for the year 3800 (C49_year_zero)."},
  {"property": "C50", "status": "partial", "theorems": ["Vita.C50_leap_year_partial", "Vita.C50_days_in_year_partial", "Vita.C50_days_in_month_partial", "Vita.C50_other_months", "Vita.C50_century_wrong", "Vita.C50_negative_years"], "note": "The code treats every year divisible by 4 as a leap year; proved for years not divisible by 100 or divisible by 400; wrong for every other century year (C50_century_wrong) and for negative years (C50_negative_years)."},
  {"property": "C51", "status": "partial", "theorems": ["Vita.C51_fields", "Vita.C51_ranges_partial", "Vita.C51_returns_partial", "Vita.C51_auto_fill", "Vita.C51_before_1970_wrong"], "note": "Proved for moments from 1970 UTC on.  Before 1970 the sign of mktime's result is taken for an error: in release builds the automatic week day and year day are -1 (C51_before_1970_wrong), in debug builds a message is printed whose argument is missing, so the behaviour is undefined (C51_returns_partial says exactly when)."},
  {"property": "C52", "status": "proved", "theorems": ["Vita.C52_units", "Vita.C52_antisymmetric", "Vita.C52_diff_exact", "Vita.C52_add_difference"], "note": "Fixed-offset time zone; time_t is 64 bits. Units and antisymmetry for all datetimes; that the difference is the true one and can be added back for all dates of years other than 0, which the code takes for 3800 (C49_year_zero)."},
  {"property": "C53", "status": "proved", "theorems": ["Vita.C53_text", "Vita.C53_short_buffer", "Vita.C53_round_trip", "Vita.C53_text_any_year", "Vita.C53_other_years", "Vita.C53_year_zero"], "note": "The claim is for years 1000..9999; the texts of all other years are rejected by the parsing functions (C53_other_years), and the year 0 comes back as 3800 (C53_year_zero)."},
  {"property": "C54", "status": "partial", "theorems": ["Vita.C54_accepted_iff_partial", "Vita.C54_no_overread_partial", "Vita.C54_exact_accepted", "Vita.C54_separators_ignored", "Vita.C54_overread"], "note": "Digits are checked; nothing at a separator position or behind the last digit makes a difference (C54_separators_ignored), and every text ending at a separator position is read past its terminator (C54_overread)."},
  {"property": "C55", "status": "partial", "theorems": ["Vita.C55_exact", "Vita.C55_empty_value_ends", "Vita.C55_own_values", "Vita.C55_parse_partial", "Vita.C55_empty_value_aborts"], "note": "C55_parse_partial covers every argument list of recognised options whose values can be assigned. C55_exact covers every table and argument list: the outcome is that of the assignments in order, of which an empty value for a string-object option ends every debug build (C55_empty_value_ends) and a char* option that already holds a shorter text is undefined or left unterminated (see C57). C55_own_values: each option depends on its own values only."},
  {"property": "C56", "status": "partial", "theorems": ["Vita.C56_exact", "Vita.C56_empty_argument_ends", "Vita.C56_unrecognised_partial", "Vita.C56_exactly_one_reading", "Vita.C56_defective_table", "Vita.C56_empty_argument_aborts"], "note": "C56_unrecognised_partial: as C55, plus the fact that every argument list has exactly one reading (C56_exactly_one_reading). Refuted for empty arguments: one in the place of an option ends every debug build instead of giving the error status (C56_empty_argument_ends). C56_exact has the outcome for all tables and argument lists."},
  {"property": "C57", "status": "partial", "theorems": ["Vita.C57_first_value", "Vita.C57_replace_partial", "Vita.C57_shorter_keeps_tail", "Vita.C57_longer_overruns", "Vita.C57_after_empty_unterminated"], "note": "False as stated: a shorter new value keeps the tail of the old one (C57_shorter_keeps_tail), a longer one overruns the allocation (C57_longer_overruns), and an empty old value leaves the text unterminated (C57_after_empty_unterminated). Right for the first value and for values of the old length."},
  {"property": "C58", "status": "partial", "theorems": ["Vita.C58_pop_partial", "Vita.C58_pop_empty_undefined"], "note": "C58_pop_partial covers every non-empty path; on the empty path the byte before the text is read (C58_pop_empty_undefined)."},
  {"property": "C59", "status": "partial", "theorems": ["Vita.C59_basename_partial", "Vita.C59_no_separator", "Vita.C59_empty_exits", "Vita.C59_absolute_single_segment", "Vita.C59_trailing_separator"], "note": "False as stated; right only if the last separator is neither the first nor the last character. Without separator the destination is returned unchanged, possibly NULL (C59_no_separator); \"/abc\" gives question marks (C59_absolute_single_segment); \"a/b/\" gives \"b/\" (C59_trailing_separator); the empty path ends the program (C59_empty_exits)."},
  {"property": "C60", "status": "partial", "theorems": ["Vita.C60_build", "Vita.C60_build_n", "Vita.C60_validate", "Vita.C60_expand_tilda_partial", "Vita.C60_tilda_alone_exits"], "note": "Building and validation are proved in full (segments must not be empty, as for vt_str_join); tilde expansion for every path except the empty one and, in debug builds, \"~\" alone (C60_tilda_alone_exits)."},
  {"property": "C61", "status": "partial", "theorems": ["Vita.C61_effect", "Vita.C61_exact", "Vita.C61_mkdir_parents_partial", "Vita.C61_true_but_absent", "Vita.C61_existing", "Vita.C61_keeps", "Vita.C61_single_name_fails", "Vita.C61_two_separators_undefined"], "note": "C61_effect says exactly what the function does for every path: one mkdir per stage, failures ignored, true if a separator occurs. C61_exact: for plain paths (no two separators at the end, no . or .., no links on the way) exactly the directories up to the first that cannot be made exist afterwards. So the claim holds if every directory on the way exists or may be made (C61_mkdir_parents_partial); what exists is always kept. Refuted: true although a directory could not be made, a single name is never made, two separators at the end are undefined."},
  {"property": "C62", "status": "proved", "theorems": ["Vita.C62_exact", "Vita.C62_unreadable_cuts", "Vita.C62_any_file_system", "Vita.C62_dir_list", "Vita.C62_dir_list_none", "Vita.C62_dir_list_recurse", "Vita.C62_unreadable_subdirectory"], "note": "Any order of entries, any depth, any file system (links, cycles of links, unreadable directories, long paths): C62_exact determines the list. An unreadable subdirectory silently ends the listing of the directory it is in (C62_unreadable_cuts, in general)."},
  {"property": "C63", "status": "partial", "theorems": ["Vita.C63_any_file_system", "Vita.C63_true_means_empty", "Vita.C63_outside_untouched", "Vita.C63_rmdir_recurse_partial", "Vita.C63_link_removes_outside", "Vita.C63_dangling_link_stays", "Vita.C63_true_but_present", "Vita.C63_exact", "Vita.C63_false_because", "Vita.C63_unreadable_stays", "Vita.C63_exactly_partial"], "note": "C63_exact determines in any file system, with links and unreadable directories, what is removed and what is returned: the entries of the listing one by one up to the first that cannot be removed, then the directory. In particular nothing is created or changed, and what is gone is the directory or an entry reached from it (C63_any_file_system); without links below nothing outside changes (C63_outside_untouched); true implies everything below is gone if the directories can be read (C63_true_means_empty). For plain subtrees C63_exactly_partial says the same per node. The claim is false otherwise: files outside are removed through a link, links that lead nowhere, to a directory or to something removed before stay and make the call fail (C63_false_because), unreadable directories and those they are in stay, possibly with true (C63_unreadable_stays)."},
  {"property": "C64", "status": "partial", "theorems": ["Vita.C64_history_partial", "Vita.C64_history", "Vita.C64_failure", "Vita.C64_read_partial", "Vita.C64_read_after_partial", "Vita.C64_read_missing", "Vita.C64_empty_file_exits", "Vita.C64_full_disk", "Vita.C64_writef"], "note": "Any history of write, writeln, append and appendln calls on any files (names through links or not), whatever each call returns and however long the files can become, then read. The property fails when a file cannot become long enough, since write errors are not reported (C64_full_disk), and reading an empty file in a debug build terminates the program (C64_empty_file_exits)."},
  {"property": "C65", "status": "proved", "theorems": ["Vita.C65_read_to_buffer", "Vita.C65_safe"], "note": "For every file content, buffer and n; any other kind of name is covered by C65_safe. A debug build rejects n = 0."},
  {"property": "C66", "status": "partial", "theorems": ["Vita.C66_history_partial", "Vita.C66_condition", "Vita.C66_redirect_level", "Vita.C66_fatal_does_not_end", "Vita.C66_unopenable_debug", "Vita.C66_history_release", "Vita.C66_history_debug"], "note": "Proved for every sequence of calls if the log files can be opened, whatever the limits on their sizes. Otherwise the claim is false: in release builds the message is lost and a fatal one does not end the program (C66_fatal_does_not_end; exact effect of every history: C66_history_release), in debug builds the message about the failure is undefined (C66_unopenable_debug; for every history, exactly when: C66_history_debug)."},
  {"property": "C67", "status": "partial", "theorems": ["Vita.C67_server_partial", "Vita.C67_client_partial", "Vita.C67_accept_close", "Vita.C67_descriptor_left_open", "Vita.C67_status_ambiguous", "Vita.C67_port_truncated", "Vita.C67_make_address"], "note": "Descriptor exactly on success, bound, listening and connected sockets, and distinct statuses for bind, listen and connect are proved for all outcomes. Fails: the descriptor stays open on failure (C67_descriptor_left_open), socket and option failures have the same status (C67_status_ambiguous), ports above 65535 are truncated (C67_port_truncated)."},
  {"property": "C68", "status": "partial", "theorems": ["Vita.C68_swap_partial", "Vita.C68_swap_twice_partial", "Vita.C68_swap_within_partial", "Vita.C68_swap_zero", "Vita.C68_pswap", "Vita.C68_memcmp_partial", "Vita.C68_memcmp_zero"], "note": "Swap and compare proved for every size above 0, in one or two objects; size 0 aborts in debug builds (C68_swap_zero) and memcmp of 0 bytes says different (C68_memcmp_zero)."},
  {"property": "C69", "status": "proved", "theorems": ["Vita.C69_status_names", "Vita.C69_own_name"], "note": "All codes and all other values."},
  {"property": "C70", "status": "partial", "theorems": ["Vita.C70_double_partial", "Vita.C70_end_exceeded", "Vita.C70_accuracy_partial", "Vita.C70_map_to_partial", "Vita.C70_map_to_inverse_partial"], "note": "With IEEE binary64 rounding: exact at the lower end, monotone, never below c, error at most 2^-50 of the target interval (no underflow or overflow). That the upper end is met and not exceeded is false (C70_end_exceeded). With real numbers in place of double all of the claim including the inverse."},
  {"property": "C71", "status": "partial", "theorems": ["Vita.C71_negative_actual", "Vita.C71_float_partial", "Vita.C71_rounding_lost", "Vita.C71_negative_tolerance", "Vita.C71_zero_tolerance"], "note": "With IEEE binary32 rounding: symmetric, never true for a distance of at least t, exact for numbers within a factor of two or with exact difference; the general converse is false (C71_rounding_lost), and the documented meaning of a negative tolerance is not implemented (C71_negative_tolerance; what happens instead: C71_negative_actual)."},
  {"property": "C72", "status": "proved", "theorems": ["Vita.C72_pretty", "Vita.C72_short_buffer", "Vita.C72_zero_length", "Vita.C72_long_years", "Vita.C72_short_years"], "note": "asctime modelled by the reference algorithm of ISO C 7.27.3.1; the behaviour for all other years in C72_long_years (undefined) and C72_short_years (the line end stays)."},
  {"property": "C73", "status": "proved", "theorems": ["Vita.C73_help"], "note": ""},
  {"property": "C74", "status": "proved", "theorems": ["Vita.C74_manual"], "note": ""},
  {"property": "C75", "status": "partial", "theorems": ["Vita.C75_cwd", "Vita.C75_exe_location_partial", "Vita.C75_exe_location_wrong", "Vita.C75_exe_location_cut", "Vita.C75_exe_location_none"], "note": "vt_path_get_cwd is proved. The executable location is not terminated: question marks follow the path up to PATH_MAX (C75_exe_location_wrong)."},
  {"property": "C76", "status": "partial", "theorems": ["Vita.C76_history_partial", "Vita.C76_stderr_closed", "Vita.C76_history"], "note": "Proved for every sequence of calls if the files can be opened, whatever the limits on their sizes. Otherwise the claim is false: stderr is closed after the message and the next one there is undefined (C76_stderr_closed); exact effect of every history: C76_history."},
  {"property": "C77", "status": "proved", "theorems": ["Vita.C77_any_count", "Vita.C77_send", "Vita.C77_receive", "Vita.C77_timed"], "note": "For all outcomes of the system calls; transfers of at most INT_MAX bytes, as the kernel limits them; C77_any_count says what would be reported for larger ones."},
  {"property": "C78", "status": "partial", "theorems": ["Vita.C78_carmack", "Vita.C78_sqrt_accurate", "Vita.C78_sqrt_zero", "Vita.C78_isqrt_zero", "Vita.C78_sqrt_subnormal"], "note": "Proved with exact IEEE binary32 rounding for every normal float; for subnormal numbers the claim is false (C78_sqrt_subnormal), vt_math_sqrt_carmack(0) is 0 and vt_math_isqrt_carmack(0) is finite (C78_isqrt_zero)."},
  {"property": "C79", "status": "partial", "theorems": ["Vita.C79_push_own_partial", "Vita.C79_push_full_ub", "Vita.C79_insert_own_partial", "Vita.C79_insert_own_behind", "Vita.C79_insert_full_ub", "Vita.C79_push_front_own", "Vita.C79_set_own"], "note": "True for vt_vec_set, and for push and insert while a slot is free and the element is not behind the insertion point. Refuted otherwise: a full vector is reallocated before the element is read (undefined), and an insertion in front of the element stores a copy of its predecessor."},
  {"property": "C80", "status": "partial", "theorems": ["Vita.C80_append_own_partial", "Vita.C80_append_own_ub", "Vita.C80_insert_own_actual", "Vita.C80_insert_own_partial", "Vita.C80_insert_last_own", "Vita.C80_insert_own_counterexample", "Vita.C80_insert_own_ub", "Vita.C80_set_own", "Vita.C80_set_at_own_partial", "Vita.C80_set_at_self", "Vita.C80_insert_before_own_partial", "Vita.C80_insert_after_own_partial", "Vita.C80_insert_found_own_ub"], "note": "True for vt_str_set, for append with room, for insert (also before or after a found text) with room at or behind the start of the inserted text, and for set_at with a later text. Refuted otherwise: undefined without room, shifted text for earlier insertion points, and vt_str_set_at(s, z + k, k) truncates the text."},
  {"property": "C81", "status": "partial", "theorems": ["Vita.C81_parts_partial", "Vita.C81_antisymmetric", "Vita.C81_whole_days", "Vita.C81_counterexample", "Vita.C81_far_counterexample", "Vita.C81_error_partial", "Vita.C81_days_negative", "Vita.C81_add_back_partial"], "note": "False of the code: for dates a day and a second apart one second is lost (C81_counterexample), for dates 87 years apart 210 seconds (C81_far_counterexample), and for all dates 90 to 179 years apart the number of days becomes negative (C81_days_negative). Proved: the fields are in range and their total is wrong by at most the 8388607th part of the distance and a second, before the days are stored in 16 bits; up to 2^24 seconds they denote the difference or one second less; whole days are exact; exchanging the dates changes the signs; adding the result back gives the date or the second before it."},
  {"property": "C82", "status": "partial", "theorems": ["Vita.C82_log_functions", "Vita.C82_vec_history", "Vita.C82_plist_history", "Vita.C82_str_history", "Vita.C82_str_functions", "Vita.C82_access", "Vita.C82_system", "Vita.C82_mallocator", "Vita.C82_date_create_partial", "Vita.C82_date_create_refuted", "Vita.C82_vec_release", "Vita.C82_str_release"], "note": "Proved for all modelled functions that contain or reach a debug check, except the three that fill in a week day or day of the year: for dates before 1970 the debug build prints a message without its argument (undefined), the release build returns (C82_date_create_refuted); what such a call returns in a debug build it returns in a release build (C82_date_create_partial).  The history theorems C01 and C15 are carried over to release builds (C82_vec_release, C82_str_release)."},
  {"property": "C83", "status": "proved", "theorems": ["Vita.C83_vec_apply", "Vita.C83_str_apply", "Vita.C83_vec_apply_calls", "Vita.C83_str_apply_calls", "Vita.C83_plist_apply"], "note": ""},
  {"property": "C84", "status": "proved", "theorems": ["Vita.C84_vec_queries", "Vita.C84_vec_space_usable", "Vita.C84_plist_space_usable", "Vita.C84_str_queries", "Vita.C84_str_space_usable"], "note": ""},
  {"property": "C85", "status": "proved", "theorems": ["Vita.C85_validate_len", "Vita.C85_validate_unchanged", "Vita.C85_view"], "note": "Owned strings whose capacity has been written, or with a NUL among the written bytes; C85_view shows that the call empties the text behind every view of a non-empty text."},
  {"property": "C86", "status": "proved", "theorems": ["Vita.C86_mkdir_existing", "Vita.C86_dangling_link_stays", "Vita.C86_queries", "Vita.C86_mkdir", "Vita.C86_remove", "Vita.C86_rename", "Vita.C86_rename_succeeds", "Vita.C86_dangling_link", "Vita.C86_mkdir_true_for_file"], "note": "Counterexamples to two stronger readings are kept: C86_dangling_link, C86_mkdir_true_for_file; in general C86_dangling_link_stays, C86_mkdir_existing."},
  {"property": "C87", "status": "proved", "theorems": ["Vita.C87_run", "Vita.C87_no_leak", "Vita.C87_destroy_allocator", "Vita.C87_double_destroy", "Vita.C87_requests", "Vita.C87_take_ownership", "Vita.C87_take_ownership_not_tracked", "Vita.C87_split_between_leaks"], "note": "Programs of creation, editing, copying and destruction; the heap version is shown to follow the contents and to hold exactly the live containers. Disagreements: a string that took ownership of a block is not released with its tracking allocator; vt_str_split_between without destination loses its new string when the delimiters are in the wrong order."},
  {"property": "C88", "status": "proved", "theorems": ["Vita.C88_split", "Vita.C88_dir_list", "Vita.C88_dir_list_recurse", "Vita.C88_split_into", "Vita.C88_dir_list_into", "Vita.C88_dir_list_recurse_into", "Vita.C88_dir_free", "Vita.C88_list_and_free", "Vita.C88_dir_free_leaks", "Vita.C88_mkdir_parents", "Vita.C88_rmdir_recurse", "Vita.C88_join", "Vita.C88_build_n", "Vita.C88_file_read", "Vita.C88_pop_get", "Vita.C88_clean_heap", "Vita.C88_split_again_leaks"], "note": "Without a destination list, as in the statement; with a destination C88_split_into, C88_dir_list_into, C88_dir_list_recurse_into. Outside the statement there are disagreements: vt_path_dir_free after vt_plist_slide_front leaks (C88_dir_free_leaks), and splitting into a list that already holds strings loses them (C88_split_again_leaks). Memory may be refused for the lists themselves, in addition to the requests in the models without a heap."},
  {"property": "C89", "status": "proved", "theorems": ["Vita.C89_now", "Vita.C89_short_buffer"], "note": "mktime and localtime of a zone with a fixed offset, and strftime and asctime, are modelled; the value of time(NULL) is an input."},
  {"property": "C90", "status": "proved", "theorems": ["Vita.C90_types", "Vita.C90_to_str", "Vita.C90_text", "Vita.C90_value", "Vita.C90_value_whole", "Vita.C90_not_numeric", "Vita.C90_nearest"], "note": "Texts against a separate specification of the six-decimal text (existence and uniqueness proved), for all values incl. infinities and NaN; reading against correct rounding with the exact overflow threshold."},
  {"property": "C91", "status": "partial", "theorems": ["Vita.C91_round_trip_partial", "Vita.C91_exact_iff", "Vita.C91_exact", "Vita.C91_mono", "Vita.C91_small_lost", "Vita.C91_negative_becomes_zero"], "note": "Bound, exact set of survivors, monotonicity for all values that are not negative; C91_negative_becomes_zero: every negative value (and -0, infinities, NaN) comes back as 0."},
  {"property": "C92", "status": "proved", "theorems": ["Vita.C92_table", "Vita.C92_every_history", "Vita.C92_faithful"], "note": "For all histories of C38 (C92_every_history). The rows are specified by IsStatsRow."},
  {"property": "C93", "status": "proved", "theorems": ["Vita.C93_parse", "Vita.C93_release"], "note": "Containers only: the blocks of VT_TYPE_CSTR options are values in this model. Memory may be refused (exit), as everywhere."},
  {"property": "C94", "status": "proved", "theorems": ["Vita.C94_first", "Vita.C94_second", "Vita.C94_history", "Vita.C94_range", "Vita.C94_finite", "Vita.C94_no_deviation"], "note": "For calls that return (the loop ends when an acceptable pair is drawn; that this always happens is not part of the claim). sin, pow, log and sqrt of the C library are parameters with relative error at most 2^-50."},
  {"property": "C95", "status": "proved", "theorems": ["Vita.C95_repeats", "Vita.C95_repeats_from_the_start", "Vita.C95_period", "Vita.C95_short_period", "Vita.C95_stuck_iff", "Vita.C95_stuck", "Vita.C95_same_numbers"], "note": "For every value of the clock: period 65536 of the results; exact set of periods, the seconds with the short period 32 and the seconds in which one number repeats forever (exact condition) for clock values in [0, 2^46)."},
  {"property": "C96", "status": "proved", "theorems": ["Vita.C96_returns", "Vita.C96_hangs"], "note": "For clock values in [0, 2^46) and every accurate C library: exact condition under which the call returns, a bound on the number of pairs drawn, and the proof that it never returns otherwise."},
  {"property": "C97", "status": "proved", "theorems": ["Vita.C97_capacity_invisible_release", "Vita.C97_capacity_invisible", "Vita.C97_vector_capacity_invisible"], "note": "Debug builds: every legal history (C15, C01). Release builds: histories in which no check of a debug build fails (C97_capacity_invisible_release). shrink can be put in for strings only: shrinking an empty vector is stopped by an assertion."},
  {"property": "C98", "status": "proved", "theorems": ["Vita.C98_insert_remove", "Vita.C98_append_remove", "Vita.C98_remove_insert", "Vita.C98_pop_join", "Vita.C98_replace_c_back", "Vita.C98_vec_insert_remove", "Vita.C98_vec_remove_insert", "Vita.C98_build_pop"], "note": "For vt_str_pop_get_first neither the field nor the rest may be empty, because join does not accept empty texts in debug builds."},
  {"property": "C99", "status": "proved", "theorems": ["Vita.C99_case", "Vita.C99_strip", "Vita.C99_remove", "Vita.C99_validate"], "note": "Stripping is idempotent on texts in which something remains; on the others the first call has no defined result (C26)."},
  {"property": "C100", "status": "partial", "theorems": ["Vita.C100_from_secs", "Vita.C100_secs_round_trip_partial", "Vita.C100_date_round_trip", "Vita.C100_op_partial", "Vita.C100_op_drifts", "Vita.C100_week_day_partial", "Vita.C100_week_day_wrong", "Vita.C100_elapsed_partial"], "note": "False while summer time is in force: the functions pass tm_isdst = 0 to mktime. Exactly how far the results are off is proved for every zone; the claim holds wherever clocks show standard time. C100_op_drifts: every call that adds nothing moves a summer date on by an hour."},
  {"property": "C101", "status": "proved", "theorems": ["Vita.C101_op", "Vita.C101_months", "Vita.C101_overflow", "Vita.C101_back"], "note": "Zones without summer time; op_full gives the general form."},
  {"property": "C102", "status": "partial", "theorems": ["Vita.C102_remove_first_own", "Vita.C102_remove_all_own_never_ends", "Vita.C102_replace_first_own", "Vita.C102_replace_own_partial", "Vita.C102_replace_own_ub", "Vita.C102_replace_own_counterexample", "Vita.C102_remove_c_own", "Vita.C102_strip_c_own_partial", "Vita.C102_replace_c_own_partial", "Vita.C102_replace_c_own_counterexample", "Vita.C102_split_between_own_ub", "Vita.C102_basename_own", "Vita.C102_pop_first_self", "Vita.C102_pop_last_self"], "note": "Right for removing the first occurrence, removing characters, replacing the first occurrence and the base name; stripping as far as C26; replacing all or characters under the stated conditions. False for the code otherwise: vt_str_remove_all never ends, vt_str_split_between and vt_str_pop_get_last are undefined, vt_str_pop_get_first empties the string, counterexamples for vt_str_replace and vt_str_replace_c."},
  {"property": "C103", "status": "partial", "theorems": ["Vita.C103_find_integers", "Vita.C103_find_floats_partial", "Vita.C103_find_zero_missed", "Vita.C103_find_nan", "Vita.C103_find_real", "Vita.C103_find_real_missed"], "note": "Proved for all integer types, and for float and double unless the value sought is a NaN or a zero while zeros of the other sign are in the vector. There the claim is false: the search compares bytes (C103_find_zero_missed, C103_find_nan). For long double padding bytes are compared as well, so equal numbers are missed (C103_find_real, C103_find_real_missed)."},
  {"property": "C104", "status": "partial", "theorems": ["Vita.C104_min_partial", "Vita.C104_max_partial", "Vita.C104_clamp", "Vita.C104_clamp_idempotent", "Vita.C104_min_max_nan", "Vita.C104_clamp_nan"], "note": "Clamping proved for every x, bounds l <= h; minimum and maximum for all numbers and infinities. The claim about NaN is false: with a NaN, minimum and maximum return the second argument whichever it is (C104_min_max_nan), and a NaN as upper bound gives NaN (C104_clamp_nan)."},
  {"property": "C105", "status": "partial", "theorems": ["Vita.C105_get_partial", "Vita.C105_set_partial", "Vita.C105_set_smaller_ub", "Vita.C105_get_larger_ub"], "note": "Proved for the type of the elements and all windows that do not begin at 0 (those are refused in debug builds, C37_window_at_zero_rejected). With a type of another size the claim is false: C105_set_smaller_ub, C105_get_larger_ub."},
  {"property": "C106", "status": "proved", "theorems": ["Vita.C106_stream"], "note": "For connections whose kernel side is a byte stream; the kernel transfers at most INT_MAX bytes in one call."},
  {"property": "C107", "status": "partial", "theorems": ["Vita.C107_limit_partial", "Vita.C107_zero", "Vita.C107_no_limit", "Vita.C107_signal", "Vita.C107_long_limit_never_ends", "Vita.C107_error_hidden"], "note": "Proved for limits below 2^31 ms and for the documented -1. False in general: other limits of 2^31 ms and more never end; an error without data is returned as 0."},
  {"property": "C108", "status": "partial", "theorems": ["Vita.C108_messages_partial", "Vita.C108_wrong_format", "Vita.C108_wrong_format_places", "Vita.C108_log_header", "Vita.C108_help_line", "Vita.C108_table"], "note": "Proved for 516 of 522 calls. The other six are wrong (undefined for all values): mallocator.c:77, 108, 128 and log.c:50 print a size_t with %d or %i, datetime.c:156 and 167 pass no argument for %s."},
  {"property": "C109", "status": "proved", "theorems": ["Vita.C109_datagrams", "Vita.C109_whole", "Vita.C109_echo", "Vita.C109_cut_not_shown"], "note": "C109_datagrams for every history; C109_echo: the address can be used for the answer; C109_cut_not_shown: that a datagram was cut is not visible to the caller."},
  {"property": "C110", "status": "partial", "theorems": ["Vita.C110_vector", "Vita.C110_pointer_list", "Vita.C110_string_asks", "Vita.C110_string_quadratic"], "note": "Proved for vectors and pointer lists (each new block triples the capacity; at most 3 members moved for 2 that were there or added). False for strings: appending n characters one by one to a string without spare room asks for n blocks and moves n*length + n(n-1)/2 characters (C110_string_quadratic, for every n)."},
  {"property": "C111", "status": "partial", "theorems": ["Vita.C111_foreach", "Vita.C111_reverse_actual", "Vita.C111_reverse_shifted", "Vita.C111_step_partial", "Vita.C111_step_zero_never_ends", "Vita.C111_step_wraps", "Vita.C111_step_ends_exactly"], "note": "VT_FOREACH and, without wrapping, VT_FOREACH_STEP are proved; VT_FOREACH_R is off by one as a reverse traversal. Exactly which loops with VT_FOREACH_STEP come to an end: C111_step_ends_exactly (none for step 0)."},
  {"property": "C112", "status": "partial", "theorems": ["Vita.C112_log_level_partial", "Vita.C112_log_level_actual", "Vita.C112_month", "Vita.C112_february_partial", "Vita.C112_leap_year", "Vita.C112_to_secs_actual", "Vita.C112_diff_actual", "Vita.C112_invalid_date_counted_on"], "note": "Refuted for log levels (C112_log_level_actual), February of negative years (C112_february_partial), conversion to seconds and differences (C112_to_secs_actual, C112_diff_actual) and dates that do not exist (C112_invalid_date_counted_on); proved for valid levels, months out of range and leap years."},
  {"property": "C113", "status": "proved", "theorems": ["Vita.C113_vec_history", "Vita.C113_plist_history", "Vita.C113_str_history", "Vita.C113_more_memory", "Vita.C113_str_functions", "Vita.C113_system", "Vita.C113_mallocator", "Vita.C113_creation_ends"], "note": "For histories of vec.c, plist.c and str.c calls, and for the other functions one at a time. The headers document NULL for creations that fail; C113_creation_ends shows that the program ends instead."},
  {"property": "C114", "status": "proved", "theorems": ["Vita.C114_compiler", "Vita.C114_vita", "Vita.C114_text_determines"], "note": "All decimal version numbers; the TCC variant is not modelled."},
  {"property": "C115", "status": "proved", "theorems": ["Vita.C115_source_filename", "Vita.C115_check_macros", "Vita.C115_log_macros"], "note": "All sequences of uses, output to stderr."},
  {"property": "C116", "status": "partial", "theorems": ["Vita.C116_insert_success_any_build_partial", "Vita.C116_calls_agree", "Vita.C116_append_unwritten", "Vita.C116_append_longer", "Vita.C116_insert_unwritten", "Vita.C116_failure", "Vita.C116_append_success", "Vita.C116_insert_success_partial"], "note": "Failure when measuring proved in full; success for vt_str_appendf in full, for vt_str_insertf except for texts of exactly INT_MAX characters, where the claim is false (C36_insertf_longest). Also false if the text can be measured but not written: success is reported (C116_append_unwritten, C116_insert_unwritten)."},
  {"property": "C117", "status": "proved", "theorems": ["Vita.C117_run", "Vita.C117_frame", "Vita.C117_own_history"], "note": "Programs as in C87 on one store; refinement of the programs on separate contents."},
  {"property": "C118", "status": "partial", "theorems": ["Vita.C118_insertf", "Vita.C118_appendf_partial", "Vita.C118_appendf_reads_end", "Vita.C118_appendf_no_room", "Vita.C118_insertf_any_build"], "note": "Proved for vt_str_insertf, in all builds. For vt_str_appendf true with room and for parts that stop before the end of the text; refuted otherwise (undefined)."},
  {"property": "C119", "status": "partial", "theorems": ["Vita.C119_defined_partial", "Vita.C119_defined_texts_partial", "Vita.C119_case_undefined", "Vita.C119_strip_undefined", "Vita.C119_numeric_undefined", "Vita.C119_stamp_undefined"], "note": "Proved for unsigned char and for texts without bytes 128 to 254. Refuted where char is signed: plain char values are passed, so that these functions are undefined for other texts, for example in UTF-8."},
  {"property": "C120", "status": "proved", "theorems": ["Vita.C120_pointers", "Vita.C120_elements", "Vita.C120_disjoint", "Vita.C120_vec", "Vita.C120_span", "Vita.C120_span_element", "Vita.C120_span_array", "Vita.C120_plist", "Vita.C120_span_undefined", "Vita.C120_vec_undefined"], "note": "pointers, typed functions of vectors, spans and lists; the undefined cases are characterised"},
  {"property": "C121", "status": "proved", "theorems": ["Vita.C121_valid", "Vita.C121_moved", "Vita.C121_destroyed"], "note": "Rule for all calls on vectors, lists and strings, in programs with any number of containers; the old address holds nothing after a move or destruction."},
  {"property": "C122", "status": "proved", "theorems": ["Vita.C122_run", "Vita.C122_any_allocator", "Vita.C122_no_leak", "Vita.C122_split", "Vita.C122_dir_list_recurse", "Vita.C122_append_other"], "note": "Programs with decisions, for every allocator and initial heap; texts of other strings as arguments."},
  {"property": "C123", "status": "partial", "theorems": ["Vita.C123_not_both", "Vita.C123_can_find_partial", "Vita.C123_split_partial", "Vita.C123_last_partial", "Vita.C123_remove_all_partial", "Vita.C123_strip_partial", "Vita.C123_basename", "Vita.C123_replace", "Vita.C123_mkdir_parents", "Vita.C123_subtree", "Vita.C123_numbers", "Vita.C123_empty_never_ends", "Vita.C123_exactly"], "note": "Ends with explicit bounds for every memory behind the string; false for the empty text in can_find, split, remove_last, remove_all and strip_c, which run forever exactly then (C123_exactly)."},
  {"property": "C124", "status": "partial", "theorems": ["Vita.C124_shared", "Vita.C124_unrecognised", "Vita.C124_last_wins_partial", "Vita.C124_longer_alias_overruns", "Vita.C124_own_variables"], "note": "Proved for numbers, truth values, characters and string objects; false for C strings (longer values overrun, shorter ones leave the old end), whose exact outcome is in C124_shared, for all tables and argument lists."},
  {"property": "C125", "status": "partial", "theorems": ["Vita.C125_vec_actual", "Vita.C125_vec_leaves_block", "Vita.C125_vec_partial", "Vita.C125_vec_popping", "Vita.C125_str", "Vita.C125_plist", "Vita.C125_plist_length"], "note": "Proved for strings and lists of pointers, and for vectors with callbacks that keep the length. Otherwise false for vectors: the loop compares the index with the length at the moment (C125_vec_actual) and leaves the block if they never meet (C125_vec_leaves_block), e.g. with a callback that pops and an odd length (C125_vec_popping). Buffers that move or get shorter during the loop are outside the claim."},
  {"property": "C126", "status": "partial", "theorems": ["Vita.C126_poll", "Vita.C126_in_time_partial", "Vita.C126_long_limit", "Vita.C126_too_many", "Vita.C126_pause", "Vita.C126_receive_timed"], "note": "True for limits below 2^31 ms. A longer limit is converted to a negative int, which means none: the call returns never if nothing happens (C126_long_limit, exact). Windows (WSAPoll) is not modelled."},
  {"property": "C127", "status": "proved", "theorems": ["Vita.C127_replace_length", "Vita.C127_replace_same", "Vita.C127_replace_back", "Vita.C127_split_length", "Vita.C127_pop_piece", "Vita.C127_starts"], "note": "For a replacement that shares characters with the text only the lengths are compared; restoring is false then."},
  {"property": "C128", "status": "partial", "theorems": ["Vita.C128_add", "Vita.C128_difference_partial", "Vita.C128_sum_partial", "Vita.C128_two_partial", "Vita.C128_back_partial", "Vita.C128_order_partial", "Vita.C128_year_zero", "Vita.C128_months_exactly"], "note": "Proved for all sequences of spans whose intermediate dates are not in the year 0. The full claim is false: a date in the year 0 is read as the year 3800 (C128_year_zero), and adding months in two steps differs from adding them at once unless the month reached first has the day, or as many days as the last one (C128_months_exactly, an equivalence)."},
  {"property": "C129", "status": "proved", "theorems": ["Vita.C129_program", "Vita.C129_failure", "Vita.C129_frame", "Vita.C129_make_remove", "Vita.C129_rename_back", "Vita.C129_write_rename_read"], "note": "For absolute path texts without a trailing separator on file systems without links, with all rights and room; other file systems are in C61-C64."},
  {"property": "C130", "status": "proved", "theorems": ["Vita.C130_stats", "Vita.C130_count", "Vita.C130_calls_succeed", "Vita.C130_destroy", "Vita.C130_null"], "note": "for all mixed histories: the statistics, the count and by how much it is off, definedness, what destroying leaves, and NULL in both build kinds"},
  {"property": "C131", "status": "proved", "theorems": ["Vita.C131_program", "Vita.C131_frame", "Vita.C131_make_remove", "Vita.C131_remove_list", "Vita.C131_move_load"], "note": "on file systems without links where everything is permitted and there is room, as in C129; memory may be refused"},
  {"property": "C132", "status": "proved", "theorems": ["Vita.C132_order", "Vita.C132_spelling", "Vita.C132_in_turn", "Vita.C132_again"], "note": "order, spelling, splitting and repetition; from the exact outcome of parsing (C55_exact)"},
  {"property": "C133", "status": "proved", "theorems": ["Vita.C133_build", "Vita.C133_build_steps", "Vita.C133_pop", "Vita.C133_climb", "Vita.C133_listing", "Vita.C133_pop_exceptions"], "note": "in every file system; the exceptions for popping are part of the statement (C133_pop_exceptions)"},
  {"property": "C134", "status": "proved", "theorems": ["Vita.C134_order", "Vita.C134_short_years"], "note": "Byte-wise order of the exact texts, for all pairs of dates with four-digit years; the limit to four digits is shown to be necessary."},
  {"property": "C135", "status": "partial", "theorems": ["Vita.C135_printing_partial", "Vita.C135_log_unopenable", "Vita.C135_appendf", "Vita.C135_insertf", "Vita.C135_format_failure", "Vita.C135_counted"], "note": "Legality and positions read are determined exactly for each function. The claim is false for three of them: vt_log if the file cannot be opened (C135_log_unopenable), vt_str_appendf and vt_str_insertf if the text cannot be formatted (C135_format_failure) return without va_end, which is undefined. vt_path_build_n and vt_str_join_n are defined exactly if as many arguments were passed as announced (C135_counted)."},
  {"property": "C136", "status": "partial", "theorems": ["Vita.C136_closed", "Vita.C136_no_handle", "Vita.C136_log", "Vita.C136_debug_partial", "Vita.C136_stderr_closed", "Vita.C136_recurse", "Vita.C136_deep", "Vita.C136_enough", "Vita.C136_rmdir", "Vita.C136_program"], "note": "Reading, writing, listing, removing and logging proved for every limit and every set of open handles. False for debug messages: if their file cannot be opened, stderr is closed (C136_stderr_closed); otherwise proved for them too (C136_debug_partial)."},
  {"property": "C137", "status": "partial", "theorems": ["Vita.C137_quiet", "Vita.C137_mkdir", "Vita.C137_mkdir_lost_race", "Vita.C137_remove", "Vita.C137_read", "Vita.C137_read_to_buffer", "Vita.C137_list", "Vita.C137_rmdir_recurse", "Vita.C137_mkdir_parents_keeps", "Vita.C137_mkdir_parents_together", "Vita.C137_rmdir_outside", "Vita.C137_rename", "Vita.C137_rename_replaces", "Vita.C137_dir_list", "Vita.C137_quiet_list"], "note": "Everything but the last sentence is proved. vt_path_mkdir returns false for a directory that another process makes between the check and the call (C137_mkdir_lost_race, in general), and vt_path_rmdir_recurse removes a file outside if a directory is replaced by a link after it has been listed (C137_rmdir_outside)."},
  {"property": "C138", "status": "partial", "theorems": ["Vita.C138_lines_partial", "Vita.C138_last_line_empty"], "note": "Proved whenever the last line of the file is not empty (C138_lines_partial); with an empty last line splitting the text reads behind the buffer (C138_last_line_empty)."},
  {"property": "C139", "status": "partial", "theorems": ["Vita.C139_invocation_partial"], "note": "Proved with negative numbers, infinities and NaN arriving as zero, which is what the conversion does (C47, C91); empty strings and old C strings of another length are excluded (C55, C57)."},
  {"property": "C140", "status": "proved", "theorems": ["Vita.C140_threads", "Vita.C140_results", "Vita.C140_memory"], "note": "A library call is one turn; simultaneous calls are not modelled."},
  {"property": "C141", "status": "proved", "theorems": ["Vita.C141_log_lines"], "note": "Every sequence of calls whose files can be opened; files without a limit on their size."},
  {"property": "C142", "status": "partial", "theorems": ["Vita.C142_occurs", "Vita.C142_first", "Vita.C142_edits", "Vita.C142_parts", "Vita.C142_replace", "Vita.C142_split_partial", "Vita.C142_remove_all_partial", "Vita.C142_last", "Vita.C142_find_partial", "Vita.C142_join", "Vita.C142_last_partial", "Vita.C142_between_partial", "Vita.C142_compare", "Vita.C142_boundary", "Vita.C142_insert", "Vita.C142_remove_c_partial", "Vita.C142_case", "Vita.C142_remove_c_breaks", "Vita.C142_strip_partial", "Vita.C142_path_partial"], "note": "Proved for all characters; sets given to vt_str_remove_c and vt_str_strip_c must be ASCII: with others characters are taken apart (C142_remove_c_breaks). Splitting, stripping, removing all, searching, the last occurrence, text between markers and the base name as far as C29, C26, C21, C28, C24, C32, C31, C59."},
  {"property": "C143", "status": "proved", "theorems": ["Vita.C143_debug", "Vita.C143_unchecked", "Vita.C143_release", "Vita.C143_options"], "note": "For all functions with pointer parameters, transcribed as a table of checks, uses and inner calls. The parameters that are not checked are part of the statement, and shown to be exactly these."},
  {"property": "C144", "status": "proved", "theorems": ["Vita.C144_calloc_instead", "Vita.C144_any_contents", "Vita.C144_read_first", "Vita.C144_block", "Vita.C144_filled", "Vita.C144_stays_freed", "Vita.C144_freed"], "note": "All programs on blocks over the memory functions of core.c, by a relation between the two runs. Converse refuted for every block (C144_read_first)."}
]}
