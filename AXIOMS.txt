Vita.C01_get_observes_elements: Classical.choice, Quot.sound, propext
Vita.C01_vec_refines_sequence: Classical.choice, Quot.sound, propext
Vita.C02_fast_remove_last_self_copy: Classical.choice, Quot.sound, propext
Vita.C02_more_reads_safe_partial: Classical.choice, Quot.sound, propext
Vita.C02_slide_back_leaves_buffer: Classical.choice, Quot.sound, propext
Vita.C02_vec_memory_safe: Classical.choice, Quot.sound, propext
Vita.C02_vec_reads_safe: Classical.choice, Quot.sound, propext
Vita.C02_wrong_type_leaves_buffer: Classical.choice, Quot.sound, propext
Vita.C03_amortised_cost: Quot.sound, propext
Vita.C03_cost_model_faithful: Classical.choice, Quot.sound, propext
Vita.C03_growth_is_logarithmic: Classical.choice, Quot.sound, propext
Vita.C03_push_capacity: Classical.choice, Quot.sound, propext
Vita.C04_set_get_frame: Classical.choice, Quot.sound, propext
Vita.C05_any_strategy: Quot.sound, propext
Vita.C05_remove_fast: Classical.choice, Quot.sound, propext
Vita.C05_remove_stable: Classical.choice, Quot.sound, propext
Vita.C05_strategies_agree_up_to_order: Classical.choice, Quot.sound, propext
Vita.C06_plist_pop_get: Classical.choice, Quot.sound, propext
Vita.C06_pop_empty: propext
Vita.C06_push_pop: Classical.choice, Quot.sound, propext
Vita.C07_can_find: Classical.choice, Quot.sound, propext
Vita.C08_dup_empty_exits: Quot.sound, propext
Vita.C08_dup_partial: Classical.choice, Quot.sound, propext
Vita.C08_independent: Classical.choice, Quot.sound, propext
Vita.C08_plist_dup_empty_exits: Quot.sound, propext
Vita.C08_plist_dup_partial: Classical.choice, Quot.sound, propext
Vita.C09_plist_slide_front: Classical.choice, Quot.sound, propext
Vita.C09_plist_slide_front_periodic: Classical.choice, Quot.sound, propext
Vita.C09_slide_front_periodic: Classical.choice, Quot.sound, propext
Vita.C09_slide_front_readonly: Quot.sound, propext
Vita.C09_str_slide_front_periodic: Classical.choice, Quot.sound, propext
Vita.C100_date_round_trip: Classical.choice, Quot.sound, propext
Vita.C100_elapsed_partial: Classical.choice, Quot.sound, propext
Vita.C100_from_secs: Classical.choice, Quot.sound, propext
Vita.C100_op_drifts: Classical.choice, Quot.sound, propext
Vita.C100_op_partial: Classical.choice, Quot.sound, propext
Vita.C100_secs_round_trip_partial: Classical.choice, Quot.sound, propext
Vita.C100_week_day_partial: Classical.choice, Quot.sound, propext
Vita.C100_week_day_wrong: Classical.choice, Quot.sound, propext
Vita.C101_back: Classical.choice, Quot.sound, propext
Vita.C101_months: Classical.choice, Quot.sound, propext
Vita.C101_op: Classical.choice, Quot.sound, propext
Vita.C101_overflow: Classical.choice, Quot.sound, propext
Vita.C102_basename_own: Classical.choice, Quot.sound, propext
Vita.C102_pop_first_self: Classical.choice, Quot.sound, propext
Vita.C102_pop_last_self: Classical.choice, Quot.sound, propext
Vita.C102_remove_all_own_never_ends: Classical.choice, Quot.sound, propext
Vita.C102_remove_c_own: Classical.choice, Quot.sound, propext
Vita.C102_remove_first_own: Classical.choice, Quot.sound, propext
Vita.C102_replace_c_own_counterexample: propext
Vita.C102_replace_c_own_partial: Classical.choice, Quot.sound, propext
Vita.C102_replace_first_own: Classical.choice, Quot.sound, propext
Vita.C102_replace_own_counterexample: Quot.sound, propext
Vita.C102_replace_own_partial: Classical.choice, Quot.sound, propext
Vita.C102_replace_own_ub: Classical.choice, Quot.sound, propext
Vita.C102_split_between_own_ub: Classical.choice, Quot.sound, propext
Vita.C102_strip_c_own_partial: Classical.choice, Quot.sound, propext
Vita.C103_find_floats_partial: Classical.choice, Quot.sound, propext
Vita.C103_find_integers: Classical.choice, Quot.sound, propext
Vita.C103_find_nan: Classical.choice, Quot.sound, propext
Vita.C103_find_real: Classical.choice, Quot.sound, propext
Vita.C103_find_real_missed: Classical.choice, Quot.sound, propext
Vita.C103_find_zero_missed: Classical.choice, Quot.sound, propext
Vita.C104_clamp: Classical.choice, Quot.sound, propext
Vita.C104_clamp_idempotent: Classical.choice, Quot.sound, propext
Vita.C104_clamp_nan: propext
Vita.C104_max_partial: Classical.choice, Quot.sound, propext
Vita.C104_min_max_nan: propext
Vita.C104_min_partial: Classical.choice, Quot.sound, propext
Vita.C105_get_larger_ub: Quot.sound, propext
Vita.C105_get_partial: Classical.choice, Quot.sound, propext
Vita.C105_set_partial: Classical.choice, Quot.sound, propext
Vita.C105_set_smaller_ub: Quot.sound, propext
Vita.C106_stream: Quot.sound, propext
Vita.C107_error_hidden: Quot.sound, propext
Vita.C107_limit_partial: Quot.sound, propext
Vita.C107_long_limit_never_ends: Quot.sound, propext
Vita.C107_no_limit: Quot.sound, propext
Vita.C107_signal: Quot.sound, propext
Vita.C107_zero: Quot.sound, propext
Vita.C108_help_line: Quot.sound, propext
Vita.C108_log_header: Classical.choice, Quot.sound, propext
Vita.C108_messages_partial: Classical.choice, Quot.sound, propext
Vita.C108_table: Quot.sound, propext
Vita.C108_wrong_format: Quot.sound, propext
Vita.C108_wrong_format_places: Quot.sound, propext
Vita.C109_cut_not_shown: Quot.sound, propext
Vita.C109_datagrams: Classical.choice, Quot.sound, propext
Vita.C109_echo: Quot.sound, propext
Vita.C109_whole: Classical.choice, Quot.sound, propext
Vita.C10_plist_slide_back_always_leaves_buffer: Classical.choice, Quot.sound, propext
Vita.C10_plist_slide_back_partial: Classical.choice, Quot.sound, propext
Vita.C10_slide_back_always_leaves_buffer: Classical.choice, Quot.sound, propext
Vita.C10_slide_back_partial: Classical.choice, Quot.sound, propext
Vita.C10_str_slide_back_always_leaves_buffer: Classical.choice, Quot.sound, propext
Vita.C10_str_slide_back_partial: Classical.choice, Quot.sound, propext
Vita.C110_pointer_list: Classical.choice, Quot.sound, propext
Vita.C110_string_asks: Quot.sound, propext
Vita.C110_string_quadratic: Quot.sound, propext
Vita.C110_vector: Classical.choice, Quot.sound, propext
Vita.C111_foreach: Classical.choice, Quot.sound, propext
Vita.C111_reverse_actual: Classical.choice, Quot.sound, propext
Vita.C111_reverse_shifted: Classical.choice, Quot.sound, propext
Vita.C111_step_ends_exactly: Classical.choice, Quot.sound, propext
Vita.C111_step_partial: Classical.choice, Quot.sound, propext
Vita.C111_step_wraps: Quot.sound, propext
Vita.C111_step_zero_never_ends: Quot.sound, propext
Vita.C112_diff_actual: Classical.choice, Quot.sound, propext
Vita.C112_february_partial: Classical.choice, Quot.sound, propext
Vita.C112_invalid_date_counted_on: Quot.sound, propext
Vita.C112_leap_year: propext
Vita.C112_log_level_actual: Classical.choice, Quot.sound, propext
Vita.C112_log_level_partial: Classical.choice, Quot.sound, propext
Vita.C112_month: Classical.choice, Quot.sound, propext
Vita.C112_to_secs_actual: Quot.sound, propext
Vita.C113_creation_ends: Quot.sound, propext
Vita.C113_mallocator: Quot.sound, propext
Vita.C113_more_memory: Quot.sound, propext
Vita.C113_plist_history: Quot.sound, propext
Vita.C113_str_functions: Quot.sound, propext
Vita.C113_str_history: Quot.sound, propext
Vita.C113_system: Classical.choice, Quot.sound, propext
Vita.C113_vec_history: Quot.sound, propext
Vita.C114_compiler: Classical.choice, Quot.sound, propext
Vita.C114_text_determines: Classical.choice, Quot.sound, propext
Vita.C114_vita: Classical.choice, Quot.sound, propext
Vita.C115_check_macros: Classical.choice, Quot.sound, propext
Vita.C115_log_macros: Classical.choice, Quot.sound, propext
Vita.C115_source_filename: Quot.sound, propext
Vita.C116_append_longer: Quot.sound, propext
Vita.C116_append_success: Classical.choice, Quot.sound, propext
Vita.C116_append_unwritten: Quot.sound, propext
Vita.C116_calls_agree: Quot.sound, propext
Vita.C116_failure: Quot.sound, propext
Vita.C116_insert_success_any_build_partial: Classical.choice, Quot.sound, propext
Vita.C116_insert_success_partial: Classical.choice, Quot.sound, propext
Vita.C116_insert_unwritten: Classical.choice, Quot.sound, propext
Vita.C117_frame: Classical.choice, Quot.sound, propext
Vita.C117_own_history: Classical.choice, Quot.sound, propext
Vita.C117_run: Classical.choice, Quot.sound, propext
Vita.C118_appendf_no_room: Quot.sound, propext
Vita.C118_appendf_partial: Classical.choice, Quot.sound, propext
Vita.C118_appendf_reads_end: Classical.choice, Quot.sound, propext
Vita.C118_insertf: Classical.choice, Quot.sound, propext
Vita.C118_insertf_any_build: Classical.choice, Quot.sound, propext
Vita.C119_case_undefined: Classical.choice, Quot.sound, propext
Vita.C119_defined_partial: Classical.choice, Quot.sound, propext
Vita.C119_defined_texts_partial: Classical.choice, Quot.sound, propext
Vita.C119_numeric_undefined: Classical.choice, Quot.sound, propext
Vita.C119_stamp_undefined: Classical.choice, Quot.sound, propext
Vita.C119_strip_undefined: Classical.choice, Quot.sound, propext
Vita.C11_typed_roundtrip: Classical.choice, Quot.sound, propext
Vita.C120_disjoint: Quot.sound, propext
Vita.C120_elements: Quot.sound, propext
Vita.C120_plist: Quot.sound, propext
Vita.C120_pointers: Quot.sound, propext
Vita.C120_span: Quot.sound, propext
Vita.C120_span_array: Quot.sound, propext
Vita.C120_span_element: Quot.sound, propext
Vita.C120_span_undefined: Quot.sound, propext
Vita.C120_vec: Quot.sound, propext
Vita.C120_vec_undefined: Quot.sound, propext
Vita.C121_destroyed: Quot.sound, propext
Vita.C121_moved: Quot.sound, propext
Vita.C121_valid: Classical.choice, Quot.sound, propext
Vita.C122_any_allocator: Classical.choice, Quot.sound, propext
Vita.C122_append_other: Classical.choice, Quot.sound, propext
Vita.C122_dir_list_recurse: Classical.choice, Quot.sound, propext
Vita.C122_no_leak: Classical.choice, Quot.sound, propext
Vita.C122_run: Classical.choice, Quot.sound, propext
Vita.C122_split: Classical.choice, Quot.sound, propext
Vita.C123_basename: Classical.choice, Quot.sound, propext
Vita.C123_can_find_partial: Classical.choice, Quot.sound, propext
Vita.C123_empty_never_ends: Quot.sound, propext
Vita.C123_exactly: Classical.choice, Quot.sound, propext
Vita.C123_last_partial: Classical.choice, Quot.sound, propext
Vita.C123_mkdir_parents: Classical.choice, Quot.sound, propext
Vita.C123_not_both: none
Vita.C123_numbers: Quot.sound, propext
Vita.C123_remove_all_partial: Classical.choice, Quot.sound, propext
Vita.C123_replace: Classical.choice, Quot.sound, propext
Vita.C123_split_partial: Classical.choice, Quot.sound, propext
Vita.C123_strip_partial: Classical.choice, Quot.sound, propext
Vita.C123_subtree: Classical.choice, Quot.sound, propext
Vita.C124_last_wins_partial: Classical.choice, Quot.sound, propext
Vita.C124_longer_alias_overruns: Classical.choice, Quot.sound, propext
Vita.C124_own_variables: Classical.choice, Quot.sound, propext
Vita.C124_shared: Classical.choice, Quot.sound, propext
Vita.C124_unrecognised: Classical.choice, Quot.sound, propext
Vita.C125_plist: Classical.choice, Quot.sound, propext
Vita.C125_plist_length: Classical.choice, Quot.sound, propext
Vita.C125_str: Quot.sound, propext
Vita.C125_vec_actual: Quot.sound, propext
Vita.C125_vec_leaves_block: Quot.sound, propext
Vita.C125_vec_partial: Quot.sound, propext
Vita.C125_vec_popping: Classical.choice, Quot.sound, propext
Vita.C126_in_time_partial: Classical.choice, Quot.sound, propext
Vita.C126_long_limit: Quot.sound, propext
Vita.C126_pause: Quot.sound, propext
Vita.C126_poll: Quot.sound, propext
Vita.C126_receive_timed: Quot.sound, propext
Vita.C126_too_many: Quot.sound, propext
Vita.C127_pop_piece: Classical.choice, Quot.sound, propext
Vita.C127_replace_back: Classical.choice, Quot.sound, propext
Vita.C127_replace_length: Classical.choice, Quot.sound, propext
Vita.C127_replace_same: Classical.choice, Quot.sound, propext
Vita.C127_split_length: Classical.choice, Quot.sound, propext
Vita.C127_starts: Classical.choice, Quot.sound, propext
Vita.C128_add: Classical.choice, Quot.sound, propext
Vita.C128_back_partial: Classical.choice, Quot.sound, propext
Vita.C128_difference_partial: Classical.choice, Quot.sound, propext
Vita.C128_months_exactly: Classical.choice, Quot.sound, propext
Vita.C128_order_partial: Classical.choice, Quot.sound, propext
Vita.C128_sum_partial: Classical.choice, Quot.sound, propext
Vita.C128_two_partial: Classical.choice, Quot.sound, propext
Vita.C128_year_zero: Classical.choice, Quot.sound, propext
Vita.C129_failure: Classical.choice, Quot.sound, propext
Vita.C129_frame: Classical.choice, Quot.sound, propext
Vita.C129_make_remove: Classical.choice, Quot.sound, propext
Vita.C129_program: Classical.choice, Quot.sound, propext
Vita.C129_rename_back: Classical.choice, Quot.sound, propext
Vita.C129_write_rename_read: Classical.choice, Quot.sound, propext
Vita.C12_capacity_usable_partial: Classical.choice, Quot.sound, propext
Vita.C12_reserve_overflow: Quot.sound, propext
Vita.C12_reserve_usable_partial: Classical.choice, Quot.sound, propext
Vita.C12_reserve_wraps: Classical.choice, Quot.sound, propext
Vita.C12_resize_overflow: Quot.sound, propext
Vita.C12_resize_usable_partial: Classical.choice, Quot.sound, propext
Vita.C12_size_overflow: Quot.sound, propext
Vita.C130_calls_succeed: Classical.choice, Quot.sound, propext
Vita.C130_count: Classical.choice, Quot.sound, propext
Vita.C130_destroy: Classical.choice, Quot.sound, propext
Vita.C130_null: Classical.choice, Quot.sound, propext
Vita.C130_stats: Classical.choice, Quot.sound, propext
Vita.C131_frame: Classical.choice, Quot.sound, propext
Vita.C131_make_remove: Classical.choice, Quot.sound, propext
Vita.C131_move_load: Classical.choice, Quot.sound, propext
Vita.C131_program: Classical.choice, Quot.sound, propext
Vita.C131_remove_list: Classical.choice, Quot.sound, propext
Vita.C132_again: Classical.choice, Quot.sound, propext
Vita.C132_in_turn: Classical.choice, Quot.sound, propext
Vita.C132_order: Classical.choice, Quot.sound, propext
Vita.C132_spelling: Classical.choice, Quot.sound, propext
Vita.C133_build: Classical.choice, Quot.sound, propext
Vita.C133_build_steps: Classical.choice, Quot.sound, propext
Vita.C133_climb: Classical.choice, Quot.sound, propext
Vita.C133_listing: Classical.choice, Quot.sound, propext
Vita.C133_pop: Classical.choice, Quot.sound, propext
Vita.C133_pop_exceptions: Classical.choice, Quot.sound, propext
Vita.C134_order: Classical.choice, Quot.sound, propext
Vita.C134_short_years: Classical.choice, Quot.sound, propext
Vita.C135_appendf: Quot.sound, propext
Vita.C135_counted: Quot.sound, propext
Vita.C135_format_failure: Classical.choice, Quot.sound, propext
Vita.C135_insertf: Quot.sound, propext
Vita.C135_log_unopenable: Quot.sound, propext
Vita.C135_printing_partial: Quot.sound, propext
Vita.C136_closed: Quot.sound, propext
Vita.C136_debug_partial: Quot.sound, propext
Vita.C136_deep: Classical.choice, Quot.sound, propext
Vita.C136_enough: Classical.choice, Quot.sound, propext
Vita.C136_log: Classical.choice, Quot.sound, propext
Vita.C136_no_handle: Quot.sound, propext
Vita.C136_program: Classical.choice, Quot.sound, propext
Vita.C136_recurse: Classical.choice, Quot.sound, propext
Vita.C136_rmdir: Classical.choice, Quot.sound, propext
Vita.C136_stderr_closed: Classical.choice, Quot.sound, propext
Vita.C137_dir_list: Quot.sound, propext
Vita.C137_list: Classical.choice, Quot.sound, propext
Vita.C137_mkdir: Quot.sound, propext
Vita.C137_mkdir_lost_race: Quot.sound, propext
Vita.C137_mkdir_parents_keeps: Quot.sound, propext
Vita.C137_mkdir_parents_together: Classical.choice, Quot.sound, propext
Vita.C137_quiet: Quot.sound, propext
Vita.C137_quiet_list: propext
Vita.C137_read: Classical.choice, Quot.sound, propext
Vita.C137_read_to_buffer: Classical.choice, Quot.sound, propext
Vita.C137_remove: Quot.sound, propext
Vita.C137_rename: Classical.choice, Quot.sound, propext
Vita.C137_rename_replaces: Classical.choice, Quot.sound, propext
Vita.C137_rmdir_outside: Quot.sound, propext
Vita.C137_rmdir_recurse: Classical.choice, Quot.sound, propext
Vita.C138_last_line_empty: Classical.choice, Quot.sound, propext
Vita.C138_lines_partial: Classical.choice, Quot.sound, propext
Vita.C139_invocation_partial: Classical.choice, Quot.sound, propext
Vita.C13_plist_refines_sequence: Classical.choice, Quot.sound, propext
Vita.C13_plist_resize: Classical.choice, Quot.sound, propext
Vita.C140_memory: Classical.choice, Quot.sound, propext
Vita.C140_results: Classical.choice, Quot.sound, propext
Vita.C140_threads: Classical.choice, Quot.sound, propext
Vita.C141_log_lines: Classical.choice, Quot.sound, propext
Vita.C142_between_partial: Classical.choice, Quot.sound, propext
Vita.C142_boundary: Classical.choice, Quot.sound, propext
Vita.C142_case: Classical.choice, Quot.sound, propext
Vita.C142_compare: Classical.choice, Quot.sound, propext
Vita.C142_edits: Classical.choice, Quot.sound, propext
Vita.C142_find_partial: Classical.choice, Quot.sound, propext
Vita.C142_first: Classical.choice, Quot.sound, propext
Vita.C142_insert: Classical.choice, Quot.sound, propext
Vita.C142_join: Classical.choice, Quot.sound, propext
Vita.C142_last: Classical.choice, Quot.sound, propext
Vita.C142_last_partial: Classical.choice, Quot.sound, propext
Vita.C142_occurs: Classical.choice, Quot.sound, propext
Vita.C142_parts: Quot.sound, propext
Vita.C142_path_partial: Classical.choice, Quot.sound, propext
Vita.C142_remove_all_partial: Classical.choice, Quot.sound, propext
Vita.C142_remove_c_breaks: Classical.choice, Quot.sound, propext
Vita.C142_remove_c_partial: Quot.sound, propext
Vita.C142_replace: Classical.choice, Quot.sound, propext
Vita.C142_split_partial: Classical.choice, Quot.sound, propext
Vita.C142_strip_partial: Classical.choice, Quot.sound, propext
Vita.C143_debug: Quot.sound, propext
Vita.C143_options: Quot.sound, propext
Vita.C143_release: Quot.sound, propext
Vita.C143_unchecked: Quot.sound, propext
Vita.C144_any_contents: Quot.sound, propext
Vita.C144_block: Quot.sound, propext
Vita.C144_calloc_instead: Quot.sound, propext
Vita.C144_filled: Quot.sound, propext
Vita.C144_freed: Quot.sound, propext
Vita.C144_read_first: Quot.sound, propext
Vita.C144_stays_freed: Quot.sound, propext
Vita.C14_remove_element_fast: Classical.choice, Quot.sound, propext
Vita.C14_remove_first_occurrence: Classical.choice, Quot.sound, propext
Vita.C15_create: Quot.sound, propext
Vita.C15_insert_n_beyond_end: Quot.sound, propext
Vita.C15_reserve_overflow: Quot.sound, propext
Vita.C15_string_wellformed_partial: Classical.choice, Quot.sound, propext
Vita.C15_wellformed_observables: Quot.sound, propext
Vita.C16_append: Quot.sound, propext
Vita.C16_append_n: Quot.sound, propext
Vita.C16_clear: Classical.choice, Quot.sound, propext
Vita.C16_insert: Classical.choice, Quot.sound, propext
Vita.C16_insert_n: Classical.choice, Quot.sound, propext
Vita.C16_remove: Quot.sound, propext
Vita.C16_reserve: Quot.sound, propext
Vita.C16_set: Quot.sound, propext
Vita.C16_set_at: Classical.choice, Quot.sound, propext
Vita.C16_set_at_any_build: Classical.choice, Quot.sound, propext
Vita.C16_set_n: Quot.sound, propext
Vita.C17_debug_rejects_empty: Classical.choice, Quot.sound, propext
Vita.C17_empty_string_partial: Quot.sound, propext
Vita.C17_set_at_empty_partial: Quot.sound, propext
Vita.C18_insert_after_end_exits: Quot.sound, propext
Vita.C18_insert_after_partial: Classical.choice, Quot.sound, propext
Vita.C18_insert_before: Classical.choice, Quot.sound, propext
Vita.C18_longer_sub_exits: Quot.sound, propext
Vita.C18_not_found: Classical.choice, Quot.sound, propext
Vita.C19_remove_first: Classical.choice, Quot.sound, propext
Vita.C20_remove_last_actual: Classical.choice, Quot.sound, propext
Vita.C20_remove_last_at_front: Classical.choice, Quot.sound, propext
Vita.C20_remove_last_counterexample: Quot.sound, propext
Vita.C20_remove_last_cuts_end: Classical.choice, Quot.sound, propext
Vita.C20_remove_last_not_found_ub: Classical.choice, Quot.sound, propext
Vita.C20_remove_last_partial: Classical.choice, Quot.sound, propext
Vita.C21_remove_all_empty_diverges: Quot.sound, propext
Vita.C21_remove_all_partial: Classical.choice, Quot.sound, propext
Vita.C22_remove_c: Quot.sound, propext
Vita.C23_replace: Classical.choice, Quot.sound, propext
Vita.C23_replaceAll_meaning: Quot.sound, propext
Vita.C24_replace_first_partial: Classical.choice, Quot.sound, propext
Vita.C24_replace_last_actual: Classical.choice, Quot.sound, propext
Vita.C24_replace_last_not_found_ub: Classical.choice, Quot.sound, propext
Vita.C24_replace_last_overlap: Classical.choice, Quot.sound, propext
Vita.C24_replace_last_overlap_counterexample: Quot.sound, propext
Vita.C24_replace_last_partial: Classical.choice, Quot.sound, propext
Vita.C25_replace_c: Classical.choice, Quot.sound, propext
Vita.C25_replace_c_edge: Quot.sound, propext
Vita.C25_translation_deterministic: Quot.sound, propext
Vita.C26_all_blank_undefined: Quot.sound, propext
Vita.C26_control_kept: Classical.choice, Quot.sound, propext
Vita.C26_empty_set_never_ends: Quot.sound, propext
Vita.C26_strip_c_partial: Classical.choice, Quot.sound, propext
Vita.C26_strip_partial: Classical.choice, Quot.sound, propext
Vita.C26_strip_punct_partial: Classical.choice, Quot.sound, propext
Vita.C26_strip_unique: Quot.sound, propext
Vita.C27_can_find_counts: Classical.choice, Quot.sound, propext
Vita.C27_positions_spec: Classical.choice, Quot.sound, propext
Vita.C28_find_partial: Classical.choice, Quot.sound, propext
Vita.C28_index_of: Classical.choice, Quot.sound, propext
Vita.C28_index_of_nul: Quot.sound, propext
Vita.C28_longer_sub_exits: Quot.sound, propext
Vita.C29_longer_separator_exits: Quot.sound, propext
Vita.C29_pieces_spec: Classical.choice, Quot.sound, propext
Vita.C29_split_none: Classical.choice, Quot.sound, propext
Vita.C29_split_partial: Classical.choice, Quot.sound, propext
Vita.C29_stale_piece: Classical.choice, Quot.sound, propext
Vita.C29_trailing_separators_undefined: Classical.choice, Quot.sound, propext
Vita.C30_join: Classical.choice, Quot.sound, propext
Vita.C30_join_empty_list: Quot.sound, propext
Vita.C30_join_n: Classical.choice, Quot.sound, propext
Vita.C30_join_of_split_list: Classical.choice, Quot.sound, propext
Vita.C30_join_undoes_split_partial: Classical.choice, Quot.sound, propext
Vita.C31_between_partial: Classical.choice, Quot.sound, propext
Vita.C31_missing_marker: Classical.choice, Quot.sound, propext
Vita.C31_nothing_between: Classical.choice, Quot.sound, propext
Vita.C31_overlapping_markers: Classical.choice, Quot.sound, propext
Vita.C31_right_marker_before: Classical.choice, Quot.sound, propext
Vita.C32_pop_get_first: Classical.choice, Quot.sound, propext
Vita.C32_pop_get_last_partial: Classical.choice, Quot.sound, propext
Vita.C32_pop_last_at_end: Classical.choice, Quot.sound, propext
Vita.C32_pop_last_overlap: Classical.choice, Quot.sound, propext
Vita.C32_pop_nothing: Classical.choice, Quot.sound, propext
Vita.C33_ends_with: Quot.sound, propext
Vita.C33_equals: Quot.sound, propext
Vita.C33_equals_n: Quot.sound, propext
Vita.C33_equals_z: Quot.sound, propext
Vita.C33_starts_with: Quot.sound, propext
Vita.C34_case_idempotent: Quot.sound, propext
Vita.C34_case_spec: propext
Vita.C34_is_numeric: Classical.choice, Quot.sound, propext
Vita.C34_is_numeric_z: Classical.choice, Quot.sound, propext
Vita.C34_to_lowercase: Classical.choice, Quot.sound, propext
Vita.C34_to_uppercase: Classical.choice, Quot.sound, propext
Vita.C35_append_to_view_ub: Quot.sound, propext
Vita.C35_clear_writes_through_view: Quot.sound, propext
Vita.C35_view_shows_text: propext
Vita.C35_views_rejected_partial: Quot.sound, propext
Vita.C36_appendf: Classical.choice, Quot.sound, propext
Vita.C36_appendf_nul: Quot.sound, propext
Vita.C36_insertf_any_build_partial: Classical.choice, Quot.sound, propext
Vita.C36_insertf_longest: Quot.sound, propext
Vita.C36_insertf_nul: Classical.choice, Quot.sound, propext
Vita.C36_insertf_nul_any_build: Classical.choice, Quot.sound, propext
Vita.C36_insertf_partial: Classical.choice, Quot.sound, propext
Vita.C37_get_partial: Quot.sound, propext
Vita.C37_inverted_window: Quot.sound, propext
Vita.C37_set_partial: Quot.sound, propext
Vita.C37_whole: Quot.sound, propext
Vita.C37_window_at_zero_rejected: Quot.sound, propext
Vita.C38_alloc_granted: Classical.choice, Quot.sound, propext
Vita.C38_calls_succeed: Classical.choice, Quot.sound, propext
Vita.C38_stats: Classical.choice, Quot.sound, propext
Vita.C38_stats_exact: Classical.choice, Quot.sound, propext
Vita.C38_zero_bytes_debug: Quot.sound, propext
Vita.C38_zero_bytes_release_uncounted: Classical.choice, Quot.sound, propext
Vita.C39_destroy: Classical.choice, Quot.sound, propext
Vita.C40_2d_injective: Quot.sound, propext
Vita.C40_2d_inverse: Quot.sound, propext
Vita.C40_2d_inverse': Quot.sound, propext
Vita.C40_3d_injective: Quot.sound, propext
Vita.C40_3d_inverse: Quot.sound, propext
Vita.C40_3d_inverse': Quot.sound, propext
Vita.C40_undefined_exactly: Quot.sound, propext
Vita.C41_clamp: propext
Vita.C41_clamp_closest: Classical.choice, Quot.sound, propext
Vita.C41_clamp_idempotent: propext
Vita.C41_clamp_monotone: propext
Vita.C41_clamp_reversed: propext
Vita.C41_max: propext
Vita.C41_min: propext
Vita.C41_nan: propext
Vita.C42_gcd: Classical.choice, Quot.sound, propext
Vita.C42_lcm: Classical.choice, Quot.sound, propext
Vita.C42_lcm_any_sign: Classical.choice, Quot.sound, propext
Vita.C43_gcd_defined: Classical.choice, Quot.sound, propext
Vita.C43_gcd_min_undefined: propext
Vita.C43_gcd_negative: none
Vita.C43_gcd_sign: Classical.choice, Quot.sound, propext
Vita.C43_gcd_undefined_exactly: Classical.choice, Quot.sound, propext
Vita.C43_gcd_zero_negative_partial: Classical.choice, Quot.sound, propext
Vita.C43_gcd_zero_undefined: Quot.sound, propext
Vita.C44_palindrome: Classical.choice, Quot.sound, propext
Vita.C45_random_below_32768: Quot.sound, propext
Vita.C45_random_deterministic: Quot.sound, propext
Vita.C45_random_f32: Classical.choice, Quot.sound, propext
Vita.C45_random_f32_uniform_float_partial: Classical.choice, Quot.sound, propext
Vita.C45_random_in_documented_range: Quot.sound, propext
Vita.C45_uniform_reaches_bound: Classical.choice, Quot.sound, propext
Vita.C46_round_trip: Classical.choice, Quot.sound, propext
Vita.C46_to_str: Classical.choice, Quot.sound, propext
Vita.C46_types: propext
Vita.C47_negative_becomes_zero: Classical.choice, Quot.sound, propext
Vita.C47_round_trip_partial: Classical.choice, Quot.sound, propext
Vita.C48_not_numeric: Classical.choice, Quot.sound, propext
Vita.C48_out_of_range: Classical.choice, Quot.sound, propext
Vita.C48_value: Classical.choice, Quot.sound, propext
Vita.C49_increasing: Classical.choice, Quot.sound, propext
Vita.C49_round_trip: Classical.choice, Quot.sound, propext
Vita.C49_secs_round_trip: Classical.choice, Quot.sound, propext
Vita.C49_to_secs: Classical.choice, Quot.sound, propext
Vita.C49_year_zero: propext
Vita.C50_century_wrong: Classical.choice, Quot.sound, propext
Vita.C50_days_in_month_partial: Classical.choice, Quot.sound, propext
Vita.C50_days_in_year_partial: Classical.choice, Quot.sound, propext
Vita.C50_leap_year_partial: Classical.choice, Quot.sound, propext
Vita.C50_negative_years: propext
Vita.C50_other_months: Classical.choice, Quot.sound, propext
Vita.C51_auto_fill: Classical.choice, Quot.sound, propext
Vita.C51_before_1970_wrong: Classical.choice, Quot.sound, propext
Vita.C51_fields: Quot.sound, propext
Vita.C51_ranges_partial: Classical.choice, Quot.sound, propext
Vita.C51_returns_partial: Classical.choice, Quot.sound, propext
Vita.C52_add_difference: Classical.choice, Quot.sound, propext
Vita.C52_antisymmetric: Quot.sound, propext
Vita.C52_diff_exact: Classical.choice, Quot.sound, propext
Vita.C52_units: Quot.sound, propext
Vita.C53_other_years: Classical.choice, Quot.sound, propext
Vita.C53_round_trip: Classical.choice, Quot.sound, propext
Vita.C53_short_buffer: Classical.choice, Quot.sound, propext
Vita.C53_text: Classical.choice, Quot.sound, propext
Vita.C53_text_any_year: Classical.choice, Quot.sound, propext
Vita.C53_year_zero: Classical.choice, Quot.sound, propext
Vita.C54_accepted_iff_partial: Classical.choice, Quot.sound, propext
Vita.C54_exact_accepted: Classical.choice, Quot.sound, propext
Vita.C54_no_overread_partial: Classical.choice, Quot.sound, propext
Vita.C54_overread: Classical.choice, Quot.sound, propext
Vita.C54_separators_ignored: Classical.choice, Quot.sound, propext
Vita.C55_empty_value_aborts: Classical.choice, Quot.sound, propext
Vita.C55_empty_value_ends: Classical.choice, Quot.sound, propext
Vita.C55_exact: Classical.choice, Quot.sound, propext
Vita.C55_own_values: Quot.sound, propext
Vita.C55_parse_partial: Classical.choice, Quot.sound, propext
Vita.C56_defective_table: Classical.choice, Quot.sound, propext
Vita.C56_empty_argument_aborts: Classical.choice, Quot.sound, propext
Vita.C56_empty_argument_ends: Classical.choice, Quot.sound, propext
Vita.C56_exact: Classical.choice, Quot.sound, propext
Vita.C56_exactly_one_reading: Classical.choice, Quot.sound, propext
Vita.C56_unrecognised_partial: Classical.choice, Quot.sound, propext
Vita.C57_after_empty_unterminated: Classical.choice, Quot.sound, propext
Vita.C57_first_value: Classical.choice, Quot.sound, propext
Vita.C57_longer_overruns: Classical.choice, Quot.sound, propext
Vita.C57_replace_partial: Classical.choice, Quot.sound, propext
Vita.C57_shorter_keeps_tail: Classical.choice, Quot.sound, propext
Vita.C58_pop_empty_undefined: Quot.sound, propext
Vita.C58_pop_partial: Classical.choice, Quot.sound, propext
Vita.C59_absolute_single_segment: Classical.choice, Quot.sound, propext
Vita.C59_basename_partial: Classical.choice, Quot.sound, propext
Vita.C59_empty_exits: Quot.sound, propext
Vita.C59_no_separator: Classical.choice, Quot.sound, propext
Vita.C59_trailing_separator: Classical.choice, Quot.sound, propext
Vita.C60_build: Classical.choice, Quot.sound, propext
Vita.C60_build_n: Classical.choice, Quot.sound, propext
Vita.C60_expand_tilda_partial: Classical.choice, Quot.sound, propext
Vita.C60_tilda_alone_exits: Classical.choice, Quot.sound, propext
Vita.C60_validate: Quot.sound, propext
Vita.C61_effect: Classical.choice, Quot.sound, propext
Vita.C61_exact: Classical.choice, Quot.sound, propext
Vita.C61_existing: propext
Vita.C61_keeps: Quot.sound, propext
Vita.C61_mkdir_parents_partial: Classical.choice, Quot.sound, propext
Vita.C61_single_name_fails: Classical.choice, Quot.sound, propext
Vita.C61_true_but_absent: Classical.choice, Quot.sound, propext
Vita.C61_two_separators_undefined: Classical.choice, Quot.sound, propext
Vita.C62_any_file_system: Classical.choice, Quot.sound, propext
Vita.C62_dir_list: Quot.sound, propext
Vita.C62_dir_list_none: propext
Vita.C62_dir_list_recurse: Classical.choice, Quot.sound, propext
Vita.C62_exact: Classical.choice, Quot.sound, propext
Vita.C62_unreadable_cuts: Classical.choice, Quot.sound, propext
Vita.C62_unreadable_subdirectory: Quot.sound, propext
Vita.C63_any_file_system: Classical.choice, Quot.sound, propext
Vita.C63_dangling_link_stays: Quot.sound, propext
Vita.C63_exact: Classical.choice, Quot.sound, propext
Vita.C63_exactly_partial: Classical.choice, Quot.sound, propext
Vita.C63_false_because: Classical.choice, Quot.sound, propext
Vita.C63_link_removes_outside: Quot.sound, propext
Vita.C63_outside_untouched: Classical.choice, Quot.sound, propext
Vita.C63_rmdir_recurse_partial: Classical.choice, Quot.sound, propext
Vita.C63_true_but_present: Quot.sound, propext
Vita.C63_true_means_empty: Classical.choice, Quot.sound, propext
Vita.C63_unreadable_stays: Classical.choice, Quot.sound, propext
Vita.C64_empty_file_exits: Quot.sound, propext
Vita.C64_failure: Quot.sound, propext
Vita.C64_full_disk: Quot.sound, propext
Vita.C64_history: Quot.sound, propext
Vita.C64_history_partial: Quot.sound, propext
Vita.C64_read_after_partial: Classical.choice, Quot.sound, propext
Vita.C64_read_missing: Quot.sound, propext
Vita.C64_read_partial: Classical.choice, Quot.sound, propext
Vita.C64_writef: propext
Vita.C65_read_to_buffer: Classical.choice, Quot.sound, propext
Vita.C65_safe: Classical.choice, Quot.sound, propext
Vita.C66_condition: Classical.choice, Quot.sound, propext
Vita.C66_fatal_does_not_end: Classical.choice, Quot.sound, propext
Vita.C66_history_debug: Classical.choice, Quot.sound, propext
Vita.C66_history_partial: Classical.choice, Quot.sound, propext
Vita.C66_history_release: Classical.choice, Quot.sound, propext
Vita.C66_redirect_level: Quot.sound, propext
Vita.C66_unopenable_debug: Classical.choice, Quot.sound, propext
Vita.C67_accept_close: Quot.sound, propext
Vita.C67_client_partial: Classical.choice, Quot.sound, propext
Vita.C67_descriptor_left_open: propext
Vita.C67_make_address: Quot.sound, propext
Vita.C67_port_truncated: Classical.choice, Quot.sound, propext
Vita.C67_server_partial: Classical.choice, Quot.sound, propext
Vita.C67_status_ambiguous: none
Vita.C68_memcmp_partial: Quot.sound, propext
Vita.C68_memcmp_zero: propext
Vita.C68_pswap: none
Vita.C68_swap_partial: Quot.sound, propext
Vita.C68_swap_twice_partial: Quot.sound, propext
Vita.C68_swap_within_partial: Quot.sound, propext
Vita.C68_swap_zero: Quot.sound, propext
Vita.C69_own_name: propext
Vita.C69_status_names: Quot.sound, propext
Vita.C70_accuracy_partial: Classical.choice, Quot.sound, propext
Vita.C70_double_partial: Classical.choice, Quot.sound, propext
Vita.C70_end_exceeded: Classical.choice, Quot.sound, propext
Vita.C70_map_to_inverse_partial: Classical.choice, Quot.sound, propext
Vita.C70_map_to_partial: Classical.choice, Quot.sound, propext
Vita.C71_float_partial: Classical.choice, Quot.sound, propext
Vita.C71_negative_actual: Classical.choice, Quot.sound, propext
Vita.C71_negative_tolerance: Classical.choice, Quot.sound, propext
Vita.C71_rounding_lost: Classical.choice, Quot.sound, propext
Vita.C71_zero_tolerance: Classical.choice, Quot.sound, propext
Vita.C72_long_years: Classical.choice, Quot.sound, propext
Vita.C72_pretty: Classical.choice, Quot.sound, propext
Vita.C72_short_buffer: Classical.choice, Quot.sound, propext
Vita.C72_short_years: Classical.choice, Quot.sound, propext
Vita.C72_zero_length: Classical.choice, Quot.sound, propext
Vita.C73_help: Classical.choice, Quot.sound, propext
Vita.C74_manual: Classical.choice, Quot.sound, propext
Vita.C75_cwd: Quot.sound, propext
Vita.C75_exe_location_cut: Quot.sound, propext
Vita.C75_exe_location_none: Quot.sound, propext
Vita.C75_exe_location_partial: Quot.sound, propext
Vita.C75_exe_location_wrong: Classical.choice, Quot.sound, propext
Vita.C76_history: Classical.choice, Quot.sound, propext
Vita.C76_history_partial: Classical.choice, Quot.sound, propext
Vita.C76_stderr_closed: Classical.choice, Quot.sound, propext
Vita.C77_any_count: Quot.sound, propext
Vita.C77_receive: Quot.sound, propext
Vita.C77_send: Quot.sound, propext
Vita.C77_timed: Quot.sound, propext
Vita.C78_carmack: Classical.choice, Quot.sound, propext
Vita.C78_isqrt_zero: Classical.choice, Quot.sound, propext
Vita.C78_sqrt_accurate: Classical.choice, Quot.sound, propext
Vita.C78_sqrt_subnormal: Classical.choice, Quot.sound, propext
Vita.C78_sqrt_zero: Classical.choice, Quot.sound, propext
Vita.C79_insert_full_ub: Classical.choice, Quot.sound, propext
Vita.C79_insert_own_behind: Classical.choice, Quot.sound, propext
Vita.C79_insert_own_partial: Classical.choice, Quot.sound, propext
Vita.C79_push_front_own: Classical.choice, Quot.sound, propext
Vita.C79_push_full_ub: Classical.choice, Quot.sound, propext
Vita.C79_push_own_partial: Classical.choice, Quot.sound, propext
Vita.C79_set_own: Classical.choice, Quot.sound, propext
Vita.C80_append_own_partial: Quot.sound, propext
Vita.C80_append_own_ub: Quot.sound, propext
Vita.C80_insert_after_own_partial: Classical.choice, Quot.sound, propext
Vita.C80_insert_before_own_partial: Classical.choice, Quot.sound, propext
Vita.C80_insert_found_own_ub: Classical.choice, Quot.sound, propext
Vita.C80_insert_last_own: Classical.choice, Quot.sound, propext
Vita.C80_insert_own_actual: Classical.choice, Quot.sound, propext
Vita.C80_insert_own_counterexample: Quot.sound, propext
Vita.C80_insert_own_partial: Classical.choice, Quot.sound, propext
Vita.C80_insert_own_ub: Classical.choice, Quot.sound, propext
Vita.C80_set_at_own_partial: Quot.sound, propext
Vita.C80_set_at_self: Quot.sound, propext
Vita.C80_set_own: Quot.sound, propext
Vita.C81_add_back_partial: Classical.choice, Quot.sound, propext
Vita.C81_antisymmetric: Classical.choice, Quot.sound, propext
Vita.C81_counterexample: Classical.choice, Quot.sound, propext
Vita.C81_days_negative: Classical.choice, Quot.sound, propext
Vita.C81_error_partial: Classical.choice, Quot.sound, propext
Vita.C81_far_counterexample: Classical.choice, Quot.sound, propext
Vita.C81_parts_partial: Classical.choice, Quot.sound, propext
Vita.C81_whole_days: Classical.choice, Quot.sound, propext
Vita.C82_access: propext
Vita.C82_date_create_partial: Quot.sound, propext
Vita.C82_date_create_refuted: Classical.choice, Quot.sound, propext
Vita.C82_log_functions: Classical.choice, Quot.sound, propext
Vita.C82_mallocator: Quot.sound, propext
Vita.C82_plist_history: propext
Vita.C82_str_functions: Quot.sound, propext
Vita.C82_str_history: propext
Vita.C82_str_release: Classical.choice, Quot.sound, propext
Vita.C82_system: Classical.choice, Quot.sound, propext
Vita.C82_vec_history: propext
Vita.C82_vec_release: Classical.choice, Quot.sound, propext
Vita.C83_plist_apply: Classical.choice, Quot.sound, propext
Vita.C83_str_apply: Quot.sound, propext
Vita.C83_str_apply_calls: Quot.sound, propext
Vita.C83_vec_apply: Classical.choice, Quot.sound, propext
Vita.C83_vec_apply_calls: Classical.choice, Quot.sound, propext
Vita.C84_plist_space_usable: Classical.choice, Quot.sound, propext
Vita.C84_str_queries: Quot.sound, propext
Vita.C84_str_space_usable: Classical.choice, Quot.sound, propext
Vita.C84_vec_queries: Classical.choice, Quot.sound, propext
Vita.C84_vec_space_usable: Classical.choice, Quot.sound, propext
Vita.C85_validate_len: Classical.choice, Quot.sound, propext
Vita.C85_validate_unchanged: Quot.sound, propext
Vita.C85_view: Quot.sound, propext
Vita.C86_dangling_link: Quot.sound, propext
Vita.C86_dangling_link_stays: Quot.sound, propext
Vita.C86_mkdir: Quot.sound, propext
Vita.C86_mkdir_existing: propext
Vita.C86_mkdir_true_for_file: propext
Vita.C86_queries: Classical.choice, Quot.sound, propext
Vita.C86_remove: Classical.choice, Quot.sound, propext
Vita.C86_rename: Classical.choice, Quot.sound, propext
Vita.C86_rename_succeeds: Quot.sound, propext
Vita.C87_destroy_allocator: Classical.choice, Quot.sound, propext
Vita.C87_double_destroy: Classical.choice, Quot.sound, propext
Vita.C87_no_leak: Classical.choice, Quot.sound, propext
Vita.C87_requests: Classical.choice, Quot.sound, propext
Vita.C87_run: Classical.choice, Quot.sound, propext
Vita.C87_split_between_leaks: Classical.choice, Quot.sound, propext
Vita.C87_take_ownership: Classical.choice, Quot.sound, propext
Vita.C87_take_ownership_not_tracked: Classical.choice, Quot.sound, propext
Vita.C88_build_n: Classical.choice, Quot.sound, propext
Vita.C88_clean_heap: Classical.choice, Quot.sound, propext
Vita.C88_dir_free: Classical.choice, Quot.sound, propext
Vita.C88_dir_free_leaks: Classical.choice, Quot.sound, propext
Vita.C88_dir_list: Classical.choice, Quot.sound, propext
Vita.C88_dir_list_into: Classical.choice, Quot.sound, propext
Vita.C88_dir_list_recurse: Classical.choice, Quot.sound, propext
Vita.C88_dir_list_recurse_into: Classical.choice, Quot.sound, propext
Vita.C88_file_read: Classical.choice, Quot.sound, propext
Vita.C88_join: Classical.choice, Quot.sound, propext
Vita.C88_list_and_free: Classical.choice, Quot.sound, propext
Vita.C88_mkdir_parents: Classical.choice, Quot.sound, propext
Vita.C88_pop_get: Classical.choice, Quot.sound, propext
Vita.C88_rmdir_recurse: Classical.choice, Quot.sound, propext
Vita.C88_split: Classical.choice, Quot.sound, propext
Vita.C88_split_again_leaks: Quot.sound, propext
Vita.C88_split_into: Classical.choice, Quot.sound, propext
Vita.C89_now: Classical.choice, Quot.sound, propext
Vita.C89_short_buffer: Quot.sound, propext
Vita.C90_nearest: Classical.choice, Quot.sound, propext
Vita.C90_not_numeric: Classical.choice, Quot.sound, propext
Vita.C90_text: Classical.choice, Quot.sound, propext
Vita.C90_to_str: Classical.choice, Quot.sound, propext
Vita.C90_types: Classical.choice, Quot.sound, propext
Vita.C90_value: Classical.choice, Quot.sound, propext
Vita.C90_value_whole: Classical.choice, Quot.sound, propext
Vita.C91_exact: Classical.choice, Quot.sound, propext
Vita.C91_exact_iff: Classical.choice, Quot.sound, propext
Vita.C91_mono: Classical.choice, Quot.sound, propext
Vita.C91_negative_becomes_zero: Classical.choice, Quot.sound, propext
Vita.C91_round_trip_partial: Classical.choice, Quot.sound, propext
Vita.C91_small_lost: Classical.choice, Quot.sound, propext
Vita.C92_every_history: Quot.sound, propext
Vita.C92_faithful: Classical.choice, Quot.sound, propext
Vita.C92_table: Classical.choice, Quot.sound, propext
Vita.C93_parse: Classical.choice, Quot.sound, propext
Vita.C93_release: Classical.choice, Quot.sound, propext
Vita.C94_finite: Classical.choice, Quot.sound, propext
Vita.C94_first: Classical.choice, Quot.sound, propext
Vita.C94_history: Classical.choice, Quot.sound, propext
Vita.C94_no_deviation: Classical.choice, Quot.sound, propext
Vita.C94_range: Classical.choice, Quot.sound, propext
Vita.C94_second: Classical.choice, Quot.sound, propext
Vita.C95_period: Classical.choice, Quot.sound, propext
Vita.C95_repeats: Classical.choice, Quot.sound, propext
Vita.C95_repeats_from_the_start: Classical.choice, Quot.sound, propext
Vita.C95_same_numbers: Classical.choice, Quot.sound, propext
Vita.C95_short_period: Classical.choice, Quot.sound, propext
Vita.C95_stuck: Classical.choice, Quot.sound, propext
Vita.C95_stuck_iff: Classical.choice, Quot.sound, propext
Vita.C96_hangs: Classical.choice, Quot.sound, propext
Vita.C96_returns: Classical.choice, Quot.sound, propext
Vita.C97_capacity_invisible: Classical.choice, Quot.sound, propext
Vita.C97_capacity_invisible_release: Classical.choice, Quot.sound, propext
Vita.C97_vector_capacity_invisible: Classical.choice, Quot.sound, propext
Vita.C98_append_remove: Quot.sound, propext
Vita.C98_build_pop: Classical.choice, Quot.sound, propext
Vita.C98_insert_remove: Classical.choice, Quot.sound, propext
Vita.C98_pop_join: Classical.choice, Quot.sound, propext
Vita.C98_remove_insert: Classical.choice, Quot.sound, propext
Vita.C98_replace_c_back: Classical.choice, Quot.sound, propext
Vita.C98_vec_insert_remove: Classical.choice, Quot.sound, propext
Vita.C98_vec_remove_insert: Classical.choice, Quot.sound, propext
Vita.C99_case: Classical.choice, Quot.sound, propext
Vita.C99_remove: Classical.choice, Quot.sound, propext
Vita.C99_strip: Classical.choice, Quot.sound, propext
Vita.C99_validate: Quot.sound, propext
