# Axioms of the theorems in MANIFEST.json

Generated by tools/gen_axioms.py from `#print axioms`.

## none (20 theorems)

`C47_empty_vector_undefined`, `C47_nested_accumulates`, `C47_tight_buffer_unreadable`, `C48_empty_vector_undefined`, `C48_field_size_wraps`, `C104_all_chars`, `C31_no_range_check`, `C31_signed_empty_is_ub`, `C67_exists_size`, `C70_consumes`, `C97_default_class`, `C97_default_scalar`, `C164_append_separate`, `C164_bracketize_same`, `C164_join_same`, `C39_reversed_range_witness`, `C59_string_find`, `C28_bool_byte_round_trip`, `C29_byte`, `C178_pregen_ignored`

## propext (84 theorems)

`C106_convert_partial`, `C106_unchecked`, `C48_seek_int_min`, `C54_copy_undefined`, `C98_key_list`, `C99_incomplete`, `C21_base64_accepts_garbage`, `C21_base64_short_is_ub`, `C25_hamming_elementwise_partial`, `C73_decreasing_columns`, `C119_empty_range`, `C119_too_large`, `C42_k_zero`, `C42_overflow_wrong`, `C43_k_lt_two`, `C43_pointer_overwrites`, `C45_showUntil`, `C52_empty_runs`, `C52_split_n_one_too_many`, `C52_stateful_past_end`, `C104_build`, `C104_mult`, `C104_operators`, `C157_write_text_refused`, `C67_copy_unwritable`, `C67_load_missing`, `C67_write_unwritable`, `C88_container_bad_stream`, `C17_index_of_empty`, `C18_high_char_is_ub`, `C152_compress_drops_empty`, `C152_empty_line_dropped`, `C171_recovers`, `C63_counterexample`, `C65_no_row`, `C66_counterexample`, `C86_accumulate_no_row`, `C86_counts_missing_rows`, `C87_reads_next_row`, `C69_like`, `C70_inrange`, `C70_inrange_nan`, `C74_non_empty`, `C96_assign_unbound`, `C96_copy_dangles`, `C110_function_copies`, `C35_join`, `C35_singleton_empty`, `C38_replicate`, `C38_replicate_inplace`, `C40_size_mismatch`, `C187_empty`, `C71_empty`, `C71_not_least`, `C28_bool_exact`, `C103_bound_constructor_counted`, `C103_bound_constructor_default`, `C103_option_lost`, `C130_one_of_main`, `C130_wrong_count`, `C173_sequence`, `C79_multiple_predicate`, `C79_single_predicate`, `C137_usage`, `C188_shipped_overflows`, `C151_leftover`, `C155_fast_least`, `C178_by_seed`, `C178_seed`, `C81_range_refused`, `C189_row_half`, `C77_base64_sink_overflows`, `C77_base64_sink_short_ub`, `C04_options_combined`, `C174_again`, `C174_twice`, `C121_zero_delivers_one`, `C13_empty_pattern`, `C13_iterators_empty`, `C115_clear`, `C115_no_file`, `C169_remove_row_if_returns`, `C161_leak`, `C53_empty_prefix`

## propext, Classical.choice, Quot.sound (738 theorems)

`C125_through_file_partial`, `C125_through_file_room`, `C158_values_cut_short_partial`, `C180_any_answer_partial`, `C180_quadratic`, `C180_success_partial`, `C46_both_hosts_partial`, `C46_convert16`, `C46_involution_partial`, `C46_network_order_partial`, `C46_there_and_back_partial`, `C47_long_string_lost`, `C47_read_room`, `C47_set_union`, `C47_vector_read_as_deque`, `C47_vectors_read_back`, `C47_write_read_partial`, `C47_write_room`, `C47_write_succeeds`, `C48_mark_reset`, `C48_reader_array`, `C48_reader_history_partial`, `C48_reader_pod`, `C48_reset_to_mark`, `C48_rewind`, `C48_seek`, `C48_writer_history_partial`, `C48_writer_keeps_prefix`, `C120_default_limits`, `C120_optimal_partial`, `C120_probability`, `C120_probability_above_one`, `C120_zero_probability`, `C123_hash_collision`, `C123_hash_injective`, `C123_hash_value`, `C158_filter_any_file`, `C158_filter_cut_short_partial`, `C166_accepted_unchecked`, `C166_any_file`, `C166_complete_file`, `C166_compressible_same_size`, `C166_cut_file`, `C166_refused`, `C54_empty`, `C54_exact`, `C54_hash_count`, `C54_table_size`, `C55_clear_after_compress`, `C55_compress_partial`, `C55_overflow`, `C56_equal_histories`, `C56_large_truncated`, `C56_read_back`, `C56_round_trip_partial`, `C168_locked`, `C181_error_small`, `C181_near_one`, `C181_parameters_partial`, `C181_probability`, `C181_refused`, `C181_tiny_probability`, `C183_accurate`, `C183_empty`, `C183_monotone`, `C183_promise`, `C100_delete_if`, `C101_extract_unique`, `C98_key_set`, `C99_value_list_partial`, `C99_value_suffix`, `C148_base64_round_trip`, `C148_base64_to_bin`, `C148_bin_to_base64`, `C148_bin_to_hex`, `C148_hex_to_bin`, `C164_base64_round_trip`, `C164_base64_to_bin_same`, `C164_bin_to_base64_same`, `C164_bin_to_hex_same`, `C164_bitwise_same`, `C164_hex_in_place`, `C164_hex_to_bin_same`, `C164_separate_objects`, `C19_hex_alphabet`, `C19_hex_decode`, `C19_hex_encode`, `C19_hex_round_trip`, `C20_base64_alphabet`, `C20_base64_decode`, `C20_base64_encode`, `C20_base64_round_trip`, `C21_base64_exact`, `C23_interleave`, `C23_string_overload_overflows`, `C24_hamming_distance`, `C24_hamming_metric`, `C26_bit_state`, `C26_set_bit`, `C27_bitwise_transform`, `C27_xor_involution`, `C73_bad_column`, `C73_missing_column`, `C73_parse_columns`, `C119_combination_iterator_partial`, `C119_copies_follow`, `C119_post_increment_skips`, `C138_nth_is_n_steps`, `C138_resume`, `C156_after_initialize_partial`, `C156_alone`, `C156_first_calls_race`, `C156_hundred_races`, `C156_initialize`, `C156_initialized_partial`, `C41_n_choose_k_partial`, `C41_zero_zero`, `C42_distinct`, `C42_nth_permutation_partial`, `C42_onto_partial`, `C42_range_partial`, `C42_string_all_partial`, `C42_string_partial`, `C43_complete_partial`, `C43_nth_combination`, `C43_range`, `C44_next_combination`, `C44_permutes`, `C44_visits_all`, `C45_conditional`, `C45_for_each_combination`, `C45_order`, `C52_find_atleast`, `C52_find_exactly`, `C52_find_exactly_zero`, `C52_match_atleast_partial`, `C52_match_atleast_wrong`, `C52_match_exactly`, `C52_split`, `C52_split_n_partial`, `C52_split_n_strings_partial`, `C52_split_number`, `C52_split_predicate`, `C52_split_predicate_strings`, `C52_split_strings`, `C52_types`, `C52_words`, `C104_history_partial`, `C104_sub`, `C104_times_disagrees`, `C31_numeric_convert`, `C31_numeric_convert_N`, `C31_numeric_convert_N_unchecked`, `C31_numeric_convert_rejects`, `C31_signed_numeric_convert`, `C31_signed_rejects`, `C31_unchecked`, `C31_unsigned_wraps`, `C157_concatenate`, `C157_copy`, `C157_every_beginning`, `C67_concatenate_onto_first`, `C67_concatenate_partial`, `C67_copy_full_disk`, `C67_copy_partial`, `C88_read_sound`, `C90_read_at_offset`, `C90_read_at_offset_string`, `C90_stream`, `C160_any_failure_partial`, `C160_enough_memory`, `C160_failed_assignment`, `C160_failed_compress`, `C160_failed_read`, `C15_match_exact_partial`, `C15_match_greedy`, `C15_match_incomplete`, `C15_match_out_of_bounds`, `C15_match_sound_partial`, `C15_match_unsound`, `C15_no_star_in_bounds`, `C15_one_star`, `C15_one_star_partial`, `C15_star_first_only`, `C16_find_all`, `C16_find_all_sound_complete`, `C17_begins_ends_plain`, `C17_begins_with`, `C17_ends_with`, `C17_ifind`, `C17_index_of`, `C18_imatch_equivalence`, `C18_imatch_partial`, `C107_open_end_rejected`, `C108_failed_load_dangles`, `C108_failed_load_frees_callers_buffer`, `C108_history_partial`, `C108_no_memory_dangles`, `C108_no_memory_frees_callers_buffer`, `C109_for_each_column`, `C109_row_text`, `C152_quoted_table_loads`, `C152_table_loads`, `C152_table_loads_compressed`, `C165_additions`, `C165_column`, `C165_column_if`, `C165_table_signed`, `C165_table_unsigned`, `C170_additions`, `C170_additions_exact`, `C170_no_number`, `C170_order_matters`, `C170_table`, `C170_table_exact`, `C171_constructor`, `C171_constructor_leaks`, `C171_frees_callers_buffer`, `C171_history_partial`, `C171_load_buffer`, `C171_load_file`, `C171_no_buffer`, `C186_remove_column`, `C186_remove_rows`, `C60_load`, `C60_load_compress`, `C60_load_default`, `C61_history`, `C61_history_loaded`, `C61_remove_row_if`, `C62_remove_token_if`, `C63_enforce_columns_partial`, `C63_enforce_min_max_partial`, `C63_range_ignored`, `C64_extract_column_checked`, `C64_extract_column_partial`, `C64_extract_columns`, `C64_extract_columns_rejected`, `C64_extract_two_columns`, `C64_extract_two_columns_rejected`, `C65_counterexample`, `C65_join_column`, `C65_join_column_if_last`, `C66_partition_partial`, `C66_splits_at_signals_partial`, `C66_tiles`, `C85_quotes_compress_partial`, `C85_quotes_partial`, `C85_trim_inverts`, `C85_trim_partial`, `C85_trim_reads_past_end`, `C85_unbalanced`, `C86_accumulate_column_if`, `C86_accumulate_column_partial`, `C86_accumulate_row`, `C86_column_width`, `C86_column_widths`, `C86_for_each_row`, `C87_parse_range`, `C69_begins_ends`, `C69_begins_ends_partial`, `C69_equal`, `C69_proper_prefix_refused`, `C69_within_partial`, `C70_expect`, `C70_iexpect_partial`, `C70_like`, `C93_trim_partial`, `C93_trim_string_partial`, `C94_beyond`, `C94_continuation_matches`, `C94_prefix_matches`, `C94_ranges`, `C94_ranges_icase`, `C94_ranges_partial`, `C94_skip`, `C94_strings`, `C94_strings_icase`, `C97_attribute_partial`, `C57_collisions`, `C57_exact`, `C57_fold_partial`, `C57_ignored`, `C57_step_value`, `C57_value_partial`, `C58_memcmp_n`, `C01_for_each_token`, `C110_function_calls`, `C164_replicate_same_right`, `C35_join_argv`, `C35_join_of_split`, `C35_split_of_join`, `C38_everyKth_blocks`, `C39_cut_inplace_partial`, `C39_cut_partial`, `C40_high_bytes_ub`, `C40_translate_partial`, `C80_iota`, `C146_order`, `C146_order_lenient`, `C146_round_trip`, `C187_again`, `C187_lenient`, `C187_no_throw`, `C187_others`, `C187_prefix`, `C187_strict`, `C59_empty_key`, `C59_last_value`, `C59_lenient`, `C59_number_confusion`, `C59_number_find`, `C59_number_register`, `C59_strict`, `C59_strict_failure`, `C59_uint_find`, `C158_text_cut_short`, `C158_text_unnoticed`, `C173_lines`, `C173_lines_again`, `C173_lines_n`, `C68_all_lines`, `C68_conditional`, `C68_conditional_n_partial`, `C68_file`, `C68_first_n_partial`, `C68_read_line_as_value`, `C68_resume`, `C68_zero_is_all`, `C91_load`, `C91_round_trip`, `C71_equal_forms`, `C71_least_rotation_partial`, `C71_result`, `C71_rotations_partial`, `C72_first_non_repeated_partial`, `C72_pointer_partial`, `C75_set_array_arrays_partial`, `C113_long_too_short`, `C113_type_length_partial`, `C28_canonical`, `C28_least_value_fails`, `C28_long_round_trip_partial`, `C28_short_round_trip`, `C28_signed_round_trip_partial`, `C28_signed_text`, `C28_unsigned_round_trip`, `C28_unsigned_text`, `C29_least_value_overflows`, `C29_long_partial`, `C29_short`, `C29_signed_partial`, `C29_unsigned`, `C29_unsigned_long_partial`, `C103_all`, `C103_count`, `C129_containers`, `C129_end`, `C129_fields`, `C129_one_line_per_call`, `C129_parse_line`, `C130_sequence`, `C130_values_of_main`, `C130_values_partial`, `C131_cut_off`, `C131_remove_partial`, `C131_split`, `C131_split_n`, `C173_container`, `C173_tail`, `C173_targets`, `C175_deque`, `C175_last_wins`, `C175_targets_partial`, `C175_text`, `C175_vector_partial`, `C33_bad_field`, `C33_parse_succeeds`, `C33_too_few_fields`, `C34_parse_container`, `C34_parse_container_any_option`, `C34_parse_n`, `C34_parse_tail`, `C34_short_converter`, `C37_construct_then_parse`, `C37_ints`, `C116_conditional`, `C116_for_each_permutation`, `C116_not_sorted`, `C126_ipv4_empty`, `C126_ipv4_exact`, `C126_ipv4_int`, `C126_ipv4_partial`, `C126_ipv4_printed`, `C126_ipv4_wraps`, `C127_hexview`, `C127_hexview_faithful`, `C128_sum`, `C128_wordfreq`, `C132_all_choices`, `C132_order`, `C132_refused`, `C133_file_name_patterns`, `C133_glober_partial`, `C134_each_line`, `C134_nothing`, `C134_uniform`, `C136_accepted`, `C136_any_order`, `C136_not_alone`, `C136_rest_ignored`, `C137_fair`, `C137_same_lines`, `C139_nan`, `C139_report`, `C141_no_file`, `C141_words_partial`, `C142_high_byte`, `C142_words_partial`, `C144_combinator`, `C145_not_as_described`, `C145_output_partial`, `C147_no_errors`, `C147_search`, `C159_accepts`, `C159_distinct`, `C159_event`, `C159_event_unnamed`, `C159_list`, `C159_print`, `C159_program`, `C159_round_trip`, `C159_stamp_reads`, `C163_casing`, `C163_declaration`, `C163_declaration_refused`, `C163_temperature`, `C163_temperature_nan`, `C163_trimming_partial`, `C163_trimming_values_partial`, `C188_copies`, `C188_error_bound`, `C188_error_left`, `C188_error_zero`, `C188_least`, `C188_lengths`, `C188_shipped_error`, `C188_split`, `C188_sum_overflows`, `C188_sums_partial`, `C188_tokenizer`, `C188_tokenizer_short`, `C149_b64_speed`, `C149_example01`, `C149_example02`, `C149_example03`, `C149_hex_speed`, `C149_size_one`, `C151_example01`, `C151_example02`, `C150_examples`, `C150_search`, `C154_one_person`, `C154_padded_negative`, `C154_padded_number`, `C154_persons`, `C154_persons_through_file`, `C154_short_strings`, `C154_total_read`, `C154_total_written`, `C154_vector_to_deque`, `C155_construct_and_parse`, `C155_construct_members`, `C155_empty_filter`, `C155_fast`, `C155_helpers`, `C155_record`, `C155_split_n`, `C153_aligned`, `C153_buckets_of_three`, `C153_buckets_total`, `C153_empty_removed`, `C153_symbol_sums`, `C153_transposed`, `C135_combination`, `C135_fractions`, `C135_permutation`, `C135_select_1`, `C135_select_k`, `C178_selection`, `C81_every_combination_rounded`, `C81_every_permutation_rounded`, `C81_random_combination`, `C81_random_permutation`, `C82_select_1_rounded`, `C82_select_k`, `C82_select_k_rounded`, `C83_generate_random_data_partial`, `C102_accepts_only`, `C102_decimal_partial`, `C102_in_text`, `C102_reads_on`, `C102_skips_a_digit`, `C124_double_error`, `C124_integers`, `C124_long_integers`, `C124_lost`, `C124_special`, `C124_ten_digits`, `C140_correctly_rounded`, `C140_error_bound_partial`, `C140_integer_exact`, `C140_large_exponent`, `C140_overflow`, `C140_zero_large_exponent`, `C143_error`, `C143_integers`, `C143_largest`, `C143_special`, `C143_subnormal`, `C162_every_float`, `C162_nearest`, `C162_overflow`, `C162_special`, `C162_texts_differ`, `C176_agrees`, `C176_cut`, `C176_error_bound`, `C176_exact`, `C176_not_nearest`, `C176_order`, `C184_correctly_rounded`, `C184_error_bound_partial`, `C184_exponent_over_read`, `C184_integer_exact`, `C184_large_exponent`, `C184_long_fraction`, `C184_over_read`, `C184_small_exponent`, `C184_table`, `C185_error_partial`, `C185_integers`, `C185_large`, `C185_small`, `C185_special`, `C185_tiny`, `C191_apart_long_partial`, `C191_apart_partial`, `C191_integers`, `C191_many_digits`, `C191_many_digits_long`, `C191_notation`, `C191_order_lost`, `C191_plain`, `C191_plain_float`, `C191_scaled`, `C191_scaled_float`, `C191_scaled_long`, `C192_all`, `C192_apart`, `C192_kept`, `C192_merged`, `C192_strict`, `C30_accepts_only_partial`, `C30_correctly_rounded`, `C30_decimal_two_roundings`, `C30_deep_exponent`, `C30_deep_fraction`, `C30_error_bound`, `C30_fraction_correctly_rounded`, `C30_fraction_wraps`, `C30_integer_exact`, `C30_large_exponent`, `C30_no_over_read_partial`, `C30_special`, `C30_stray`, `C30_value`, `C179_base64`, `C179_bracketize`, `C179_codecs`, `C179_join`, `C179_join_if`, `C179_pattern_requests`, `C179_patterns`, `C179_replicate`, `C179_room`, `C189_column`, `C189_column_if`, `C189_loaded`, `C189_none`, `C189_none_if`, `C189_row`, `C189_row_new`, `C189_row_room`, `C190_column_delimiter_partial`, `C190_column_if_delimiter_partial`, `C190_column_if_moved`, `C190_column_if_own_partial`, `C190_column_moved`, `C190_column_own_partial`, `C190_delimiter_partial`, `C190_moved`, `C190_moved_late`, `C190_own_partial`, `C65_join_column_if`, `C167_crash`, `C167_full_disk`, `C167_saved`, `C32_empty`, `C32_hex_sink_behaviour`, `C32_hex_sink_partial`, `C32_not_hex_invalid`, `C32_too_long_keeps_state`, `C76_hex_string_round_trip`, `C76_hex_to_string`, `C76_odd_invalid`, `C77_base64_sink_never_valid`, `C77_base64_sink_partial`, `C77_base64_sink_stores`, `C78_truncated`, `C78_truncated_fixed`, `C78_truncated_int`, `C105_container`, `C105_range_disagrees`, `C105_range_partial`, `C01_split_default`, `C01_split_positions`, `C02_split_compress`, `C02_split_compress_eq_split_collapsed`, `C03_split_in_bounds`, `C04_split_modes`, `C04_split_tiles`, `C05_all_bits_disagree`, `C05_tokenizer_eq_split`, `C05_tokenizer_eq_split_partial`, `C06_include_all_disagrees`, `C06_split_n_prefix`, `C06_split_n_prefix_partial`, `C07_offset_splitter`, `C07_offset_splitter_prefix`, `C08_split_pair_iff`, `C08_split_pair_none`, `C08_split_pair_some`, `C114_advance`, `C114_assign_mixes`, `C114_history_partial`, `C172_asks_twice`, `C172_questions`, `C172_remembers`, `C172_safe`, `C172_safe_n`, `C172_throws_at`, `C174_all_run`, `C174_ends_partial`, `C174_last_question`, `C174_loses`, `C174_plain`, `C174_remembers_partial`, `C174_safe`, `C174_skips`, `C09_remove_inplace`, `C09_remove_inplace_range`, `C10_no_equal_neighbours`, `C10_remove_consecutives`, `C10_remove_consecutives_pred`, `C11_high_char_is_ub`, `C11_remove_duplicates_partial`, `C12_remove_leading`, `C12_remove_leading_trailing`, `C12_trim_idempotent`, `C13_iterators`, `C13_no_occurrence`, `C13_plain_iterator`, `C13_remove_pattern`, `C13_replace_pattern`, `C14_copy_if`, `C14_copy_until`, `C14_copy_while`, `C14_range_only_contains`, `C14_replace`, `C164_replace_same_equal`, `C164_replace_same_longer`, `C164_replace_same_no_occurrence`, `C164_replace_same_shorter`, `C164_replacement_same`, `C115_load`, `C115_parse`, `C115_parse_any_option`, `C115_parse_n`, `C115_parse_tail`, `C115_push_back`, `C115_read_pod`, `C115_read_pod_file`, `C115_row`, `C51_insert_overlap`, `C51_insert_partial`, `C51_remove_overlap`, `C51_remove_partial`, `C51_swap`, `C84_classes`, `C84_is_all`, `C169_delete_if`, `C169_for_each_combination`, `C169_for_each_permutation`, `C169_remove_inplace`, `C169_remove_inplace_neither`, `C169_remove_inplace_rest`, `C169_remove_inplace_returns`, `C169_remove_row_if`, `C169_remove_row_if_early`, `C169_remove_row_if_wrong`, `C169_remove_token_if`, `C169_remove_token_if_wrong`, `C117_clock_set_back`, `C117_scoped`, `C117_timer`, `C177_microseconds`, `C177_no_time`, `C177_scoped`, `C177_seconds`, `C118_assign_leaks`, `C118_copy_deleted_twice`, `C118_copy_shares`, `C118_tries_partial`, `C161_nodes`, `C161_phantom`, `C53_find_exact`, `C53_find_partial`, `C53_find_prefix_partial`, `C53_phantom_key`, `C53_shared_value`, `C182_compound`, `C182_denotes`, `C182_distinct_partial`, `C182_exact`, `C182_lost`, `C182_pair`, `C182_total`

## propext, Quot.sound (220 theorems)

`C106_convert_disagrees`, `C106_view`, `C106_write`, `C125_load_again`, `C125_load_inside`, `C125_short_file`, `C158_known_length_unnoticed`, `C180_block`, `C46_convert32_not_involution`, `C46_convert32_wrong`, `C46_convert64`, `C46_network_order_32_wrong`, `C46_swap32_wrong`, `C47_pstr_too_long`, `C48_pod_vector_refused`, `C48_read_justified`, `C48_reset`, `C48_vector_refused`, `C49_fails_unchanged`, `C49_padded_field_partial`, `C49_right_padding_broken`, `C120_one_bit_table`, `C123_hash_every_key`, `C123_salts`, `C123_salts_many`, `C166_assigned`, `C166_compressible_other_size`, `C54_insert_range`, `C54_new`, `C54_no_false_negatives`, `C54_odd_table_size`, `C54_ranges`, `C56_equal`, `C56_history_fits`, `C168_all_done`, `C168_count_lost`, `C168_key_lost`, `C168_nothing_invented`, `C168_nothing_lost`, `C168_one_writer`, `C168_one_writer_found`, `C168_queries`, `C168_reader_races`, `C168_safe`, `C168_usable`, `C168_writers_race`, `C100_delete_all`, `C100_needs_owning`, `C98_key_multiset`, `C21_base64_decoder_safe_partial`, `C21_hex_accepts_garbage`, `C21_hex_decoder_safe`, `C21_hex_exact`, `C22_idempotent`, `C22_lowercase`, `C22_printable`, `C22_uppercase`, `C23_interleave_injective`, `C23_lengths_differ`, `C23_nway_table`, `C24_high_bit_count`, `C24_high_bit_count_range`, `C25_hamming_elementwise_diverges`, `C26_out_of_range`, `C73_selector`, `C138_no_resume_without_rest`, `C156_first_calls_wrong`, `C41_wrap_ub`, `C42_division_by_zero`, `C52_four_gigabytes`, `C31_all_digits`, `C31_signed_all_digits`, `C157_old_contents_lost`, `C157_states_end`, `C157_write`, `C157_write_text`, `C157_write_text_done`, `C67_concatenate_fails`, `C67_copy_failing_empties`, `C67_copy_onto_itself`, `C67_identical`, `C67_load`, `C67_load_buffer`, `C67_write_load_partial`, `C88_array_flag_inverted`, `C88_array_write_flag`, `C88_container_no_return`, `C88_read_sequence`, `C88_round_trip_partial`, `C89_memory_round_trip`, `C89_overflow`, `C160_others_keep`, `C16_empty_pattern_diverges`, `C107_explicit`, `C107_open_end_partial`, `C109_parse_checked`, `C109_parse_n_fails`, `C109_parse_n_partial`, `C165_row`, `C165_unbounded`, `C60_rep_shows`, `C61_remove_row`, `C64_plain_iterator`, `C65_join_row_exact`, `C65_join_row_partial`, `C65_last_row`, `C87_row_parse_partial`, `C69_empty_not_within_empty`, `C70_fill_array`, `C70_fill_array_overflow`, `C70_iexpect_high`, `C74_inverted`, `C74_never_as_documented`, `C74_split_partial`, `C92_copies_partial`, `C92_dangling`, `C93_case`, `C93_trim_other_mode`, `C93_trim_trailing_keeps_one`, `C94_strings_not_blocked`, `C96_copy_while_original_partial`, `C96_values_partial`, `C97_parse`, `C97_parse_not_remembered`, `C110_assign_overwrites`, `C110_history_partial`, `C111_count_consecutive_duplicates`, `C95_containers`, `C164_join_same_two`, `C164_replicate_same`, `C36_join_if`, `C38_bracketize`, `C38_inserter`, `C38_inserter_zero`, `C39_reversed_range`, `C146_failure_order`, `C187_strict_memory`, `C59_string_register`, `C59_uint_register`, `C68_tokens`, `C91_write`, `C72_high_bytes`, `C75_clear_array`, `C75_make_string`, `C75_set_array`, `C75_set_array_arrays_over_read`, `C95_min_max`, `C29_long_rejects`, `C29_unsigned_long_rejects`, `C103_bound_constructor`, `C103_configuration`, `C103_unbound`, `C173_container_n`, `C173_tail_no_memory`, `C37_construct_fields`, `C79_delimiter_string`, `C79_multiple_char_predicate`, `C139_usage`, `C147_odd_overrun`, `C151_failure`, `C150_list`, `C150_list_length`, `C178_seed_matters`, `C178_skips_partial`, `C178_values`, `C81_every_combination`, `C81_every_permutation`, `C81_exact_combination`, `C81_exact_permutation`, `C81_one_out_of_bounds`, `C82_select_1`, `C83_short_buffer_ub`, `C102_no_point`, `C102_refused`, `C122_lut_high_byte`, `C122_macros_partial`, `C179_bracketize_requests`, `C179_granted`, `C179_pattern_few`, `C179_replicate_overflow`, `C179_replicate_requests`, `C190_doubles`, `C167_answer`, `C167_pods_crash`, `C167_states_end`, `C112_scoped_restore`, `C32_short_numeral_wrong`, `C77_base64_sink_alphabet`, `C78_truncated_short`, `C02_collapseRuns_sound`, `C04_option_bits`, `C04_splits_unique`, `C07_reuse_without_reset_is_ub`, `C114_dangling`, `C172_all_delimiters_forever`, `C172_output_throws`, `C172_output_throws_n`, `C172_prefix`, `C172_prefix_n`, `C174_forever`, `C174_prefix`, `C121_split_regex`, `C121_split_regex_n_partial`, `C12_remove_trailing_all_match`, `C12_remove_trailing_partial`, `C14_copy_n`, `C164_replace_separate`, `C115_remove_empty`, `C50_center`, `C50_left_align`, `C50_remaining_string`, `C50_right_align`, `C51_insert_behind_end`, `C169_combination_moved`, `C169_delete_if_returns`, `C169_remove_token_if_returns`, `C161_enough_memory`, `C161_retry`, `C161_returned`, `C161_threw_partial`
