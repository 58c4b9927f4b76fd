# Axioms of the property theorems

Generated by `tools/axioms.py` (Lean's `collectAxioms`). No other axiom occurs.

## none (48 theorems)

`C08_raw_bytes_differ`, `C09_self_fails`, `C12_fails`, `C18_fails_lower`, `C21_fails`, `C65_complementary`, `C65_error`, `C65_sum`, `C66_short_circuit_error`, `C66_short_circuit_value`, `C66_runs_once`, `C66_monad`, `C66_monad_error`, `C66_map_is_andThen`, `C66_observers`, `C75_closed_partial`, `C81_builtin_differs`, `C86_copy`, `C86_move`, `C87_erase`, `C88_fails`, `C91_message`, `C91_rest_fails`, `C91_bare_fails`, `C101_fails_remove_const`, `C101_operators_partial`, `C101_fails_operators`, `C107_case_partial`, `C107_class_partial`, `C108_underscore_fails`, `C113_make`, `C117_two_macros`, `C117_standard`, `C117_version`, `C117_version_fails`, `C121_constant`, `C130_fails`, `C130_leak`, `C131_order`, `C131_distinct`, `C131_radix_partial`, `C131_fails`, `C131_sign`, `C157_dice_fails`, `C175_own`, `C175_inline_partial`, `C175_fails`, `C175_choice_fails`

## [propext] (126 theorems)

`C01_nul_is_empty`, `C09_concat`, `C09_plus_assign_partial`, `C09_append_count`, `C13_contains_fails_empty`, `C14_self_fails`, `C22_empty_pattern`, `C24_fails`, `C27_append_to_copy`, `C45_fails`, `C51_fails`, `C59_fails_getData`, `C60_new`, `C60_observe`, `C61_operations`, `C61_history`, `C61_append_other`, `C61_beyond_end`, `C62_getters`, `C62_assign`, `C62_make_default`, `C64_partial`, `C64_fails`, `C65_value`, `C75_good_partial`, `C75_dropped_fails`, `C82_aligned`, `C86_size`, `C90_once`, `C90_true_false`, `C90_else_fails`, `C90_semicolon_fails`, `C90_compare_else_fails`, `C91_streq_passes`, `C91_streq_fails`, `C94_find_if_not`, `C95_append_value`, `C101_remove_exact`, `C101_remove_partial`, `C101_references_partial`, `C101_fails_references`, `C101_pointers_partial`, `C101_exist`, `C101_categories`, `C101_fails_rvalue`, `C101_numbers_partial`, `C101_fails_const`, `C101_required`, `C103_fails_nan`, `C107_case_fails`, `C108_fixture_fails`, `C108_fixture`, `C110_forward`, `C110_rvalue`, `C110_move_partial`, `C110_move_fails`, `C110_signed_partial`, `C110_signed_fails`, `C113_setPosition`, `C114_fails`, `C117_arch_fails`, `C117_os_partial`, `C117_os_fails`, `C117_compiler_partial`, `C117_compiler_fails`, `C117_info_partial`, `C117_each_macro`, `C117_standard_macro`, `C118_widths`, `C118_types`, `C118_size`, `C118_pointers_partial`, `C118_pointers_fails`, `C118_same_partial`, `C118_same_fails`, `C119_public_fails`, `C121_exact`, `C121_one_partial`, `C121_one_fails`, `C121_composite_partial`, `C121_composite_fails`, `C121_qualifiers`, `C122_compiles_fails`, `C122_nothrow_fails`, `C122_regular_partial`, `C122_regular_fails`, `C122_table`, `C122_rules`, `C123_errors`, `C126_same`, `C133_fails`, `C133_none`, `C134_rvalue`, `C134_reference_fails`, `C134_qualified_fails`, `C134_string`, `C135_macro_fails`, `C142_early_fails`, `C143_synchronised`, `C143_order_partial`, `C143_order_fails`, `C159_and_then_fails`, `C159_chain_fails`, `C159_names_fails`, `C159_instances`, `C159_converted`, `C160_other`, `C160_call_fails`, `C160_std_string_fails`, `C161_members`, `C161_units_fails`, `C163_same_partial`, `C163_same_fails`, `C163_char`, `C163_text_partial`, `C163_text_fails`, `C163_json`, `C163_trait_partial`, `C163_trait_fails`, `C163_null_partial`, `C163_null_fails`, `C164_zero_fails`, `C164_texts`, `C164_index_partial`, `C164_index_fails`, `C175_partial`

## [propext, Quot.sound] (231 theorems)

`C03_validated_char_is_safe`, `C03_raw_byte_is_ub`, `C06_fails_truncated`, `C07_order_is_byte_order`, `C08_equality_is_byte_equality`, `C09_plus_loops`, `C10_substring`, `C10_substring_partition`, `C11_find_other`, `C13_starts_with`, `C13_ends_with`, `C14_insert_partial`, `C14_insert_variants`, `C15_at`, `C16_elementwise`, `C23_split_join`, `C24_repeat_partial`, `C25_one_reading`, `C25_four_digits_fails`, `C25_fails`, `C26_fails`, `C27_fails`, `C28_invalid_char`, `C32_fails`, `C34_fails`, `C34_no_arguments_fails`, `C35_fails`, `C37_rejects_partial`, `C37_fails`, `C38_fails`, `C39_fails`, `C41_truncates`, `C50_fails`, `C54_fails_unterminated`, `C54_fails_throws`, `C56_fails_literals`, `C56_fails_trailing`, `C56_fails_numbers`, `C57_fails`, `C59_repeated`, `C60_step`, `C60_history_partial`, `C60_fails_after_error`, `C61_at_exact`, `C66_functor`, `C66_functor_error`, `C67_fails`, `C68_null`, `C69_fails`, `C70_fails`, `C71_fails`, `C72_aliased`, `C72_null`, `C74_step`, `C74_history`, `C75_setPosition_partial`, `C75_after_end_fails`, `C75_open_fails`, `C76_exact`, `C76_no_nul_fails`, `C76_text_fails`, `C76_after_end_fails`, `C77_fails`, `C80_bad_arguments`, `C80_once`, `C84_small`, `C84_fails`, `C87_partial`, `C87_exact`, `C87_fails`, `C88_restore`, `C90_compare`, `C90_twice_fails`, `C91_evaluations_fails`, `C92_first_failure`, `C93_fails`, `C94_find_if`, `C95_constructors`, `C95_append_own_exact`, `C95_fails`, `C96_is_number`, `C96_ascii`, `C96_fails`, `C97_order`, `C98_not_finite`, `C99_values`, `C99_error`, `C99_fails`, `C99_fails_error_kept`, `C100_written`, `C100_answers`, `C100_input_kept`, `C100_flushed`, `C100_fails`, `C101_qualifiers`, `C101_signs_partial`, `C101_fails_queries`, `C102_exact`, `C102_str`, `C102_accumulates_partial`, `C102_no_copies`, `C102_fails_copy`, `C102_fails_null`, `C103_reaches_all`, `C103_fails_order`, `C104_fails_leak`, `C106_ascii_partial`, `C106_null_fails`, `C106_literal`, `C107_class_fails`, `C108_builds_partial`, `C109_malformed`, `C109_end`, `C110_compiles`, `C110_signed_compiles`, `C111_round_fails`, `C111_exponent_fails`, `C111_zero_fails`, `C113_unavailable`, `C113_available`, `C113_unnamed`, `C113_readLine`, `C113_kind_partial`, `C114_exact_fails`, `C115_items`, `C115_digits_fails`, `C115_accepts_fails`, `C116_code_unit`, `C116_four_digits_fails`, `C116_errors_all`, `C116_errors_fails`, `C117_accepted`, `C117_arch_partial`, `C119_any_order`, `C119_internal_partial`, `C120_internal_partial`, `C120_fails`, `C122_destroy`, `C122_compiles_partial`, `C122_nothrow_partial`, `C122_abilities`, `C123_bits_partial`, `C123_bits_fails`, `C125_read_fails`, `C126_least`, `C129_enough`, `C129_bound`, `C129_partial`, `C129_assign_exact`, `C132_no_failure`, `C132_make_fails`, `C132_reset_exact`, `C132_fails`, `C133_safe`, `C133_partial`, `C134_objects`, `C134_reference_partial`, `C134_const`, `C134_qualified_exact`, `C135_compiles_iff`, `C135_any_order_partial`, `C135_alone_fails`, `C135_broken`, `C135_cxx20_partial`, `C135_cxx20_fails`, `C135_macros_partial`, `C140_same`, `C142_exact`, `C142_some`, `C142_arguments`, `C142_race_fails`, `C142_static_partial`, `C142_null_fails`, `C143_possible`, `C143_read_synchronised`, `C143_read_partial`, `C143_read_fails`, `C144_grammar`, `C148_number_exact`, `C148_classic`, `C149_lost_fails`, `C149_terminate_fails`, `C150_numbers_fails`, `C150_less_fails`, `C150_files_fails`, `C150_builder_partial`, `C150_builder_fails`, `C152_race_fails`, `C152_unlocked`, `C152_locked`, `C152_interleavings`, `C152_torn_fails`, `C153_programs`, `C153_enough`, `C153_append_fails`, `C154_undefined`, `C154_ends`, `C154_kept`, `C154_grown_fails`, `C154_pattern_fails`, `C157_exact_fails`, `C157_partial`, `C157_same_tick_fails`, `C157_flips_fails`, `C158_traits`, `C159_partial`, `C159_map_error_fails`, `C159_exact_fails`, `C160_builder_partial`, `C160_null_fails`, `C161_order_fails`, `C162_unique_partial`, `C162_weak_partial`, `C162_weak_fails`, `C163_nothrow`, `C164_same_fails`, `C166_before_main`, `C166_uses`, `C167_work_partial`, `C168_exact_fails`, `C168_vector_fails`, `C168_map_fails`, `C169_escape_fails`, `C169_comment_fails`, `C169_trigraph_fails`, `C170_least`, `C174_variables`, `C174_fails`, `C174_temporary_fails`, `C176_plain`, `C176_padded`

## [propext, Classical.choice, Quot.sound] (445 theorems)

`C01_encodes_utf8`, `C02_code_point_round_trip`, `C02_code_point_beyond`, `C03_get_code_point_safe`, `C04_decodes_utf8`, `C05_byte_exact`, `C05_reads_only_to_nul`, `C06_succeeds_iff_shaped`, `C06_reads_past_end_iff_truncated`, `C06_malformed_rejected_partial`, `C06_fails_overlong`, `C07_order_is_code_point_order`, `C09_append_cstr`, `C11_find_first`, `C12_reverse_find_exact`, `C12_reverse_find_single_partial`, `C13_contains`, `C16_ascii`, `C17_caseless_upper`, `C17_caseless_lower_partial`, `C17_fails_lower`, `C18_upper_idempotent`, `C18_lower_idempotent_iff_partial`, `C19_inverse_partial`, `C19_latin1_fails`, `C20_disjoint`, `C21_to_digit`, `C21_digit_value_partial`, `C22_decides_substring`, `C25_decodes_partial`, `C25_no_escapes`, `C25_exact`, `C26_first`, `C26_last_partial`, `C27_accumulates_partial`, `C28_plain_text`, `C29_doubled_brackets`, `C30_sequential`, `C30_interleaved`, `C31_indexed`, `C31_index_too_large`, `C32_uses_counter`, `C32_indexed_spec_partial`, `C32_exact_fails`, `C33_alignment`, `C33_pad`, `C34_no_ub_partial`, `C34_exact_fails`, `C35_unclosed_partial`, `C35_lone_close_partial`, `C35_never_returns`, `C35_exact_fails`, `C36_round_trip`, `C36_normalises`, `C37_exact_fails`, `C38_add_exact`, `C38_add_partial`, `C39_subtract_exact`, `C39_subtract_partial`, `C40_multiply`, `C41_divide`, `C41_negative_zero_divisor_fails`, `C42_modulo_exact`, `C42_modulo_partial`, `C42_fails`, `C43_pow`, `C44_sqrt`, `C45_compare_exact`, `C45_compare_partial`, `C46_canonical_partial`, `C46_unique`, `C46_fails`, `C47_int64`, `C48_parse`, `C48_value`, `C48_integer`, `C48_point_partial`, `C48_fails`, `C48_accepts_fails`, `C49_add_partial`, `C49_subtract_partial`, `C49_diverges_fails`, `C49_exact`, `C49_fails`, `C50_fractions_partial`, `C50_exact`, `C50_integers_fails`, `C51_exact`, `C51_less_partial`, `C51_equal_sound`, `C51_equal_partial`, `C52_prints`, `C52_partial`, `C52_exact_partial`, `C52_bad_string_fails`, `C52_fails`, `C52_fails_float`, `C53_terminates`, `C54_partial`, `C55_root`, `C55_sticky`, `C56_ascii_partial`, `C56_non_ascii_partial`, `C56_unique`, `C57_plain_partial`, `C57_fails_next_lost`, `C58_int64`, `C58_range_partial`, `C58_fails_range`, `C58_fails_fraction`, `C58_exponent`, `C59_history_partial`, `C59_parse`, `C60_parsed`, `C62_make_partial`, `C62_fails_make`, `C63_history_partial`, `C63_released_partial`, `C63_others_unchanged`, `C63_move_leaves_null`, `C63_string_leaks_fails`, `C63_exact`, `C63_lost_forever`, `C63_part_of_itself_fails`, `C63_whole_into_part_fails`, `C63_move_into_part_fails`, `C63_remove_leaks_fails`, `C67_no_throw_partial`, `C67_no_leak_partial`, `C67_exact_fails`, `C67_doomed_fails`, `C68_exactly_once`, `C68_unique_owner`, `C69_no_early_delete_partial`, `C69_leaks_fails`, `C70_sharing_partial`, `C70_count_partial`, `C70_undefined_fails`, `C71_lock_partial`, `C71_never_fails`, `C72_not_aliased`, `C72_exact`, `C73_queue`, `C73_round_trip`, `C76_nul_partial`, `C77_lines`, `C77_end_of_input`, `C77_write_read`, `C77_char_partial`, `C78_exact`, `C78_once_partial`, `C78_fails`, `C79_result`, `C79_listed`, `C79_skipped_wraps`, `C81_eq`, `C81_less`, `C81_builtin_exact`, `C81_builtin_wrong`, `C82_ordered`, `C83_zero`, `C83_exact`, `C83_partial`, `C83_fails`, `C84_integers_fails`, `C85_itself_fails`, `C85_diverges_fails`, `C85_integers_fails`, `C85_fails`, `C86_abs_nonneg`, `C86_abs_fails`, `C89_report`, `C89_fails_duration`, `C89_fails_second_run`, `C92_readable_partial`, `C92_fails`, `C93_append_exact`, `C93_append_pattern`, `C93_unchanged_partial`, `C97_code_points`, `C98_double`, `C98_value_partial`, `C98_fails`, `C98_cstr`, `C99_stream_partial`, `C101_queries_partial`, `C103_range`, `C103_default`, `C103_value_range`, `C103_real_partial`, `C103_fails_default_double`, `C103_fails_wide`, `C103_boolean_rejects`, `C103_boolean`, `C103_boolean_share`, `C103_boolean_certain`, `C104_threads`, `C104_undisturbed`, `C105_unique`, `C105_shared`, `C105_lock`, `C105_raw`, `C106_names`, `C107_space`, `C107_digit_partial`, `C107_digit_fails`, `C107_value_fails`, `C108_registers`, `C108_once_partial`, `C109_line`, `C109_roundtrip`, `C109_lines_partial`, `C109_fails`, `C111_places_partial`, `C111_no_places`, `C111_other_types`, `C111_too_large_fails`, `C112_integers_partial`, `C112_bool`, `C112_strings`, `C112_floating_partial`, `C112_classes`, `C112_compiles`, `C112_format`, `C112_characters_fails`, `C112_bytes_fails`, `C112_volatile_fails`, `C112_null_fails`, `C112_words`, `C112_small_fails`, `C113_readLine_ready`, `C114_sum_partial`, `C114_independent`, `C114_swap`, `C115_exact`, `C115_kinds`, `C115_undefined`, `C115_no_holes`, `C116_exact`, `C116_errors`, `C116_kinds`, `C116_no_escape`, `C116_brackets`, `C117_between_partial`, `C117_monotone`, `C124_console_partial`, `C124_console_error`, `C124_compiles`, `C124_numbers_fails`, `C124_plain`, `C124_escaped_fails`, `C124_file_partial`, `C124_file_fails`, `C124_terminator`, `C125_lines`, `C125_json_partial`, `C125_integers`, `C125_floats`, `C125_pretty_fails`, `C126_linear`, `C127_pow`, `C127_sqrt`, `C127_digit`, `C128_enough`, `C128_fails`, `C129_fails`, `C129_assign_enough`, `C129_assign_fails`, `C130_enough`, `C130_exact`, `C130_partial`, `C130_retries`, `C130_recovers`, `C136_pop_fails`, `C136_exact`, `C136_owners`, `C136_assign_partial`, `C136_pop_by_temporary`, `C137_destroy`, `C137_reset`, `C137_exact`, `C137_fails`, `C137_partial`, `C138_exact`, `C138_fails`, `C139_exact`, `C139_once_exact`, `C139_own_exact`, `C139_earlier_fails`, `C139_listed_fails`, `C139_own_fails`, `C139_agrees`, `C139_endless_fails`, `C140_square_partial`, `C140_least`, `C140_texts_fails`, `C140_nodes_fails`, `C140_keys_fails`, `C140_short_keys_fails`, `C141_machine`, `C141_closed`, `C141_objects`, `C142_once_fails`, `C144_message_partial`, `C144_compiles_fails`, `C144_operators_fails`, `C144_precedence`, `C144_shift_fails`, `C144_example_fails`, `C144_evaluation`, `C144_independent_partial`, `C144_capture_fails`, `C144_order_fails`, `C145_exact_fails`, `C145_right_partial`, `C145_natural_partial`, `C145_sharp_fails`, `C145_fails`, `C145_order_partial`, `C145_colons_fails`, `C145_overflow_fails`, `C146_exact_fails`, `C146_round_trip`, `C146_natural_partial`, `C146_fails`, `C146_hangs_fails`, `C146_throws_fails`, `C147_exact_fails`, `C147_partial`, `C147_fails`, `C147_well_formed_partial`, `C147_surrogate_fails`, `C148_integer_exact`, `C148_text_fails`, `C148_partial`, `C148_dot_fails`, `C148_comma_fails`, `C148_double_fails`, `C148_format_fails`, `C149_enough`, `C149_bound`, `C149_partial`, `C149_kept_partial`, `C149_leak_fails`, `C149_doomed_fails`, `C150_enough`, `C150_print_partial`, `C150_compact_partial`, `C150_print_fails`, `C150_parse_partial`, `C150_texts_fails`, `C150_cut_fails`, `C150_equal_fails`, `C151_exact`, `C151_growing`, `C151_lookup_fails`, `C153_reported`, `C155_reads_partial`, `C155_lookup_fails`, `C155_alone`, `C156_exact_fails`, `C156_detour`, `C157_count_fails`, `C158_relations`, `C158_layout`, `C158_base`, `C158_convertible`, `C158_owner`, `C158_fixture`, `C158_new`, `C158_fixture_class`, `C160_range`, `C160_compiles_partial`, `C160_big_integer`, `C160_big_float_partial`, `C160_big_float_fails`, `C160_char_partial`, `C160_json_partial`, `C160_builder_fails`, `C161_source_partial`, `C161_namespace_fails`, `C161_std_fails`, `C161_detectors_partial`, `C161_umbrella_fails`, `C161_strings_fails`, `C162_as_owner`, `C162_self_fails`, `C162_borrowed_fails`, `C162_shared_partial`, `C162_shared_fails`, `C164_compiles_partial`, `C164_construct_exact`, `C164_append_exact`, `C164_same_partial`, `C165_integer_partial`, `C165_float_partial`, `C165_assign_exact`, `C165_float_fails`, `C165_released_fails`, `C165_enough`, `C165_can_throw`, `C165_storage`, `C166_exact_fails`, `C166_partial`, `C166_fails`, `C166_two_fails`, `C167_exact_fails`, `C167_compact`, `C167_room_fails`, `C167_work_pretty`, `C167_work_fails`, `C167_stack_fails`, `C167_parsed`, `C168_types_fails`, `C168_partial`, `C169_partial`, `C169_other`, `C170_same`, `C170_partial`, `C170_run_fails`, `C170_fails`, `C171_destroy`, `C171_copy`, `C171_partial`, `C171_fails`, `C171_parsed`, `C172_same`, `C172_multiply`, `C172_partial`, `C172_fails`, `C173_same`, `C173_partial`, `C173_sqrt_partial`, `C173_fails`, `C173_sqrt_fails`, `C173_square_fails`, `C174_partial`, `C175_cpp11_partial`, `C175_plus`, `C175_later`, `C176_same`, `C176_linear`, `C176_written`, `C176_least`, `C176_precision`
