# Axioms of each claimed theorem

Output of `#print axioms` for every theorem of MANIFEST.json (namespace `Fcgi.Props`).  No other axiom occurs; none is declared in `lean/Verif`.

## none (6)

C27_exact, C27_labels, C27_written, C50_type, C87_injection_violated, C140_strings

## propext (30)

C08_lexicographic, C12_flatMap_single, C12_expected_plain, C14_encode_html, C14_neutral, C14_unique, C16_append, C36_distinct, C46_invalid, C49_equal, C49_bool, C55_dot_violated, C71_listen_violated, C72_showbase_violated, C72_grouping_violated, C86_when_partial, C87_line_partial, C87_ending_violated, C92_reset_partial, C92_encoding_violated, C106_as_calls_partial, C117_owner_violated, C123_destroy_violated, C123_restart_violated, C123_early_violated, C132_points_violated, C132_long_violated, C140_status, C145_first, C145_name_violated

## propext, Quot.sound (173)

C02_safe, C06_partial, C06_values, C06_desync, C07_answers, C08_grouped, C08_bad_last, C08_socket_search, C09_msgs_eq, C15_encode_url, C16_run, C16_init, C16_violated, C20_length, C20_decodes, C20_onto, C21_form, C21_cookie, C21_encodable, C21_roundtrip, C21_post, C22_violated, C23_exact_partial, C23_stops, C23_safe_partial, C23_violated_oob, C23_violated_overflow, C25_segments_partial, C25_encodable, C25_violated_oob, C26_tags, C31_length, C31_characters, C34_generates, C35_violated, C36_resume, C36_violated, C48_foreign_partial, C48_compat_violated, C48_junk_violated, C48_colon_violated, C48_stale_violated, C48_overread_violated, C48_overflow_violated, C50_unencodable_violated, C50_overflow_violated, C50_element_types, C51_resize_violated, C52_any_partial, C52_fixed_partial, C52_null_violated, C52_array_violated, C52_negative_violated, C52_nullElement_violated, C52_nulls_violated, C53_stop_violated, C53_race_violated, C53_refused_violated, C53_again_violated, C54_empty_violated, C56_violated, C58_dropped, C58_once, C58_lost_violated, C58_never_violated, C60_utf8_length, C60_violated, C61_violated, C62_get_partial, C62_violated, C68_only, C70_violated, C71_partial, C71_connect_violated, C74_dotted, C74_junk_violated, C76_bytea_violated, C78_moves_partial, C79_exit_partial, C79_iterator_violated, C79_notice_violated, C80_stale_violated, C81_ends, C84_greeting_violated, C84_lines_violated, C84_last_violated, C85_blocked_violated, C85_endless_violated, C86_start_violated, C86_close_violated, C88_violated, C88_connected_partial, C90_unique, C90_violated, C92_violated, C95_table, C95_violated, C95_twice_violated, C97_violated, C99_violated, C100_violated, C110_exit_partial, C110_violated, C110_listeners, C110_woken, C110_connections, C110_socket, C110_nothing, C113_partial, C113_violated, C116_partial, C116_threads, C116_running, C116_join, C116_destroy_violated, C116_shrink_violated, C116_ignored_violated, C116_restart_violated, C117_listens, C117_frame, C117_failed_partial, C117_stays_partial, C117_removed, C117_none_left, C117_again, C117_demo, C117_leftover_violated, C117_long_violated, C117_ignored_violated, C117_stolen_violated, C118_frame, C118_pointers, C118_self_violated, C119_order, C119_forms_violated, C120_resume, C121_violated, C122_first_violated, C122_single_violated, C125_unambiguous, C132_bounds, C132_stops, C132_sign, C133_string_violated, C133_dump_violated, C134_generate_violated, C135_partial, C135_send_violated, C135_valid_violated, C135_time_violated, C135_expiration_violated, C135_curl_violated, C135_queue_violated, C135_connected_violated, C135_requests_violated, C135_resize_violated, C136_constructor_violated, C137_peer, C137_zero_violated, C137_verify_violated, C140_rows, C140_null, C140_affected_partial, C140_affected_violated, C142_port, C142_default, C142_destroy, C142_shared_violated, C145_retry_partial, C145_retry_violated, C147_sessions, C153_early_silent, C153_wide_early_silent

## propext, Classical.choice, Quot.sound (408)

C01_roundtrip16, C01_roundtrip32, C01_roundtrip64, C01_network_order, C01_read_value, C02_exact, C02_incomplete, C03_roundtrip, C03_terminates, C04_pairs_partial, C04_violated, C05_record_size, C06_violated, C07_partial, C07_violated, C08_strict_total, C09_memory_safe, C09_fragmentation, C10_isolation, C11_gone_once, C11_read_error, C11_hangup_partial, C11_violated_empty_record, C11_violated_write_error, C12_content, C13_records, C14_content, C14_html, C15_url, C16_content, C16_terminates_partial, C17_output_prefix, C17_flushed, C17_nothing_lost, C18_no_tearing, C19_close_after_last_byte, C19_kill_honoured, C19_orderly, C22_total, C22_partial, C22_exact, C24_succeeds, C24_text, C24_addresses, C24_parsed, C24_numbers, C24_negative, C24_lists, C24_others, C25_total_partial, C26_total, C27_error, C28_body, C29_roundtrip, C30_total, C30_postBuffer, C31_encode, C31_roundtrip, C32_safe_partial, C32_digits, C32_foreign, C32_violated_write, C32_violated_accept, C33_roundtrip, C33_distinct, C34_faithful, C35_partial, C36_once, C36_response, C36_total_partial, C37_announced, C37_excess, C37_bounded, C38_abort, C38_out_of_order, C38_role, C38_role_always, C39_complete, C40_pending, C40_handled, C41_exclusive, C41_order, C41_alone, C41_request, C42_drains, C42_terminate, C42_ends_partial, C42_violated, C43_only, C43_all, C43_spared, C44_routed, C44_answered, C45_wakeful, C45_getup, C45_answered, C45_channel, C46_life, C46_valid, C46_copies, C46_close, C46_read, C46_write, C46_hangup, C46_finish, C47_roundTrip, C47_text, C47_injective, C48_text, C48_any, C48_v4, C48_groups, C48_safe, C49_less, C49_order, C49_mask, C50_wire, C50_read, C50_roundTrip, C50_wide, C50_wides, C50_not_text, C51_nums, C51_floats, C51_assign, C51_assign_floats, C51_texts, C51_element, C51_roundTrip, C51_huge_violated, C52_arrays_partial, C53_once, C53_one, C53_order, C53_sentOnce, C53_kept_partial, C53_stop_partial, C54_mailed_partial, C54_removed_partial, C55_data_partial, C55_violated, C56_post, C56_get, C57_response_partial, C57_violated, C58_bounded, C58_order, C58_complete, C58_called, C58_calls_partial, C59_stream_violated, C59_violated, C60_wide, C61_safe, C61_determined_partial, C63_fresh_partial, C63_violated, C64_safe_partial, C64_sweep_violated, C64_short_violated, C65_partial, C65_violated, C66_no_deadlock, C66_settles, C66_reaches, C67_order, C67_sent, C68_ends, C69_refuses, C69_partial, C69_violated, C69_unjoined_violated, C70_partial, C72_fits_partial, C73_width, C74_text, C74_roundTrip, C74_safe, C75_zero, C75_column, C76_sent_partial, C77_noIdle, C77_wakes, C78_deadlock_violated, C79_ub_partial, C80_result_partial, C81_asked, C81_terminate, C81_stop, C82_rest_violated, C83_drained, C83_each, C84_all_partial, C85_asked, C85_terminate_partial, C85_stop_partial, C87_said_partial, C89_memory_partial, C89_violated, C90_headers_partial, C91_header_partial, C91_violated, C91_exact, C93_reuse_partial, C93_violated, C94_wide_partial, C94_violated, C94_drop_violated, C95_run, C95_content_partial, C95_post_partial, C96_headers, C96_again, C97_drained_partial, C97_called, C98_asked, C98_asleep, C98_terminate, C99_safe_partial, C99_one, C100_noted_partial, C101_sockets_partial, C101_violated, C102_framed, C102_answer, C102_complete, C102_closed, C103_violated, C103_destroys_violated, C104_violated, C104_partial, C105_cause, C105_lost, C106_violated, C106_own_violated, C106_cross_violated, C106_partial, C107_sound, C107_served, C108_partial, C108_texts, C108_cut_violated, C108_violated, C109_partial, C109_violated, C111_ends, C111_reaches, C111_reaches_calm, C111_answered, C111_closed, C111_no_loop, C111_rests, C112_partial, C112_complete, C112_progress, C112_fail, C112_violated, C114_narrow, C114_wide_partial, C114_violated, C115_unused_partial, C115_violated, C115_wide, C118_vector_partial, C119_date_partial, C119_request_partial, C119_absent, C119_zone_violated, C119_first_violated, C119_invalid_violated, C120_once, C120_response, C120_abort, C120_out_of_order, C120_role, C120_role_always, C120_announced, C120_excess, C120_bounded, C120_complete_partial, C120_total_partial, C120_violated, C121_lockstep_partial, C121_bytes_partial, C122_text, C122_canonical_partial, C123_thread, C123_start, C123_ends, C123_join, C123_safe_partial, C124_partial, C124_wide_partial, C124_violated, C125_finished_partial, C125_out_of_order_partial, C125_role_partial, C125_announced_partial, C125_excess_partial, C125_unknown_content_partial, C125_violated, C125_wide_finished_partial, C125_wide_out_of_order_partial, C125_wide_role_partial, C125_wide_announced_partial, C125_wide_excess_partial, C125_wide_unknown_content_partial, C126_prompt, C126_wide_prompt, C126_held, C126_wide_held, C127_taken, C127_handled_partial, C127_violated, C128_no_deadlock_partial, C128_settles, C128_violated, C129_answer, C129_complete, C129_kept, C129_turns, C129_ongoing, C130_same, C130_ongoing, C130_bytes_violated, C131_bounded, C131_released_partial, C131_between, C131_released_violated, C132_integer, C132_exact, C132_value_partial, C133_partial, C134_partial, C136_partial, C136_progress_partial, C137_partial, C137_url_violated, C138_ends, C138_called, C139_partial, C139_violated, C139_silent_violated, C140_none, C141_partial, C141_quiet_partial, C141_early_violated, C141_fails_violated, C142_stays_partial, C143_exact, C143_partial, C143_violated, C144_partial, C144_url_partial, C144_wide_partial, C144_header_violated, C144_char_violated, C145_sql_partial, C145_mailer, C146_partial, C146_strings_partial, C146_violated, C147_partial, C147_locale_violated, C147_long_violated, C148_form_answered, C148_form_closed, C149_in_order, C149_closed, C149_taken, C149_form_answered, C149_form_closed, C149_wide_answered, C149_wide_closed, C150_form_answered, C150_form_closed, C151_told, C151_closed, C151_wide_told, C151_wide_closed, C152_taken_answered, C152_taken_closed, C152_wide_answered, C152_wide_closed, C153_early_answered, C153_early_closed, C153_waiting_answered, C153_waiting_closed, C153_early_not_called, C153_wide_early_answered, C153_wide_early_closed, C153_wide_waiting_answered, C153_wide_waiting_closed, C153_wide_early_not_called, C154_answered, C154_kept, C154_wide_answered, C154_wide_kept, C155_in_order, C155_closed, C155_given_up, C155_given_up_closed, C155_wide_given_up, C155_wide_given_up_closed, C156_inside, C156_no_deadlock, C156_others_handled, C156_reaches
