# Axioms of the manifest theorems

Generated by tools/gen_axioms.py from `#print axioms` (Lean 4.33.0); 503 theorems. All are axioms of Lean itself.

## none (3)

C38_violated_order, C55_violated, C56_wraps

## propext (32)

C19_init_witness, C26_settings, C43_cookies, C43_params, C44_address, C45_violated, C47_methods, C48_parse, C50_violated, C64_others, C65_exact, C65_returns_partial, C65_serves, C65_violated, C66_blocks, C66_violated, C67_result, C76_violated, C78_violated, C79_violated, C80_violated, C81_violated, C84_unlimited, C84_violated, C89_violated, C93_closed, C93_restart_partial, C93_stays, C94_released_partial, C94_violated, C125_paths, C131_read

## propext, Quot.sound (104)

C02_condition_needed, C03_violated, C03_violated_prefix, C07_violated, C08_condition_needed, C10_no_slash, C13_determined, C13_found_iff, C15_any_table, C15_unsupported_method, C16_convenience, C16_nil_set, C18_error, C19_init, C19_stop, C20_skipMain, C27_request, C28_violated_witness, C29_request, C33_unguarded, C33_violated, C35_violated, C36_peek, C36_peekMulti, C37_violated, C38_exact, C38_squeeze, C39_bool, C45_exact, C46_violated, C47_debugf, C52_violated, C53_directory, C53_no_listing, C53_redirect, C53_violated, C57_not_modified, C58_scan, C61_violated, C62_answer, C62_below, C63_provisos, C63_violated, C63_violated_leak, C65_lost, C65_terminates, C66_exact, C68_violated, C69_dir, C70_violated, C71_location, C71_never, C71_violated, C73_calls, C73_snapshot, C74_progress_partial, C74_self_deadlock, C74_violated, C76_exact, C82_violated, C83_exact, C83_violated, C88_exact, C88_lines_partial, C88_message, C88_violated, C91_bounded, C92_fails, C92_getters, C92_served, C92_serves, C93_address, C93_early, C93_exact, C93_socket, C93_unstoppable, C93_violated, C94_exact, C94_own, C94_socket_partial, C100_violated_example, C103_violated, C104_violated, C104_zero, C108_nil, C111_violated, C112_violated, C113_needed, C113_schedule, C118_violated, C119_violated, C120_bytes, C120_ends, C121_closed, C121_one, C121_opened, C121_same, C122_violated, C130_before_replaces, C133_condition_needed, C134_provisos, C135_violated, C139_clone, C140_violated

## propext, Classical.choice, Quot.sound (364)

C01_literal_map, C02_any_history, C02_sound, C03_covering_partial, C03_exact, C03_first_partial, C03_literal_partial, C03_reachable_partial, C03_unique_partial, C04_arbitration, C04_not_found, C05_params, C06_literal_again, C06_literal_reregistration, C06_param_reregistration_ignored, C07_culprit, C07_exact, C07_fresh_partial, C07_literal_partial, C07_requests_partial, C07_unread_partial, C08_every, C08_frame, C08_requests, C09_method_sound, C09_other_methods, C09_pseudo_methods_not_found, C09_single_route, C10_root, C10_segments, C11_find_returns, C12_buffer_overwritten, C12_server_buffer, C13_possible, C14_tree_first, C16_registers_copy, C17_order, C21_last, C22_errors, C23_cancel, C24_debug, C25_no_route, C25_only_unrouted, C25_unrouted, C26_gate, C27_valid, C28_exact, C28_in_table_partial, C28_violated, C29_malformed, C30_exact, C30_login_partial, C30_violated, C30_violated_witness, C31_logged_once, C32_snapshot, C32_snapshot_reg, C33_exact, C33_template, C33_template_reg, C34_programs, C34_router_calls, C34_set_calls, C35_calls_partial, C35_exact, C35_programs_partial, C37_exact, C37_url_wins_partial, C40_calls, C40_data, C40_site, C41_host, C41_usual, C42_cookie, C45_first, C45_once, C45_run_partial, C45_wraps, C46_exact, C46_exclusion, C46_progress, C46_registrations, C46_root_atomic, C47_filter, C47_only, C48_names, C49_isolated, C49_values, C50_exact, C50_record, C50_record_partial, C51_inside, C52_exact, C52_inside_partial, C53_exact, C53_exact_slash, C54_bounds, C55_exact, C55_rfc, C56_head, C56_multi, C56_single, C56_unsatisfiable, C56_whole, C57_answer, C57_conditions, C57_last_modified, C58_ifMatch, C58_ifNoneMatch, C59_exact, C59_local, C59_text, C60_idempotent, C60_trim, C61_exact, C63_release_partial, C63_where, C64_clone_control, C64_flags, C68_exact, C68_parts, C68_type_partial, C69_serveFile, C70_exact, C70_fixed, C70_opens_partial, C70_serves_partial, C72_serves, C74_ends_partial, C74_exact, C75_router_literal, C75_router_reg, C75_router_route, C75_set_reg, C75_set_route, C76_fix_methods, C76_no_other, C76_serves, C76_serves_set, C77_exact, C77_serves, C78_exact, C78_requests_partial, C79_configure_partial, C79_exact, C79_tune_partial, C79_use_partial, C80_clones_partial, C80_exact, C81_exact, C81_registration_partial, C81_router, C82_circle, C82_exact, C82_no_deadlock_partial, C83_any, C83_roundtrip_partial, C84_again, C84_exact, C84_limit_partial, C85_burst, C85_exact, C85_exact_length, C85_paths_partial, C85_times_partial, C85_violated, C86_lines, C86_record, C86_string, C87_body, C87_response, C87_silent, C87_unrouted, C89_ctx_debugf, C89_debugf, C89_handlers_begin, C89_initialiser_exact, C89_isolated, C89_message, C89_server, C90_answer, C90_fixed_answer, C90_fixed_file, C90_missing, C90_static_embedded, C90_static_file, C91_exclusive, C91_not_found, C91_own_parameters, C91_progress, C95_listing, C95_nil, C96_empty, C96_same_table, C96_table, C97_exact, C97_order, C97_reading, C97_server, C98_example_1, C98_example_2, C98_example_3, C98_server, C98_video, C99_comes_back_partial, C99_exact, C99_line_partial, C99_violated, C100_arrives_partial, C100_exact, C100_same, C100_violated, C101_params, C102_covered, C102_slash, C103_dialogue_partial, C103_exact, C103_repeat, C104_ends_partial, C104_exact, C104_limit, C104_stuck, C105_content, C105_none, C105_one, C105_ranges, C106_revalidate, C107_resume, C108_added, C108_gate, C108_other, C108_revoked, C109_routed, C109_same, C109_unrouted, C110_none, C110_range, C110_registers, C110_resume, C110_revalidate, C111_global, C111_isolated, C111_last, C111_rctx_exact, C111_request, C111_values, C112_exact, C112_prefix_partial, C112_range, C112_serveContent, C112_sniffed, C112_whole_partial, C114_calendar, C114_exact, C114_law, C114_read, C114_resume, C114_since, C114_texts, C114_written, C115_debugf_partial, C115_exact, C115_one_reading, C115_utc_partial, C115_violated, C115_when_made, C116_calls, C116_exact, C116_pair, C117_chain, C117_cookie, C117_example_1, C117_server, C117_video, C118_encoding, C118_headers, C118_static, C118_status, C118_tag, C118_type_exact, C118_type_partial, C119_all, C119_call, C119_ends, C119_exact, C119_partial, C119_success, C120_answer, C120_untouched, C122_exact, C122_possible, C122_served_partial, C122_static, C123_exact, C123_unchanged, C124_again_exact, C124_beyond, C124_missing, C124_resume_exact, C124_seek, C124_type_exact, C124_violated, C124_watch_partial, C125_session, C126_completes, C126_one_version, C126_rest, C126_same_second, C127_again, C127_always, C127_backup, C127_fresh, C128_one_bit, C128_others, C128_silent, C129_covered, C129_one_version, C129_piece, C130_noninterference, C130_one_router, C130_refused, C130_table, C131_names, C131_requests, C131_routing, C132_any_order, C132_check, C132_every, C132_exact, C132_parts, C132_parts_requests, C132_requests, C133_below, C133_every, C133_moved, C133_moved_every, C134_page, C134_status, C135_fixed, C135_prefixes_partial, C136_every_table, C136_parameters, C136_reload, C136_requests, C136_twice, C137_served, C137_shorter, C137_table, C138_alike, C138_bytes, C138_served, C138_unrouted, C139_debugf, C139_exact, C139_own, C139_requests, C139_silent, C139_stays, C139_violated, C139_written_partial, C140_later_partial, C140_literal_partial, C140_requests, C140_same
