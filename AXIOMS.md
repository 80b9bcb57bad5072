# Axioms each claimed theorem depends on

From `#print axioms`, for every theorem listed in `MANIFEST.json` (names without `Zinx.Props.`).

## Classical.choice, Quot.sound, propext

`C01_chunking_independent`, `C01_chunking_independent_tlv_ltv`, `C02_frames_delivered`, `C04_exact`, `C04_partial`, `C04_partial_bounded`, `C05_shipped_never_panics_or_hangs`, `C06_exact_partial`, `C06_partial`, `C07_no_complete_frame_withheld`, `C100_constructed`, `C100_locked`, `C100_objects`, `C100_started_partial`, `C100_ws_queue`, `C100_ws_writes`, `C101_connections_partial`, `C101_objects`, `C101_refuted`, `C102_accept_refuted`, `C102_close_refuted`, `C102_manager_partial`, `C103_name_refuted`, `C103_place_partial`, `C103_place_refuted`, `C103_place_unknown`, `C104_exact`, `C105_answered`, `C105_handled`, `C105_in_step`, `C105_once`, `C105_replies`, `C106_console`, `C106_last`, `C106_old`, `C106_partial`, `C106_refuted`, `C107_client_refuted`, `C107_home`, `C107_jam`, `C107_lost_refuted`, `C107_noPool`, `C107_once`, `C107_partial`, `C107_refuted`, `C108_copied`, `C108_partial`, `C109_exact`, `C109_late`, `C109_once`, `C109_partial`, `C109_window`, `C110_exact`, `C110_jam`, `C110_partial`, `C110_refuted`, `C110_starves_refuted`, `C111_accept_refuted`, `C111_exact`, `C111_kcp_refuted`, `C111_partial`, `C111_start_twice_refuted`, `C111_twice_refuted`, `C112_backlog`, `C112_exact`, `C112_nopool`, `C112_partial`, `C112_refuted`, `C113_agree_partial`, `C113_everyone_partial`, `C113_fair_partial`, `C113_lost_refuted`, `C113_order_partial`, `C113_order_refuted`, `C113_whom`, `C114_exact`, `C114_factory`, `C114_message`, `C114_partial`, `C114_refuted`, `C114_refuted_again`, `C114_refuted_late`, `C115_exact`, `C115_init`, `C115_partial`, `C115_refuted`, `C115_refuted_swallows`, `C115_taken`, `C115_waits`, `C117_partial`, `C117_refuted`, `C118_exact`, `C118_handled`, `C118_old`, `C118_once`, `C118_partial`, `C118_refuted`, `C118_refuted_workers`, `C118_workers`, `C119_content`, `C119_ends`, `C119_no_wait`, `C119_read_all`, `C11_tlv_end_to_end`, `C120_ends_refuted`, `C120_exact_get`, `C120_hangs_refuted`, `C120_keys_refuted`, `C120_partial`, `C120_refuted`, `C121_marshal_refuted`, `C121_partial`, `C121_refuted`, `C122_exact_reader`, `C122_heard`, `C122_loops`, `C122_loops_forever`, `C122_lost`, `C122_moves`, `C122_not_early`, `C122_reader_refuted`, `C122_returns`, `C122_steps`, `C122_steps_sharp`, `C123_overlap`, `C123_partial`, `C123_refuted`, `C124_exact`, `C124_messages`, `C124_notices`, `C124_partial`, `C124_spins`, `C124_zero`, `C125_exact`, `C125_locks`, `C125_partial`, `C125_refuted`, `C125_refuted_ws`, `C126_content`, `C126_excl`, `C126_returns`, `C127_exact`, `C127_partial`, `C127_plain`, `C127_refuted_client`, `C127_refuted_default`, `C127_refuted_id`, `C127_refuted_slices`, `C127_refuted_twice`, `C128_exact`, `C128_partial`, `C128_refuted`, `C128_refuted_15`, `C128_refuted_short`, `C128_wrapped`, `C129_ltv`, `C129_tlv`, `C12_ltv_end_to_end`, `C130_exact`, `C132_exact`, `C132_user`, `C134_finalizer`, `C134_forgotten_refuted`, `C134_heard`, `C134_partial`, `C134_settled`, `C135_pool`, `C135_read`, `C136_called`, `C136_exact`, `C136_late`, `C136_once`, `C136_partial`, `C136_refuted`, `C137_again`, `C137_case`, `C137_exact`, `C137_partial`, `C137_restart_exact`, `C138_agree`, `C138_exact`, `C138_partial`, `C138_refuted`, `C139_api`, `C139_exact`, `C139_partial`, `C139_refuted`, `C139_send`, `C13_exact`, `C13_partial`, `C140_ghost`, `C140_partial`, `C141_arrives`, `C141_calls`, `C141_kcp`, `C141_kcp_arrives_partial`, `C141_taken`, `C141_tcp`, `C141_ws`, `C141_ws_arrives`, `C142_exact`, `C142_hook`, `C142_partial`, `C142_stop`, `C142_value`, `C143_kept`, `C143_later`, `C144_api`, `C144_exact`, `C144_refuted`, `C145_refuted_kcp`, `C145_refuted_tcp`, `C145_refuted_ws`, `C145_ws_partial`, `C146_missing_partial`, `C147_partial`, `C148_kcp`, `C148_kcp_answered`, `C148_kcp_in_step`, `C148_ws`, `C148_ws_answered`, `C148_ws_in_step`, `C149_asks`, `C149_exact`, `C149_live_partial`, `C149_once`, `C149_order`, `C149_own_partial`, `C149_sent_partial`, `C149_silent`, `C14_crc_is_modbus`, `C150_agree_partial`, `C150_everyone`, `C150_exact`, `C150_order_partial`, `C150_registered`, `C150_returns`, `C151_gone_partial`, `C151_holder_partial`, `C151_once`, `C151_result`, `C151_returns`, `C151_stays`, `C152_count`, `C152_partial`, `C152_readers`, `C152_refuted`, `C152_removeCb`, `C152_stuck`, `C15_adjacent_bytes_change_crc`, `C15_corrupted_frame_rejected`, `C16_exact`, `C16_first_wrong`, `C16_only_correct_frames_pass`, `C17_exact`, `C17_partial`, `C17_refuted`, `C17_refuted_any_limit`, `C18_handover`, `C18_stops_where_not_proceeding`, `C19_server_decoder_first_and_once`, `C20_abort_goto`, `C21_exact`, `C21_order_partial`, `C22_group_route`, `C22_no_route`, `C22_plain_route`, `C23_duplicate_refused`, `C23_new_accepted`, `C23_stable`, `C26_all_processed`, `C26_fair`, `C27_fair`, `C27_fifo_one_at_a_time`, `C27_hash_mode`, `C28_exact`, `C28_partial`, `C29_any`, `C29_apart_partial`, `C29_exact`, `C29_partial`, `C31_last_added`, `C31_manager_is_map`, `C32_unique_ids`, `C33_bound_partial`, `C33_partial`, `C33_refuted_sharp`, `C34_once_each_partial`, `C35_at_most_once`, `C35_partial`, `C35_sends`, `C35_start_first`, `C37_kcp_partial`, `C37_tcp_buffered_partial`, `C37_tcp_direct_partial`, `C37_ws_partial`, `C38_flushed`, `C38_kcp_partial`, `C38_order`, `C38_partial`, `C38_ws`, `C38_ws_exclusive`, `C39_kcp_partial`, `C39_kcp_returns`, `C39_returns`, `C39_running_partial`, `C39_single_partial`, `C39_ws`, `C39_ws_returns`, `C40_kcp_partial`, `C40_kcp_refuted`, `C40_kcp_refuted_open`, `C40_partial`, `C40_refuted`, `C40_ws_partial`, `C40_ws_refuted`, `C41_callbacks`, `C42_beats`, `C42_kcp_partial`, `C42_partial`, `C42_sends`, `C42_tcp_partial`, `C43_kept_up`, `C43_noted`, `C43_partial`, `C44_clone`, `C44_independent`, `C44_new`, `C44_set`, `C45_one_map`, `C46_no_key_twice`, `C46_reports_constant`, `C46_reports_only_present`, `C47_between_partial`, `C47_exact_partial`, `C47_only_additions_partial`, `C47_only_removals_partial`, `C47_refuted_any`, `C48_backwards`, `C48_increasing`, `C49_no_collision`, `C49_worker_range`, `C50_exact`, `C50_partial`, `C51_after_write`, `C51_all_files`, `C51_default`, `C52_at_rest`, `C52_conserved`, `C52_only_created`, `C53_once_and_not_early`, `C54_cancelled`, `C55_delivered`, `C56_at_most_once`, `C56_exactly_once`, `C57_exact`, `C57_partial`, `C58_one_queue`, `C58_runs`, `C58_start_fifo`, `C58_valid_index`, `C59_exact`, `C59_partial`, `C60_exact`, `C60_partial`, `C60_refuted`, `C61_exact`, `C61_no_time_flag`, `C61_partial`, `C61_refuted`, `C63_exact`, `C63_symmetric`, `C64_exact`, `C64_margin`, `C64_partial`, `C64_refuted`, `C65_broadcast_partial`, `C65_exact`, `C65_map_partial`, `C66_ends`, `C66_exact`, `C66_hooks`, `C66_late_untouched`, `C66_panics_exact`, `C66_partial`, `C66_quiet`, `C67_exact`, `C68_burst_rejected`, `C68_odd_rejected`, `C68_two_bits_rejected`, `C70_exact`, `C70_overlap`, `C70_partial`, `C72_sight`, `C75_failed_refuted`, `C75_once_refuted`, `C75_partial`, `C75_unstarted_refuted`, `C76_ends`, `C76_partial`, `C76_reentrant`, `C77_hook_refuted`, `C77_partial`, `C77_returns`, `C78_exact`, `C78_partial`, `C78_tlv_ltv`, `C79_partial`, `C80_decides`, `C80_partial`, `C81_exact`, `C81_partial`, `C82_calendar`, `C82_clock`, `C82_form`, `C82_kept`, `C82_partial`, `C82_refuted`, `C83_linearizable`, `C83_never_fatal`, `C83_returns`, `C84_arrives`, `C84_buffered`, `C84_direct`, `C85_kcp`, `C85_tcp`, `C85_ws`, `C86_kcp`, `C86_tcp`, `C86_ws`, `C87_partial`, `C87_refuted`, `C88_called`, `C88_once`, `C90_exclusive`, `C90_nested_refuted`, `C90_partial`, `C90_reenter_refuted`, `C90_slow_refuted`, `C91_ws`, `C91_ws_arrives`, `C92_kcp_arrives_partial`, `C92_kcp_partial`, `C92_kcp_refuted`, `C93_extra_closed`, `C93_extra_refuted`, `C93_finds`, `C93_last`, `C93_limit`, `C93_partial`, `C93_reads`, `C93_total`, `C93_workers_refuted`, `C94_goes_on`, `C94_longest_partial`, `C94_no_panic_partial`, `C94_own_partial`, `C94_panic_refuted`, `C94_panics`, `C94_single_partial`, `C95_calm_partial`, `C95_cause_partial`, `C95_ghost_refuted`, `C95_listed_partial`, `C95_stays_refuted`, `C96_decade`, `C96_load`, `C97_directory_refuted`, `C97_level_refuted`, `C97_reload_partial`, `C97_retention_refuted`, `C97_start_partial`, `C97_user_partial`, `C98_ordered`, `C99_goes_on`, `C99_kept`, `C99_noticed`, `C99_too_slow`, `Leave.C116_exact`, `Leave.C116_partial`, `Leave.C116_process`, `Leave.C116_reader`, `Leave.C116_refuted_hang`, `Leave.C116_worker_exact`

## Quot.sound, propext

`C03_length_header`, `C04_refuted`, `C04_refuted_wedged_forever`, `C06_refuted_hang`, `C08_tlv_roundtrip`, `C09_ltv_roundtrip`, `C100_connection_refuted`, `C100_objects_refuted`, `C100_start_refuted`, `C103_name_exact`, `C103_name_panics`, `C103_report`, `C104_given`, `C104_partial`, `C105_handling_refuted`, `C105_in_step_refuted`, `C107_jammed`, `C107_overlap_refuted`, `C108_pack_refuted`, `C109_refuted`, `C10_unpack_ltv`, `C10_unpack_tlv`, `C111_refuted`, `C114_again`, `C114_crossed`, `C117_exact`, `C11_remark_largest_lengths_panic`, `C120_exact_count`, `C121_exact_panic`, `C122_loops_refuted`, `C122_reads`, `C124_prefix`, `C124_refuted`, `C125_api`, `C129_messages`, `C129_raw`, `C130_refuted`, `C130_refuted_frames`, `C131_alone`, `C131_goes_on`, `C131_partial`, `C131_refuted`, `C132_no_queue`, `C132_refuted`, `C133_any_refuted`, `C133_calls`, `C133_partial`, `C135_nopool_refuted`, `C135_reached`, `C13_refuted`, `C13_refuted_wedged`, `C140_alone`, `C140_overlap_refuted`, `C140_refuted`, `C144_last`, `C144_partial`, `C146_partial`, `C146_path`, `C148_in_step_refuted`, `C149_refuted`, `C149_silent_refuted`, `C150_order_refuted`, `C16_partial`, `C16_refuted_websocket`, `C18_answers`, `C18_each_once_in_order`, `C18_with_message`, `C19_client_partial`, `C19_refuted_client_order`, `C19_refuted_client_restart`, `C19_server_chain`, `C20_plain`, `C20_stages_follow_the_rule`, `C21_partial`, `C21_refuted`, `C21_refuted_128`, `C23_router_mode`, `C24_exact`, `C25_exact`, `C25_independent_partial`, `C25_refuted_payload`, `C25_same_partial`, `C26_processed_once_in_order`, `C27_hash_number`, `C28_refuted`, `C28_refuted_later`, `C29_refuted_client`, `C29_refuted_closed_twice`, `C29_refuted_shared`, `C30_partial`, `C30_refuted`, `C30_refuted_start`, `C30_start_partial`, `C32_added_ids`, `C33_refuted`, `C34_exact`, `C34_refuted`, `C34_result_partial`, `C38_refuted`, `C43_refuted`, `C47_refuted`, `C55_in_polled_slot`, `C58_bounded`, `C58_fifo`, `C62_backoff`, `C65_refuted`, `C67_fresh_partial`, `C69_exact`, `C69_partial`, `C69_refuted`, `C71_listed`, `C71_outside`, `C73_store`, `C74_raw`, `C78_htlv_refuted`, `C78_refuted`, `C80_refuted`, `C87_any_refuted`, `C88_nil`, `C89_answers`, `C89_partial`, `C89_refuted`, `C93_copied`, `C93_heartbeat_refuted`, `C93_limit_refuted`, `C93_mode_refuted`, `C93_routes_refuted`, `C94_everywhere`, `C94_foreign_refuted`, `C94_restart_refuted`, `C95_late_refuted`, `C95_look_refuted`, `C96_one_byte`, `C96_shard`, `C96_sum`, `C98_agree`, `C98_deaf`, `C98_mild_partial`, `C98_open_refuted`, `C98_recovers_partial`, `C99_no_slack`, `Leave.C116_refuted`, `Leave.C116_refuted_hook`

## propext

`C04_refuted_payload_delivered_as_frame`, `C06_refuted`, `C06_refuted_negative`, `C06_refuted_signed`, `C06_refuted_strip`, `C08_any_message`, `C09_any_message`, `C102_close_partial`, `C104_refuted`, `C109_late_refuted`, `C111_dead`, `C111_unstarted_refuted`, `C114_packet`, `C121_error`, `C125_handler`, `C125_refuted_lock`, `C129_reader`, `C133_lost_refuted`, `C137_names`, `C137_refuted`, `C137_stale_refuted`, `C137_unchanged`, `C141_refused`, `C142_refuted`, `C144_locks`, `C144_process`, `C146_refuted`, `C151_holder_refuted`, `C18_chain_is_head_added_tail`, `C19_client_exact_partial`, `C21_refuted_abort`, `C21_refuted_nested`, `C23_mode`, `C24_runs_partial`, `C25_refuted_response`, `C35_refuted`, `C36_exact`, `C36_partial`, `C37_kcp_refuted`, `C37_ws_refuted`, `C38_direct_whole`, `C38_end`, `C38_kcp_refuted`, `C39_close_nil_refuted`, `C39_close_twice_refuted`, `C39_kcp_refuted`, `C39_send_closed_refuted`, `C42_kcp_refuted`, `C42_tcp_stuck_refuted`, `C42_ws_refuted`, `C43_one_action`, `C43_start`, `C44_nil`, `C53_fired`, `C58_no_wait`, `C59_defaults`, `C59_exceptions`, `C59_logger`, `C59_refuted`, `C62_every_history`, `C66_both_refuted`, `C66_hooks_refuted`, `C66_late_refuted`, `C66_unstarted_refuted`, `C66_ws_refuted`, `C67_refuted`, `C67_tcp_partial`, `C70_refuted_order`, `C76_early_refuted`, `C76_panic_refuted`, `C76_race_refuted`, `C79_bound_refuted`, `C79_refuted`, `C81_refuted`, `C87_twice_refuted`, `C97_reload_refuted`, `C98_flush_refuted`, `C98_zip_refuted`, `Leave.C116_down`

## none

`C108_refuted`, `C134_crash_refuted`, `C134_wrong_refuted`, `C147_refuted`, `C18_answer_unique`, `C20_nil_router`, `C24_no_pool_partial`, `C24_partial`, `C24_refuted`, `C36_refuted`, `C50_refuted`, `C50_refuted_close`, `C57_refuted`, `C75_again_refuted`, `C75_early_refuted`, `C75_redial_refuted`, `C75_twice_refuted`, `Leave.C116_refuted_process`
