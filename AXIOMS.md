# Axioms each theorem depends on

Generated by tools/axioms.py from Lean's `#print axioms`.

| theorem | axioms |
|---|---|
| `OatWS.C01_unpack_pack` | propext, Classical.choice, Quot.sound |
| `OatWS.C01_pack_unpack` | propext, Classical.choice, Quot.sound |
| `OatWS.C01_injective` | propext, Classical.choice, Quot.sound |
| `OatWS.C02_header_wire` | propext, Classical.choice, Quot.sound |
| `OatWS.C02_header_size` | propext, Quot.sound |
| `OatWS.C02_minimal` | propext, Quot.sound |
| `OatWS.C03_header_round_trip` | propext, Classical.choice, Quot.sound |
| `OatWS.C04_sendOneFrame` | propext, Classical.choice, Quot.sound |
| `OatWS.C04_C21_any_send` | propext, Classical.choice, Quot.sound |
| `OatWS.C05_received` | propext, Classical.choice, Quot.sound |
| `OatWS.C05_keys_do_not_matter` | propext, Classical.choice, Quot.sound |
| `OatWS.C05_unmask_mask` | propext, Quot.sound |
| `OatWS.C05_piecewise` | propext, Quot.sound |
| `OatWS.C05_rfc` | propext, Classical.choice, Quot.sound |
| `OatWS.C06_any_schedule` | propext, Classical.choice, Quot.sound |
| `OatWS.C06_independent_of_chunking` | propext, Classical.choice, Quot.sound |
| `OatWS.C07_chunk_sizes` | propext, Classical.choice, Quot.sound |
| `OatWS.C08_C09_frames_heard` | propext, Classical.choice, Quot.sound |
| `OatWS.C08_count` | propext, Classical.choice, Quot.sound |
| `OatWS.C09_control_whole` | propext, Classical.choice, Quot.sound |
| `OatWS.C09_control_transparent` | propext, Classical.choice, Quot.sound |
| `OatWS.C10_any_listener` | propext, Classical.choice, Quot.sound |
| `OatWS.C10_oversized_control` | propext, Classical.choice, Quot.sound |
| `OatWS.C10_iterateFrame` | propext, Classical.choice, Quot.sound |
| `OatWS.C11_any_listener` | propext, Classical.choice, Quot.sound |
| `OatWS.C11_unknown_opcode` | propext, Classical.choice, Quot.sound |
| `OatWS.C12_any_listener` | propext, Classical.choice, Quot.sound |
| `OatWS.C12_continuation_without_start` | propext, Classical.choice, Quot.sound |
| `OatWS.C12_start_inside_message` | propext, Classical.choice, Quot.sound |
| `OatWS.C13_violated` | propext, Classical.choice, Quot.sound |
| `OatWS.C13_violated_stray_continuation` | propext, Quot.sound |
| `OatWS.C13_partial` | propext, Classical.choice, Quot.sound |
| `OatWS.C13_actual_refused` | propext, Classical.choice, Quot.sound |
| `OatWS.C13_any_receiver_partial` | propext, Classical.choice, Quot.sound |
| `OatWS.C13_actual_stray` | propext, Classical.choice, Quot.sound |
| `OatWS.C14_actual_any_receiver` | propext, Classical.choice, Quot.sound |
| `OatWS.C14_violated` | propext, Quot.sound |
| `OatWS.C14_actual` | propext, Classical.choice, Quot.sound |
| `OatWS.C14_partial` | propext, Classical.choice, Quot.sound |
| `OatWS.C15_truncated` | propext, Classical.choice, Quot.sound |
| `OatWS.C16_close_ends_listening` | propext, Classical.choice, Quot.sound |
| `OatWS.C16_nothing_after_close` | propext, Classical.choice, Quot.sound |
| `OatWS.C17_loop_ends` | propext, Classical.choice, Quot.sound |
| `OatWS.C17_stop_at_frame_boundary` | propext, Classical.choice, Quot.sound |
| `OatWS.C17_stop_before_listen` | propext, Quot.sound |
| `OatWS.C18_C44_listen_is_the_loop` | propext, Classical.choice, Quot.sound |
| `OatWS.C18_never_throws` | propext, Quot.sound |
| `OatWS.C19_actual_any_receiver` | propext, Classical.choice, Quot.sound |
| `OatWS.C19_actual_close_any_receiver` | propext, Classical.choice, Quot.sound |
| `OatWS.C19_violated` | propext, Quot.sound |
| `OatWS.C19_actual` | propext, Classical.choice, Quot.sound |
| `OatWS.C19_actual_control` | propext, Classical.choice, Quot.sound |
| `OatWS.C20_no_overrun` | propext, Classical.choice, Quot.sound |
| `OatWS.C20_overrun_on_setConfig` | propext, Quot.sound |
| `OatWS.Threads.C20_overrun_from_thread` | propext, Quot.sound |
| `OatWS.C21_sendOneFrame` | propext, Classical.choice, Quot.sound |
| `OatWS.C22_violated` | propext, Quot.sound |
| `OatWS.C22_partial` | propext, Classical.choice, Quot.sound |
| `OatWS.C23_null_is_empty` | propext, Classical.choice, Quot.sound |
| `OatWS.C23_wrappers` | propext, Quot.sound |
| `OatWS.C24_end_to_end` | propext, Classical.choice, Quot.sound |
| `OatWS.C25_close_round_trip` | propext, Classical.choice, Quot.sound |
| `OatWS.C25_short_close` | propext, Classical.choice, Quot.sound |
| `OatWS.C25_sendClose_empty` | propext, Classical.choice, Quot.sound |
| `OatWS.C26_actual` | propext, Classical.choice, Quot.sound |
| `OatWS.C26_witness` | propext, Quot.sound |
| `OatWS.C26_violated` | propext, Classical.choice, Quot.sound |
| `OatWS.C26_partial` | propext, Classical.choice, Quot.sound |
| `OatWS.C26_actual_any_receiver` | propext, Classical.choice, Quot.sound |
| `OatWS.C27_no_ub` | propext, Classical.choice, Quot.sound |
| `OatWS.C27_ub_at_2_31` | propext, Classical.choice, Quot.sound |
| `OatWS.Async.C28_async_listen` | propext, Classical.choice, Quot.sound |
| `OatWS.Async.C28_same_callbacks` | propext, Classical.choice, Quot.sound |
| `OatWS.Async.C29_sendOneFrame` | propext, Classical.choice, Quot.sound |
| `OatWS.Async.C29_send` | propext, Classical.choice, Quot.sound |
| `OatWS.Async.C29_finished_frame` | propext, Classical.choice, Quot.sound |
| `OatWS.Async.C30_finishes_only_on_close` | propext, Classical.choice, Quot.sound |
| `OatWS.Async.C30_error_propagates` | propext, Classical.choice, Quot.sound |
| `OatWS.Async.C30_uncaught_error` | propext, Quot.sound |
| `OatWS.Async.C31_actual` | propext, Quot.sound |
| `OatWS.Async.C31_partial` | propext, Quot.sound |
| `OatWS.Async.C31_violated` | propext, Quot.sound |
| `OatWS.Async.C32_valid_in_call` | propext, Classical.choice, Quot.sound |
| `OatWS.Async.C32_unmasked_in_coroutine` | propext, Classical.choice, Quot.sound |
| `OatWS.Async.C32_masked_dangles` | propext, Classical.choice, Quot.sound |
| `OatWS.Async.C32_no_leak` | propext, Classical.choice, Quot.sound |
| `OatWS.Async.C32_any_tasks_in_call` | propext, Classical.choice, Quot.sound |
| `OatWS.Async.C32_any_tasks_in_coroutine` | propext, Classical.choice, Quot.sound |
| `OatWS.Async.C33_serialised` | propext, Classical.choice, Quot.sound |
| `OatWS.Async.C33_interleaved` | propext, Quot.sound |
| `OatWS.Async.C33_any_tasks` | propext, Classical.choice, Quot.sound |
| `OatWS.SHA1.C34_sha1` | propext, Classical.choice, Quot.sound |
| `OatWS.SHA1.C34_length` | propext, Quot.sound |
| `OatWS.SHA1.C35_incremental_reusable` | propext, Classical.choice, Quot.sound |
| `OatWS.SHA1.C35_reset` | propext, Quot.sound |
| `OatWS.SHA1.C35_stream_consumed` | propext, Classical.choice, Quot.sound |
| `OatWS.SHA1.C35_fromFile` | propext, Classical.choice, Quot.sound |
| `OatWS.Handshake.C36_only_valid` | propext, Classical.choice, Quot.sound |
| `OatWS.Handshake.C36_all_valid` | propext, Classical.choice, Quot.sound |
| `OatWS.Handshake.C36_exactly_valid` | propext, Classical.choice, Quot.sound |
| `OatWS.Handshake.C36_otherwise_400` | propext, Classical.choice, Quot.sound |
| `OatWS.Handshake.C36_connection_list` | propext, Classical.choice, Quot.sound |
| `OatWS.Handshake.C37_server_error` | propext, Classical.choice, Quot.sound |
| `OatWS.Handshake.C37_ok_only` | propext, Classical.choice, Quot.sound |
| `OatWS.Handshake.C37_exactly` | propext, Classical.choice, Quot.sound |
| `OatWS.Handshake.C37_codes` | propext, Classical.choice, Quot.sound |
| `OatWS.Handshake.C37_list_refused` | propext, Classical.choice, Quot.sound |
| `OatWS.Handshake.C38_agree` | propext, Classical.choice, Quot.sound |
| `OatWS.Handshake.C38_conflict` | propext, Classical.choice, Quot.sound |
| `OatWS.Connector.C39_connect_iff` | propext, Classical.choice, Quot.sound |
| `OatWS.Connector.C39_connect_throws` | propext, Classical.choice, Quot.sound |
| `OatWS.Connector.C39_connect_request` | propext, Classical.choice, Quot.sound |
| `OatWS.Connector.C39_async_iff` | propext, Classical.choice, Quot.sound |
| `OatWS.Connector.C39_async_request` | propext, Classical.choice, Quot.sound |
| `OatWS.Connector.C39_async_fails` | propext, Classical.choice, Quot.sound |
| `OatWS.Connector.C39_same` | propext, Classical.choice, Quot.sound |
| `OatWS.Server.C40_paired` | propext, Classical.choice, Quot.sound |
| `OatWS.Server.C40_all_destroyed` | propext, Classical.choice, Quot.sound |
| `OatWS.Server.C40_alive` | propext, Classical.choice, Quot.sound |
| `OatWS.Server.C40_handleConnection_legal` | propext, Quot.sound |
| `OatWS.AsyncServer.C41_paired` | propext, Classical.choice, Quot.sound |
| `OatWS.AsyncServer.C41_before_iff_after` | propext, Classical.choice, Quot.sound |
| `OatWS.Async.C42_async_keys` | propext, Classical.choice, Quot.sound |
| `OatWS.C42_sends` | propext, Classical.choice, Quot.sound |
| `OatWS.C42_server_unmasked` | propext, Classical.choice, Quot.sound |
| `OatWS.C42_client_masked` | propext, Quot.sound |
| `OatWS.C42_client_keys` | propext, Classical.choice, Quot.sound |
| `OatWS.Threads.C42_threads_keys` | propext, Classical.choice, Quot.sound |
| `OatWS.C43_listen` | propext, Classical.choice, Quot.sound |
| `OatWS.C43_iterateFrame` | propext, Classical.choice, Quot.sound |
| `OatWS.C43_history` | propext, Classical.choice, Quot.sound |
| `OatWS.C43_history_quiet` | propext, Classical.choice, Quot.sound |
| `OatWS.C44_frame_costs` | propext, Classical.choice, Quot.sound |
| `OatWS.C44_frames_bounded` | propext, Classical.choice, Quot.sound |
| `OatWS.Async.C45_async` | propext, Classical.choice, Quot.sound |
| `OatWS.C45_no_listener` | propext, Quot.sound |
| `OatWS.C45_iterateFrame` | propext, Quot.sound |
| `OatWS.Handshake.C46_key` | propext, Quot.sound |
| `OatWS.Handshake.C46_injective` | propext, Quot.sound |
| `OatWS.Handshake.C46_sent` | propext, Classical.choice, Quot.sound |
| `OatWS.Async.C47_among_other_tasks` | propext, Classical.choice, Quot.sound |
| `OatWS.Async.C47_only_senders` | propext, Classical.choice, Quot.sound |
| `OatWS.Connector.C48_violated` | propext, Classical.choice, Quot.sound |
| `OatWS.Connector.C48_actual` | propext, Classical.choice, Quot.sound |
| `OatWS.Connector.C48_partial` | propext, Classical.choice, Quot.sound |
| `OatWS.C49_refused_only_for_reason` | propext, Classical.choice, Quot.sound |
| `OatWS.C49_refused_for_reason` | propext, Classical.choice, Quot.sound |
| `OatWS.C49_not_refused` | propext, Classical.choice, Quot.sound |
| `OatWS.C50_fragmentation_rule` | propext, Classical.choice, Quot.sound |
| `OatWS.C51_sends_do_not_disturb` | propext, Classical.choice, Quot.sound |
| `OatWS.C51_iterateFrame` | propext, Classical.choice, Quot.sound |
| `OatWS.C51_frames_answered` | propext, Classical.choice, Quot.sound |
| `OatWS.C51_pings_answered` | propext, Classical.choice, Quot.sound |
| `OatWS.C52_fragments_are_one_message` | propext, Classical.choice, Quot.sound |
| `OatWS.C53_ping_pong` | propext, Classical.choice, Quot.sound |
| `OatWS.C54_stop_and_resume` | propext, Classical.choice, Quot.sound |
| `OatWS.C54_callbacks` | propext, Classical.choice, Quot.sound |
| `OatWS.C54_session_exists` | propext, Classical.choice, Quot.sound |
| `OatWS.C54_with_sends` | propext, Classical.choice, Quot.sound |
| `OatWS.C55_frame` | propext, Classical.choice, Quot.sound |
| `OatWS.C55_listen` | propext, Classical.choice, Quot.sound |
| `OatWS.Async.C56_every_send` | propext, Classical.choice, Quot.sound |
| `OatWS.Async.C56_finished` | propext, Classical.choice, Quot.sound |
| `OatWS.Async.C56_recorded` | propext, Classical.choice, Quot.sound |
| `OatWS.Async.C57_heard` | propext, Classical.choice, Quot.sound |
| `OatWS.Threads.C58_every_send` | propext, Classical.choice, Quot.sound |
| `OatWS.Threads.C58_finished` | propext, Classical.choice, Quot.sound |
| `OatWS.Threads.C58_recorded` | propext |
| `OatWS.Threads.C58_serialised` | propext, Classical.choice, Quot.sound |
| `OatWS.Threads.C58_heard` | propext, Classical.choice, Quot.sound |
| `OatWS.Threads.C59_reception` | propext, Classical.choice, Quot.sound |
| `OatWS.Threads.C59_frames_heard` | propext, Classical.choice, Quot.sound |
| `OatWS.Threads.C60_stopped` | propext, Classical.choice, Quot.sound |
| `OatWS.Threads.C60_early_stop_is_lost` | propext, Quot.sound |
| `OatWS.Threads.C61_no_deadlock` | propext, Classical.choice, Quot.sound |
| `OatWS.Threads.C61_finite` | propext |
| `OatWS.Threads.C61_finish` | propext, Classical.choice, Quot.sound |
| `OatWS.Threads.C62_receiving` | propext, Quot.sound |
| `OatWS.Threads.C62_listener` | propext, Quot.sound |
| `OatWS.Threads.C62_config` | propext, Quot.sound |
| `OatWS.Threads.C62_listening` | propext, Quot.sound |
| `OatWS.Threads.C62_output` | propext, Classical.choice, Quot.sound |
| `OatWS.Threads.C62_no_race` | propext, Classical.choice, Quot.sound |
| `OatWS.Threads.C62_stop_races` | propext, Quot.sound |
| `OatWS.Threads.C62_failed_send_races` | propext, Quot.sound |
| `OatWS.Threads.C62_setListener_races` | propext, Quot.sound |
| `OatWS.Threads.C62_setConfig_races` | propext, Quot.sound |
| `OatWS.Threads.C62_callback_setConfig_races` | propext, Quot.sound |
| `OatWS.Threads.C62_sends_race` | propext, Quot.sound |
| `OatWS.Threads.C63_in_order` | propext, Classical.choice, Quot.sound |
| `OatWS.Threads.C63_both` | propext, Classical.choice, Quot.sound |
| `OatWS.Server.C64_blocking` | propext, Classical.choice, Quot.sound |
| `OatWS.Server.C64_kept` | propext, Classical.choice, Quot.sound |
| `OatWS.AsyncServer.C64_asynchronous` | propext, Classical.choice, Quot.sound |
| `OatWS.AsyncServer.C64_kept_async` | propext, Classical.choice, Quot.sound |
| `OatWS.Server.C65_cpus` | propext, Classical.choice, Quot.sound |
| `OatWS.Server.C65_unknown` | none |
| `OatWS.Network.C66_in_order` | propext, Classical.choice, Quot.sound |
| `OatWS.Network.C66_both` | propext, Classical.choice, Quot.sound |
| `OatWS.Async.C67_no_deadlock` | propext, Classical.choice, Quot.sound |
| `OatWS.Async.C67_finite` | propext, Classical.choice, Quot.sound |
| `OatWS.Async.C67_finish` | propext, Classical.choice, Quot.sound |
| `OatWS.Network.C68_all_heard` | propext, Classical.choice, Quot.sound |
| `OatWS.Network.C68_both` | propext, Classical.choice, Quot.sound |
| `OatWS.Network.C68_finite` | propext, Classical.choice, Quot.sound |
| `OatWS.Network.C68_comes_to_rest` | propext, Classical.choice, Quot.sound |
| `OatWS.Network.C69_in_order` | propext, Classical.choice, Quot.sound |
| `OatWS.Network.C69_all_heard` | propext, Classical.choice, Quot.sound |
| `OatWS.Network.C69_client_hears` | propext, Classical.choice, Quot.sound |
| `OatWS.Network.C69_says` | propext, Quot.sound |
| `OatWS.Network.C69_async` | propext, Quot.sound |
| `OatWS.Network.C69_one_sender` | propext, Quot.sound |
| `OatWS.Network.C70_any_moment` | propext, Classical.choice, Quot.sound |
| `OatWS.Network.C70_session` | propext, Classical.choice, Quot.sound |
| `OatWS.Network.C71_told` | propext |
| `OatWS.Network.C71_any_moment` | propext, Classical.choice, Quot.sound |
| `OatWS.Network.C71_session` | propext, Classical.choice, Quot.sound |
| `OatWS.Network.C71_all_heard` | propext, Classical.choice, Quot.sound |
| `OatWS.Network.C71_session_all_heard` | propext, Classical.choice, Quot.sound |
| `OatWS.Network.C72_threads` | propext, Classical.choice, Quot.sound |
| `OatWS.Network.C72_tasks` | propext, Quot.sound |
| `OatWS.Network.C72_connected` | propext, Classical.choice, Quot.sound |
| `OatWS.Network.C72_session` | propext, Classical.choice, Quot.sound |
| `OatWS.Network.C72_all_heard` | propext, Classical.choice, Quot.sound |
| `OatWS.Network.C72_overrun` | propext, Quot.sound |
| `OatWS.C73_header` | propext, Classical.choice, Quot.sound |
| `OatWS.C73_frame` | propext, Classical.choice, Quot.sound |
| `OatWS.C73_as_sendOneFrame` | propext, Classical.choice, Quot.sound |
| `OatWS.Async.C73_async_header` | propext, Classical.choice, Quot.sound |
| `OatWS.Threads.C73_alone` | propext, Quot.sound |
| `OatWS.Threads.C73_call_alone` | propext, Quot.sound |
| `OatWS.C74_tasks` | propext, Quot.sound |
| `OatWS.C74_callback` | propext, Quot.sound |
| `OatWS.C74_tasks_kept` | propext, Quot.sound |
| `OatWS.C74_tasks_fixed` | propext, Quot.sound |
| `OatWS.C74_threads_kept` | propext, Quot.sound |
| `OatWS.C74_threads_fixed` | propext, Quot.sound |
| `OatWS.C74_replaced` | propext, Quot.sound |
| `OatWS.C74_replaced_by_thread` | propext, Quot.sound |
| `OatWS.Async.C75_reads` | propext, Quot.sound |
| `OatWS.Async.C75_writes` | propext, Quot.sound |
| `OatWS.Async.C75_receiving` | propext, Quot.sound |
| `OatWS.Async.C75_listener` | propext, Quot.sound |
| `OatWS.Async.C75_config` | propext, Quot.sound |
| `OatWS.Async.C75_listening` | propext, Quot.sound |
| `OatWS.Async.C75_output` | propext, Classical.choice, Quot.sound |
| `OatWS.Async.C75_no_race` | propext, Classical.choice, Quot.sound |
| `OatWS.Async.C75_setListener_races` | propext, Quot.sound |
| `OatWS.Async.C75_setConfig_races` | propext, Quot.sound |
| `OatWS.Async.C75_callback_setConfig_races` | propext, Quot.sound |
| `OatWS.Async.C75_sends_race` | propext, Quot.sound |
| `OatWS.Async.C75_two_listen_race` | propext, Quot.sound |
| `OatWS.Async.C76_tasks` | propext, Quot.sound |
| `OatWS.Async.C76_callbacks` | propext, Quot.sound |
| `OatWS.Async.C76_buffers` | propext, Quot.sound |
| `OatWS.Async.C76_total` | propext, Quot.sound |
| `OatWS.Async.C76_released` | propext, Quot.sound |
| `OatWS.C77_determined_by_the_bytes` | propext, Classical.choice, Quot.sound |
| `OatWS.C77_same_messages` | propext, Classical.choice, Quot.sound |
| `OatWS.C77_same_outcome` | propext, Classical.choice, Quot.sound |
| `OatWS.Network.C78_masks` | propext, Classical.choice, Quot.sound |
| `OatWS.Network.C78_created` | propext, Classical.choice, Quot.sound |
| `OatWS.Network.C78_wire` | propext, Classical.choice, Quot.sound |
| `OatWS.Network.C78_client_and_server` | propext, Classical.choice, Quot.sound |
| `OatWS.Network.C78_client_and_async_server` | propext, Classical.choice, Quot.sound |
| `OatWS.Process.C79_alone` | propext, Classical.choice, Quot.sound |
| `OatWS.Process.C79_masks` | propext, Classical.choice, Quot.sound |
| `OatWS.Process.C79_defined` | propext, Classical.choice, Quot.sound |
| `OatWS.Process.C79_peer_hears` | propext, Classical.choice, Quot.sound |
| `OatWS.Process.C79_process_hears` | propext, Classical.choice, Quot.sound |
| `OatWS.AsyncProcess.C80_alone` | propext, Classical.choice, Quot.sound |
| `OatWS.AsyncProcess.C80_masks` | propext, Classical.choice, Quot.sound |
| `OatWS.AsyncProcess.C80_defined` | propext, Classical.choice, Quot.sound |
| `OatWS.AsyncProcess.C80_peer_hears` | propext, Classical.choice, Quot.sound |
| `OatWS.AsyncProcess.C80_process_hears` | propext, Classical.choice, Quot.sound |
| `OatWS.Process.C81_threads` | propext, Classical.choice, Quot.sound |
| `OatWS.AsyncProcess.C81_tasks` | propext, Quot.sound |
| `OatWS.Network.C82_answers` | propext, Quot.sound |
| `OatWS.Network.C82_session_answers` | propext, Quot.sound |
| `OatWS.Network.C82_replies` | propext |
| `OatWS.Network.C82_service` | propext, Classical.choice, Quot.sound |
| `OatWS.Network.C82_service_complete` | propext, Classical.choice, Quot.sound |
| `OatWS.Network.C82_echo` | propext, Classical.choice, Quot.sound |
| `OatWS.Network.C82_echo_complete` | propext, Classical.choice, Quot.sound |
| `OatWS.Network.C82_serves` | propext |
| `OatWS.Network.C82_echo_calm` | propext, Quot.sound |
| `OatWS.Process.C83_at_rest` | propext, Classical.choice, Quot.sound |
| `OatWS.Process.C83_peer_heard_all` | propext, Classical.choice, Quot.sound |
| `OatWS.Process.C83_process_heard_all` | propext, Classical.choice, Quot.sound |
| `OatWS.AsyncProcess.C83_tasks_at_rest` | propext, Classical.choice, Quot.sound |
| `OatWS.AsyncProcess.C83_tasks_peer_heard_all` | propext, Classical.choice, Quot.sound |
| `OatWS.AsyncProcess.C83_tasks_process_heard_all` | propext, Classical.choice, Quot.sound |
| `OatWS.Async.C84_async_only_for_reason` | propext, Classical.choice, Quot.sound |
| `OatWS.Async.C84_async_refused` | propext, Classical.choice, Quot.sound |
| `OatWS.C84_any_receiver` | propext, Classical.choice, Quot.sound |
| `OatWS.C84_async_error` | propext, Classical.choice, Quot.sound |
| `OatWS.C84_fragmentation_rule` | propext, Classical.choice, Quot.sound |
| `OatWS.Process.C85_finite` | propext, Classical.choice, Quot.sound |
| `OatWS.Process.C85_comes_to_rest` | propext, Classical.choice, Quot.sound |
| `OatWS.Process.C85_ends_at_rest` | propext, Quot.sound |
| `OatWS.Process.C85_rest_waits` | propext, Classical.choice, Quot.sound |
| `OatWS.AsyncProcess.C85_tasks_finite` | propext, Classical.choice, Quot.sound |
| `OatWS.AsyncProcess.C85_tasks_comes_to_rest` | propext, Classical.choice, Quot.sound |
| `OatWS.AsyncProcess.C85_tasks_ends_at_rest` | propext, Quot.sound |
| `OatWS.AsyncProcess.C86_tasks_passes_on` | propext, Classical.choice, Quot.sound |
| `OatWS.AsyncProcess.C86_tasks_relay` | propext, Classical.choice, Quot.sound |
| `OatWS.AsyncProcess.C86_tasks_all_passed_on` | propext, Classical.choice, Quot.sound |
| `OatWS.AsyncProcess.C86_tasks_relay_complete` | propext, Classical.choice, Quot.sound |
| `OatWS.AsyncProcess.C86_tasks_room` | propext, Classical.choice, Quot.sound |
| `OatWS.Process.C86_passes_on` | propext, Classical.choice, Quot.sound |
| `OatWS.Process.C86_relay` | propext, Classical.choice, Quot.sound |
| `OatWS.Process.C86_all_passed_on` | propext, Classical.choice, Quot.sound |
| `OatWS.Process.C86_relay_complete` | propext, Classical.choice, Quot.sound |
| `OatWS.Process.C86_room` | propext, Classical.choice, Quot.sound |
| `OatWS.Client.C87_connect` | propext, Classical.choice, Quot.sound |
| `OatWS.Client.C87_connectAsync` | propext, Classical.choice, Quot.sound |
| `OatWS.Client.C87_connects` | propext, Classical.choice, Quot.sound |
| `OatWS.Client.C87_heard` | propext, Classical.choice, Quot.sound |
| `OatWS.Client.C87_heard_async` | propext, Classical.choice, Quot.sound |
| `OatWS.Client.C87_content_as_frames` | propext, Classical.choice, Quot.sound |
| `OatWS.Client.C87_endpoint` | propext, Quot.sound |
| `OatWS.Client.C87_endpoint_async` | propext, Quot.sound |
| `OatWS.C88_after_close` | propext, Classical.choice, Quot.sound |
| `OatWS.C88_after_refusal` | propext, Classical.choice, Quot.sound |
| `OatWS.C88_nothing_left` | propext, Classical.choice, Quot.sound |
| `OatWS.C88_after_end` | propext, Classical.choice, Quot.sound |
| `OatWS.C88_listen_repeatedly` | propext, Classical.choice, Quot.sound |
| `OatWS.C88_payload_heard_as_frames` | propext, Classical.choice, Quot.sound |
| `OatWS.C88_after_exception` | propext, Classical.choice, Quot.sound |
| `OatWS.C88_async_repeatedly` | propext, Classical.choice, Quot.sound |
| `OatWS.C89_any_receiver` | propext, Classical.choice, Quot.sound |
| `OatWS.C89_any_receiver_close` | propext, Classical.choice, Quot.sound |
| `OatWS.C89_listen` | propext, Classical.choice, Quot.sound |
| `OatWS.C89_style_does_not_matter` | propext, Classical.choice, Quot.sound |
| `OatWS.Streams.C90_same_record` | propext, Quot.sound |
| `OatWS.Streams.C90_same_state` | propext, Quot.sound |
| `OatWS.Streams.C90_recorded` | propext, Classical.choice, Quot.sound |
| `OatWS.Streams.C90_every_frame` | propext, Classical.choice, Quot.sound |
| `OatWS.Streams.C90_connected` | propext, Quot.sound |
| `OatWS.Streams.C90_any_moment` | propext, Classical.choice, Quot.sound |
| `OatWS.Streams.C90_goes_on` | propext, Quot.sound |
| `OatWS.Streams.C90_all_heard` | propext, Classical.choice, Quot.sound |
| `OatWS.Streams.C90_defined` | propext, Classical.choice, Quot.sound |
| `OatWS.Streams.C90_finite` | propext, Classical.choice, Quot.sound |
| `OatWS.Streams.C90_no_deadlock` | propext, Classical.choice, Quot.sound |
| `OatWS.Streams.C90_finish` | propext, Classical.choice, Quot.sound |
| `OatWS.C91_header` | propext, Classical.choice, Quot.sound |
| `OatWS.C91_one_frame` | propext, Classical.choice, Quot.sound |
| `OatWS.C91_polling` | propext, Classical.choice, Quot.sound |
| `OatWS.C91_refused` | propext, Classical.choice, Quot.sound |
| `OatWS.C91_end` | propext, Classical.choice, Quot.sound |
| `OatWS.C91_flag` | propext, Quot.sound |
| `OatWS.C91_then_listen` | propext, Classical.choice, Quot.sound |
| `OatWS.C91_into` | propext, Classical.choice, Quot.sound |
| `OatWS.C91_object` | propext, Classical.choice, Quot.sound |
| `OatWS.C91_refused_object` | propext, Classical.choice, Quot.sound |
| `OatWS.Threads.C91_among_threads` | propext, Classical.choice, Quot.sound |
| `OatWS.Together.C92_any_moment` | propext, Classical.choice, Quot.sound |
| `OatWS.Together.C92_all_heard` | propext, Classical.choice, Quot.sound |
| `OatWS.Together.C92_end_to_end` | propext, Classical.choice, Quot.sound |
| `OatWS.Together.C92_comes_to_rest` | propext, Classical.choice, Quot.sound |
| `OatWS.TestApp.C93_counter` | propext |
| `OatWS.TestApp.C93_serves` | propext, Classical.choice, Quot.sound |
| `OatWS.TestApp.C93_any_moment` | propext, Classical.choice, Quot.sound |
| `OatWS.TestApp.C93_complete` | propext, Classical.choice, Quot.sound |
| `OatWS.TestApp.C93_nothing_fails` | propext, Classical.choice, Quot.sound |
| `OatWS.TestApp.C93_passes` | propext, Classical.choice, Quot.sound |
| `OatWS.TestApp.C93_test` | propext, Classical.choice, Quot.sound |
| `OatWS.Together.C94_sends` | propext, Quot.sound |
| `OatWS.Together.C94_any_moment` | propext, Classical.choice, Quot.sound |
| `OatWS.Together.C94_all_heard` | propext, Classical.choice, Quot.sound |
| `OatWS.Together.C94_catching` | propext, Quot.sound |
| `OatWS.Together.C95_any_moment` | propext, Classical.choice, Quot.sound |
| `OatWS.Together.C95_all_answered` | propext, Classical.choice, Quot.sound |
| `OatWS.Together.C95_echo` | propext, Classical.choice, Quot.sound |
| `OatWS.Together.C95_test_listener` | propext, Classical.choice, Quot.sound |
| `OatWS.Together.C95_test_server` | propext, Classical.choice, Quot.sound |
| `OatWS.Reentrant.C96_plain` | propext, Quot.sound |
| `OatWS.Reentrant.C96_bound` | propext, Quot.sound |
| `OatWS.Reentrant.C96_iterateFrame` | propext, Classical.choice, Quot.sound |
| `OatWS.Reentrant.C96_listen` | propext, Classical.choice, Quot.sound |
| `OatWS.Reentrant.C96_heard` | propext, Classical.choice, Quot.sound |
| `OatWS.Reentrant.C96_close` | propext, Classical.choice, Quot.sound |
| `OatWS.Reentrant.C96_close_inside` | propext, Quot.sound |
| `OatWS.Reentrant.C96_mid_frame` | propext, Quot.sound |
| `OatWS.Reentrant.C96_waits` | propext, Classical.choice, Quot.sound |
| `OatWS.Reentrant.C96_defined` | propext, Classical.choice, Quot.sound |
| `OatWS.Reentrant.C96_ends` | propext, Classical.choice, Quot.sound |
| `OatWS.Reentrant.C96_progress` | propext, Classical.choice, Quot.sound |
| `OatWS.Gateway.C97_alone` | propext, Classical.choice, Quot.sound |
| `OatWS.Gateway.C97_heard` | propext, Classical.choice, Quot.sound |
| `OatWS.Gateway.C97_bound` | propext, Quot.sound |
| `OatWS.Gateway.C97_told` | propext, Classical.choice, Quot.sound |
| `OatWS.Gateway.C97_peer` | propext, Classical.choice, Quot.sound |
| `OatWS.Gateway.C97_waits` | propext, Quot.sound |
| `OatWS.Gateway.C97_waits_any` | propext, Quot.sound |
| `OatWS.Gateway.C97_defined` | propext, Classical.choice, Quot.sound |
| `OatWS.Gateway.C97_ends` | propext, Classical.choice, Quot.sound |
| `OatWS.Gateway.C97_ends_any` | propext, Classical.choice, Quot.sound |
| `OatWS.Gateway.C97_progress` | propext, Quot.sound |
| `OatWS.Gateway.C97_written` | propext, Classical.choice, Quot.sound |
| `OatWS.Gateway.C97_one_send` | propext, Classical.choice, Quot.sound |
