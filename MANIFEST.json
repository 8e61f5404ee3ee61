{
 "claims": [
  {
   "property": "C01",
   "status": "proved",
   "theorems": [
    "OatWS.C01_unpack_pack",
    "OatWS.C01_pack_unpack",
    "OatWS.C01_injective"
   ],
   "note": ""
  },
  {
   "property": "C02",
   "status": "proved",
   "theorems": [
    "OatWS.C02_header_wire",
    "OatWS.C02_header_size",
    "OatWS.C02_minimal"
   ],
   "note": ""
  },
  {
   "property": "C03",
   "status": "proved",
   "theorems": [
    "OatWS.C03_header_round_trip"
   ],
   "note": ""
  },
  {
   "property": "C04",
   "status": "proved",
   "theorems": [
    "OatWS.C04_sendOneFrame",
    "OatWS.C04_C21_any_send"
   ],
   "note": ""
  },
  {
   "property": "C05",
   "status": "proved",
   "theorems": [
    "OatWS.C05_received",
    "OatWS.C05_keys_do_not_matter",
    "OatWS.C05_unmask_mask",
    "OatWS.C05_piecewise",
    "OatWS.C05_rfc"
   ],
   "note": ""
  },
  {
   "property": "C06",
   "status": "proved",
   "theorems": [
    "OatWS.C06_any_schedule",
    "OatWS.C06_independent_of_chunking"
   ],
   "note": ""
  },
  {
   "property": "C07",
   "status": "proved",
   "theorems": [
    "OatWS.C07_chunk_sizes"
   ],
   "note": ""
  },
  {
   "property": "C08",
   "status": "proved",
   "theorems": [
    "OatWS.C08_C09_frames_heard",
    "OatWS.C08_count"
   ],
   "note": ""
  },
  {
   "property": "C09",
   "status": "proved",
   "theorems": [
    "OatWS.C08_C09_frames_heard",
    "OatWS.C09_control_whole",
    "OatWS.C09_control_transparent"
   ],
   "note": ""
  },
  {
   "property": "C10",
   "status": "proved",
   "theorems": [
    "OatWS.C10_any_listener",
    "OatWS.C10_oversized_control",
    "OatWS.C10_iterateFrame"
   ],
   "note": ""
  },
  {
   "property": "C11",
   "status": "proved",
   "theorems": [
    "OatWS.C11_any_listener",
    "OatWS.C11_unknown_opcode"
   ],
   "note": ""
  },
  {
   "property": "C12",
   "status": "proved",
   "theorems": [
    "OatWS.C12_any_listener",
    "OatWS.C12_continuation_without_start",
    "OatWS.C12_start_inside_message"
   ],
   "note": ""
  },
  {
   "property": "C13",
   "status": "partial",
   "theorems": [
    "OatWS.C13_violated",
    "OatWS.C13_violated_stray_continuation",
    "OatWS.C13_partial",
    "OatWS.C13_actual_refused",
    "OatWS.C13_any_receiver_partial",
    "OatWS.C13_actual_stray"
   ],
   "note": "The full claim is false of the code: C13_violated and C13_violated_stray_continuation prove its negation (m_lastOpcode is not reset by a final continuation frame). C13_partial and C13_any_receiver_partial prove it for sequences with no data frame behind a fragmented message; C13_actual_refused shows that every other RFC-conforming sequence is refused at the first data frame behind the fragmented message, by every receiver of either API, and C13_actual_stray that a stray continuation is accepted."
  },
  {
   "property": "C14",
   "status": "partial",
   "theorems": [
    "OatWS.C14_actual_any_receiver",
    "OatWS.C14_violated",
    "OatWS.C14_actual",
    "OatWS.C14_partial"
   ],
   "note": "The full claim is false of the code: C14_violated proves its negation (continuation frames are delivered with opcode 0). C14_actual proves for every frame sequence the type each callback carries; C14_partial proves the claim for unfragmented messages. C14_actual_any_receiver says what happens instead, for every receiver of either API."
  },
  {
   "property": "C15",
   "status": "proved",
   "theorems": [
    "OatWS.C15_truncated"
   ],
   "note": ""
  },
  {
   "property": "C16",
   "status": "proved",
   "theorems": [
    "OatWS.C16_close_ends_listening",
    "OatWS.C16_nothing_after_close"
   ],
   "note": ""
  },
  {
   "property": "C17",
   "status": "proved",
   "theorems": [
    "OatWS.C17_loop_ends",
    "OatWS.C17_stop_at_frame_boundary",
    "OatWS.C17_stop_before_listen"
   ],
   "note": ""
  },
  {
   "property": "C18",
   "status": "proved",
   "theorems": [
    "OatWS.C18_C44_listen_is_the_loop",
    "OatWS.C18_never_throws"
   ],
   "note": ""
  },
  {
   "property": "C19",
   "status": "partial",
   "theorems": [
    "OatWS.C19_actual_any_receiver",
    "OatWS.C19_actual_close_any_receiver",
    "OatWS.C19_violated",
    "OatWS.C19_actual",
    "OatWS.C19_actual_control"
   ],
   "note": "The full claim is false of the code: C19_violated proves its negation; C19_actual proves for every such data frame what happens instead. C19_actual_any_receiver and C19_actual_close_any_receiver say what happens instead, for every receiver of either API."
  },
  {
   "property": "C20",
   "status": "proved",
   "theorems": [
    "OatWS.C20_no_overrun",
    "OatWS.C20_overrun_on_setConfig",
    "OatWS.Threads.C20_overrun_from_thread"
   ],
   "note": ""
  },
  {
   "property": "C21",
   "status": "proved",
   "theorems": [
    "OatWS.C21_sendOneFrame",
    "OatWS.C04_C21_any_send"
   ],
   "note": ""
  },
  {
   "property": "C22",
   "status": "partial",
   "theorems": [
    "OatWS.C22_violated",
    "OatWS.C22_partial"
   ],
   "note": "The full claim is false of the code: C22_violated proves its negation (a failed header write is not noticed). C22_partial proves the part that holds."
  },
  {
   "property": "C23",
   "status": "proved",
   "theorems": [
    "OatWS.C23_null_is_empty",
    "OatWS.C23_wrappers"
   ],
   "note": ""
  },
  {
   "property": "C24",
   "status": "proved",
   "theorems": [
    "OatWS.C24_end_to_end"
   ],
   "note": ""
  },
  {
   "property": "C25",
   "status": "proved",
   "theorems": [
    "OatWS.C25_close_round_trip",
    "OatWS.C25_short_close",
    "OatWS.C25_sendClose_empty"
   ],
   "note": ""
  },
  {
   "property": "C26",
   "status": "partial",
   "theorems": [
    "OatWS.C26_actual",
    "OatWS.C26_witness",
    "OatWS.C26_violated",
    "OatWS.C26_partial",
    "OatWS.C26_actual_any_receiver"
   ],
   "note": "The full claim is false of the code: C26_violated proves its negation; C26_actual proves for every control message above 125 payload bytes that the send succeeds and the peer refuses it; C26_partial proves delivery up to 125 bytes. C26_actual_any_receiver says what happens instead, for every receiver of either API."
  },
  {
   "property": "C27",
   "status": "proved",
   "theorems": [
    "OatWS.C27_no_ub",
    "OatWS.C27_ub_at_2_31"
   ],
   "note": ""
  },
  {
   "property": "C28",
   "status": "proved",
   "theorems": [
    "OatWS.Async.C28_async_listen",
    "OatWS.Async.C28_same_callbacks"
   ],
   "note": ""
  },
  {
   "property": "C29",
   "status": "proved",
   "theorems": [
    "OatWS.Async.C29_sendOneFrame",
    "OatWS.Async.C29_send",
    "OatWS.Async.C29_finished_frame"
   ],
   "note": ""
  },
  {
   "property": "C30",
   "status": "proved",
   "theorems": [
    "OatWS.Async.C30_finishes_only_on_close",
    "OatWS.Async.C30_error_propagates",
    "OatWS.Async.C30_uncaught_error"
   ],
   "note": ""
  },
  {
   "property": "C31",
   "status": "partial",
   "theorems": [
    "OatWS.Async.C31_actual",
    "OatWS.Async.C31_partial",
    "OatWS.Async.C31_violated"
   ],
   "note": "The full claim is false of the code: C31_violated proves its negation; C31_actual proves for every execution who gets the callbacks: data callbacks go to the new listener (C31_partial), control callbacks to the old one."
  },
  {
   "property": "C32",
   "status": "proved",
   "theorems": [
    "OatWS.Async.C32_valid_in_call",
    "OatWS.Async.C32_unmasked_in_coroutine",
    "OatWS.Async.C32_masked_dangles",
    "OatWS.Async.C32_no_leak",
    "OatWS.Async.C32_any_tasks_in_call",
    "OatWS.Async.C32_any_tasks_in_coroutine"
   ],
   "note": ""
  },
  {
   "property": "C33",
   "status": "proved",
   "theorems": [
    "OatWS.Async.C33_serialised",
    "OatWS.Async.C33_interleaved",
    "OatWS.Async.C33_any_tasks"
   ],
   "note": ""
  },
  {
   "property": "C34",
   "status": "proved",
   "theorems": [
    "OatWS.SHA1.C34_sha1",
    "OatWS.SHA1.C34_length"
   ],
   "note": ""
  },
  {
   "property": "C35",
   "status": "proved",
   "theorems": [
    "OatWS.SHA1.C35_incremental_reusable",
    "OatWS.SHA1.C35_reset",
    "OatWS.SHA1.C35_stream_consumed",
    "OatWS.SHA1.C35_fromFile"
   ],
   "note": ""
  },
  {
   "property": "C36",
   "status": "proved",
   "theorems": [
    "OatWS.Handshake.C36_only_valid",
    "OatWS.Handshake.C36_all_valid",
    "OatWS.Handshake.C36_exactly_valid",
    "OatWS.Handshake.C36_otherwise_400",
    "OatWS.Handshake.C36_connection_list"
   ],
   "note": ""
  },
  {
   "property": "C37",
   "status": "proved",
   "theorems": [
    "OatWS.Handshake.C37_server_error",
    "OatWS.Handshake.C37_ok_only",
    "OatWS.Handshake.C37_exactly",
    "OatWS.Handshake.C37_codes",
    "OatWS.Handshake.C37_list_refused"
   ],
   "note": ""
  },
  {
   "property": "C38",
   "status": "proved",
   "theorems": [
    "OatWS.Handshake.C38_agree",
    "OatWS.Handshake.C38_conflict"
   ],
   "note": ""
  },
  {
   "property": "C39",
   "status": "proved",
   "theorems": [
    "OatWS.Connector.C39_connect_iff",
    "OatWS.Connector.C39_connect_throws",
    "OatWS.Connector.C39_connect_request",
    "OatWS.Connector.C39_async_iff",
    "OatWS.Connector.C39_async_request",
    "OatWS.Connector.C39_async_fails",
    "OatWS.Connector.C39_same"
   ],
   "note": ""
  },
  {
   "property": "C40",
   "status": "proved",
   "theorems": [
    "OatWS.Server.C40_paired",
    "OatWS.Server.C40_all_destroyed",
    "OatWS.Server.C40_alive",
    "OatWS.Server.C40_handleConnection_legal"
   ],
   "note": ""
  },
  {
   "property": "C41",
   "status": "proved",
   "theorems": [
    "OatWS.AsyncServer.C41_paired",
    "OatWS.AsyncServer.C41_before_iff_after"
   ],
   "note": ""
  },
  {
   "property": "C42",
   "status": "proved",
   "theorems": [
    "OatWS.Async.C42_async_keys",
    "OatWS.C42_sends",
    "OatWS.C42_server_unmasked",
    "OatWS.C42_client_masked",
    "OatWS.C42_client_keys",
    "OatWS.Threads.C42_threads_keys"
   ],
   "note": ""
  },
  {
   "property": "C43",
   "status": "proved",
   "theorems": [
    "OatWS.C43_listen",
    "OatWS.C43_iterateFrame",
    "OatWS.C43_history",
    "OatWS.C43_history_quiet"
   ],
   "note": ""
  },
  {
   "property": "C44",
   "status": "proved",
   "theorems": [
    "OatWS.C18_C44_listen_is_the_loop",
    "OatWS.C44_frame_costs",
    "OatWS.C44_frames_bounded"
   ],
   "note": ""
  },
  {
   "property": "C45",
   "status": "proved",
   "theorems": [
    "OatWS.Async.C45_async",
    "OatWS.C45_no_listener",
    "OatWS.C45_iterateFrame"
   ],
   "note": ""
  },
  {
   "property": "C46",
   "status": "proved",
   "theorems": [
    "OatWS.Handshake.C46_key",
    "OatWS.Handshake.C46_injective",
    "OatWS.Handshake.C46_sent"
   ],
   "note": ""
  },
  {
   "property": "C47",
   "status": "proved",
   "theorems": [
    "OatWS.Async.C47_among_other_tasks",
    "OatWS.Async.C47_only_senders"
   ],
   "note": ""
  },
  {
   "property": "C48",
   "status": "partial",
   "theorems": [
    "OatWS.Connector.C48_violated",
    "OatWS.Connector.C48_actual",
    "OatWS.Connector.C48_partial"
   ],
   "note": "The full claim is false of the code: C48_violated proves its negation for connectAsync; C48_actual proves for every request that the null handle is handed to the request executor; C48_partial proves the claim for connect."
  },
  {
   "property": "C49",
   "status": "proved",
   "theorems": [
    "OatWS.C49_refused_only_for_reason",
    "OatWS.C49_refused_for_reason",
    "OatWS.C49_not_refused"
   ],
   "note": ""
  },
  {
   "property": "C50",
   "status": "proved",
   "theorems": [
    "OatWS.C50_fragmentation_rule"
   ],
   "note": ""
  },
  {
   "property": "C51",
   "status": "proved",
   "theorems": [
    "OatWS.C51_sends_do_not_disturb",
    "OatWS.C51_iterateFrame",
    "OatWS.C51_frames_answered",
    "OatWS.C51_pings_answered"
   ],
   "note": ""
  },
  {
   "property": "C52",
   "status": "proved",
   "theorems": [
    "OatWS.C52_fragments_are_one_message"
   ],
   "note": ""
  },
  {
   "property": "C53",
   "status": "proved",
   "theorems": [
    "OatWS.C53_ping_pong"
   ],
   "note": ""
  },
  {
   "property": "C54",
   "status": "proved",
   "theorems": [
    "OatWS.C54_stop_and_resume",
    "OatWS.C54_callbacks",
    "OatWS.C54_session_exists",
    "OatWS.C54_with_sends"
   ],
   "note": ""
  },
  {
   "property": "C55",
   "status": "proved",
   "theorems": [
    "OatWS.C55_frame",
    "OatWS.C55_listen"
   ],
   "note": ""
  },
  {
   "property": "C56",
   "status": "proved",
   "theorems": [
    "OatWS.Async.C56_every_send",
    "OatWS.Async.C56_finished",
    "OatWS.Async.C56_recorded"
   ],
   "note": ""
  },
  {
   "property": "C57",
   "status": "proved",
   "theorems": [
    "OatWS.Async.C57_heard"
   ],
   "note": ""
  },
  {
   "property": "C58",
   "status": "proved",
   "theorems": [
    "OatWS.Threads.C58_every_send",
    "OatWS.Threads.C58_finished",
    "OatWS.Threads.C58_recorded",
    "OatWS.Threads.C58_serialised",
    "OatWS.Threads.C58_heard"
   ],
   "note": ""
  },
  {
   "property": "C59",
   "status": "proved",
   "theorems": [
    "OatWS.Threads.C59_reception",
    "OatWS.Threads.C59_frames_heard"
   ],
   "note": ""
  },
  {
   "property": "C60",
   "status": "proved",
   "theorems": [
    "OatWS.Threads.C60_stopped",
    "OatWS.Threads.C60_early_stop_is_lost"
   ],
   "note": ""
  },
  {
   "property": "C61",
   "status": "proved",
   "theorems": [
    "OatWS.Threads.C61_no_deadlock",
    "OatWS.Threads.C61_finite",
    "OatWS.Threads.C61_finish"
   ],
   "note": ""
  },
  {
   "property": "C62",
   "status": "proved",
   "theorems": [
    "OatWS.Threads.C62_receiving",
    "OatWS.Threads.C62_listener",
    "OatWS.Threads.C62_config",
    "OatWS.Threads.C62_listening",
    "OatWS.Threads.C62_output",
    "OatWS.Threads.C62_no_race",
    "OatWS.Threads.C62_stop_races",
    "OatWS.Threads.C62_failed_send_races",
    "OatWS.Threads.C62_setListener_races",
    "OatWS.Threads.C62_setConfig_races",
    "OatWS.Threads.C62_callback_setConfig_races",
    "OatWS.Threads.C62_sends_race"
   ],
   "note": ""
  },
  {
   "property": "C63",
   "status": "proved",
   "theorems": [
    "OatWS.Threads.C63_in_order",
    "OatWS.Threads.C63_both"
   ],
   "note": ""
  },
  {
   "property": "C64",
   "status": "proved",
   "theorems": [
    "OatWS.Server.C64_blocking",
    "OatWS.Server.C64_kept",
    "OatWS.AsyncServer.C64_asynchronous",
    "OatWS.AsyncServer.C64_kept_async"
   ],
   "note": ""
  },
  {
   "property": "C65",
   "status": "proved",
   "theorems": [
    "OatWS.Server.C65_cpus",
    "OatWS.Server.C65_unknown"
   ],
   "note": ""
  },
  {
   "property": "C66",
   "status": "proved",
   "theorems": [
    "OatWS.Network.C66_in_order",
    "OatWS.Network.C66_both"
   ],
   "note": ""
  },
  {
   "property": "C67",
   "status": "proved",
   "theorems": [
    "OatWS.Async.C67_no_deadlock",
    "OatWS.Async.C67_finite",
    "OatWS.Async.C67_finish"
   ],
   "note": ""
  },
  {
   "property": "C68",
   "status": "proved",
   "theorems": [
    "OatWS.Network.C68_all_heard",
    "OatWS.Network.C68_both",
    "OatWS.Network.C68_finite",
    "OatWS.Network.C68_comes_to_rest"
   ],
   "note": ""
  },
  {
   "property": "C69",
   "status": "proved",
   "theorems": [
    "OatWS.Network.C69_in_order",
    "OatWS.Network.C69_all_heard",
    "OatWS.Network.C69_client_hears",
    "OatWS.Network.C69_says",
    "OatWS.Network.C69_async",
    "OatWS.Network.C69_one_sender"
   ],
   "note": ""
  },
  {
   "property": "C70",
   "status": "proved",
   "theorems": [
    "OatWS.Network.C70_any_moment",
    "OatWS.Network.C70_session"
   ],
   "note": ""
  },
  {
   "property": "C71",
   "status": "proved",
   "theorems": [
    "OatWS.Network.C71_told",
    "OatWS.Network.C71_any_moment",
    "OatWS.Network.C71_session",
    "OatWS.Network.C71_all_heard",
    "OatWS.Network.C71_session_all_heard"
   ],
   "note": ""
  },
  {
   "property": "C72",
   "status": "proved",
   "theorems": [
    "OatWS.Network.C72_threads",
    "OatWS.Network.C72_tasks",
    "OatWS.Network.C72_connected",
    "OatWS.Network.C72_session",
    "OatWS.Network.C72_all_heard",
    "OatWS.Network.C72_overrun"
   ],
   "note": ""
  },
  {
   "property": "C73",
   "status": "proved",
   "theorems": [
    "OatWS.C73_header",
    "OatWS.C73_frame",
    "OatWS.C73_as_sendOneFrame",
    "OatWS.Async.C73_async_header",
    "OatWS.Threads.C73_alone",
    "OatWS.Threads.C73_call_alone"
   ],
   "note": ""
  },
  {
   "property": "C74",
   "status": "proved",
   "theorems": [
    "OatWS.C74_tasks",
    "OatWS.C74_callback",
    "OatWS.C74_tasks_kept",
    "OatWS.C74_tasks_fixed",
    "OatWS.C74_threads_kept",
    "OatWS.C74_threads_fixed",
    "OatWS.C74_replaced",
    "OatWS.C74_replaced_by_thread"
   ],
   "note": ""
  },
  {
   "property": "C75",
   "status": "proved",
   "theorems": [
    "OatWS.Async.C75_reads",
    "OatWS.Async.C75_writes",
    "OatWS.Async.C75_receiving",
    "OatWS.Async.C75_listener",
    "OatWS.Async.C75_config",
    "OatWS.Async.C75_listening",
    "OatWS.Async.C75_output",
    "OatWS.Async.C75_no_race",
    "OatWS.Async.C75_setListener_races",
    "OatWS.Async.C75_setConfig_races",
    "OatWS.Async.C75_callback_setConfig_races",
    "OatWS.Async.C75_sends_race",
    "OatWS.Async.C75_two_listen_race"
   ],
   "note": ""
  },
  {
   "property": "C76",
   "status": "proved",
   "theorems": [
    "OatWS.Async.C76_tasks",
    "OatWS.Async.C76_callbacks",
    "OatWS.Async.C76_buffers",
    "OatWS.Async.C76_total",
    "OatWS.Async.C76_released"
   ],
   "note": ""
  },
  {
   "property": "C77",
   "status": "proved",
   "theorems": [
    "OatWS.C77_determined_by_the_bytes",
    "OatWS.C77_same_messages",
    "OatWS.C77_same_outcome"
   ],
   "note": ""
  },
  {
   "property": "C78",
   "status": "proved",
   "theorems": [
    "OatWS.Network.C78_masks",
    "OatWS.Network.C78_created",
    "OatWS.Network.C78_wire",
    "OatWS.Network.C78_client_and_server",
    "OatWS.Network.C78_client_and_async_server"
   ],
   "note": ""
  },
  {
   "property": "C79",
   "status": "proved",
   "theorems": [
    "OatWS.Process.C79_alone",
    "OatWS.Process.C79_masks",
    "OatWS.Process.C79_defined",
    "OatWS.Process.C79_peer_hears",
    "OatWS.Process.C79_process_hears"
   ],
   "note": ""
  },
  {
   "property": "C80",
   "status": "proved",
   "theorems": [
    "OatWS.AsyncProcess.C80_alone",
    "OatWS.AsyncProcess.C80_masks",
    "OatWS.AsyncProcess.C80_defined",
    "OatWS.AsyncProcess.C80_peer_hears",
    "OatWS.AsyncProcess.C80_process_hears"
   ],
   "note": ""
  },
  {
   "property": "C81",
   "status": "proved",
   "theorems": [
    "OatWS.Process.C81_threads",
    "OatWS.AsyncProcess.C81_tasks"
   ],
   "note": ""
  },
  {
   "property": "C82",
   "status": "proved",
   "theorems": [
    "OatWS.Network.C82_answers",
    "OatWS.Network.C82_session_answers",
    "OatWS.Network.C82_replies",
    "OatWS.Network.C82_service",
    "OatWS.Network.C82_service_complete",
    "OatWS.Network.C82_echo",
    "OatWS.Network.C82_echo_complete",
    "OatWS.Network.C82_serves",
    "OatWS.Network.C82_echo_calm"
   ],
   "note": ""
  },
  {
   "property": "C83",
   "status": "proved",
   "theorems": [
    "OatWS.Process.C83_at_rest",
    "OatWS.Process.C83_peer_heard_all",
    "OatWS.Process.C83_process_heard_all",
    "OatWS.AsyncProcess.C83_tasks_at_rest",
    "OatWS.AsyncProcess.C83_tasks_peer_heard_all",
    "OatWS.AsyncProcess.C83_tasks_process_heard_all"
   ],
   "note": ""
  },
  {
   "property": "C84",
   "status": "proved",
   "theorems": [
    "OatWS.Async.C84_async_only_for_reason",
    "OatWS.Async.C84_async_refused",
    "OatWS.C84_any_receiver",
    "OatWS.C84_async_error",
    "OatWS.C84_fragmentation_rule"
   ],
   "note": ""
  },
  {
   "property": "C85",
   "status": "proved",
   "theorems": [
    "OatWS.Process.C85_finite",
    "OatWS.Process.C85_comes_to_rest",
    "OatWS.Process.C85_ends_at_rest",
    "OatWS.Process.C85_rest_waits",
    "OatWS.AsyncProcess.C85_tasks_finite",
    "OatWS.AsyncProcess.C85_tasks_comes_to_rest",
    "OatWS.AsyncProcess.C85_tasks_ends_at_rest"
   ],
   "note": ""
  },
  {
   "property": "C86",
   "status": "proved",
   "theorems": [
    "OatWS.AsyncProcess.C86_tasks_passes_on",
    "OatWS.AsyncProcess.C86_tasks_relay",
    "OatWS.AsyncProcess.C86_tasks_all_passed_on",
    "OatWS.AsyncProcess.C86_tasks_relay_complete",
    "OatWS.AsyncProcess.C86_tasks_room",
    "OatWS.Process.C86_passes_on",
    "OatWS.Process.C86_relay",
    "OatWS.Process.C86_all_passed_on",
    "OatWS.Process.C86_relay_complete",
    "OatWS.Process.C86_room"
   ],
   "note": ""
  },
  {
   "property": "C87",
   "status": "proved",
   "theorems": [
    "OatWS.Client.C87_connect",
    "OatWS.Client.C87_connectAsync",
    "OatWS.Client.C87_connects",
    "OatWS.Client.C87_heard",
    "OatWS.Client.C87_heard_async",
    "OatWS.Client.C87_content_as_frames",
    "OatWS.Client.C87_endpoint",
    "OatWS.Client.C87_endpoint_async"
   ],
   "note": ""
  },
  {
   "property": "C88",
   "status": "proved",
   "theorems": [
    "OatWS.C88_after_close",
    "OatWS.C88_after_refusal",
    "OatWS.C88_nothing_left",
    "OatWS.C88_after_end",
    "OatWS.C88_listen_repeatedly",
    "OatWS.C88_payload_heard_as_frames",
    "OatWS.C88_after_exception",
    "OatWS.C88_async_repeatedly"
   ],
   "note": ""
  },
  {
   "property": "C89",
   "status": "proved",
   "theorems": [
    "OatWS.C89_any_receiver",
    "OatWS.C89_any_receiver_close",
    "OatWS.C89_listen",
    "OatWS.C89_style_does_not_matter"
   ],
   "note": ""
  },
  {
   "property": "C90",
   "status": "proved",
   "theorems": [
    "OatWS.Streams.C90_same_record",
    "OatWS.Streams.C90_same_state",
    "OatWS.Streams.C90_recorded",
    "OatWS.Streams.C90_every_frame",
    "OatWS.Streams.C90_connected",
    "OatWS.Streams.C90_any_moment",
    "OatWS.Streams.C90_goes_on",
    "OatWS.Streams.C90_all_heard",
    "OatWS.Streams.C90_defined",
    "OatWS.Streams.C90_finite",
    "OatWS.Streams.C90_no_deadlock",
    "OatWS.Streams.C90_finish"
   ],
   "note": ""
  },
  {
   "property": "C91",
   "status": "proved",
   "theorems": [
    "OatWS.C91_header",
    "OatWS.C91_one_frame",
    "OatWS.C91_polling",
    "OatWS.C91_refused",
    "OatWS.C91_end",
    "OatWS.C91_flag",
    "OatWS.C91_then_listen",
    "OatWS.C91_into",
    "OatWS.C91_object",
    "OatWS.C91_refused_object",
    "OatWS.Threads.C91_among_threads"
   ],
   "note": ""
  },
  {
   "property": "C92",
   "status": "proved",
   "theorems": [
    "OatWS.Together.C92_any_moment",
    "OatWS.Together.C92_all_heard",
    "OatWS.Together.C92_end_to_end",
    "OatWS.Together.C92_comes_to_rest"
   ],
   "note": ""
  },
  {
   "property": "C93",
   "status": "proved",
   "theorems": [
    "OatWS.TestApp.C93_counter",
    "OatWS.TestApp.C93_serves",
    "OatWS.TestApp.C93_any_moment",
    "OatWS.TestApp.C93_complete",
    "OatWS.TestApp.C93_nothing_fails",
    "OatWS.TestApp.C93_passes",
    "OatWS.TestApp.C93_test"
   ],
   "note": ""
  },
  {
   "property": "C94",
   "status": "proved",
   "theorems": [
    "OatWS.Together.C94_sends",
    "OatWS.Together.C94_any_moment",
    "OatWS.Together.C94_all_heard",
    "OatWS.Together.C94_catching"
   ],
   "note": ""
  },
  {
   "property": "C95",
   "status": "proved",
   "theorems": [
    "OatWS.Together.C95_any_moment",
    "OatWS.Together.C95_all_answered",
    "OatWS.Together.C95_echo",
    "OatWS.Together.C95_test_listener",
    "OatWS.Together.C95_test_server"
   ],
   "note": ""
  },
  {
   "property": "C96",
   "status": "proved",
   "theorems": [
    "OatWS.Reentrant.C96_plain",
    "OatWS.Reentrant.C96_bound",
    "OatWS.Reentrant.C96_iterateFrame",
    "OatWS.Reentrant.C96_listen",
    "OatWS.Reentrant.C96_heard",
    "OatWS.Reentrant.C96_close",
    "OatWS.Reentrant.C96_close_inside",
    "OatWS.Reentrant.C96_mid_frame",
    "OatWS.Reentrant.C96_waits",
    "OatWS.Reentrant.C96_defined",
    "OatWS.Reentrant.C96_ends",
    "OatWS.Reentrant.C96_progress"
   ],
   "note": ""
  },
  {
   "property": "C97",
   "status": "proved",
   "theorems": [
    "OatWS.Gateway.C97_alone",
    "OatWS.Gateway.C97_heard",
    "OatWS.Gateway.C97_bound",
    "OatWS.Gateway.C97_told",
    "OatWS.Gateway.C97_peer",
    "OatWS.Gateway.C97_waits",
    "OatWS.Gateway.C97_waits_any",
    "OatWS.Gateway.C97_defined",
    "OatWS.Gateway.C97_ends",
    "OatWS.Gateway.C97_ends_any",
    "OatWS.Gateway.C97_progress",
    "OatWS.Gateway.C97_written",
    "OatWS.Gateway.C97_one_send"
   ],
   "note": ""
  }
 ]
}