{
 "claims": [
  {
   "property": "C01",
   "status": "proved",
   "theorems": [
    "Verif.Iam.C01_access_decision",
    "Verif.Iam.C01_role_decision"
   ],
   "note": "assumes nn_string_map_insert overwrites (Overwrites)"
  },
  {
   "property": "C02",
   "status": "proved",
   "theorems": [
    "Verif.Iam.C02_stricter_never_grants",
    "Verif.Iam.C02_policy_order_irrelevant",
    "Verif.Iam.C02_statement_order_irrelevant"
   ],
   "note": ""
  },
  {
   "property": "C03",
   "status": "proved",
   "theorems": [
    "Verif.Iam.C03_statement_contribution",
    "Verif.Iam.C03_not_applicable_contributes_nothing",
    "Verif.Iam.C03_broken_denies"
   ],
   "note": ""
  },
  {
   "property": "C04",
   "status": "proved",
   "theorems": [
    "Verif.Iam.C04_condition_semantics",
    "Verif.Iam.C04_meaningful_values",
    "Verif.Iam.C04_absent_attribute",
    "Verif.Iam.C04_absent_variable",
    "Verif.Iam.C04_not_a_number",
    "Verif.Iam.C04_order_matters_with_errors"
   ],
   "note": ""
  },
  {
   "property": "C05",
   "status": "partial",
   "theorems": [
    "Verif.Iam.C05_violated",
    "Verif.Iam.C05_two_values_always_match",
    "Verif.Iam.C05_partial"
   ],
   "note": "the pinned code violates the property; negation proved, one-value case proved"
  },
  {
   "property": "C06",
   "status": "proved",
   "theorems": [
    "Verif.Iam.C06_connection_gone",
    "Verif.Iam.C06_no_role_or_policy"
   ],
   "note": ""
  },
  {
   "property": "C07",
   "status": "partial",
   "theorems": [
    "Verif.Iam.C07_reserved_attributes_partial",
    "Verif.Iam.C07_username_violated",
    "Verif.Iam.C07_needs_overwriting_map"
   ],
   "note": "Connection:IsLocal cannot be forged; Connection:Username can be supplied on an unpaired connection (negation proved)"
  },
  {
   "property": "C08",
   "status": "proved",
   "theorems": [
    "Verif.Iam.C08_identity",
    "Verif.Iam.C08_identity_undefined"
   ],
   "note": ""
  },
  {
   "property": "C09",
   "status": "partial",
   "theorems": [
    "Verif.Core.Spake2.C09_authenticated_username_violated",
    "Verif.Core.Spake2.C09_accepted_confirmation_partial",
    "Verif.Core.Spake2.C09_one_username_partial"
   ],
   "note": "Violated: authenticated is never cleared and a later first message replaces the username. The partial theorems need one username per connection, or look only at the moment of confirmation."
  },
  {
   "property": "C10",
   "status": "proved",
   "theorems": [
    "Verif.Core.Spake2.C10_wrong_guesses_limited",
    "Verif.Core.Spake2.C10_tokens_in_range",
    "Verif.Core.Spake2.C10_no_tokens_no_service",
    "Verif.Core.Spake2.C10_tokens_come_back",
    "Verif.Core.Spake2.C10_right_password_accepted"
   ],
   "note": ""
  },
  {
   "property": "C11",
   "status": "proved",
   "theorems": [
    "Verif.Iam.C11_usernames_valid_and_unique"
   ],
   "note": "states loaded by the application must have valid, distinct usernames themselves"
  },
  {
   "property": "C12",
   "status": "partial",
   "theorems": [
    "Verif.Iam.C12_max_users_violated",
    "Verif.Iam.C12_max_users_partial",
    "Verif.Iam.C12_max_users_history_partial"
   ],
   "note": "open pairing ignores the limit (negation proved)"
  },
  {
   "property": "C13",
   "status": "partial",
   "theorems": [
    "Verif.Iam.C13_reload_fingerprint_violated",
    "Verif.Iam.C13_reload_pairing_violated",
    "Verif.Iam.C13_reload_partial"
   ],
   "note": "negations proved; holds for histories that avoid the offending operations"
  },
  {
   "property": "C14",
   "status": "partial",
   "theorems": [
    "Verif.Iam.C14_unique_keys_api_violated",
    "Verif.Iam.C14_unique_keys_pairing_violated",
    "Verif.Iam.C14_unique_keys_partial"
   ],
   "note": "negations proved; holds without the fingerprint API functions and local initial pairing"
  },
  {
   "property": "C15",
   "status": "proved",
   "theorems": [
    "Verif.Iam.C15_state_round_trip",
    "Verif.Iam.stateLoads_unique"
   ],
   "note": "Down to the bytes of the text: print, parse, load. Hypotheses: valid user names and duplicate-free sets (what nm_iam_user_new and nn_string_set guarantee), C strings, no failing allocation (C69)."
  },
  {
   "property": "C16",
   "status": "proved",
   "theorems": [
    "Verif.Iam.C16_config_round_trip",
    "Verif.Iam.C16_same_decisions",
    "Verif.Iam.configLoads_unique"
   ],
   "note": "Down to the bytes of the text. Hypotheses: effects are Allow or Deny, duplicate-free sets, C strings, no failing allocation (C69)."
  },
  {
   "property": "C17",
   "status": "partial",
   "theorems": [
    "Verif.Iam.C17_violated",
    "Verif.Iam.C17_second_operator_violated",
    "Verif.Iam.C17_second_attribute_violated",
    "Verif.Iam.C17_not_a_list_violated",
    "Verif.Iam.C17_second_list_violated",
    "Verif.Iam.C17_role_entry_violated",
    "Verif.Iam.C17_canonical_enforced_partial",
    "Verif.Iam.C17_nothing_invented_partial",
    "Verif.Iam.C17_nothing_dropped_partial",
    "Verif.Iam.C17_dump_canonical"
   ],
   "note": "Violated: further operators and attributes in a condition, Conditions which is not a list, a second Conditions member and non-string policy references are silently ignored. Partial: documents in the canonical form are enforced exactly; nothing is invented in any document; no statement, policy or role is dropped."
  },
  {
   "property": "C18",
   "status": "partial",
   "theorems": [
    "Verif.Iam.C18_deleted_user_violated",
    "Verif.Iam.C18_deleted_user_gone",
    "Verif.Iam.C18_delete_removes",
    "Verif.Iam.C18_no_dangling_partial"
   ],
   "note": "use after free proved reachable; a deleted object never acts again; no dangling when deletions respect authorisations"
  },
  {
   "property": "C19",
   "status": "partial",
   "theorems": [
    "Verif.Iam.C19_authorization_ends_violated",
    "Verif.Iam.C19_authorization_ends_partial"
   ],
   "note": "fails when a connection is authorised twice"
  },
  {
   "property": "C20",
   "status": "proved",
   "theorems": [
    "Verif.Iam.C20_pairing_only_when_allowed"
   ],
   "note": ""
  },
  {
   "property": "C21",
   "status": "partial",
   "theorems": [
    "Verif.Iam.C21_invite_once_violated",
    "Verif.Iam.C21_invite_clears_password",
    "Verif.Iam.C21_invite_once_partial"
   ],
   "note": "clients that proved the password before it was cleared can still pair"
  },
  {
   "property": "C22",
   "status": "partial",
   "theorems": [
    "Verif.Iam.C22_change_needs_permission",
    "Verif.Iam.C22_denied_is_refused",
    "Verif.Iam.C22_error_changes_nothing_violated",
    "Verif.Iam.C22_error_changes_nothing_partial"
   ],
   "note": "permission part proved in full; atomicity fails when the response of create user cannot be built"
  },
  {
   "property": "C23",
   "status": "partial",
   "theorems": [
    "Verif.Iam.C23_reported_api_violated",
    "Verif.Iam.C23_reported_partial"
   ],
   "note": "user API functions do not report"
  },
  {
   "property": "C24",
   "status": "proved",
   "theorems": [
    "Verif.Iam.Listing.Props.C24_get_user",
    "Verif.Iam.Listing.Props.C24_get_me",
    "Verif.Iam.Listing.Props.C24_no_passwords",
    "Verif.Iam.Listing.Props.C24_complete",
    "Verif.Iam.Listing.Props.C24_readable"
   ],
   "note": "No reading resource depends on the passwords of users. (GET /iam/settings shows the open pairing password to callers with IAM:GetSettings, by design.)"
  },
  {
   "property": "C25",
   "status": "partial",
   "theorems": [
    "Verif.Iam.Listing.Props.C25_list_users_violated",
    "Verif.Iam.Listing.Props.C25_list_roles_violated",
    "Verif.Iam.Listing.Props.C25_lists_partial"
   ],
   "note": "Violated for every state: list_users and list_roles treat the OutOfMemory result of the measuring pass as an error."
  },
  {
   "property": "C26",
   "status": "partial",
   "theorems": [
    "Verif.Api.Future.C26_result_once_partial",
    "Verif.Api.Future.C26_delivery_partial",
    "Verif.Api.Future.C26_reuse_after_poll_violated"
   ],
   "note": "Result of a future is set once per use and its callback is invoked once. Missing: an application which reuses a future it has seen complete by polling; then the node is queued twice (negation proved)."
  },
  {
   "property": "C27",
   "status": "partial",
   "theorems": [
    "Verif.Api.Future.C27_timed_wait",
    "Verif.Api.Future.C27_wait_partial",
    "Verif.Api.Future.C27_waiter_woken_partial",
    "Verif.Api.Future.C27_spurious_wakeup_violated",
    "Verif.Api.Future.C27_wait_with_callback_violated",
    "Verif.Api.Future.C27_two_waiters_violated"
   ],
   "note": "Timed wait proved. Untimed wait returns only after completion when the condition variable has no spurious wake ups, there is one waiter and no callback; the three negations are proved."
  },
  {
   "property": "C28",
   "status": "proved",
   "theorems": [
    "Verif.Api.Listener.C28_exactly_once",
    "Verif.Api.Listener.C28_in_order",
    "Verif.Api.Listener.C28_fifo",
    "Verif.Api.Listener.C28_released_with_error",
    "Verif.Api.Listener.C28_no_delay",
    "Verif.Api.Listener.C28_futures_once"
   ],
   "note": "For every history of listener operations."
  },
  {
   "property": "C29",
   "status": "proved",
   "theorems": [
    "Verif.Api.Listener.C29_stopped"
   ],
   "note": "For every history of listener operations."
  },
  {
   "property": "C30",
   "status": "partial",
   "theorems": [
    "Verif.Api.Auth.C30_verdict_once_partial",
    "Verif.Api.Auth.C30_not_lost_partial",
    "Verif.Api.Auth.C30_stopped_listener_partial",
    "Verif.Api.Auth.C30_memory_partial",
    "Verif.Api.Auth.C30_freed_listener_violated"
   ],
   "note": "Missing: executions with an authorization check after the authorization listener has been freed, which use freed memory (negation proved)."
  },
  {
   "property": "C31",
   "status": "partial",
   "theorems": [
    "Verif.Api.Lock.C31_lock_released_partial",
    "Verif.Api.Lock.C31_stream_init_listener_violated",
    "Verif.Api.Lock.C31_virtual_stream_read_all_violated"
   ],
   "note": "Proved for all 159 other public functions that take locks; three functions return with the device's lock held (negations proved)."
  },
  {
   "property": "C32",
   "status": "proved",
   "theorems": [
    "Verif.Event.C32_conforms",
    "Verif.Event.C32_no_starvation",
    "Verif.Event.C32_once_per_post",
    "Verif.Event.C32_queued_once"
   ],
   "note": "Timers shorter than 2^30 ms and events overdue by less than that. Timers with equal times run in reverse order of posting (part of the specification)."
  },
  {
   "property": "C33",
   "status": "partial",
   "theorems": [
    "Verif.Event.C33_cancel_partial",
    "Verif.Event.C33_cancel_violated",
    "Verif.Event.C33_destroy_violated"
   ],
   "note": "Holds when the event is cancelled by a callback on the event thread or before the event thread took it. An application thread that cancels or destroys an event after the event thread took it, while holding the core lock, does not stop the callback (negations proved)."
  },
  {
   "property": "C34",
   "status": "proved",
   "theorems": [
    "Verif.Util.Hex.C34_accepts_exactly_hex",
    "Verif.Util.Hex.C34_decodes_the_value",
    "Verif.Util.Hex.C34_round_trip",
    "Verif.Util.Hex.C34_encoding_injective"
   ],
   "note": "Lengths below the range of size_t."
  },
  {
   "property": "C35",
   "status": "proved",
   "theorems": [
    "Verif.Util.Timestamp.C35_difference",
    "Verif.Util.Timestamp.C35_compare",
    "Verif.Util.Timestamp.C35_deadline",
    "Verif.Util.Timestamp.C35_bound_sharp"
   ],
   "note": ""
  },
  {
   "property": "C36",
   "status": "proved",
   "theorems": [
    "Verif.Core.Packet.C36_read",
    "Verif.Core.Packet.C36_write_encodes",
    "Verif.Core.Packet.C36_round_trip",
    "Verif.Core.Packet.C36_empty_packet_over_read",
    "Verif.Core.Packet.C36_large_value_lost"
   ],
   "note": "The last two theorems show that both restrictions are needed."
  },
  {
   "property": "C37",
   "status": "partial",
   "theorems": [
    "Verif.Core.KeepAlive.C37_live_peer_partial",
    "Verif.Core.KeepAlive.C37_counter_wrap_violated",
    "Verif.Core.KeepAlive.C37_dead_peer_partial",
    "Verif.Core.KeepAlive.C37_dead_from_start_partial",
    "Verif.Core.KeepAlive.C37_requests_sent",
    "Verif.Core.KeepAlive.C37_one_send_at_a_time",
    "Verif.Core.KeepAlive.C37_settings_overflow_violated",
    "Verif.Core.KeepAlive.C37_zero_interval_violated",
    "Verif.Core.KeepAlive.C37_reset_keeps_interval_violated",
    "Verif.Core.KeepAlive.C37_request_answered"
   ],
   "note": "Violated when a packet counter wraps at 2^32, for settings whose sum overflows, and after a reset."
  },
  {
   "property": "C38",
   "status": "partial",
   "theorems": [
    "Verif.Core.Attacher.Props.C38_pending_partial",
    "Verif.Core.Attacher.Props.C38_attached_partial",
    "Verif.Core.Attacher.Props.C38_progress_partial",
    "Verif.Core.Attacher.Props.C38_violated_create",
    "Verif.Core.Attacher.Props.C38_violated_restart"
   ],
   "note": "Violated when a DTLS connection cannot be created (the deferred event only reposts itself) and when a restart without memory overlaps a close. For the executions without these (Spec.Regular): something is always pending, and eight completions of pending operations always lead to a new attempt."
  },
  {
   "property": "C39",
   "status": "partial",
   "theorems": [
    "Verif.Core.Attacher.Props.C39_at_most_once",
    "Verif.Core.Attacher.Props.C39_close_pending_partial",
    "Verif.Core.Attacher.Props.C39_close_completes_partial",
    "Verif.Core.Attacher.Props.C39_quiet_partial",
    "Verif.Core.Attacher.Props.C39_alternate_partial",
    "Verif.Core.Attacher.Props.C39_violated_detached_twice",
    "Verif.Core.Attacher.Props.C39_violated_lost",
    "Verif.Core.Attacher.Props.C39_violated_restart",
    "Verif.Core.Attacher.Props.C39_violated_early"
   ],
   "note": "At most once holds in every execution; exactly once, silence afterwards and alternation hold in regular executions without overlapping calls. Violated by overlapping close, disable and enable calls and by two detached events on disable."
  },
  {
   "property": "C40",
   "status": "proved",
   "theorems": [
    "Verif.Core.Attacher.Props.C40_synchronized"
   ],
   "note": "All executions, no regularity assumed."
  },
  {
   "property": "C41",
   "status": "proved",
   "theorems": [
    "Verif.Core.Dispatch.C41_dispatch",
    "Verif.Core.Dispatch.C41_one_protocol",
    "Verif.Core.Dispatch.C41_keeps_receiving",
    "Verif.Core.Dispatch.C41_delivered_in_order"
   ],
   "note": ""
  },
  {
   "property": "C42",
   "status": "partial",
   "theorems": [
    "Verif.Stream.Manager.C42_ports_unique",
    "Verif.Stream.Manager.C42_listen",
    "Verif.Stream.Manager.C42_ephemeral",
    "Verif.Stream.Manager.C42_created",
    "Verif.Stream.Manager.C42_syn_creates",
    "Verif.Stream.Manager.C42_unique",
    "Verif.Stream.Manager.C42_limit",
    "Verif.Stream.Manager.C42_routing",
    "Verif.Stream.Manager.C42_unknown",
    "Verif.Stream.Manager.C42_rst_violated",
    "Verif.Stream.Manager.C42_rst_free_partial",
    "Verif.Stream.Manager.C42_delivered_port",
    "Verif.Stream.Manager.C42_delivered_once",
    "Verif.Stream.Manager.C42_virtual_delivered",
    "Verif.Stream.Manager.C42_conn_closed"
   ],
   "note": "Ports, creation, limit, routing and delivery are proved for every history without undefined behaviour (C81). The RST answer holds while the RST buffer is free (C42_unknown); the unchanged code loses the buffer for ever when a closing connection refuses a RST packet (C42_rst_violated)."
  },
  {
   "property": "C43",
   "status": "partial",
   "theorems": [
    "Verif.Core.Packet.C43_bounds_violated",
    "Verif.Core.Packet.C43_bounds_partial",
    "Verif.Core.Packet.C43_long_packets_partial"
   ],
   "note": "Violated: exactly the packets of 5 bytes with a 4 byte id and of 9 bytes with an 8 byte id are read one byte beyond their end."
  },
  {
   "property": "C44",
   "status": "partial",
   "theorems": [
    "Verif.Core.Conn.C44_delivered",
    "Verif.Core.Conn.C44_created",
    "Verif.Core.Conn.C44_opens",
    "Verif.Core.Conn.C44_limit",
    "Verif.Core.Conn.C44_refused",
    "Verif.Core.Conn.C44_refs_partial",
    "Verif.Core.Conn.C44_refs_violated"
   ],
   "note": "Proved for histories of less than 2^64-1 events. The references are handed out again after 2^64 connections (C44_refs_violated)."
  },
  {
   "property": "C45",
   "status": "partial",
   "theorems": [
    "Verif.Stream.C45_once",
    "Verif.Stream.C45_ended",
    "Verif.Stream.C45_exclusive",
    "Verif.Stream.C45_after_end",
    "Verif.Stream.C45_settled",
    "Verif.Stream.C45_read_served",
    "Verif.Stream.C45_empty_write_violated",
    "Verif.Stream.C45_empty_read_violated",
    "Verif.Stream.Api.C45_api_once_partial",
    "Verif.Stream.Api.C45_api_abort_partial",
    "Verif.Stream.Api.C45_api_exclusive_partial",
    "Verif.Stream.Api.C45_api_codes_partial",
    "Verif.Stream.Api.C45_api_free_partial",
    "Verif.Stream.Api.C45_api_close_twice_violated",
    "Verif.Stream.Api.C45_api_close_early_violated",
    "Verif.Stream.Api.C45_api_memory_violated",
    "Verif.Stream.Api.C45_api_free_early_violated",
    "Verif.Stream.Api.C45_api_accept_again_violated"
   ],
   "note": "Streams of clients. In the core each operation is completed at most once, exactly once when the stream ends, and refused while another of its kind waits; violated for empty reads and writes, which no event of the stream module completes. With the futures of the API it holds for applications which free a stream only when all futures are resolved, close it only once at a time and do not run out of memory; the negations are proved. Virtual streams are C46."
  },
  {
   "property": "C46",
   "status": "partial",
   "theorems": [
    "Verif.Stream.Virtual.C46_in_order",
    "Verif.Stream.Virtual.C46_read",
    "Verif.Stream.Virtual.C46_once",
    "Verif.Stream.Virtual.C46_no_stall",
    "Verif.Stream.Virtual.C46_exclusive",
    "Verif.Stream.Virtual.C46_close",
    "Verif.Stream.Virtual.C46_eof_server_partial",
    "Verif.Stream.Virtual.C46_eof_client_partial",
    "Verif.Stream.Virtual.C46_abort_server",
    "Verif.Stream.Virtual.C46_abort_client_partial",
    "Verif.Stream.Virtual.C46_eof_server_violated",
    "Verif.Stream.Virtual.C46_eof_client_violated",
    "Verif.Stream.Virtual.C46_close_violated",
    "Verif.Stream.Virtual.C46_eof_abort_violated",
    "Verif.Stream.Virtual.C46_read_after_abort_violated",
    "Verif.Stream.Virtual.C46_abort_not_seen_violated",
    "Verif.Stream.Virtual.C46_open_violated",
    "Verif.Stream.Virtual.C46_close_abort_violated",
    "Verif.Stream.Virtual.C46_empty_violated"
   ],
   "note": "Order, sizes, completion at most once, progress and the meaning of a successful close are proved for every history. End of data is violated when a close waits for a write; operations of the client are not completed when the device's application aborts, and reads after an abort are never completed."
  },
  {
   "property": "C47",
   "status": "proved",
   "theorems": [
    "Verif.Tunnel.Conn.C47_to_tcp_prefix",
    "Verif.Tunnel.Conn.C47_to_stream_prefix",
    "Verif.Tunnel.Conn.C47_complete",
    "Verif.Tunnel.Conn.C47_safe",
    "Verif.Tunnel.Conn.C47_release",
    "Verif.Tunnel.Conn.C47_release_last",
    "Verif.Tunnel.Conn.C47_not_stuck"
   ],
   "note": "for every schedule of completions, errors and aborts, with both behaviours of the socket implementations"
  },
  {
   "property": "C48",
   "status": "partial",
   "theorems": [
    "Verif.Tunnel.Manager.C48_opened",
    "Verif.Tunnel.Manager.C48_limit",
    "Verif.Tunnel.Manager.C48_stream_fate",
    "Verif.Tunnel.Manager.C48_conns_exact",
    "Verif.Tunnel.Manager.C48_limit_oom_violated"
   ],
   "note": "access and limits are proved; a failing call which sets a limit removes the limit in force (C48_limit_oom_violated)"
  },
  {
   "property": "C49",
   "status": "partial",
   "theorems": [
    "Verif.Core.Rendezvous.C49_only_asked_partial",
    "Verif.Core.Rendezvous.C49_all_asked",
    "Verif.Core.Rendezvous.C49_bounded",
    "Verif.Core.Rendezvous.C49_size",
    "Verif.Core.Rendezvous.C49_genuine_violated",
    "Verif.Core.Rendezvous.C49_foreign_violated"
   ],
   "note": "Answers repeat id and channel and go to the sender, are not sent more often than asked for, none is lost while at most eleven are outstanding, at most ten wait. Violated: the id is compared one byte off, so genuine requests are (almost) never answered and foreign ids can be."
  },
  {
   "property": "C50",
   "status": "partial",
   "theorems": [
    "Verif.Core.Stun.C50_once_partial",
    "Verif.Core.Stun.C50_stopped_partial",
    "Verif.Core.Stun.C50_continues_partial",
    "Verif.Core.Stun.C50_content",
    "Verif.Core.Stun.C50_sends"
   ],
   "note": "Exactly-once accounting for every history without undefined behaviour (see C79); the STUN library is assumed to name a next event while an analysis runs."
  },
  {
   "property": "C51",
   "status": "partial",
   "theorems": [
    "Verif.Core.Dns.C51_answers_partial",
    "Verif.Core.Dns.C51_merge",
    "Verif.Core.Dns.C51_once_partial",
    "Verif.Core.Dns.C51_in_progress_violated"
   ],
   "note": "The resolver refines a small specification machine for every history of requests and lookup answers, if the platform keeps its contract (no more addresses reported than written, no lookup ends with the code \"operation in progress\"). Violated for a lookup which ends with \"operation in progress\": the resolver never answers again."
  },
  {
   "property": "C52",
   "status": "partial",
   "theorems": [
    "Verif.Coap.Virtual.C52_once",
    "Verif.Coap.Virtual.C52_pending",
    "Verif.Coap.Virtual.C52_resolves",
    "Verif.Coap.Virtual.C52_freed",
    "Verif.Coap.Virtual.C52_safe_partial",
    "Verif.Coap.Virtual.C52_free_early_violated",
    "Verif.Coap.Virtual.C52_unanswered_violated",
    "Verif.Coap.Virtual.C52_stop_leak_violated",
    "Verif.Coap.Virtual.C52_payload_leak_violated"
   ],
   "note": "Once, freed at most once and memory safe for clients which free a request after its future is resolved. Violated by the code: a request freed before its future is resolved, a request freed by its handler without an answer, a listener stopped with a request in its queue, a payload set twice."
  },
  {
   "property": "C53",
   "status": "proved",
   "theorems": [
    "Verif.Cbor.Props.measure_exact",
    "Verif.Cbor.Props.write_exact",
    "Verif.Cbor.Props.measure_then_write",
    "Verif.Cbor.Props.decode_encode",
    "Verif.Cbor.Props.encode_prefix_free",
    "Verif.Cbor.Props.uint_round_trip",
    "Verif.Cbor.Props.int_round_trip",
    "Verif.Cbor.Props.get_int_overflow_violated",
    "Verif.Cbor.Props.text_round_trip",
    "Verif.Cbor.Props.find_encoded"
   ],
   "note": "tinycbor's encoder and parser on bytes, for whole documents of nesting depth at most 1024 (the parser's own bound), any buffer size. cbor_value_get_int on the encoding of -2^31-1 negates INT_MIN; that is shown separately and counted under C71."
  },
  {
   "property": "C54",
   "status": "partial",
   "theorems": [
    "Verif.TinyAlloc.C54_ideal_memory_partial",
    "Verif.TinyAlloc.C54_no_overlap_partial",
    "Verif.TinyAlloc.C54_check_partial",
    "Verif.TinyAlloc.C54_good_as_new_partial",
    "Verif.TinyAlloc.C54_refused_only_if_full_partial",
    "Verif.TinyAlloc.C54_calloc_overflow_violated",
    "Verif.TinyAlloc.C54_alloc_overflow_violated",
    "Verif.TinyAlloc.C54_empty_violated"
   ],
   "note": "The allocator with the memory refines an ideal memory for every program which asks for at least one byte and not for sizes near SIZE_MAX. Violated for sizes whose product or rounding wraps and for requests of no bytes."
  },
  {
   "property": "C55",
   "status": "partial",
   "theorems": [
    "Verif.Core.Watchdog.C55_fires_iff_partial",
    "Verif.Core.Watchdog.C55_attached_partial"
   ],
   "note": "The component is correct, but the library never creates it, so the documented event is never delivered (DESIGN.md section 4)."
  },
  {
   "property": "C56",
   "status": "partial",
   "theorems": [
    "Verif.Api.Pwd.C56_answered_once",
    "Verif.Api.Pwd.C56_not_lost_partial",
    "Verif.Api.Pwd.C56_handed_once",
    "Verif.Api.Pwd.C56_stopped",
    "Verif.Api.Pwd.C56_out_of_memory_violated"
   ],
   "note": "Missing: when memory for the request cannot be allocated the client's request is never answered (negation proved)."
  },
  {
   "property": "C57",
   "status": "partial",
   "theorems": [
    "Verif.Iam.C57_out_of_memory_violated",
    "Verif.Iam.C57_out_of_memory_partial"
   ],
   "note": ""
  },
  {
   "property": "C58",
   "status": "partial",
   "theorems": [
    "Verif.Iam.C58_success_took_effect_partial",
    "Verif.Iam.C58_success_took_effect_create_violated",
    "Verif.Iam.C58_success_took_effect_fcm_violated",
    "Verif.Iam.C58_success_took_effect_name_violated"
   ],
   "note": "Fails when the server connect token cannot be registered or memory runs out (three witnesses). Proved for all requests otherwise."
  },
  {
   "property": "C59",
   "status": "partial",
   "theorems": [
    "Verif.Iam.C59_null_name_violated",
    "Verif.Iam.C59_name_given_partial"
   ],
   "note": "Passing NULL as the name is undefined for every full length key; with a name the fingerprint is stored."
  },
  {
   "property": "C60",
   "status": "partial",
   "theorems": [
    "Verif.Iam.C60_null_username_violated",
    "Verif.Iam.C60_null_category_violated",
    "Verif.Iam.C60_requests_answered_partial"
   ],
   "note": "Two requests with CBOR null values trigger undefined behaviour, one of them without any permission. All other requests are answered when no authorised connection refers to a deleted user (see C18)."
  },
  {
   "property": "C61",
   "status": "partial",
   "theorems": [
    "Verif.Iam.C61_open_password_violated",
    "Verif.Iam.C61_open_password_partial"
   ],
   "note": ""
  },
  {
   "property": "C62",
   "status": "partial",
   "theorems": [
    "Verif.Iam.C62_api_took_effect_partial",
    "Verif.Iam.C62_api_took_effect_violated",
    "Verif.Iam.C62_api_error_changes_nothing"
   ],
   "note": "Error part proved in full; success part fails only for create user when the server connect token cannot be registered (negation proved)"
  },
  {
   "property": "C63",
   "status": "partial",
   "theorems": [
    "Verif.Core.Spake2.C63_username_before_authentication_violated",
    "Verif.Core.Spake2.C63_username_out_of_memory_violated",
    "Verif.Core.Spake2.C63_username_when_authenticated_partial"
   ],
   "note": "Violated: NULL dereference on every connection without a completed first message."
  },
  {
   "property": "C64",
   "status": "proved",
   "theorems": [
    "Verif.Api.Lock.C64_no_deadlock",
    "Verif.Api.Lock.C64_exclusive"
   ],
   "note": "For all public functions except the three of C31. Waiting on conditions and joining threads is not modelled."
  },
  {
   "property": "C65",
   "status": "partial",
   "theorems": [
    "Verif.Api.Lock.C65_guarded_partial",
    "Verif.Api.Lock.C65_no_race_partial",
    "Verif.Api.Lock.C65_guarded_violated",
    "Verif.Api.Lock.C65_race_violated",
    "Verif.Api.Lock.C65_stop_events"
   ],
   "note": "Proved for 153 public functions and for all threads of an application that uses only these. nabto_device_listener_new and nabto_device_ice_servers_request_new use shared state without the lock (negations proved); nabto_device_new, _free and _stop, and nm_iam_init (which calls listener_new), are excluded. Reading the application name and version, which the code says is not synchronised, does not count as a use."
  },
  {
   "property": "C66",
   "status": "proved",
   "theorems": [
    "Verif.Event.C66_no_lost_wakeup"
   ],
   "note": "A wait on a condition ends at the latest when its time is up (assumption on the platform)."
  },
  {
   "property": "C67",
   "status": "proved",
   "theorems": [
    "Verif.Core.Attacher.Props.C67_certificate_name"
   ],
   "note": "All executions."
  },
  {
   "property": "C68",
   "status": "proved",
   "theorems": [
    "Verif.Core.Attacher.Props.C68_names",
    "Verif.Core.Attacher.Props.C68_redirects_bounded",
    "Verif.Core.Attacher.Props.C68_name_present_partial"
   ],
   "note": "Names and bound hold in all executions; that the name is never a null pointer is proved for regular executions."
  },
  {
   "property": "C69",
   "status": "partial",
   "theorems": [
    "Verif.Iam.C69_violated",
    "Verif.Iam.C69_condition_lost_violated",
    "Verif.Iam.C69_user_lost_violated",
    "Verif.Iam.C69_no_failure_partial"
   ],
   "note": "Violated: the results of cJSON_Create* and cJSON_AddItem* are ignored, so a policy condition or a user is silently lost. Partial: complete when no allocation fails."
  },
  {
   "property": "C70",
   "status": "proved",
   "theorems": [
    "Verif.Json.C70_parse_memory_safe",
    "Verif.Json.C70_parse_total",
    "Verif.Json.C70_depth_bounded",
    "Verif.Json.C70_parse_print"
   ],
   "note": "cJSON 1.7.15 as used by the IAM module; allocations in the parser succeed; strtod is a parameter."
  },
  {
   "property": "C71",
   "status": "partial",
   "theorems": [
    "Verif.Core.CborUse.Props.C71_rendezvous_safe",
    "Verif.Core.CborUse.Props.C71_attach_safe",
    "Verif.Core.CborUse.Props.C71_iam_safe",
    "Verif.Core.CborUse.Props.C71_string_set_violated",
    "Verif.Core.CborUse.Props.C71_string_set_partial",
    "Verif.Core.CborUse.Props.C71_password_request_exact",
    "Verif.Core.CborUse.Props.C71_password_request_violated",
    "Verif.Core.CborUse.Props.C71_password_request_partial",
    "Verif.Core.CborUse.Props.C71_ice_servers_violated",
    "Verif.Core.CborUse.Props.C71_ice_servers_partial",
    "Verif.Core.CborUse.Props.ice_servers_exact",
    "Verif.Core.CborUse.Props.C71_integers_violated",
    "Verif.Core.CborUse.Props.C71_rest_error_partial",
    "Verif.Core.CborUse.Props.C71_fcm_partial",
    "Verif.Core.CborUse.Props.C71_service_invoke_partial",
    "Verif.Core.CborUse.Props.rendezvous_exact",
    "Verif.Core.CborUse.Props.attach_response_exact",
    "Verif.Core.CborUse.Props.iam_request_exact",
    "Verif.Core.CborUse.Props.fcm_response_exact",
    "Verif.Core.CborUse.Props.service_invoke_exact",
    "Verif.Core.CborUse.Props.status_code_cut_off_violated"
   ],
   "note": "Proved for rendezvous requests, attach answers and IAM strings, booleans and maps. Violated by password authentication requests and ICE answers which are not maps, by null in a set of strings and by integers -2^31-1; the partial theorems exclude exactly these. The exact theorems assume that allocations succeed and nesting of at most 1025."
  },
  {
   "property": "C72",
   "status": "partial",
   "theorems": [
    "Verif.Iam.Listing.Props.C72_settings",
    "Verif.Iam.Listing.Props.C72_pairing_partial",
    "Verif.Iam.Listing.Props.C72_modes_exact",
    "Verif.Iam.Listing.Props.C72_paired_was_offered",
    "Verif.Iam.Listing.Props.C72_pairing_race_violated",
    "Verif.Iam.Listing.Props.C72_unanswered_violated",
    "Verif.Iam.Listing.Props.C72_refused",
    "Verif.Iam.Listing.Props.C72_answered_partial"
   ],
   "note": "Violated when memory for the answer is missing (no answer) and when the connection is authenticated between the two passes of GET /iam/pairing (cut off document)."
  },
  {
   "property": "C73",
   "status": "partial",
   "theorems": [
    "Verif.Core.Conn.C73_senders",
    "Verif.Core.Conn.C73_destination_partial",
    "Verif.Core.Conn.C73_authenticated_violated"
   ],
   "note": "The destination is always the sender of a datagram with the id of the connection, but an unauthenticated datagram is enough (nc_client_connection.c:123). C73_destination_partial is exact for the default build with a DTLS session which reports channels it was told."
  },
  {
   "property": "C74",
   "status": "partial",
   "theorems": [
    "Verif.Core.Conn.C74_moves_partial",
    "Verif.Core.Conn.C74_stays",
    "Verif.Core.Conn.C74_never_violated"
   ],
   "note": "Holds in the client only build (NABTO_DEVICE_DTLS_CLIENT_ONLY); in the default build the channel never changes because the DTLS session is told the current channel (nc_client_connection.c:133)."
  },
  {
   "property": "C75",
   "status": "partial",
   "theorems": [
    "Verif.Core.Conn.C75_sent_partial",
    "Verif.Core.Conn.C75_client_violated"
   ],
   "note": "Holds in the default build; violated in the client only build when a datagram replaces the alternative channel before the answer is sent."
  },
  {
   "property": "C76",
   "status": "partial",
   "theorems": [
    "Verif.Core.Conn.C76_once_partial",
    "Verif.Core.Conn.C76_nothing",
    "Verif.Core.Conn.C76_sync_violated",
    "Verif.Core.Conn.C76_stop_violated"
   ],
   "note": "Holds for a single close when no DTLS session closes within the call."
  },
  {
   "property": "C77",
   "status": "partial",
   "theorems": [
    "Verif.Core.Conn.C77_closed_is_final",
    "Verif.Core.Conn.C77_opened_first_violated"
   ],
   "note": "Closed is final and reported once; it is reported without opened when a connection cannot be initialised."
  },
  {
   "property": "C78",
   "status": "partial",
   "theorems": [
    "Verif.Core.Stun.C78_stun_violated",
    "Verif.Core.Stun.C78_stun_partial",
    "Verif.Core.Rendezvous.C78_rendezvous"
   ],
   "note": "Holds for rendezvous packets. Violated for STUN queries; holds there if no packet arrives and no lookup ends while a send is outstanding."
  },
  {
   "property": "C79",
   "status": "partial",
   "theorems": [
    "Verif.Core.Stun.C79_host_violated",
    "Verif.Core.Stun.C79_host_partial"
   ],
   "note": "Violated: an attach response frees the name of the STUN server while it is looked up. Holds if the name is replaced only when no lookup is outstanding."
  },
  {
   "property": "C80",
   "status": "proved",
   "theorems": [
    "Verif.Stream.C80_read_in_order",
    "Verif.Stream.C80_read_all",
    "Verif.Stream.C80_read_some",
    "Verif.Stream.C80_write"
   ],
   "note": "Streams of clients in the core; the stream module is an input which returns at most the bytes asked for."
  },
  {
   "property": "C81",
   "status": "partial",
   "theorems": [
    "Verif.Stream.Manager.C81_no_use_after_free_partial",
    "Verif.Stream.Manager.C81_freed_exactly",
    "Verif.Stream.Manager.C81_no_listener_violated",
    "Verif.Stream.Manager.C81_listener_memory_violated",
    "Verif.Stream.Manager.C81_timer_violated",
    "Verif.Stream.Manager.C81_stale_connection_violated"
   ],
   "note": "Exactly-once holds up to the first undefined behaviour; no use after free holds for every careful history (Spec.Careful). Four ways in which the unchanged code uses freed or uninitialised streams are shown by concrete histories; the timer history assumes that the streaming module, which is not in the repository, may raise ACCEPT from a timeout."
  },
  {
   "property": "C82",
   "status": "proved",
   "theorems": [
    "Verif.Stream.Manager.C82_nonces_unique",
    "Verif.Stream.Manager.C82_segments",
    "Verif.Stream.Manager.C82_segment_given"
   ],
   "note": "Segments are counted from what was given out and given back."
  },
  {
   "property": "C83",
   "status": "partial",
   "theorems": [
    "Verif.Tunnel.Conn.C83_clean_end_partial",
    "Verif.Tunnel.Conn.C83_lost_stream_violated",
    "Verif.Tunnel.Conn.C83_reset_violated"
   ],
   "note": "violated by the code in both directions; proved for the direction from the server once it has sent data"
  },
  {
   "property": "C84",
   "status": "partial",
   "theorems": [
    "Verif.Tunnel.Conn.C84_aborted_ends_partial",
    "Verif.Tunnel.Conn.C84_stop_aborts",
    "Verif.Tunnel.Conn.C84_libevent_violated",
    "Verif.Tunnel.Conn.C84_silent_server_violated"
   ],
   "note": "proved for sockets which look at the abort flag (select); violated with libevent and for a silent server"
  },
  {
   "property": "C85",
   "status": "partial",
   "theorems": [
    "Verif.Tunnel.Manager.C85_disclosed_partial",
    "Verif.Tunnel.Manager.C85_list",
    "Verif.Tunnel.Manager.C85_replaced_violated"
   ],
   "note": "violated when the service is replaced while the check waits"
  },
  {
   "property": "C86",
   "status": "partial",
   "theorems": [
    "Verif.Tunnel.Manager.C86_add",
    "Verif.Tunnel.Manager.C86_remove_partial",
    "Verif.Tunnel.Manager.C86_metadata_partial",
    "Verif.Tunnel.Manager.C86_remove_metadata",
    "Verif.Tunnel.Manager.C86_metadata_violated",
    "Verif.Tunnel.Manager.C86_remove_violated",
    "Verif.Tunnel.Manager.C86_leak_violated"
   ],
   "note": "violated for metadata without memory, for equal ids, and by a leak; setting a limit: see C48"
  },
  {
   "property": "C87",
   "status": "partial",
   "theorems": [
    "Verif.Coap.Virtual.C87_response",
    "Verif.Coap.Virtual.C87_code",
    "Verif.Coap.Virtual.C87_absent_violated"
   ],
   "note": "NO_DATA is never returned: an absent format is read as 0, an absent payload gives UNKNOWN."
  },
  {
   "property": "C88",
   "status": "proved",
   "theorems": [
    "Verif.Coap.Virtual.C88_segments",
    "Verif.Coap.Virtual.C88_empty_path"
   ],
   "note": "All paths which start with a slash, as the documentation demands. An empty path makes the code read the byte before the string."
  },
  {
   "property": "C89",
   "status": "proved",
   "theorems": [
    "Verif.Device.Token.C89_shape",
    "Verif.Device.Token.C89_uniform",
    "Verif.Device.Token.C89_counts",
    "Verif.Device.Token.C89_progress"
   ],
   "note": "Uniform: for every length, as many sequences of bytes give one token as give another."
  },
  {
   "property": "C90",
   "status": "partial",
   "theorems": [
    "Verif.Device.Life.C90_once",
    "Verif.Device.Life.C90_pending",
    "Verif.Device.Life.C90_start_resolves",
    "Verif.Device.Life.C90_close_resolves",
    "Verif.Device.Life.C90_start_result",
    "Verif.Device.Life.C90_no_keys",
    "Verif.Device.Life.C90_stop_violated",
    "Verif.Device.Life.C90_start_twice_violated",
    "Verif.Device.Life.C90_virtual_violated",
    "Verif.Device.Life.C90_client_violated"
   ],
   "note": "Each future is resolved at most once and, if the application does not start the device while it is starting and does not stop it, waits for a named event. Violated: a second start loses the first future; a stop loses the future of a close which waits for connections; virtual connections and clients which connect while closing."
  },
  {
   "property": "C91",
   "status": "partial",
   "theorems": [
    "Verif.Device.Identity.C91_fingerprint",
    "Verif.Device.Identity.C91_no_key",
    "Verif.Device.Identity.C91_start",
    "Verif.Device.Identity.C91_stale_violated",
    "Verif.Device.Identity.C91_start_violated",
    "Verif.Device.Identity.C91_memory_violated"
   ],
   "note": "Proved after a successful nabto_device_set_private_key; violated after one which failed, where the fingerprint of the old key is given out or used."
  },
  {
   "property": "C92",
   "status": "partial",
   "theorems": [
    "Verif.Device.Identity.C92_get_partial",
    "Verif.Device.Identity.C92_get_violated",
    "Verif.Device.Identity.C92_start",
    "Verif.Device.Identity.C92_host_partial",
    "Verif.Device.Identity.C92_host_violated",
    "Verif.Device.Identity.C92_pointer",
    "Verif.Device.Identity.C92_no_double_free",
    "Verif.Device.Identity.C92_pointer_violated"
   ],
   "note": "The ids and the application name of a start are proved without conditions. Violated: a failing set loses the old value; the default host of an old product id is kept after a failed start; strings of getters are freed by the next set."
  },
  {
   "property": "C93",
   "status": "partial",
   "theorems": [
    "Verif.Dtls.Server.C93_once",
    "Verif.Dtls.Server.C93_order",
    "Verif.Dtls.Server.C93_all_partial",
    "Verif.Dtls.Server.C93_pending_partial",
    "Verif.Dtls.Server.C93_stall_violated",
    "Verif.Dtls.Server.C93_close_violated"
   ],
   "note": "At most once and order hold for all histories. That every message is reported is proved if every message makes a packet which is sent and the session does not end under way; violated otherwise: a dropped packet leaves the messages behind it waiting."
  },
  {
   "property": "C94",
   "status": "partial",
   "theorems": [
    "Verif.Dtls.Server.C94_freed_once_partial",
    "Verif.Dtls.Server.C94_not_early",
    "Verif.Dtls.Server.C94_close_ends_partial",
    "Verif.Dtls.Server.C94_leak_violated",
    "Verif.Dtls.Server.C94_close_notify_violated",
    "Verif.Dtls.Server.C94_use_after_free_violated",
    "Verif.Dtls.Server.C94_send_callback_violated"
   ],
   "note": "Proved if the session does not end while a packet is on its way. Violated otherwise: leak after a refused handshake, and use after free."
  },
  {
   "property": "C95",
   "status": "proved",
   "theorems": [
    "Verif.Dtls.Client.C95_once",
    "Verif.Dtls.Client.C95_order",
    "Verif.Dtls.Client.C95_pending",
    "Verif.Dtls.Client.C95_all",
    "Verif.Dtls.Client.C95_freed_once",
    "Verif.Dtls.Client.C95_ends"
   ],
   "note": "For all histories, without a contract: the sender of the attacher never fails (nc_attacher.c:780-795), and reading 0 bytes does not happen (see Core/Attacher)."
  },
  {
   "property": "C96",
   "status": "partial",
   "theorems": [
    "Verif.Dtls.Client.C96_heard_partial",
    "Verif.Dtls.Client.C96_twice_violated",
    "Verif.Dtls.Client.C96_dead_violated"
   ],
   "note": "At least once and at most twice; violated when a packet is on its way at the end of the session."
  },
  {
   "property": "C97",
   "status": "partial",
   "theorems": [
    "Verif.Device.Ask.C97_once",
    "Verif.Device.Ask.C97_pending_partial",
    "Verif.Device.Ask.C97_retry_violated",
    "Verif.Device.Ask.C97_ice_free_violated"
   ],
   "note": "At most once always. At least once for an application which sets all ids, stops only what has not ended and frees only what has ended. Violated: a refused object can never be used again; a freed request for ICE servers never resolves its future."
  },
  {
   "property": "C98",
   "status": "partial",
   "theorems": [
    "Verif.Device.Ask.C98_safe_partial",
    "Verif.Device.Ask.C98_no_leak_partial",
    "Verif.Device.Ask.C98_missing_violated",
    "Verif.Device.Ask.C98_message_violated",
    "Verif.Device.Ask.C98_stop_violated",
    "Verif.Device.Ask.C98_free_violated",
    "Verif.Device.Ask.C98_memory_violated",
    "Verif.Device.Ask.C98_leak_violated"
   ],
   "note": "For a careful application, see C97. Violated in six ways without that contract."
  },
  {
   "property": "C99",
   "status": "partial",
   "theorems": [
    "Verif.Device.Ask.C99_carries",
    "Verif.Device.Ask.C99_ice_partial",
    "Verif.Device.Ask.C99_one",
    "Verif.Device.Ask.C99_session_violated"
   ],
   "note": "Full for push notifications and service invocations; violated for ICE servers, where the session is taken when the object is made."
  },
  {
   "property": "C100",
   "status": "partial",
   "theorems": [
    "Verif.Device.Ask.C100_ok",
    "Verif.Device.Ask.C100_status",
    "Verif.Device.Ask.C100_body_violated"
   ],
   "note": "What the answer holds is decoded in Core/CborUse (C71). Violated: the body of a push notification is given although the send failed."
  },
  {
   "property": "C101",
   "status": "proved",
   "theorems": [
    "Verif.Net.Mdns.C101_safe",
    "Verif.Net.Mdns.C101_needs_stop",
    "Verif.Net.Mdns.C101_listening",
    "Verif.Net.Mdns.C101_answer",
    "Verif.Net.Mdns.C101_packets",
    "Verif.Net.Mdns.C101_memory"
   ],
   "note": "The mDNS codec of nabto-common is a parameter. The contract (stop before deinit) is shown to be needed."
  },
  {
   "property": "C102",
   "status": "partial",
   "theorems": [
    "Verif.Net.Mdns.C102_once",
    "Verif.Net.Mdns.C102_ends",
    "Verif.Net.Mdns.C102_quiet",
    "Verif.Net.Mdns.C102_goodbye_partial",
    "Verif.Net.Mdns.C102_busy_violated",
    "Verif.Net.Mdns.C102_result_violated"
   ],
   "note": "Completion exactly once and at most one goodbye per family in full. Violated: a family which is sending when the server is closed says no goodbye; errors of the IPv4 part are not reported."
  },
  {
   "property": "C103",
   "status": "partial",
   "theorems": [
    "Verif.Net.Udp.C103_once",
    "Verif.Net.Udp.C103_prompt",
    "Verif.Net.Udp.C103_destroyed",
    "Verif.Net.Udp.C103_select",
    "Verif.Net.Udp.C103_race_violated",
    "Verif.Net.Udp.C103_race_atomic",
    "Verif.Net.Udp.C103_unbound_violated"
   ],
   "note": "Full with atomic steps. Violated when the two threads interleave: both take the event and resolve it."
  },
  {
   "property": "C104",
   "status": "partial",
   "theorems": [
    "Verif.Net.Udp.C104_partial",
    "Verif.Net.Udp.C104_fallback",
    "Verif.Net.Udp.C104_fallback_violated",
    "Verif.Net.Udp.C104_leak_violated",
    "Verif.Net.Udp.C104_stray_violated"
   ],
   "note": "Proved for ordinary libevent sockets whatever fails, and for all sockets if no bind fails. Violated for select and for mDNS sockets when a bind fails; the IPv4 fallback of select never works."
  },
  {
   "property": "C105",
   "status": "partial",
   "theorems": [
    "Verif.Net.Loop.C105_wakeup",
    "Verif.Net.Loop.C105_stop",
    "Verif.Net.Loop.C105_exits",
    "Verif.Net.Loop.C105_served",
    "Verif.Net.Loop.C105_error_violated",
    "Verif.Net.Loop.C105_error_reached",
    "Verif.Net.Loop.C105_late_bind_violated",
    "Verif.Net.Loop.C105_fd_partial",
    "Verif.Net.Loop.C105_fd_violated"
   ],
   "note": "Every schedule. Violated: after an error of select the thread blocks in reading the empty pipe; a socket bound after the wait was asked for is missed; descriptors -1 and those from 1024 on are put into the sets."
  },
  {
   "property": "C106",
   "status": "partial",
   "theorems": [
    "Verif.Net.Tcp.Sel.C106_select_once",
    "Verif.Net.Tcp.Sel.C106_select_ended",
    "Verif.Net.Tcp.Sel.C106_leak_violated",
    "Verif.Net.Tcp.Lev.C106_libevent_once_partial",
    "Verif.Net.Tcp.Lev.C106_libevent_ended_partial",
    "Verif.Net.Tcp.Lev.C106_libevent_read_violated",
    "Verif.Net.Tcp.Lev.C106_libevent_connect_violated",
    "Verif.Net.Tcp.Lev.C106_libevent_late_violated",
    "Verif.Net.Tcp.Lev.C106_libevent_error_violated",
    "Verif.Net.Tcp.Lev.C106_libevent_empty_violated"
   ],
   "note": "In full for select. For libevent if no read or connect is asked for while one is pending and nothing after the abort; violated otherwise, and a write which meets an error is never told."
  },
  {
   "property": "C107",
   "status": "partial",
   "theorems": [
    "Verif.Net.Tcp.Sel.C107_select_read",
    "Verif.Net.Tcp.Sel.C107_select_write",
    "Verif.Net.Tcp.Sel.C107_select_prompt",
    "Verif.Net.Tcp.Sel.C107_select_empty_violated",
    "Verif.Net.Tcp.Sel.C107_race_violated",
    "Verif.Net.Tcp.Sel.C107_race_atomic",
    "Verif.Net.Tcp.Lev.C107_libevent_read",
    "Verif.Net.Tcp.Lev.C107_libevent_write",
    "Verif.Net.Tcp.Lev.C107_libevent_prompt"
   ],
   "note": "In full with atomic steps, given buffers which are not empty. Violated on select when the network thread runs in the middle of async_write."
  },
  {
   "property": "C108",
   "status": "partial",
   "theorems": [
    "Verif.Net.Lookup.C108_libevent",
    "Verif.Net.Lookup.C108_libevent_refused",
    "Verif.Net.Lookup.C108_unix_partial",
    "Verif.Net.Lookup.C108_unix_violated"
   ],
   "note": "In full for libevent. The unix resolver overflows the array for every answer with more addresses than it has cells (proved for all sizes and answers)."
  },
  {
   "property": "C109",
   "status": "partial",
   "theorems": [
    "Verif.Net.Lookup.C109_once",
    "Verif.Net.Lookup.C109_all_partial",
    "Verif.Net.Lookup.C109_awake",
    "Verif.Net.Lookup.C109_progress",
    "Verif.Net.Lookup.C109_join",
    "Verif.Net.Lookup.C109_race_violated",
    "Verif.Net.Lookup.C109_free_violated",
    "Verif.Net.Lookup.C109_free_partial"
   ],
   "note": "Unix resolver, every schedule. Violated: a call between its check and its append when the resolver is stopped is never answered; freeing a device of the select platform releases the memory of lookups before the resolver is stopped."
  },
  {
   "property": "C110",
   "status": "partial",
   "theorems": [
    "Verif.Apps.C110_old_or_new_partial",
    "Verif.Apps.C110_old_or_new_violated",
    "Verif.Apps.C110_state_lost_violated",
    "Verif.Apps.C110_success_partial",
    "Verif.Apps.C110_success_violated"
   ],
   "note": "Violated: every save has a crash point which leaves an empty file, and the result of fclose is ignored. Proved: always the old content or a beginning of the new one; success is right if fclose could write its buffer."
  },
  {
   "property": "C111",
   "status": "proved",
   "theorems": [
    "Verif.Apps.C111_starts_with_last_saved",
    "Verif.Apps.C111_saved_state_starts",
    "Verif.Apps.C111_torn_state_refused"
   ],
   "note": "In full, over the models of the cJSON parser and of the IAM serializer. Assumes that bytes reach the file in order and that dumping does not run out of memory (C69)."
  },
  {
   "property": "C112",
   "status": "partial",
   "theorems": [
    "Verif.Apps.C112_same_key",
    "Verif.Apps.C112_key_kept",
    "Verif.Apps.C112_stuck_violated"
   ],
   "note": "Same key and no overwriting are proved for all histories. Violated: a crash right after the key file was created makes every later start fail."
  },
  {
   "property": "C113",
   "status": "partial",
   "theorems": [
    "Verif.Apps.C113_string_partial",
    "Verif.Apps.C113_grown_violated",
    "Verif.Apps.C113_json_partial",
    "Verif.Apps.C113_json_alloc_violated",
    "Verif.Apps.C113_whole_partial",
    "Verif.Apps.C113_short_read_violated"
   ],
   "note": "Violated: a file which grows between size and read gives a string without end; json_config_load does not check calloc; an error of fread is not noticed. Proved without these."
  },
  {
   "property": "C114",
   "status": "proved",
   "theorems": [
    "Verif.Apps.C114_who_may_do_what",
    "Verif.Apps.C114_survives_file",
    "Verif.Apps.C114_changes_of_others",
    "Verif.Apps.C114_no_way_to_administrator",
    "Verif.Apps.C114_new_device_is_closed"
   ],
   "note": "In full, on top of the models of the policy engine, the CoAP handlers and the JSON serializer. Assumes that inserting in an nn_string_map overwrites (the library is not in the repository, C07)."
  },
  {
   "property": "C115",
   "status": "partial",
   "theorems": [
    "Verif.Apps.C115_shape",
    "Verif.Apps.C115_memory_safe",
    "Verif.Apps.C115_ends",
    "Verif.Apps.C115_equally_likely",
    "Verif.Apps.C115_all_possible",
    "Verif.Apps.C115_admin_without_password_violated"
   ],
   "note": "Shape, memory safety, termination and equal likelihood are proved. Violated: the callers do not check for NULL, without entropy a device is set up with an administrator who has no password."
  },
  {
   "property": "C116",
   "status": "partial",
   "theorems": [
    "Verif.Apps.C116_memory_safe",
    "Verif.Apps.C116_line",
    "Verif.Apps.C116_reads_one_line_partial",
    "Verif.Apps.C116_yes_no",
    "Verif.Apps.C116_yes_no_default",
    "Verif.Apps.C116_number",
    "Verif.Apps.C116_number_default",
    "Verif.Apps.C116_number_range",
    "Verif.Apps.C116_service_id_partial",
    "Verif.Apps.C116_service_id_violated",
    "Verif.Apps.C116_end_of_input_violated",
    "Verif.Apps.C116_end_of_input_unsigned_violated",
    "Verif.Apps.C116_byte_255_violated",
    "Verif.Apps.C116_unprintable_violated",
    "Verif.Apps.C116_unwritten_violated",
    "Verif.Apps.C116_nul_violated"
   ],
   "note": "Proved for printable lines. Violated for bytes which are not printable (dropped with a gap: unwritten bytes are read, or the rest of the line is lost), for NUL (the buffer is not terminated), at the end of the input (asked forever; where char has no sign one prompt reads until its position overflows), and for names of services, which are cut at 19 characters although 20 are announced."
  },
  {
   "property": "C117",
   "status": "partial",
   "theorems": [
    "Verif.Apps.C117_services_round_trip",
    "Verif.Apps.C117_device_round_trip",
    "Verif.Apps.C117_as_written",
    "Verif.Apps.C117_all_or_nothing",
    "Verif.Apps.C117_never_other_services",
    "Verif.Apps.C117_default",
    "Verif.Apps.C117_file_kept",
    "Verif.Apps.C117_first_start_violated",
    "Verif.Apps.C117_port_violated",
    "Verif.Apps.C117_out_of_memory_violated"
   ],
   "note": "Round trips, acceptance, torn files and defaults are proved. Violated: a crash while the default file is created leaves an empty file with which the device never starts again; a port out of range is converted instead of refused (undefined); without memory services are left out of the file and success is reported. Running out of memory while loading is not modelled."
  },
  {
   "property": "C118",
   "status": "partial",
   "theorems": [
    "Verif.Net.Probe.C118_told_once",
    "Verif.Net.Probe.C118_told_true",
    "Verif.Net.Probe.C118_refused",
    "Verif.Net.Probe.C118_stop_partial",
    "Verif.Net.Probe.C118_stopped_select",
    "Verif.Net.Probe.C118_free_partial",
    "Verif.Net.Probe.C118_careful_partial",
    "Verif.Net.Probe.C118_free_pending_violated",
    "Verif.Net.Probe.C118_free_lost_violated",
    "Verif.Net.Probe.C118_free_taken_violated",
    "Verif.Net.Probe.C118_stopped_violated"
   ],
   "note": "Proved for every history up to the free of the probe, and for a free after all checks were told. Violated: a free while a connect is under way uses the destroyed completion event; a free between the end of the connect and its callback forgets the check or calls back a freed probe; with libevent a check after a stop cannot be stopped."
  },
  {
   "property": "C119",
   "status": "partial",
   "theorems": [
    "Verif.Coap.Driver.C119_one_packet",
    "Verif.Coap.Driver.C119_attended_partial",
    "Verif.Coap.Driver.C119_timeout",
    "Verif.Coap.Driver.C119_no_memory",
    "Verif.Coap.Driver.C119_idle_violated",
    "Verif.Coap.Driver.C119_refused_violated"
   ],
   "note": "Proved for every library and history in which no DTLS connection refuses a packet and in which the library was not left without a timeout for 2^29 ms. Violated: after six to 31 days without a timeout no timer is set any more; a packet which a closing DTLS connection refuses blocks all later ones."
  },
  {
   "property": "C120",
   "status": "partial",
   "theorems": [
    "Verif.Core.Pake.C120_agree",
    "Verif.Core.Pake.C120_same",
    "Verif.Core.Pake.C120_confirm",
    "Verif.Core.Pake.C120_transcript",
    "Verif.Core.Pake.C120_reject",
    "Verif.Core.Pake.C120_unknown_partial",
    "Verif.Core.Pake.C120_unknown_violated"
   ],
   "note": "Group, hash and point encoding are parameters with stated assumptions; security is stated as a reduction to an explicit hash collision or to having all parts of the transcript. Proved for users with a password with both libraries, and for users without one with mbed TLS. Violated with wolfSSL: the random bytes are not used, the password number is 0 for every unknown user."
  },
  {
   "property": "C121",
   "status": "partial",
   "theorems": [
    "Verif.Dtls.WolfServer.C121_server_once",
    "Verif.Dtls.WolfServer.C121_server_order",
    "Verif.Dtls.WolfServer.C121_server_all_partial",
    "Verif.Dtls.WolfServer.C121_server_freed_partial",
    "Verif.Dtls.WolfServer.C121_server_close_partial",
    "Verif.Dtls.WolfServer.C121_server_leak_violated",
    "Verif.Dtls.WolfServer.C121_server_send_callback_violated",
    "Verif.Dtls.WolfServer.C121_server_timer",
    "Verif.Dtls.WolfClient.C121_client_once",
    "Verif.Dtls.WolfClient.C121_client_pending",
    "Verif.Dtls.WolfClient.C121_client_all",
    "Verif.Dtls.WolfClient.C121_client_freed_once",
    "Verif.Dtls.WolfClient.C121_client_ends",
    "Verif.Dtls.WolfClient.C121_client_order_partial",
    "Verif.Dtls.WolfClient.C121_client_zero_violated",
    "Verif.Dtls.WolfClient.C121_client_heard_partial",
    "Verif.Dtls.WolfClient.C121_client_twice_violated",
    "Verif.Dtls.WolfClient.C121_client_dead_violated"
   ],
   "note": "Both modules are shown to refine the models of the mbed TLS modules, so that C93 to C96 carry over with their violations. Violated in addition: a message for which wolfSSL_write returns 0 is reported as sent; the handshake timer of a basestation session outlives the attacher while a packet is on its way."
  },
  {
   "property": "C122",
   "status": "partial",
   "theorems": [
    "Verif.Dtls.Records.C122_delivered_partial",
    "Verif.Dtls.Records.C122_order",
    "Verif.Dtls.Records.C122_wolfOf",
    "Verif.Dtls.Records.C122_same",
    "Verif.Dtls.Records.C122_lost_violated",
    "Verif.Dtls.Records.C122_forged_violated"
   ],
   "note": "Proved for datagrams with at most one record, with forged datagrams in between; the numbers of the wolfSSL module are shown to be order preserving for epochs below 256 and all outputs of the connection layer to be the same. Violated with two records in a datagram: the next datagram is dropped and the second record is taken to come from its channel. Violated with wolfSSL, if the library goes on after a record it discards: the number is taken from the first header of the datagram, which nobody has authenticated."
  },
  {
   "property": "C123",
   "status": "partial",
   "theorems": [
    "Verif.Device.Attach.Props.C123_off_partial",
    "Verif.Device.Attach.Props.C123_follows_partial",
    "Verif.Device.Attach.Props.C123_on_partial",
    "Verif.Device.Attach.Props.C123_closed",
    "Verif.Device.Attach.Props.C123_close_callback",
    "Verif.Device.Attach.Props.C123_off_starting_violated",
    "Verif.Device.Attach.Props.C123_on_starting_violated",
    "Verif.Device.Attach.Props.C123_again_violated",
    "Verif.Device.Attach.Props.C123_memory_violated"
   ],
   "note": "Proved, over the whole attacher of C38, if the switch is not used between the start and the report of the start and there is memory. Violated otherwise: switching off while the device starts is reported to have worked and has no effect; switching on then makes the start fail; switching on what is on returns INVALID_STATE; after a failure of memory the attach can never be switched on again."
  },
  {
   "property": "C124",
   "status": "partial",
   "theorems": [
    "Verif.Device.Announce.C124_when",
    "Verif.Device.Announce.C124_where",
    "Verif.Device.Announce.C124_what_partial",
    "Verif.Device.Announce.C124_lost_violated",
    "Verif.Device.Announce.C124_stale_violated",
    "Verif.Device.Announce.C124_stale_txt_violated"
   ],
   "note": "When it is announced, with which port, name and at least which subtypes is proved for all histories; that nothing else is announced and the TXT items if adding TXT items and starting do not fail and the application leaves the two keys of the device alone before the start. Violated otherwise: a failed nabto_device_mdns_add_txt_item removes the item; a failed start leaves its subtype and TXT items behind."
  },
  {
   "property": "C125",
   "status": "partial",
   "theorems": [
    "Verif.Apps.Thermostat.C125_accepted",
    "Verif.Apps.Thermostat.C125_shown",
    "Verif.Apps.Thermostat.C125_kept_partial",
    "Verif.Apps.Thermostat.C125_starts_partial",
    "Verif.Apps.Thermostat.C125_response_partial",
    "Verif.Apps.Thermostat.C125_towards",
    "Verif.Apps.Thermostat.C125_reaches",
    "Verif.Apps.Thermostat.C125_off",
    "Verif.Apps.Thermostat.C125_half",
    "Verif.Apps.Thermostat.C125_half_special",
    "Verif.Apps.Thermostat.C125_nan_violated",
    "Verif.Apps.Thermostat.C125_forgotten_violated",
    "Verif.Apps.Thermostat.C125_unsaved_violated",
    "Verif.Apps.Thermostat.C125_torn_violated",
    "Verif.Apps.Thermostat.C125_response_violated"
   ],
   "note": "Acceptance, showing while the program runs, the temperature (exact arithmetic) and half precision numbers are proved in full. Restarts: if every write succeeds and targets are finite. Responses: if the request is denied or carries a CBOR value. Violated otherwise: NaN as target makes the temperature NaN until a restart; infinity is accepted and forgotten; a failed write is reported as success; a torn file makes the program end at every start, --init included; two responses to a request without content format, none when there is no memory."
  },
  {
   "property": "C126",
   "status": "partial",
   "theorems": [
    "Verif.Coap.Printer.C126_safe",
    "Verif.Coap.Printer.C126_logged",
    "Verif.Coap.Printer.C126_block",
    "Verif.Coap.Printer.C126_pointer_partial",
    "Verif.Coap.Printer.C126_pointer_violated"
   ],
   "note": "No write outside of the arrays and the logged text are proved for every packet, given that the library hands out tokens of at most eight bytes (shown to be needed). Violated: when an option begins within the buffer and ends more than one byte behind it, `buffer + written` is a pointer outside of the block, which is undefined although it is not used; partial theorem if the description fits."
  },
  {
   "property": "C127",
   "status": "partial",
   "theorems": [
    "Verif.Api.Logging.C127_messages_partial",
    "Verif.Api.Logging.C127_schedules",
    "Verif.Api.Logging.C127_once",
    "Verif.Api.Logging.C127_format_violated",
    "Verif.Api.Logging.C127_format_wolfssl_violated",
    "Verif.Api.Logging.C127_mixed_violated",
    "Verif.Api.Logging.C127_removed_violated"
   ],
   "note": "One function after the other: proved, if lines of the TLS libraries have no percent sign. Every schedule: a call is for a message at a level which was on, with its text, at most once, and to a callback which was set. Violated: a line of mbedtls or wolfssl is used as a format (with NABTO_DEVICE_DTLS_LOG); without a lock a callback is called with the data of another one, and after it was removed."
  },
  {
   "property": "C128",
   "status": "partial",
   "theorems": [
    "Verif.Net.Addr.C128_send",
    "Verif.Net.Addr.C128_refused",
    "Verif.Net.Addr.C128_told",
    "Verif.Net.Addr.C128_connect",
    "Verif.Net.Addr.C128_reply_partial",
    "Verif.Net.Addr.C128_reply_violated",
    "Verif.Net.Addr.C128_peers_violated",
    "Verif.Net.Addr.C128_transient_partial",
    "Verif.Net.Addr.C128_transient_violated"
   ],
   "note": "Sending, refusing and connecting are proved. Violated: the scope of a link-local IPv6 sender is dropped on receipt and zero is used to answer, so that no answer goes to the sender, and two such peers are one; ENOMEM, ENOBUFS or EINTR of `recvfrom` (on select every error but EAGAIN) end reception for good. The conversions of nabto-common are taken to be those of RFC 4291."
  },
  {
   "property": "C129",
   "status": "partial",
   "theorems": [
    "Verif.Event.Clock.C129_wait_partial",
    "Verif.Event.Clock.C129_wait_undefined_violated",
    "Verif.Event.Clock.C129_wait_none_violated",
    "Verif.Event.Clock.C129_wait_set_back_violated",
    "Verif.Event.Clock.C129_elapsed_partial",
    "Verif.Event.Clock.C129_stamp_undefined_violated",
    "Verif.Event.Clock.C129_timer_set_back_violated",
    "Verif.Event.Clock.C129_timer_set_forward_violated"
   ],
   "note": "Proved for machines of 64 bits and a clock which is not set. Violated: with a `time_t` of 32 bits every timed wait and the unix time stamp overflow a signed type; with a `long` of 32 bits and a `time_t` of 64 bits no timed wait waits; when the wall clock is set, waits and timers are late or early by as much."
  },
  {
   "property": "C130",
   "status": "proved",
   "theorems": [
    "Verif.Core.Payloads.C130_attach",
    "Verif.Core.Payloads.C130_scts",
    "Verif.Core.Payloads.C130_fcm",
    "Verif.Core.Payloads.C130_invoke",
    "Verif.Core.Payloads.C130_ice",
    "Verif.Core.Payloads.C130_endpoints",
    "Verif.Core.Payloads.C130_tunnels",
    "Verif.Core.Payloads.C130_attach_read",
    "Verif.Core.Payloads.C130_texts_read",
    "Verif.Core.Payloads.C130_requests_read",
    "Verif.Core.Payloads.C130_endpoints_read",
    "Verif.Core.Payloads.C130_service_read",
    "Verif.Core.Payloads.C130_endpoints_exact",
    "Verif.Core.Payloads.C130_service_exact",
    "Verif.Core.Payloads.C130_attach_exact"
   ],
   "note": "Both passes of every encoder are transcribed on top of the tinycbor encoder. The text of an address (`np_ip_address_to_string`, nabto-common) is given. The reading theorems ask for strings shorter than 2^64 and fewer than 2^31 elements."
  },
  {
   "property": "C131",
   "status": "partial",
   "theorems": [
    "Verif.Core.LocalIp.C131_safe",
    "Verif.Core.LocalIp.C131_own",
    "Verif.Core.LocalIp.C131_internet_partial",
    "Verif.Core.LocalIp.C131_answer",
    "Verif.Core.LocalIp.C131_no_internet_violated",
    "Verif.Core.LocalIp.C131_two_networks_violated"
   ],
   "note": "Proved: only own addresses, one of each family, within the array, sockets closed, and the address used to go into the internet is among them; the answer to a client has exactly the local endpoints and the one of the analysis. Violated: without a route to 8.8.8.8 or 2001:4860:4860::8888 no address is offered; of two IPv4 networks at most one is served."
  },
  {
   "property": "C132",
   "status": "partial",
   "theorems": [
    "Verif.Device.Create.C132_freed",
    "Verif.Device.Create.C132_whole",
    "Verif.Device.Create.C132_undone_partial",
    "Verif.Device.Create.C132_no_thread",
    "Verif.Device.Create.C132_broken",
    "Verif.Device.Create.C132_leak_violated",
    "Verif.Device.Create.C132_platform_violated",
    "Verif.Device.Create.C132_crash_violated",
    "Verif.Device.Create.C132_half_made_violated"
   ],
   "note": "Proved for every combination of failures: a device which was made is freed without a trace; it has everything but random numbers, the timer of the password tokens and the stream event, whose failures are ignored; a failed creation leaves no thread, device object or mutex; only an event queue thread which cannot be started breaks the process. Violated: after each of 40 failures something is left behind or something uninitialised is destroyed."
  },
  {
   "property": "C133",
   "status": "partial",
   "theorems": [
    "Verif.Iam.Service.Props.C133_loop",
    "Verif.Iam.Service.Props.C133_answered_partial",
    "Verif.Iam.Service.Props.C133_memory_partial",
    "Verif.Iam.Service.Props.C133_lifetime_partial",
    "Verif.Iam.Service.Props.C133_success",
    "Verif.Iam.Service.Props.C133_unanswered_violated",
    "Verif.Iam.Service.Props.C133_repeated_violated",
    "Verif.Iam.Service.Props.C133_repeated_leak_violated",
    "Verif.Iam.Service.Props.C133_delete_twice_violated",
    "Verif.Iam.Service.Props.C133_leak_violated",
    "Verif.Iam.Service.Props.C133_create_violated",
    "Verif.Iam.Service.Props.C133_null_violated",
    "Verif.Iam.Service.Props.C133_allocator_violated",
    "Verif.Iam.Service.Props.C133_failure_violated",
    "Verif.Iam.Service.Props.C133_race_violated",
    "Verif.Iam.Service.Props.C133_lifetime_violated"
   ],
   "note": "Proved for every history: each request is given back exactly once, and the resource waits for the next unless a notification is on its way. Outside of the cases named in the specification each request is answered exactly once, all memory is given back, and none is used when it is gone. A request is answered with success only if the caller may do it, the request is complete, what it is about is there and what it would collide with is not. Violated: four resources do not answer without memory; bad bodies and failed deletions are answered several times; a password in a request for open pairing loses memory every time; a refused token loses a user and is answered with 201; a null name, an allocator of the application in open pairing, a failed notification and a request before `set_async` are undefined behaviour."
  },
  {
   "property": "C134",
   "status": "partial",
   "theorems": [
    "Verif.Iam.Record.Props.C134_copy",
    "Verif.Iam.Record.Props.C134_user",
    "Verif.Iam.Record.Props.C134_call",
    "Verif.Iam.Record.Props.C134_categories_partial",
    "Verif.Iam.Record.Props.C134_load_partial",
    "Verif.Iam.Record.Props.C134_categories_violated",
    "Verif.Iam.Record.Props.C134_load_violated",
    "Verif.Iam.Record.Props.C134_load_leak_violated"
   ],
   "note": "Proved for every pattern of failures: a copy says what the original says and is separate memory, or it is refused without a leak; a user built by any calls says what the successful calls asked for; freeing gives everything back once. With enough memory a load is exactly the function whose round trip is C15. Violated: the setter of the categories answers success and drops them; a load answers success and drops users, roles, passwords or fingerprints; a document of a later version leaks its parse tree. `nn_string_set` is assumed to insert or to refuse."
  },
  {
   "property": "C135",
   "status": "partial",
   "theorems": [
    "Verif.Device.Keys.Props.C135_crt",
    "Verif.Device.Keys.Props.C135_wolf_crt_partial",
    "Verif.Device.Keys.Props.C135_fingerprint",
    "Verif.Device.Keys.Props.C135_fingerprint_partial",
    "Verif.Device.Keys.Props.C135_create_partial",
    "Verif.Device.Keys.Props.C135_set_partial",
    "Verif.Device.Keys.Props.C135_set_well",
    "Verif.Device.Keys.Props.C135_history",
    "Verif.Device.Keys.Props.C135_sign_violated",
    "Verif.Device.Keys.Props.C135_leak_violated",
    "Verif.Device.Keys.Props.C135_hash_violated",
    "Verif.Device.Keys.Props.C135_create_violated"
   ],
   "note": "Proved for every pattern of failures with mbedtls 2, but for a drawn key without memory for the text. Violated: with wolfSSL a signature which fails is not noticed (the check looks at another variable) and a length near 2^32 goes to the library; a certificate which cannot be written leaks the generator and the key; with mbedtls 3 a failing digest leaves a stale fingerprint with OK, also for peers; with mbedtls drawing a key says OK without a text when memory is short. The libraries are parameters: reading a written key gives it back, a public key has 1 to 256 bytes of DER."
  },
  {
   "property": "C136",
   "status": "partial",
   "theorems": [
    "Verif.Device.Keys.Props.C136_compare",
    "Verif.Device.Keys.Props.C136_mbedtls",
    "Verif.Device.Keys.Props.C136_mbedtls_well",
    "Verif.Device.Keys.Props.C136_wolfssl_partial",
    "Verif.Device.Keys.Props.C136_wolf_memory_partial",
    "Verif.Device.Keys.Props.C136_zero_violated"
   ],
   "note": "Full for mbedtls. With wolfSSL the byte comparison is proved to be the comparison of the numbers, and nothing is left behind if the certificate can be signed and written; zero passes the comparison, so that refusing zero is left to the library."
  },
  {
   "property": "C137",
   "status": "partial",
   "theorems": [
    "Verif.Iam.Builder.Props.C137_contract",
    "Verif.Iam.Builder.Props.C137_config_partial",
    "Verif.Iam.Builder.Props.C137_parts_partial",
    "Verif.Iam.Builder.Props.C137_failed",
    "Verif.Iam.Builder.Props.C137_well",
    "Verif.Iam.Builder.Props.C137_memory",
    "Verif.Iam.Builder.Props.C137_use",
    "Verif.Iam.Builder.Props.C137_key_violated"
   ],
   "note": "Contract, memory and failures are proved in full. The contents are proved when the key of every condition could be copied; violated otherwise: nm_condition_new_with_key hands out a condition whose key is NULL when memory is short, and the caller is not told. nn_string_set and nn_llist are not in the repository and are taken as a set in order of insertion and a list."
  },
  {
   "property": "C138",
   "status": "proved",
   "theorems": [
    "Verif.Api.Events.Props.C138_observed",
    "Verif.Api.Events.Props.C138_memory",
    "Verif.Api.Events.Props.C138_order",
    "Verif.Api.Events.Props.C138_futures",
    "Verif.Api.Events.Props.C138_others",
    "Verif.Api.Events.Props.C138_twice_violated"
   ],
   "note": "Proved within the contract, under which a listener is initialised once. The library does not check that contract: C138_twice_violated shows that a second initialisation, which is answered with OK, leads to the use of freed memory. The order is stated for calls which give variables to write to; with NULL the event is taken and nothing is written."
  },
  {
   "property": "C139",
   "status": "partial",
   "theorems": [
    "Verif.Api.ConnFp.Props.C139_observed_partial",
    "Verif.Api.ConnFp.Props.C139_memory_partial",
    "Verif.Api.ConnFp.Props.C139_told_partial",
    "Verif.Api.ConnFp.Props.C139_freed_partial",
    "Verif.Api.ConnFp.Props.C139_device_partial",
    "Verif.Api.ConnFp.Props.C139_terminator_violated",
    "Verif.Api.ConnFp.Props.C139_close_violated",
    "Verif.Api.ConnFp.Props.C139_lost_violated",
    "Verif.Api.ConnFp.Props.C139_buffer_violated",
    "Verif.Api.ConnFp.Props.C139_null_violated"
   ],
   "note": "Proved for all histories in which the buffer of a setter can be allocated and the device fingerprint of a virtual connection, once set, is not asked for. The rest is false of the code: that fingerprint is handed out without a terminator, the future of close is never resolved, a failing setter loses the old fingerprint, its buffer is not checked, and a getter without memory says OK with NULL (the specification of C139_observed_partial describes these last effects as they are)."
  },
  {
   "property": "C140",
   "status": "partial",
   "theorems": [
    "Verif.Iam.Handler.C140_decided_partial",
    "Verif.Iam.Handler.C140_safe_partial",
    "Verif.Iam.Handler.C140_answered_partial",
    "Verif.Iam.Handler.C140_memory_partial",
    "Verif.Iam.Handler.C140_memory_short_violated"
   ],
   "note": "Proved for all histories if inserting into the attribute map does not fail; C140_safe_partial also needs that no connection is authorised as a deleted user (C08). If inserting an attribute fails for lack of memory the claim is false of the code: a Deny statement about the attribute no longer applies."
  },
  {
   "property": "C141",
   "status": "partial",
   "theorems": [
    "Verif.Dtls.Attach.C141_authentic",
    "Verif.Dtls.Attach.C141_available",
    "Verif.Dtls.Attach.C141_disabled",
    "Verif.Dtls.Attach.C141_override_violated",
    "Verif.Dtls.Attach.C141_memory_partial",
    "Verif.Dtls.Attach.C141_safe_partial",
    "Verif.Dtls.Attach.C141_leak_violated",
    "Verif.Dtls.Attach.C141_dangling_violated"
   ],
   "note": "Whom the device attaches to is proved for both libraries and all histories. False of the code: root certificates set by the user are added to the default one instead of replacing it; a failure to create an event leaks the connection (both libraries); a failure to set the host name leaves a freed connection in use (wolfSSL). The memory theorems hold when these steps do not fail; mbedTLS never uses freed memory whatever fails."
  },
  {
   "property": "C142",
   "status": "partial",
   "theorems": [
    "Verif.Dtls.Accept.C142_others",
    "Verif.Dtls.Accept.C142_opens",
    "Verif.Dtls.Accept.C142_gone",
    "Verif.Dtls.Accept.C142_limit",
    "Verif.Dtls.Accept.C142_closed_once",
    "Verif.Dtls.Accept.C142_balanced_partial",
    "Verif.Dtls.Accept.C142_safe_partial",
    "Verif.Dtls.Accept.C142_leak_violated",
    "Verif.Dtls.Accept.C142_crash_violated"
   ],
   "note": "Other connections, the limit and the told ends are proved for all histories and failures. False of the code: a session whose creation fails after its block is allocated leaks, without bound (both libraries); with wolfSSL any failure after the first two blocks follows a NULL pointer. The memory and safety theorems hold without such failures; with mbedTLS nothing undefined happens whatever fails."
  },
  {
   "property": "C143",
   "status": "partial",
   "theorems": [
    "Verif.Stream.VirtualApi.C143_once_partial",
    "Verif.Stream.VirtualApi.C143_abort_partial",
    "Verif.Stream.VirtualApi.C143_exclusive_partial",
    "Verif.Stream.VirtualApi.C143_codes_partial",
    "Verif.Stream.VirtualApi.C143_free_partial",
    "Verif.Stream.VirtualApi.C143_read_after_abort_violated",
    "Verif.Stream.VirtualApi.C143_not_opened_violated",
    "Verif.Stream.VirtualApi.C143_open_failed_violated",
    "Verif.Stream.VirtualApi.C143_open_twice_violated",
    "Verif.Stream.VirtualApi.C143_read_all_violated",
    "Verif.Stream.VirtualApi.C143_memory_violated",
    "Verif.Stream.VirtualApi.C143_free_early_violated"
   ],
   "note": "Proved for an application which opens the handle once and first, starts no read_all while a read waits and frees the handle when its futures are resolved, with memory. False of the code otherwise: freeing a handle which was not opened or could not be opened follows NULL; a read after abort is never resolved by any continuation; a second open loses the first future; read_all while a read waits blocks the device; freeing early uses freed memory."
  },
  {
   "property": "C144",
   "status": "partial",
   "theorems": [
    "Verif.Dtls.Timer.C144_delay_partial",
    "Verif.Dtls.Timer.C144_never_early_partial",
    "Verif.Dtls.Timer.C144_after_callback_partial",
    "Verif.Dtls.Timer.C144_callback_partial",
    "Verif.Dtls.Timer.C144_pending_partial",
    "Verif.Dtls.Timer.C144_late_violated",
    "Verif.Dtls.Timer.C144_set_raced_violated",
    "Verif.Dtls.Timer.C144_cancel_raced_violated",
    "Verif.Dtls.Timer.C144_long_violated"
   ],
   "note": "Proved for a timer used on the event thread with delays below 2^31 ms. False of the code otherwise: until the callback has run the answer is 1 although the final delay has passed; set or cancelled by another thread while the event thread has taken the event, the old callback runs for the new delays or after cancelling; an intermediate delay of 2^31 ms or more counts as passed at once."
  },
  {
   "property": "C145",
   "status": "partial",
   "theorems": [
    "Verif.Iam.ConfigLoad.C145_whole_partial",
    "Verif.Iam.ConfigLoad.C145_missing_partial",
    "Verif.Iam.ConfigLoad.C145_no_wider_partial",
    "Verif.Iam.ConfigLoad.C145_memory_partial",
    "Verif.Iam.ConfigLoad.C145_value_lost_violated",
    "Verif.Iam.ConfigLoad.C145_policy_lost_violated",
    "Verif.Iam.ConfigLoad.C145_key_lost_violated",
    "Verif.Iam.ConfigLoad.C145_half_loaded_violated"
   ],
   "note": "Proved: with memory enough the result and every decision are exactly those of the document; otherwise what may be missing is characterised; no wider access if the configuration has only Allow statements, conditions on strings and roles naming existing policies; no leaks for any pattern of failures. False of the code otherwise: a lost value of a condition of a Deny statement, or a lost Deny policy of a role, grants what the document denies; a lost key makes each later decision on that statement compare with NULL; a failed load leaves the policies and roles loaded before the failure."
  },
  {
   "property": "C146",
   "status": "partial",
   "theorems": [
    "Verif.Iam.Lifecycle.C146_started_partial",
    "Verif.Iam.Lifecycle.C146_stopped_partial",
    "Verif.Iam.Lifecycle.C146_ended_partial",
    "Verif.Iam.Lifecycle.C146_refused_partial",
    "Verif.Iam.Lifecycle.C146_leak_violated",
    "Verif.Iam.Lifecycle.C146_stop_violated",
    "Verif.Iam.Lifecycle.C146_sets_violated"
   ],
   "note": "Proved in full for a module which started; for one which did not: everything is freed once except at most one listener, that of a CoAP handler for which no future could be made, and nothing is misused unless the state or the configuration was refused. False of the code: that listener is lost; nm_iam_stop after a failed start uses listeners which are not there; a set and a vector are deinitialised which never were initialised."
  },
  {
   "property": "C147",
   "status": "partial",
   "theorems": [
    "Verif.Iam.Login.C147_takeover_violated",
    "Verif.Iam.Login.C147_one_name_partial",
    "Verif.Iam.Login.C147_accepted_partial"
   ],
   "note": "Proved for connections which ask for one name only, with memory enough, and for the moment at which a password is accepted; the IAM module may change in any way meanwhile. False of the code otherwise, in every state: a client who knows one password (of any user, or of open pairing) is after one more request taken for any other user, also one without a password, and every access check answers as for that user."
  },
  {
   "property": "C148",
   "status": "partial",
   "theorems": [
    "Verif.Tunnel.Access.C148_opened_partial",
    "Verif.Tunnel.Access.C148_refused_partial",
    "Verif.Tunnel.Access.C148_listed_partial",
    "Verif.Tunnel.Access.C148_described_partial",
    "Verif.Tunnel.Access.C148_safe_partial",
    "Verif.Tunnel.Access.C148_memory_short_violated"
   ],
   "note": "Proved for all histories when the string map of the handler can be filled. False when inserting an attribute fails for lack of memory: a Deny statement about it does not apply and the tunnel is opened (C148_memory_short_violated). The description of a service may show another service which replaced it meanwhile (C85). Freedom from undefined behaviour assumes that no connection is authorised as a deleted user (C08)."
  },
  {
   "property": "C149",
   "status": "partial",
   "theorems": [
    "Verif.Iam.Pairing.C149_open_violated",
    "Verif.Iam.Pairing.C149_invite_violated",
    "Verif.Iam.Pairing.C149_twice_violated",
    "Verif.Iam.Pairing.C149_open_partial",
    "Verif.Iam.Pairing.C149_invite_partial",
    "Verif.Iam.Pairing.C149_spent_partial"
   ],
   "note": "Proved for connections which asked to be authenticated under one name only, with memory enough, in all histories; and that a used invitation leaves no password. False of the code otherwise: the password of any user serves for open pairing (all states), any password serves to pair with any user who may pair (all states, by C147), and clients who proved the password of an invitation before it was used can all pair (witness)."
  },
  {
   "property": "C150",
   "status": "partial",
   "theorems": [
    "Verif.Iam.FcmTest.C150_target",
    "Verif.Iam.FcmTest.C150_sent",
    "Verif.Iam.FcmTest.C150_denied",
    "Verif.Iam.FcmTest.C150_text_partial",
    "Verif.Iam.FcmTest.C150_text_violated"
   ],
   "note": "Whom it goes to and under which permission is proved for all states. The text is proved for tokens without quotes, backslashes and control characters, for the JSON reader of Json/Cjson. False of the code for other tokens: a token with a quote in it adds members to the message (for all titles)."
  },
  {
   "property": "C151",
   "status": "partial",
   "theorems": [
    "Verif.Dtls.Identity.C151_wolf",
    "Verif.Dtls.Identity.C151_wolf_memory",
    "Verif.Dtls.Identity.C151_first_partial",
    "Verif.Dtls.Identity.C151_certificate_violated",
    "Verif.Dtls.Identity.C151_mixed_violated",
    "Verif.Dtls.Identity.C151_misuse_violated",
    "Verif.Dtls.Identity.C151_lost_violated"
   ],
   "note": "Proved for wolfSSL for all histories, and for MbedTLS for the first start after a key was set. False of the code for further starts with MbedTLS: the server shows its first certificate for ever, the library is used against its documentation, and the memory of the client's first certificate and key is lost (all histories)."
  },
  {
   "property": "C152",
   "status": "proved",
   "theorems": [
    "Verif.Core.Attacher.Requests.Props.C152_one",
    "Verif.Core.Attacher.Requests.Props.C152_outstanding"
   ],
   "note": "Proved for every execution of the model of the attacher, also the irregular ones."
  },
  {
   "property": "C153",
   "status": "proved",
   "theorems": [
    "Verif.Core.Attacher.Order.Props.C153_end",
    "Verif.Core.Attacher.Order.Props.C153_attached"
   ],
   "note": "Proved for every execution of the model of the attacher. An answer with a code belongs to the connection the device has: answers on other connections are given up by the CoAP library (assumption of the model, see `St.answerable`)."
  },
  {
   "property": "C154",
   "status": "partial",
   "theorems": [
    "Verif.Net.Multicast.Props.C154_heard_partial",
    "Verif.Net.Multicast.Props.C154_only",
    "Verif.Net.Multicast.Props.C154_late_violated",
    "Verif.Net.Multicast.Props.C154_back_violated",
    "Verif.Net.Multicast.Props.C154_list_violated"
   ],
   "note": "Proved for networks which are there when the socket is bound and stay, if the system lets a socket join that many groups. False of the code for networks which come up or come back later, and if the interfaces cannot be listed: only the binds join the group."
  },
  {
   "property": "C155",
   "status": "partial",
   "theorems": [
    "Verif.Core.Expiry.Props.C155_attached_partial",
    "Verif.Core.Expiry.Props.C155_null_violated",
    "Verif.Core.Expiry.Props.C155_code_violated",
    "Verif.Core.Expiry.Props.C155_early_violated",
    "Verif.Core.Expiry.Props.C155_wolf_violated"
   ],
   "note": "Proved with MbedTLS and timegm for an attached device: the answer is the time of the certificate, for all dates since 1970 (timegm is modelled by the formula of POSIX and proved equal to counting days). False of the code otherwise: without a connection a NULL pointer is read, NOT_ATTACHED is never answered, a device which is only connected answers with success, and wolfSSL has no answer."
  },
  {
   "property": "C156",
   "status": "partial",
   "theorems": [
    "Verif.Event.Libevent.Props.C156_asked",
    "Verif.Event.Libevent.Props.C156_once",
    "Verif.Event.Libevent.Props.C156_post_partial",
    "Verif.Event.Libevent.Props.C156_maybe_partial",
    "Verif.Event.Libevent.Props.C156_now_partial",
    "Verif.Event.Libevent.Props.C156_unexpired_partial",
    "Verif.Event.Libevent.Props.C156_lost_violated",
    "Verif.Event.Libevent.Props.C156_hang_violated",
    "Verif.Event.Libevent.Props.C156_late_violated"
   ],
   "note": "Proved: the callback runs only when asked for and not too often; what was posted is going to run as long as no cancellation hangs, without waiting for a timer if it was not delayed since or no timer has expired; and for post_maybe_double if the event is never cancelled. False of the code otherwise: cancel leaves the mark of a posted event, so post_maybe_double refuses it for ever; cancel with the mutex waits for a handler which waits for the mutex; and a posted event whose timer has expired waits for the timer which is set next. libevent is modelled after version 2.1. The platforms of the repository use the event queue of C32 instead."
  },
  {
   "property": "C157",
   "status": "partial",
   "theorems": [
    "Verif.Api.Stamp.Props.C157_unix",
    "Verif.Api.Stamp.Props.C157_unix_order",
    "Verif.Api.Stamp.Props.C157_std_partial",
    "Verif.Api.Stamp.Props.C157_std_order_partial",
    "Verif.Api.Stamp.Props.C157_std_bound",
    "Verif.Api.Stamp.Props.C157_place",
    "Verif.Api.Stamp.Props.C157_level",
    "Verif.Api.Stamp.Props.C157_future_violated",
    "Verif.Api.Stamp.Props.C157_order_violated"
   ],
   "note": "Proved of the logger for Unix, and of the standard logger for lines which read the clock within one second. False of the standard logger otherwise: it takes the milliseconds from one reading of the clock and the seconds from the next, so a line at the end of a second is stamped up to 999 ms in the future. The conversion to local time is left to the C library."
  },
  {
   "property": "C158",
   "status": "partial",
   "theorems": [
    "Verif.Core.Ice.Props.C158_servers_partial",
    "Verif.Core.Ice.Props.C158_memory_partial",
    "Verif.Core.Ice.Props.C158_credential_violated",
    "Verif.Core.Ice.Props.C158_rest_violated",
    "Verif.Core.Ice.Props.C158_undefined_violated",
    "Verif.Core.Ice.Props.C158_leak_violated"
   ],
   "note": "Proved: with enough memory the servers of the answer are seen if none has a credential without a username; if Urls is an array wherever it is there, releasing the request is safe and loses at most one block, none with enough memory. False of the code otherwise: credentials without a username are dropped, the servers in front of a mistake are seen after a failure, Urls which is not an array makes the code release a vector that was never initialised, and a url the vector cannot take is lost. Elements which are not maps are the subject of C71."
  },
  {
   "property": "C159",
   "status": "partial",
   "theorems": [
    "Verif.Api.CoapRequest.Props.C159_every_partial",
    "Verif.Api.CoapRequest.Props.C159_prompt",
    "Verif.Api.CoapRequest.Props.C159_plenty",
    "Verif.Api.CoapRequest.Props.C159_memory_partial",
    "Verif.Api.CoapRequest.Props.C159_crash_violated",
    "Verif.Api.CoapRequest.Props.C159_stop_violated",
    "Verif.Api.CoapRequest.Props.C159_init_violated"
   ],
   "note": "Proved for one listener: as long as the device does not crash, every request is given to the application in order, waits, or is answered, exactly one of them; nothing is released twice and the memory in use is accounted for exactly, including the blocks which are lost; with enough memory there is no crash; no request waits while the application waits for one. False of the code otherwise: a request for which the core has no memory crashes the device, stopping a listener loses two blocks for every waiting request, and a listener whose resource cannot be registered loses one. Missing: the library, several listeners on one device, virtual connections (see the properties about these)."
  },
  {
   "property": "C160",
   "status": "partial",
   "theorems": [
    "Verif.Api.ErrorCode.Props.C160_translated",
    "Verif.Api.ErrorCode.Props.C160_message",
    "Verif.Api.ErrorCode.Props.C160_other",
    "Verif.Api.ErrorCode.Props.C160_string_partial",
    "Verif.Api.ErrorCode.Props.C160_coap",
    "Verif.Api.ErrorCode.Props.C160_request_partial",
    "Verif.Api.ErrorCode.Props.C160_ok",
    "Verif.Api.ErrorCode.Props.C160_string_violated",
    "Verif.Api.ErrorCode.Props.C160_timeout_violated",
    "Verif.Api.ErrorCode.Props.C160_bad_violated"
   ],
   "note": "Proved: codes which are translated are codes of the header for every integer; messages and strings tell the codes apart; requests to the basestation report success exactly when they should, and a code of the header unless they time out or are answered with something wrong. False of the code otherwise: the codes of timeouts and bad responses are passed on untranslated and are not in the header, and no string is the one the header promises. Missing: the other places where a code of the core is passed on untranslated (nabto_device_start, nabto_device_close, the futures of listeners)."
  }
 ]
}
