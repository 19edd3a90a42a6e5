{"id": "C01", "title": "IAM decision is exactly 'some Allow, no Deny, no Error'", "statement": "nm_iam_check_access answers true exactly when the role that applies to the connection exists, every policy id the role lists exists, no statement of those policies that applies to the request denies or fails to evaluate, and at least one applicable statement allows.", "quantifier": "every configuration (any number of roles, policies, statements, conditions, values), every action and every attribute map", "why_tests_cant": "the decision ranges over unboundedly many policy documents and attribute maps; a test fixes a handful", "anchors": ["src/modules/iam/nm_iam_internal.c:nm_iam_internal_check_access", "src/modules/iam/nm_iam_internal.c:nm_iam_internal_check_access_role", "src/modules/iam/policies/nm_policy.c:nm_policy_eval", "src/modules/iam/policies/nm_statement.c:nm_statement_eval"]}
{"id": "C02", "title": "Adding rules that only deny never grants access; order of policies is irrelevant", "statement": "Adding Deny statements, removing Allow statements that can be evaluated, or appending conditions to Allow statements can never turn a denied request into an allowed one, and reordering the policies of a role or the statements of a policy never changes whether the request is allowed.", "quantifier": "every pair of configurations related by the edit, every request", "why_tests_cant": "quantifies over pairs of arbitrary policy documents and all permutations", "anchors": ["src/modules/iam/policies/nm_policy.c:nm_policy_eval", "src/modules/iam/policies/nm_statement.c:nm_statement_eval", "src/modules/iam/nm_iam_internal.c:nm_iam_internal_check_access_role"]}
{"id": "C03", "title": "A statement applies only if its action list contains the action and every condition holds", "statement": "A statement contributes its Allow or Deny effect exactly when the requested action is literally one of its actions and every one of its conditions matches; a statement with a failing condition contributes nothing and one whose condition cannot be evaluated makes the whole request denied.", "quantifier": "every statement, action, attribute map", "why_tests_cant": "unbounded numbers of actions, conditions and values", "anchors": ["src/modules/iam/policies/nm_statement.c:nm_statement_eval", "src/modules/iam/policies/nm_condition.c:nm_condition_matches"]}
{"id": "C04", "title": "Condition semantics of the nine operators with variable substitution", "statement": "A condition matches exactly when the request carries the attribute and the attribute stands in the operator's relation to one of the condition's values, where a value of the form ${name} stands for the request attribute of that name and never matches if that attribute is absent; text that is not a number or boolean under a numeric or boolean operator is an error, never a match.", "quantifier": "every operator, key, list of values and attribute map", "why_tests_cant": "values and attributes are arbitrary strings; order-dependent early exit needs induction over the value list", "anchors": ["src/modules/iam/policies/nm_condition.c:nm_condition_matches", "src/modules/iam/policies/nm_condition.c:resolve_value", "src/modules/iam/policies/nm_condition.c:match"]}
{"id": "C05", "title": "StringNotEquals excludes every listed value", "statement": "As documented in nm_iam_configuration.h, a StringNotEquals (NumericNotEquals) condition holds only if the attribute differs from all of the listed values.", "quantifier": "every attribute value and every list of condition values", "why_tests_cant": "needs all value lists; the shipped tests use one-element lists where the wrong quantifier is invisible", "anchors": ["src/modules/iam/nm_iam_configuration.h:NM_IAM_CONDITION_OPERATOR_STRING_NOT_EQUALS", "src/modules/iam/policies/nm_condition.c:nm_condition_matches"]}
{"id": "C06", "title": "Access control fails closed", "statement": "If the connection is gone, or the role of the user (or the unpaired role) is unset or unknown, or a policy the role names is missing, the access check answers false whatever else the configuration says.", "quantifier": "every configuration, state, connection and request", "why_tests_cant": "every combination of missing pieces and otherwise permissive configuration", "anchors": ["src/modules/iam/nm_iam_internal.c:nm_iam_internal_check_access"]}
{"id": "C07", "title": "Connection attributes cannot be supplied by the requester", "statement": "Policies that test Connection:IsLocal or Connection:Username see the values derived from the connection, even if the caller of the access check supplies attributes with the same names.", "quantifier": "every attribute list supplied with the request, every connection", "why_tests_cant": "all attribute lists including ones using the reserved names", "anchors": ["src/modules/iam/nm_iam_internal.c:nm_iam_internal_check_access", "src/modules/iam/nm_iam_auth_handler.c"]}
{"id": "C08", "title": "Which user a connection acts as", "statement": "A connection acts as the user owning its client fingerprint; failing that as the user it proved a password for; failing that as the user it was explicitly authorised as; otherwise it is unpaired and gets the unpaired role.", "quantifier": "every state, connection and set of authorised connections", "why_tests_cant": "all combinations of users, fingerprints, password state and authorised connections", "anchors": ["src/modules/iam/nm_iam_internal.c:nm_iam_internal_check_access", "src/modules/iam/nm_iam_internal.c:nm_iam_internal_find_user_by_coap_request"]}
{"id": "C09", "title": "A connection counts as password authenticated only for a user whose password it proved", "statement": "nabto_device_connection_is_password_authenticated together with nabto_device_connection_get_password_authentication_username name a user only if the peer completed key confirmation for that user's password on this connection.", "quantifier": "every sequence of password authentication requests a peer can send on a connection", "why_tests_cant": "needs every interleaving of step 1 and step 2 messages with different usernames", "anchors": ["src/core/nc_spake2.c:nc_spake2_password_ready", "src/core/nc_spake2_coap.c:nc_spake2_handle_coap_2", "src/api/nabto_device_password_authentication.c:nabto_device_connection_get_password_authentication_username"]}
{"id": "C10", "title": "Password guessing is rate limited", "statement": "The number of failed password guesses the device evaluates within any period is at most 10 plus one per second of that period, the token counter never underflows, and while no tokens are left every attempt is answered 4.29 and changes nothing.", "quantifier": "every interleaving of authentication messages from any number of connections with timer expiries", "why_tests_cant": "schedules of unbounded length and any number of connections", "anchors": ["src/core/nc_spake2.c:nc_spake2_spend_token", "src/core/nc_spake2.c:newTokenEvent", "src/core/nc_spake2_coap.c:nc_spake2_handle_coap_1", "src/core/nc_spake2_coap.c:nc_spake2_handle_coap_2"]}
{"id": "C11", "title": "Usernames stay valid and unique", "statement": "Starting from a state whose usernames are pairwise different and valid, every sequence of API calls and CoAP requests keeps usernames pairwise different, non-empty, over [a-z0-9_.-] and at most the configured maximum length.", "quantifier": "every history of API calls and CoAP requests by any clients", "why_tests_cant": "histories of unbounded length over all handlers", "anchors": ["src/modules/iam/nm_iam_internal.c:nm_iam_internal_create_user", "src/modules/iam/nm_iam_internal.c:nm_iam_internal_pair_new_client", "src/modules/iam/coap_handler/nm_iam_set_user_username.c", "src/modules/iam/nm_iam_user.c:nm_iam_user_validate_username"]}
{"id": "C12", "title": "The configured user limit is never exceeded", "statement": "nm_iam_set_max_users(n) bounds the number of users: no API call or CoAP request creates a user when n users exist.", "quantifier": "every history of API calls and CoAP requests", "why_tests_cant": "histories through every route that can create users", "anchors": ["src/modules/iam/nm_iam.h:nm_iam_set_max_users", "src/modules/iam/nm_iam_internal.c:nm_iam_internal_pair_new_client", "src/modules/iam/nm_iam_internal.c:nm_iam_internal_create_user"]}
{"id": "C13", "title": "A state the module produced can be loaded again", "statement": "After any history of API calls and CoAP requests starting from a loaded state, dumping the state and loading it into a module with the same limits succeeds (nm_iam_load_state accepts it).", "quantifier": "every history of operations, every dump point", "why_tests_cant": "crash or restart can happen after any operation; needs an invariant over all histories", "anchors": ["src/modules/iam/nm_iam_internal.c:validate_state", "src/modules/iam/nm_iam_internal.c:nm_iam_internal_load_state", "src/modules/iam/nm_iam_serializer.c"]}
{"id": "C14", "title": "A client key identifies at most one user", "statement": "No history of operations leads from a state where every fingerprint belongs to at most one user to a state where one client fingerprint is registered for two users.", "quantifier": "every history of API calls and CoAP requests", "why_tests_cant": "all routes that add fingerprints, all histories", "anchors": ["src/modules/iam/nm_iam_internal.c:nm_iam_internal_set_user_fingerprint", "src/modules/iam/nm_iam_internal.c:nm_iam_internal_add_user_fingerprint", "src/modules/iam/coap_handler/nm_iam_set_user_fingerprints.c", "src/modules/iam/nm_iam_pairing.c"]}
{"id": "C15", "title": "State persistence round trip", "statement": "Loading the JSON produced by nm_iam_serializer_state_dump_json gives back the same state: all users in order with every field, pairing modes, passwords, tokens, roles and names.", "quantifier": "every state", "why_tests_cant": "unbounded states with optional fields in every combination", "anchors": ["src/modules/iam/nm_iam_serializer.c:nm_iam_serializer_state_dump_json", "src/modules/iam/nm_iam_serializer.c:nm_iam_serializer_state_load_json", "src/modules/iam/nm_iam_to_json.c", "src/modules/iam/nm_iam_from_json.c"]}
{"id": "C16", "title": "Configuration persistence round trip", "statement": "Loading the JSON produced by nm_iam_serializer_configuration_dump_json gives back the same policies, statements, conditions, roles and unpaired role, so the same decisions.", "quantifier": "every configuration", "why_tests_cant": "unbounded configurations", "anchors": ["src/modules/iam/nm_iam_serializer.c:nm_iam_serializer_configuration_dump_json", "src/modules/iam/policies/nm_policies_to_json.c", "src/modules/iam/policies/nm_policies_from_json.c"]}
{"id": "C17", "title": "Parsing a policy never weakens it", "statement": "A policy document that is accepted is enforced as written: every operator, attribute and value of every condition in the document restricts the statement; a document whose conditions cannot be represented is rejected.", "quantifier": "every JSON document", "why_tests_cant": "all JSON documents, including ones with several operators per condition", "anchors": ["src/modules/iam/policies/nm_policies_from_json.c:nm_condition_from_json", "src/modules/iam/policies/nm_policies_from_json.c:nm_statement_from_json"]}
{"id": "C18", "title": "A deleted user loses access", "statement": "After nm_iam_delete_user (or DELETE /iam/users/{user}) no connection is treated as that user any more, and checking access does not touch freed memory.", "quantifier": "every history with deletions and authorised connections", "why_tests_cant": "needs histories in which a connection was authorised as the user before the deletion", "anchors": ["src/modules/iam/nm_iam_internal.c:nm_iam_internal_delete_user", "src/modules/iam/nm_iam_internal.c:nm_iam_internal_authorize_connection", "src/modules/iam/nm_iam_internal.c:nm_iam_internal_check_access"]}
{"id": "C19", "title": "Connection authorisation ends with the connection", "statement": "An authorisation given with nm_iam_authorize_connection is forgotten when the connection closes, so it can never apply to another connection.", "quantifier": "every sequence of authorise and close events", "why_tests_cant": "needs repeated authorisations of one connection in any order", "anchors": ["src/modules/iam/nm_iam_connection_events.c", "src/modules/iam/nm_iam_internal.c:nm_iam_internal_authorize_connection"]}
{"id": "C20", "title": "Users are only paired through enabled and permitted pairing modes", "statement": "A CoAP request to a pairing resource creates or pairs a user only if that pairing mode is enabled in the state and possible, the policies allow the caller the corresponding pairing action, and the mode's proof is given: a local connection for the local modes, password authentication for the password modes.", "quantifier": "every request on every pairing resource in every state and configuration", "why_tests_cant": "all states, configurations and callers", "anchors": ["src/modules/iam/coap_handler/nm_iam_pairing_local_open.c", "src/modules/iam/coap_handler/nm_iam_pairing_password_open.c", "src/modules/iam/coap_handler/nm_iam_pairing_password_invite.c", "src/modules/iam/coap_handler/nm_iam_pairing_local_initial.c", "src/modules/iam/nm_iam_pairing.c"]}
{"id": "C21", "title": "An invitation password works once", "statement": "A successful password invite pairing clears the invited user's password, so no later history without a new set-password can pair another client with it.", "quantifier": "every history after a successful invite pairing", "why_tests_cant": "unbounded later histories", "anchors": ["src/modules/iam/coap_handler/nm_iam_pairing_password_invite.c"]}
{"id": "C22", "title": "CoAP mutations require permission and are atomic", "statement": "Every change of the IAM state by a CoAP request happens only if the policies allow the caller the action documented for that resource with the target's attributes, and a request answered with an error code leaves the state unchanged.", "quantifier": "every CoAP request on every IAM resource, every state and configuration", "why_tests_cant": "the product of all handlers, payloads, states and policies", "anchors": ["src/modules/iam/coap_handler/"]}
{"id": "C23", "title": "Every state change is reported", "statement": "The state changed callback is invoked after every operation that changes the state, so that persisting in the callback loses nothing.", "quantifier": "every history of operations", "why_tests_cant": "a crash can follow any operation", "anchors": ["src/modules/iam/nm_iam.h:nm_iam_set_state_changed_callback", "src/modules/iam/nm_iam_internal.c:nm_iam_internal_do_callbacks", "src/modules/iam/nm_iam.c"]}
{"id": "C24", "title": "User listings never reveal passwords", "statement": "The CBOR representation of a user returned by GET /iam/me and GET /iam/users/{user} does not depend on the user's password, and contains the other fields exactly.", "quantifier": "every user record", "why_tests_cant": "all user records", "anchors": ["src/modules/iam/coap_handler/nm_iam_coap_handler.c:nm_iam_cbor_encode_user"]}
{"id": "C25", "title": "Listing resources return every element", "statement": "GET /iam/users and GET /iam/roles answer an allowed caller with a CBOR array of exactly the usernames/role ids.", "quantifier": "every state with any number of users and roles", "why_tests_cant": "all sizes; encoder behaviour at buffer boundaries", "anchors": ["src/modules/iam/coap_handler/nm_iam_list_users.c", "src/modules/iam/coap_handler/nm_iam_list_roles.c", "3rdparty/tinycbor/tinycbor_src/src/cborencoder.c"]}
{"id": "C26", "title": "A future delivers its result once and unchanged", "statement": "Once an operation completes with code e, nabto_device_future_error_code reports e until the future is reused, and a callback set before or after the completion is called exactly once with e.", "quantifier": "every interleaving of set_callback, resolve and queue execution", "why_tests_cant": "all schedules of application threads, core thread and callback thread", "anchors": ["src/api/nabto_device_future.c", "src/api/nabto_device_future_queue.c"]}
{"id": "C27", "title": "Waiting on a future returns only after it is resolved", "statement": "nabto_device_future_wait returns only when the future has been resolved and returns its code; nabto_device_future_timed_wait returns FUTURE_NOT_RESOLVED exactly when it is not resolved on return.", "quantifier": "every schedule, including spurious wake-ups of the condition variable and futures that also have a callback", "why_tests_cant": "spurious wake-ups cannot be forced by a test", "anchors": ["src/api/nabto_device_future.c:nabto_device_future_wait", "src/api/nabto_device_future.c:nabto_device_future_resolve"]}
{"id": "C28", "title": "Listeners deliver every event exactly once and in order", "statement": "Events added to a listener are handed to the application's futures in arrival order, each exactly once; events not delivered when the listener is stopped are released exactly once with an error.", "quantifier": "every interleaving of add_event, init_future and stop", "why_tests_cant": "unbounded event histories", "anchors": ["src/api/nabto_device_listener.c"]}
{"id": "C29", "title": "A stopped listener resolves its pending future and rejects new work", "statement": "After nabto_device_listener_stop the pending future is resolved with NABTO_DEVICE_EC_STOPPED, every later listen call is answered with an error immediately and no event is delivered any more.", "quantifier": "every history before and after the stop", "why_tests_cant": "unbounded histories", "anchors": ["src/api/nabto_device_listener.c"]}
{"id": "C30", "title": "Every authorization request gets exactly one verdict and defaults to deny", "statement": "For every authorization request raised by the core the core receives exactly one verdict; it is allow only if the application called verdict(true) as its first verdict; dropping, freeing, stopping the listener or having no listener denies.", "quantifier": "every interleaving of verdict, free, listener stop and event execution", "why_tests_cant": "all schedules of application calls against core events", "anchors": ["src/api/nabto_device_authorization.c", "src/api/nabto_device_authorization_events.c"]}
{"id": "C31", "title": "API calls release the locks they take", "statement": "Every function of the public API (device, IAM, virtual connections) returns with all locks of the library released on every path through it, including error paths, never takes a lock the calling thread already holds and never releases one it does not hold; so later API calls do not block.", "quantifier": "every public function and every path through it, with every behaviour of the functions it calls", "why_tests_cant": "the error paths need every reason for failure; a test that hits one hangs", "anchors": ["src/api/nabto_device_stream.c:nabto_device_stream_init_listener", "src/api/nabto_device_virtual_connection.c:nabto_device_virtual_stream_read_all", "src/api/*.c", "src/modules/iam/*.c", "src/modules/event_queue/thread_event_queue.c"]}
{"id": "C32", "title": "Event queue: order, no duplication, no early timers", "statement": "Immediate events run in posting order, an event that is queued is not queued twice, and a timed event never runs before its time and runs before every event that expires later.", "quantifier": "every sequence of post, timed post, cancel and take operations and every clock history that fits the 2^31 ms window", "why_tests_cant": "unbounded histories and clock wrap around", "anchors": ["src/modules/event_queue/nm_event_queue.c", "src/modules/event_queue/thread_event_queue.c"]}
{"id": "C33", "title": "A cancelled event does not run", "statement": "After np_event_queue_cancel_event returns (called with the core lock held) the callback does not run unless the event is posted again.", "quantifier": "every schedule of the event thread against the cancelling thread", "why_tests_cant": "the window between taking the event and taking the core lock is a few instructions", "anchors": ["src/modules/event_queue/thread_event_queue.c:queue_thread", "src/modules/event_queue/thread_event_queue.c:cancel_event"]}
{"id": "C34", "title": "Hex encoding round trip", "statement": "np_hex_to_data_length accepts every string produced by np_data_to_hex and returns the original bytes; it accepts exactly the hex strings of matching length and never writes outside the output.", "quantifier": "every byte string, every character string and output length", "why_tests_cant": "all lengths and contents", "anchors": ["src/platform/np_util.c:np_hex_to_data_length", "src/platform/np_util.c:np_data_to_hex"]}
{"id": "C35", "title": "Time stamp comparison survives wrap around", "statement": "For any two instants less than 2^31 ms apart, comparing their 32 bit stamps orders them as the instants are ordered, including across the wrap of the counter.", "quantifier": "all pairs of instants", "why_tests_cant": "2^64 pairs of stamps; the wrap occurs after 49 days", "anchors": ["src/platform/np_timestamp_wrapper.c"]}
{"id": "C36", "title": "Variable length integers round trip and never over-read", "statement": "var_uint_read applied to what var_uint_write_forward wrote returns the value and the length written, for values below 2^62, and on any non-empty packet it reads no byte outside the packet and fails exactly if the packet is shorter than the announced encoding.", "quantifier": "all values, all packets", "why_tests_cant": "2^62 values", "anchors": ["src/core/nc_packet.c:var_uint_read", "src/core/nc_packet.c:var_uint_write_forward"]}
{"id": "C37", "title": "Keep alive: a dead peer is detected in bounded time, a live one is never declared dead", "statement": "If packets stop arriving the keep alive times out after exactly the configured number of checks; if at least one packet was sent and received between any two checks it never times out.", "quantifier": "every sequence of checks and counter readings and every setting", "why_tests_cant": "unbounded executions, counter wrap", "anchors": ["src/core/nc_keep_alive.c:nc_keep_alive_should_send", "src/core/nc_keep_alive.c:nc_keep_alive_set_settings"]}
{"id": "C38", "title": "The attacher always makes progress", "statement": "While the device is running and not attached, some timer, name resolution, connection or request is always pending that will lead to another attach attempt; it never gets stuck.", "quantifier": "every sequence of network outcomes and failures of resource allocation", "why_tests_cant": "unbounded failure histories, including failure of socket and DTLS creation", "anchors": ["src/core/nc_attacher.c:handle_state_change", "src/core/nc_attacher.c:nc_attacher_async_close"]}
{"id": "C39", "title": "Closing the attacher completes exactly once and detaches", "statement": "After the attacher is asked to close, its callback is called exactly once and afterwards no attach attempt, packet or event is produced until it is restarted; attached and detached events alternate.", "quantifier": "every state in which close can be requested and every later event order", "why_tests_cant": "all interleavings of close with asynchronous completions", "anchors": ["src/core/nc_attacher.c"]}
{"id": "C40", "title": "Server connect tokens reported as synchronised are on the server", "statement": "When nabto_device_are_server_connect_tokens_synchronized answers OK while attached, the basestation has acknowledged an upload containing every token added so far.", "quantifier": "every interleaving of adding tokens, attaches, uploads, acknowledgements and failures", "why_tests_cant": "tokens can be added at any point of an upload", "anchors": ["src/core/nc_attacher.c:nc_attacher_add_server_connect_token", "src/core/nc_attacher_sct.c"]}
{"id": "C41", "title": "UDP packets reach at most one protocol handler", "statement": "Each received datagram is handed to the handler selected by its first byte or dropped; empty datagrams and datagrams for an absent handler are dropped, no datagram reaches two handlers.", "quantifier": "every datagram and every combination of registered handlers", "why_tests_cant": "all datagrams", "anchors": ["src/core/nc_udp_dispatch.c:nc_udp_dispatch_handle_packet"]}
{"id": "C42", "title": "Stream ports are unique and streams are only accepted on request", "statement": "At most one listener exists per stream port; a stream is created only by a SYN packet with an even id on a connection below the stream limit; packets for unknown streams are answered with RST and otherwise ignored.", "quantifier": "every packet and history of listeners and streams", "why_tests_cant": "unbounded histories and all packets", "anchors": ["src/core/nc_stream_manager.c"]}
{"id": "C43", "title": "Stream packets are parsed within their bounds", "statement": "Handling a stream packet reads only bytes inside the packet.", "quantifier": "every packet of every length", "why_tests_cant": "all packet lengths and id encodings", "anchors": ["src/core/nc_stream_manager.c:nc_stream_manager_handle_packet"]}
{"id": "C44", "title": "Client connections are identified by connection id and limited in number", "statement": "A datagram is delivered to the connection whose 14 byte id it carries; a new connection is only created for a handshake packet; the number of connections never exceeds the limit; references handed out are pairwise different.", "quantifier": "every sequence of datagrams, connection openings and closings", "why_tests_cant": "unbounded histories", "anchors": ["src/core/nc_client_connection_dispatch.c", "src/core/nc_connection.c", "src/core/nc_device.c:nc_device_next_connection_ref"]}
{"id": "C45", "title": "Every stream operation completes exactly once", "statement": "Each accept, read, write and close started on a stream is completed exactly once; a second operation of the same kind is refused while one is pending; stopping or aborting the stream completes all pending operations.", "quantifier": "every interleaving of operations and stream events", "why_tests_cant": "unbounded schedules", "anchors": ["src/core/nc_stream.c"]}
{"id": "C46", "title": "Virtual streams deliver bytes in order without loss", "statement": "The bytes read from one end of a virtual stream are exactly the bytes written at the other end, in order; end of file is reported only after all written bytes were read; a close succeeds only when the other end has got all bytes; a read and a write of the two ends never wait for each other; every operation is completed once, at the latest when the stream is aborted.", "quantifier": "every sequence of reads, writes, closes and aborts of the two ends with any buffer sizes", "why_tests_cant": "all interleavings and sizes", "anchors": ["src/core/nc_virtual_stream.c", "src/core/nc_stream.c"]}
{"id": "C47", "title": "TCP tunnels forward bytes transparently", "statement": "The bytes written to the TCP socket are a prefix of the bytes read from the stream and vice versa, nothing is duplicated or reordered, and the tunnel's resources are released only when no operation on them is outstanding.", "quantifier": "every schedule of completions and errors in both directions", "why_tests_cant": "unbounded executions", "anchors": ["src/modules/tcp_tunnel/nm_tcp_tunnel_connection.c"]}
{"id": "C48", "title": "TCP tunnel connections are authorised and limited", "statement": "A tunnel to a service is opened only if the TcpTunnel:Connect check for that service allowed it and the service still exists, and the number of open connections of a type never exceeds the limit configured for the type.", "quantifier": "every interleaving of service changes, authorisation answers and connections", "why_tests_cant": "asynchronous answers may arrive after the service is replaced", "anchors": ["src/modules/tcp_tunnel/nm_tcp_tunnel.c"]}
{"id": "C49", "title": "Rendezvous requests are answered only for known connections", "statement": "A client rendezvous request is answered only if its connection id is the id of an open connection, the answer repeats that id and channel and goes to the sender, and at most a fixed number of answers is queued.", "quantifier": "every datagram and queue history", "why_tests_cant": "all datagrams, unbounded histories", "anchors": ["src/core/nc_rendezvous.c"]}
{"id": "C50", "title": "Each STUN analysis caller is called back exactly once", "statement": "Every accepted analysis request has its callback invoked exactly once, with the result or an error, also if the module is stopped.", "quantifier": "every interleaving of requests, packets, timeouts and stop", "why_tests_cant": "unbounded schedules", "anchors": ["src/core/nc_stun.c"]}
{"id": "C51", "title": "Name resolution merges both address families fairly", "statement": "The resolver reports min(size, v4+v6) addresses, alternates families while both last, preserves the order within a family and fails only if both lookups fail.", "quantifier": "all result lists and buffer sizes", "why_tests_cant": "all list lengths", "anchors": ["src/core/nc_dns_multi_resolver.c"]}
{"id": "C52", "title": "Virtual CoAP requests resolve once and are freed once", "statement": "A virtual CoAP request's response handler is called exactly once, and its memory is released exactly once, when both the application and the device are done with it.", "quantifier": "every interleaving of response, close and the two frees", "why_tests_cant": "all interleavings", "anchors": ["src/core/nc_coap_server.c"]}
{"id": "C53", "title": "CBOR strings and integers round trip; size pass equals write pass", "statement": "Decoding what the CBOR encoder produced yields the value; the size computed by the measuring pass is exactly the size used by the writing pass.", "quantifier": "all integers and strings", "why_tests_cant": "2^64 integers, all string lengths", "anchors": ["3rdparty/tinycbor/tinycbor_src/src/cborencoder.c", "3rdparty/tinycbor/tinycbor_src/src/cborparser.c"]}
{"id": "C54", "title": "The fixed memory allocator never hands out overlapping memory", "statement": "Blocks returned by ta_alloc lie inside the heap, are large enough, and do not overlap any other block in use; freeing returns the block; freeing an unknown pointer changes nothing.", "quantifier": "every sequence of allocations and frees", "why_tests_cant": "unbounded histories of splits and merges", "anchors": ["3rdparty/tinyalloc/tinyalloc/tinyalloc.c"]}
{"id": "C55", "title": "Attach watchdog fires exactly after a full period without attach", "statement": "The watchdog event is delivered iff the device spends the configured time without a state change in a non attached state, and never while attached.", "quantifier": "every sequence of attacher state changes and clock advances", "why_tests_cant": "all schedules", "anchors": ["src/core/nc_attacher_watchdog.c"]}
{"id": "C56", "title": "Password authentication requests are answered exactly once", "statement": "Every password request raised by the core is answered exactly once: with the password of the first set_password call or, if the application frees the request without answering, with no password.", "quantifier": "every interleaving of set_password, free and listener stop", "why_tests_cant": "all schedules", "anchors": ["src/api/nabto_device_password_authentication.c"]}
{"id": "C57", "title": "Access control fails closed when memory runs out", "statement": "If memory allocation fails while the attributes of an access check are built, the decision is never more permissive than with enough memory.", "quantifier": "every configuration, caller, action and every subset of failing insertions", "why_tests_cant": "all configurations and allocation failures", "anchors": ["src/modules/iam/nm_iam_internal.c:nm_iam_internal_check_access"]}
{"id": "C58", "title": "A success response means the request took effect", "statement": "When an IAM CoAP request is answered with a success code, the change it asked for is visible in the state afterwards.", "quantifier": "every request on every state changing IAM resource, every state", "why_tests_cant": "the product of handlers, payloads, states and failing allocations", "anchors": ["src/modules/iam/coap_handler/"]}
{"id": "C59", "title": "Documented NULL arguments are accepted", "statement": "nm_iam_add_user_fingerprint documents that the name can be NULL; calling it so stores the fingerprint without a name.", "quantifier": "every state and user", "why_tests_cant": "all states", "anchors": ["src/modules/iam/nm_iam.h:nm_iam_add_user_fingerprint", "src/modules/iam/nm_iam_internal.c:nm_iam_internal_add_user_fingerprint"]}
{"id": "C60", "title": "No CoAP request makes the IAM module misbehave", "statement": "Handling an IAM request never dereferences NULL or freed memory, whatever the payload and the sender's permissions.", "quantifier": "every request, payload, state and caller", "why_tests_cant": "all payloads and states", "anchors": ["src/modules/iam/coap_handler/nm_iam_create_user.c", "src/modules/iam/coap_handler/nm_iam_set_user_notification_categories.c", "src/modules/iam/coap_handler/nm_iam_coap_handler.c"]}
{"id": "C61", "title": "Password open pairing needs the open pairing password", "statement": "A client pairs through password open pairing only if it has proved the password set with nm_iam_state_set_password_open_password.", "quantifier": "every state, client and history", "why_tests_cant": "all histories of authentications", "anchors": ["src/modules/iam/coap_handler/nm_iam_pairing_password_open.c", "src/modules/iam/nm_iam_pake_handler.c"]}
{"id": "C62", "title": "IAM API functions do exactly what they report", "statement": "An IAM API function that returns OK has made exactly the change it documents and no other; one that returns an error has changed neither the state, the configuration nor the limits.", "quantifier": "every API function, argument and state", "why_tests_cant": "all states and arguments, including the absence of side effects on other users and settings", "anchors": ["src/modules/iam/nm_iam.c", "src/modules/iam/nm_iam_internal.c"]}
{"id": "C63", "title": "The password authentication username can be asked for at any time", "statement": "nabto_device_connection_get_password_authentication_username on an existing connection returns INVALID_STATE if no password authentication was performed on it, and otherwise the username; it never crashes.", "quantifier": "every history of connections, password authentication messages, application answers and allocation failures, and every connection", "why_tests_cant": "The faulty cases are particular histories (no authentication yet, or a failed allocation after key calculation); a test that authenticates first never meets them.", "anchors": ["src/api/nabto_device_password_authentication.c:nabto_device_connection_get_password_authentication_username", "src/core/nc_spake2.c:nc_spake2_password_ready", "include/nabto/nabto_device.h"]}
{"id": "C64", "title": "Threads do not deadlock on the library's locks", "statement": "Any number of application threads calling public functions in any order, together with the library's event thread and the thread that runs callbacks, never reach a state in which all remaining threads wait for locks held by each other.", "quantifier": "every number of threads, every sequence of API calls in each, every interleaving", "why_tests_cant": "deadlocks need particular interleavings that tests do not force", "anchors": ["src/api/*.c", "src/modules/iam/*.c", "src/modules/event_queue/thread_event_queue.c", "src/api/nabto_device_future_queue.c"]}
{"id": "C65", "title": "State shared between threads is only used with the device lock", "statement": "While any API function runs, from any thread, the state of the core and the list of listeners are only read or written by a thread that holds the device's lock, so that two threads never use it at the same time.", "quantifier": "every number of threads, every sequence of API calls in each, every interleaving", "why_tests_cant": "data races need particular interleavings, and most are silent", "anchors": ["src/api/*.c", "src/modules/event_queue/thread_event_queue.c", "src/api/nabto_device_listener.c:nabto_device_listener_new", "src/api/nabto_device_ice_servers.c:nabto_device_ice_servers_request_new"]}
{"id": "C66", "title": "The event thread never sleeps through work", "statement": "While the event thread sleeps, no event is pending that should run as soon as possible, it wakes no later than the next timer, and it was not asked to stop.", "quantifier": "every interleaving of posts, timers, cancellations, destructions, stop and the event thread, and every clock history that fits the window", "why_tests_cant": "a lost wake-up needs a post between the check of the queue and the wait", "anchors": ["src/modules/event_queue/thread_event_queue.c:queue_thread", "src/modules/event_queue/thread_event_queue.c:post_event"]}
{"id": "C67", "title": "The basestation certificate is checked against the configured name", "statement": "Every attach connection is opened with the host name the application configured as the name for the certificate check and SNI, whatever the resolver answers and wherever servers redirect the device to.", "quantifier": "every execution: all redirects, resolver answers, failures, closes and restarts", "why_tests_cant": "redirect histories are unbounded and under the control of a server", "anchors": ["src/core/nc_attacher.c:handle_state_change", "src/core/nc_attacher.c:nc_attacher_start", "src/core/nc_attacher_attach_start.c:handle_redirect"]}
{"id": "C68", "title": "Redirects are followed a bounded number of times", "statement": "The attacher only resolves the configured name and names a server redirected it to, and a server which redirects for ever makes it resolve at most five names before it waits for the retry interval.", "quantifier": "every sequence of redirects and failures, from every state", "why_tests_cant": "a test can only try chains of some length and from some states", "anchors": ["src/core/nc_attacher.c:handle_dtls_closed", "src/core/nc_attacher.c:coap_attach_start_callback", "src/core/nc_attacher.c:reattach"]}
{"id": "C69", "title": "A dump which reports success is complete", "statement": "If nm_iam_serializer_configuration_dump_json or nm_iam_serializer_state_dump_json returns true, loading the text gives the whole configuration or state back; when memory runs out during the dump it returns false.", "quantifier": "every configuration and state, and every point at which an allocation fails", "why_tests_cant": "needs a failure of every single allocation of a dump", "anchors": ["src/modules/iam/nm_iam_serializer.c:nm_iam_serializer_configuration_dump_json", "src/modules/iam/nm_iam_serializer.c:nm_iam_serializer_state_dump_json", "src/modules/iam/policies/nm_policies_to_json.c", "src/modules/iam/nm_iam_to_json.c", "3rdparty/cjson/cjson/cJSON.c:cJSON_AddItemToObject"]}
{"id": "C70", "title": "Parsing JSON is memory safe", "statement": "Loading an IAM configuration or state from any text never reads past its terminating zero and never writes past the end of an allocation; accepted documents are nested at most 1000 levels deep; a printed document is parsed back unchanged.", "quantifier": "every text and every document", "why_tests_cant": "all byte strings, including unterminated strings and truncated escapes", "anchors": ["3rdparty/cjson/cjson/cJSON.c:parse_string", "3rdparty/cjson/cjson/cJSON.c:parse_value", "3rdparty/cjson/cjson/cJSON.c:print_value", "src/modules/iam/nm_iam_serializer.c:nm_iam_serializer_state_load_json"]}
{"id": "C71", "title": "CBOR payloads from the network are decoded safely and mean what they say", "statement": "No payload of a rendezvous request, a password authentication request, an IAM request, an attach answer, an ICE server answer, an FCM answer, a service invocation answer or an error answer causes undefined behaviour. A well formed payload gives exactly the fields it contains (in any order, with definite or indefinite lengths); a missing or ill typed field is refused.", "quantifier": "every byte string, every outcome of the allocations, every CBOR item", "why_tests_cant": "all byte strings, including truncated and ill typed ones", "anchors": ["src/core/nc_spake2_coap.c:read_username_and_password", "src/core/nc_rendezvous_coap.c:handle_rendezvous_payload", "src/core/nc_attacher_attach_start.c:handle_attached", "src/core/nc_attacher_ice_servers.c:parse_response", "src/core/nc_attacher_fcm.c:parse_response", "src/core/nc_attacher_service_invoke.c:parse_response", "src/core/nc_coap_rest_error.c:nc_coap_rest_error_decode_response", "src/modules/iam/coap_handler/nm_iam_coap_handler.c:nm_iam_cbor_decode_string"]}
{"id": "C72", "title": "Reading resources answer with the current content", "statement": "GET of /iam/settings, /iam/pairing, /iam/me, /iam/users/{user} and /iam/notification-categories by an allowed caller is answered with a well formed document of exactly the current content; /iam/pairing offers exactly the modes which are enabled and which the caller may use, and a pairing which succeeds had been offered.", "quantifier": "every state, configuration, caller and outcome of allocations", "why_tests_cant": "all states, races with the authentication of the connection and out of memory", "anchors": ["src/modules/iam/coap_handler/nm_iam_settings_get.c", "src/modules/iam/coap_handler/nm_iam_pairing_get.c", "src/modules/iam/coap_handler/nm_iam_get_me.c", "src/modules/iam/nm_iam_pairing.c"]}
{"id": "C73", "title": "Packets of a client connection go to the client", "statement": "Every packet the device sends for a client connection carries the connection's header and goes to a socket and endpoint from which a datagram with the connection's id was received; the destination only changes to a place where the peer has shown that it holds the keys of the connection.", "quantifier": "every sequence of datagrams (forged ones included), data deliveries, sends, openings and closings", "why_tests_cant": "the destination depends on the whole history of datagrams, and on forged datagrams", "anchors": ["src/core/nc_client_connection.c:nc_client_connection_handle_packet", "nc_client_connection_async_send_to_udp"]}
{"id": "C74", "title": "A client can move a connection to another channel", "statement": "When newer authenticated data other than a keep alive arrives on another channel of the connection, the device uses this channel from then on and reports NABTO_DEVICE_CONNECTION_EVENT_CHANNEL_CHANGED exactly if the channel differs; nothing else moves the connection.", "quantifier": "every history of a connection, every channel and sequence number", "why_tests_cant": "needs all interleavings of datagrams from several channels and of data deliveries", "anchors": ["src/core/nc_client_connection.c:nc_client_connection_handle_packet", "src/core/nc_client_connection.c:nc_client_connection_handle_data"]}
{"id": "C75", "title": "A packet the secure channel sends for a connection leaves the device", "statement": "Each packet given to the connection by its DTLS session is sent and its completion is reported, so that the session can send the next one.", "quantifier": "every interleaving of datagrams on several channels with sends and completions", "why_tests_cant": "needs a datagram to arrive between two particular steps", "anchors": ["src/core/nc_client_connection.c:nc_client_connection_async_send_to_udp"]}
{"id": "C76", "title": "Closing the device completes when all connections are gone", "statement": "nabto_device_close resolves exactly once, when no connection is open any more.", "quantifier": "every set of open connections, in every state of their handshakes, and every order in which they end", "why_tests_cant": "the order in which sessions end, also within the call, is up to the peers", "anchors": ["src/core/nc_connection.c:nc_connections_async_close", "src/core/nc_connection.c:nc_connections_free_connection", "src/core/nc_device.c:nc_device_close"]}
{"id": "C77", "title": "The end of a connection is final", "statement": "A connection is reported as closed at most once, after having been reported as opened, and nothing is reported about it afterwards.", "quantifier": "every sequence of events of all connections", "why_tests_cant": "unbounded histories", "anchors": ["src/core/nc_client_connection.c:nc_client_connection_destroy_connection", "src/core/nc_virtual_connection.c"]}
{"id": "C78", "title": "A packet being sent is left alone", "statement": "From the moment a packet is handed to the platform for sending until the platform reports completion, the device neither overwrites its buffer nor hands over another packet with the same completion.", "quantifier": "every history of requests, received packets, timeouts and completions", "why_tests_cant": "the overlap needs a particular interleaving of completions and received packets", "anchors": ["src/core/nc_stun.c:nc_stun_event", "src/core/nc_rendezvous.c:nc_rendezvous_send_device_request"]}
{"id": "C79", "title": "A host name stays valid while it is looked up", "statement": "While the platform looks up a host name, the memory of the name the device has handed over is not freed, whatever the basestation or clients send meanwhile.", "quantifier": "every history of requests, lookups and reattachments", "why_tests_cant": "needs a response of the basestation at the moment a lookup is outstanding in another thread", "anchors": ["src/core/nc_stun.c:nc_stun_set_host", "src/core/nc_dns_multi_resolver.c:nc_dns_multi_resolver_resolve", "src/modules/dns/unix/nm_unix_dns.c"]}
{"id": "C80", "title": "The bytes of a stream pass unchanged", "statement": "The bytes delivered by the reads of a stream are the bytes which came out of the stream module, in order and without loss; a read of exactly n bytes which reports success has delivered n bytes, a read of some bytes between 1 and n; the bytes given to the stream module for a write are a beginning of its data, and all of its data if the write reports success.", "quantifier": "every history of operations and events, every answer of the stream module and every size", "why_tests_cant": "all interleavings of partial reads and writes", "anchors": ["src/core/nc_stream.c: nc_stream_do_read, nc_stream_do_write_all, nc_stream_resolve_read"]}
{"id": "C81", "title": "The memory of a stream is given back exactly once and never used afterwards", "statement": "A stream lives as long as somebody may still use it (the stream manager, the application, the client of a virtual stream, a packet being sent, a scheduled event); when the last of them lets go its memory is given back, exactly once, and nothing uses it afterwards, whatever the order of packets, timers, closing connections, aborts and frees.", "quantifier": "every history of listeners, connections, packets, timers, sends, events, aborts and frees of any number of streams", "why_tests_cant": "The reference counts must fit for every interleaving; a wrong order frees too early or never.", "anchors": ["src/core/nc_stream.c: nc_stream_ref_count_dec, nc_stream_destroy, nc_stream_event, nc_stream_handle_connection_closed", "src/core/nc_stream_manager.c: nc_stream_manager_ready_for_accept, nc_stream_manager_accept_virtual_stream, nc_stream_manager_remove_connection", "src/core/nc_virtual_stream.c: nc_virtual_stream_init"]}
{"id": "C82", "title": "Stream resources are limited and nonces are fresh", "statement": "Never more stream segments are out than the configured limit, a segment is refused only at the limit or without memory, and no two streams of a device get the same nonce.", "quantifier": "every history with fewer than 2^64 operations, every limit", "why_tests_cant": "unbounded histories of allocations, failures and limit changes", "anchors": ["src/core/nc_stream_manager.c: nc_stream_manager_alloc_send_segment, nc_stream_manager_alloc_recv_segment, nc_stream_manager_next_nonce, nc_stream_manager_set_max_segments"]}
{"id": "C83", "title": "Errors of a tunnel are not presented as a clean end", "statement": "If one side of a TCP tunnel fails (the stream of the client is lost, the TCP connection is reset), the other side does not see a regular end of data: the TCP server gets a FIN only when the client has ended its data, the client gets a clean close only when the TCP server has ended its data.", "quantifier": "every schedule of completions, errors and aborts of both directions", "why_tests_cant": "the order of errors and completions is unbounded; a truncated transfer looks like a success in the tests that do not reset in the middle", "anchors": ["src/modules/tcp_tunnel/nm_tcp_tunnel_connection.c", "tcp_readen", "stream_readen"]}
{"id": "C84", "title": "A tunnel ends when its service or its client goes away", "statement": "When a service is removed its open tunnels are aborted and all their memory is given back after finitely many further events, and a tunnel whose client has gone does not occupy one of the limited connections for ever.", "quantifier": "every state of the tunnel at the moment of removal or loss and every schedule afterwards", "why_tests_cant": "depends on which callbacks are queued at the moment of the abort and on the socket implementation", "anchors": ["src/modules/tcp_tunnel/nm_tcp_tunnel_connection.c", "src/modules/libevent/nm_libevent_tcp.c", "src/modules/select_unix/nm_select_unix_tcp.c"]}
{"id": "C85", "title": "Descriptions of tunnel services are disclosed only after a check for that service", "statement": "A client gets the description (id, type, host, port, stream port, metadata) of a service only if an access check made with the id and the type of the described service has allowed it, and the list of services only if the check of the listing action allowed it.", "quantifier": "every interleaving of requests, answers of checks and changes of the services", "why_tests_cant": "the service may be replaced while the check waits", "anchors": ["src/modules/tcp_tunnel/nm_tcp_tunnel_coap.c", "get_service_action", "get_service_iam", "list_services_iam"]}
{"id": "C86", "title": "The results of the tunnel configuration functions are what happened", "statement": "When adding or removing a service, adding or removing metadata or setting a limit returns success, the change has been made and nothing else; when it returns an error, nothing has changed and no memory is lost.", "quantifier": "every history of calls, requests and tunnels, every allocation that can fail", "why_tests_cant": "needs failing allocations and equal ids at each point", "anchors": ["src/api/nabto_device_tcp_tunnelling.c", "src/modules/tcp_tunnel/nm_tcp_tunnel.c"]}
{"id": "C87", "title": "The client of a virtual CoAP request reads the response its handler made", "statement": "After the future of a virtual CoAP request is resolved with success, the functions which read the response give the code, the content format and the payload which the handler set last; before that they say that there is no response. A code like 404 is read as it was set. If the response has no content format or no payload, the functions return NO_DATA.", "quantifier": "every history of the client, the handler, its listener and the connection, and every response", "why_tests_cant": "the order of setting, answering and reading is free, and every response is possible", "anchors": ["src/core/nc_coap_server.c:nc_coap_server_response_set_code_human", "src/core/nc_coap_server.c:nc_coap_server_response_get_code_human", "src/api/nabto_device_virtual_connection.c:nabto_device_virtual_coap_request_get_response_payload"]}
{"id": "C88", "title": "The path of a virtual CoAP request names the right resource", "statement": "The path /s1/s2/.../sn given to a virtual CoAP request is looked up as the segments s1, s2, ..., sn; a slash at the end does not matter, and the path of one slash is the root.", "quantifier": "every list of segments", "why_tests_cant": "paths have any length and any number of segments", "anchors": ["src/api/nabto_device_virtual_connection.c:nabto_device_virtual_coap_request_new"]}
{"id": "C89", "title": "Server connect tokens are well formed and equally likely", "statement": "A token made by nabto_device_create_server_connect_token has twelve letters or digits, every such token is equally likely if the random bytes are, and if the source of random bytes fails there is no token.", "quantifier": "every sequence of results of the source of random bytes, and every pair of tokens", "why_tests_cant": "a distribution over 62^12 tokens cannot be sampled", "anchors": ["src/api/nabto_device.c:nabto_device_create_server_connect_token"]}
{"id": "C90", "title": "Starting and closing a device resolve their futures once", "statement": "Every future given to nabto_device_start and nabto_device_close is resolved exactly once: a start with the first error of its steps or success, a close when all connections, the attacher and the platform are closed; nabto_device_stop leaves no future behind.", "quantifier": "every history of starts, closes, stops, results of binding, connections opened and freed, and closing events", "why_tests_cant": "the futures depend on the order in which calls, events of the core and connections interleave", "anchors": ["src/api/nabto_device.c:nabto_device_start", "src/api/nabto_device.c:nabto_device_close", "src/api/nabto_device.c:nabto_device_stop", "src/core/nc_device.c:nc_device_start", "src/core/nc_device.c:nc_device_close", "src/core/nc_device.c:nc_device_resolve_start_close_callbacks", "src/core/nc_connection.c:nc_connections_async_close"]}
{"id": "C91", "title": "The fingerprint of the device belongs to its private key", "statement": "nabto_device_get_device_fingerprint gives the fingerprint of the private key which was set last, and the device starts with this key, its certificate and its fingerprint, or not at all.", "quantifier": "every history of settings and starts, with every combination of failures of setting a key", "why_tests_cant": "it must hold after every sequence of successful and failing calls", "anchors": ["src/api/nabto_device.c:nabto_device_set_private_key", "src/api/nabto_device.c:nabto_device_get_device_fingerprint", "src/api/nabto_device.c:nabto_device_start"]}
{"id": "C92", "title": "The settings of a device are the ones which were set last", "statement": "The product id, device id, server url, application name and version which are read back, and with which the device starts, are the values which were last set with success; the strings given out by the getters stay valid, and none is freed twice.", "quantifier": "every history of settings and starts, with every string and every failure of allocation", "why_tests_cant": "the values depend on every earlier call, and the validity of pointers is not seen by a test", "anchors": ["src/core/nc_device.c:nc_device_set_product_id", "src/core/nc_device.c:nc_device_set_device_id", "src/core/nc_device.c:nc_device_set_app_name", "src/api/nabto_device.c:nabto_device_set_app_name", "src/core/nc_device.c:nc_device_start", "src/core/nc_device.c:nc_device_populate_mdns"]}
{"id": "C93", "title": "Messages given to a secure client session are reported once and in order", "statement": "Every message which the secure session of a client accepts is reported exactly once, in the order of acceptance; those reported as sent are exactly those handed to the encryption, in that order.", "quantifier": "every history of handshakes, received packets, messages, closes, socket completions, timers, and results of the TLS library, including lack of buffers", "why_tests_cant": "the order of events, and the failures of allocation, are decided by the network and the scheduler", "anchors": ["src/modules/mbedtls/nm_mbedtls_srv.c:nm_mbedtls_srv_start_send_deferred", "src/modules/mbedtls/nm_mbedtls_srv.c:nm_mbedtls_srv_async_send_data", "src/modules/mbedtls/nm_mbedtls_srv.c:nm_mbedtls_srv_mbedtls_send"]}
{"id": "C94", "title": "A secure client session is freed once and not used afterwards", "statement": "The secure session of a client is freed exactly once after its connection ended, neither is used after it was freed, and a connection which is closed ends.", "quantifier": "every history of handshakes, received packets, messages, closes, socket completions, timers, and results of the TLS library", "why_tests_cant": "use after free and leaks depend on which packet is on its way when the session ends", "anchors": ["src/modules/mbedtls/nm_mbedtls_srv.c:nm_mbedtls_srv_destroy_connection", "src/modules/mbedtls/nm_mbedtls_srv.c:nm_mbedtls_srv_connection_send_callback", "src/core/nc_client_connection.c:nc_client_connection_destroy_connection"]}
{"id": "C95", "title": "The secure session with the basestation reports every message and is freed once", "statement": "Every message given to the secure session with the basestation is reported exactly once and in order, whatever happens to the session; the session is freed exactly once, when it was given up and no packet of it is on its way, is never used afterwards, and a session which was closed goes away.", "quantifier": "every history of handshakes, received packets, messages, closes, socket completions, timers, and results of the TLS library, including lack of buffers", "why_tests_cant": "the order of events, and the failures of allocation, are decided by the network and the scheduler", "anchors": ["src/modules/mbedtls/nm_mbedtls_cli.c:start_send_deferred", "src/modules/mbedtls/nm_mbedtls_cli.c:async_send_data", "src/modules/mbedtls/nm_mbedtls_cli.c:async_close", "src/modules/mbedtls/nm_mbedtls_cli.c:destroy_connection", "src/modules/mbedtls/nm_mbedtls_cli.c:handle_packet", "src/modules/mbedtls/nm_mbedtls_cli.c:dtls_udp_send_callback", "src/core/nc_attacher.c:reset_dtls_connection"]}
{"id": "C96", "title": "The end of a session with the basestation is heard once", "statement": "The attacher hears of the end of a secure session exactly once, and of no session which it has given up.", "quantifier": "every history of handshakes, received packets, messages, closes, socket completions and timers", "why_tests_cant": "a second report depends on a packet being on its way when the session ends", "anchors": ["src/modules/mbedtls/nm_mbedtls_cli.c:nm_dtls_do_close", "src/modules/mbedtls/nm_mbedtls_cli.c:dtls_udp_send_callback", "src/core/nc_attacher.c:dtls_event_handler"]}
{"id": "C97", "title": "Requests to the basestation resolve their futures exactly once", "statement": "The future of sending a push notification, of a service invocation, or of a request for ICE servers is resolved exactly once: at once if the request is refused, and otherwise with the answer, its timeout, or its cancellation; and a request which was refused can be sent again.", "quantifier": "every history of setting, sending, stopping and freeing an object, of the device attaching and detaching, of answers of the basestation, and of lack of memory", "why_tests_cant": "the answer, the attachment of the device and the application interleave freely", "anchors": ["src/api/nabto_device_fcm.c:nabto_device_fcm_send", "src/api/nabto_device_service_invocation.c:nabto_device_service_invocation_execute", "src/api/nabto_device_ice_servers.c:nabto_device_ice_servers_request_send", "src/core/nc_attacher_fcm.c:nc_attacher_fcm_send", "src/core/nc_attacher_service_invoke.c:nc_attacher_service_invoke_execute", "src/core/nc_attacher_ice_servers.c:nc_attacher_request_ice_servers"]}
{"id": "C98", "title": "Requests to the basestation use no memory which is not theirs", "statement": "No order of setting, sending, stopping and freeing a push notification, a service invocation or a request for ICE servers, and no answer, makes the device read a null pointer or freed memory, and nothing is left behind when the object is freed.", "quantifier": "every history of setting, sending, stopping and freeing an object, of answers of the basestation, and of lack of memory", "why_tests_cant": "the use after free depends on the answer arriving between two calls of the application", "anchors": ["src/api/nabto_device_fcm.c:nabto_device_fcm_stop", "src/api/nabto_device_fcm.c:nabto_device_fcm_notification_free", "src/api/nabto_device_service_invocation.c:nabto_device_service_invocation_set_message", "src/api/nabto_device_service_invocation.c:nabto_device_service_invocation_free", "src/core/nc_attacher_fcm.c:nc_attacher_fcm_send_stop", "src/core/nc_attacher_fcm.c:coap_handler", "src/core/nc_attacher_service_invoke.c:nc_attacher_service_invoke_stop"]}
{"id": "C99", "title": "A request to the basestation carries what was set, on the session of the device", "statement": "A push notification or service invocation which reaches the basestation carries the ids and the content which the application set last, a request for ICE servers carries the identifier given; it is sent on the session on which the device is attached; and one object sends at most one request.", "quantifier": "every history of setting, sending, stopping and freeing an object, and of the device attaching and detaching", "why_tests_cant": "the session changes whenever the device attaches again, between any two calls", "anchors": ["src/api/nabto_device_fcm.c:nabto_device_fcm_send", "src/api/nabto_device_service_invocation.c:nabto_device_service_invocation_execute", "src/api/nabto_device_ice_servers.c:nabto_device_ice_servers_request_send", "src/core/nc_attacher_fcm.c:encode_request", "src/core/nc_attacher_service_invoke.c:encode_request", "src/core/nc_attacher_ice_servers.c:nc_attacher_ice_servers_ctx_init"]}
{"id": "C100", "title": "After success the getters give the answer of the basestation", "statement": "If the future of a request to the basestation was resolved with OK, the status code, body, message and servers which the getters give are those of the one answer to the request; the getters of a push notification give 0 and NULL otherwise.", "quantifier": "every history of requests and answers, well formed or not", "why_tests_cant": "the answers come from another machine", "anchors": ["src/core/nc_attacher_fcm.c:parse_response", "src/core/nc_attacher_service_invoke.c:parse_response", "src/core/nc_attacher_ice_servers.c:parse_response", "src/api/nabto_device_fcm.c:nabto_device_fcm_notification_get_response_body"]}
{"id": "C101", "title": "The mDNS server keeps answering queries with the service published last", "statement": "As long as the service is published and its socket works, the device waits for the next query or is about to do so on each address family; a query which is to be answered gets exactly one answer with the id of the query and the service published last; nothing else is sent; and no event or buffer is used after it was freed if the server is stopped before it is deinitialised.", "quantifier": "every history of publishing, closing, stopping, of queries, completions and failures of memory and network on both address families", "why_tests_cant": "the completions of the two families interleave freely with the calls of the application", "anchors": ["src/modules/mdns/nm_mdns_server.c:publish_service", "src/modules/mdns/nm_mdns_server.c:nm_mdns_recv_packet", "src/modules/mdns/nm_mdns_server.c:nm_mdns_packet_recv_wait_completed", "src/modules/mdns/nm_mdns_server.c:nm_mdns_send_packet", "src/modules/mdns/nm_mdns_server.c:nm_mdns_server_deinit"]}
{"id": "C102", "title": "Closing the mDNS server says goodbye and completes exactly once", "statement": "Each close of the mDNS server completes exactly once, whatever memory and network do; a goodbye with the service published last is sent from each address family, at most once; and the result tells if that failed.", "quantifier": "every history of publishing, closing, stopping, of queries, completions and failures", "why_tests_cant": "close may come at any point of a send or a receive of either family", "anchors": ["src/modules/mdns/nm_mdns_server.c:nm_mdns_server_close", "src/modules/mdns/nm_mdns_server.c:nm_mdns_server_close_instance", "src/modules/mdns/nm_mdns_server.c:nm_mdns_server_instance_stop"]}
{"id": "C103", "title": "A wait for a packet on a UDP socket completes exactly once", "statement": "Every wait for a packet on a UDP socket completes exactly once: when a packet is there, when the socket is aborted or destroyed, or at once if another wait is pending or the socket was aborted.", "quantifier": "every history of binding, waiting, aborting, destroying and packets, on both platforms, and every schedule of the two threads", "why_tests_cant": "the network thread and the thread of the core race for the pending event", "anchors": ["src/modules/libevent/nm_libevent_udp.c:udp_async_recv_wait", "src/modules/libevent/nm_libevent_udp.c:complete_recv_wait", "src/modules/libevent/nm_libevent_udp.c:udp_abort", "src/modules/libevent/nm_libevent_udp.c:udp_destroy", "src/modules/select_unix/nm_select_unix_udp.c:nm_select_unix_udp_async_recv_wait", "src/modules/select_unix/nm_select_unix_udp.c:nm_select_unix_udp_abort", "src/modules/select_unix/nm_select_unix_udp.c:nm_select_unix_udp_handle_event"]}
{"id": "C104", "title": "A UDP socket owns its descriptor", "statement": "A UDP socket has exactly one open descriptor while it is bound and none otherwise, leaves none behind when it is destroyed, and never closes a descriptor which is not its own; binding works on a host without IPv6.", "quantifier": "every history of binding, aborting and destroying, every failure of the system calls, and every history of other descriptors of the process", "why_tests_cant": "the harm depends on which number the system gives to somebody else in between", "anchors": ["src/modules/libevent/nm_libevent_udp.c:udp_create_socket_any", "src/modules/libevent/nm_libevent_udp.c:udp_async_bind_port_ec", "src/modules/select_unix/nm_select_unix_udp.c:create_socket_any", "src/modules/select_unix/nm_select_unix_udp.c:nm_select_unix_udp_async_bind_port_ec", "src/modules/select_unix/nm_select_unix_mdns_udp_bind.c:nm_select_unix_async_bind_mdns_ipv4", "src/modules/libevent/nm_libevent_mdns_udp_bind.c:udp_async_bind_mdns_ipv4"]}
{"id": "C105", "title": "The network thread of the select platform misses nothing", "statement": "While the network thread of the select platform sleeps, every socket on which something is pending is being watched, or the thread is about to be woken; a watched socket which becomes ready is served; stopping the platform ends the thread; and no descriptor is put into a set which cannot hold it.", "quantifier": "every schedule of the core and the network thread, every set of sockets, and whatever select reports", "why_tests_cant": "whether a wakeup is lost depends on the order of single steps of two threads", "anchors": ["src/modules/select_unix/nm_select_unix.c:nm_select_unix_run", "src/modules/select_unix/nm_select_unix.c:nm_select_unix_notify", "src/modules/select_unix/nm_select_unix.c:network_thread", "src/modules/select_unix/nm_select_unix_udp.c:nm_select_unix_udp_build_fd_sets", "src/modules/select_unix/nm_select_unix_tcp.c:nm_select_unix_tcp_build_fd_sets", "src/modules/select_unix/nm_select_unix_tcp.c:nm_select_unix_tcp_handle_select"]}
{"id": "C106", "title": "Each operation on a TCP socket completes exactly once", "statement": "Each connect, write and read on a TCP socket completes exactly once; an operation which cannot be started as one of its kind is pending completes itself with an error and leaves the other alone; aborting or destroying the socket completes everything that is pending, and afterwards nothing can be started.", "quantifier": "every history of operations, of events of the network and of errors, on both platforms", "why_tests_cant": "errors and aborts may come between any two steps", "anchors": ["src/modules/select_unix/nm_select_unix_tcp.c:async_connect", "src/modules/select_unix/nm_select_unix_tcp.c:async_write", "src/modules/select_unix/nm_select_unix_tcp.c:async_read", "src/modules/select_unix/nm_select_unix_tcp.c:tcp_abort", "src/modules/libevent/nm_libevent_tcp.c:tcp_async_connect", "src/modules/libevent/nm_libevent_tcp.c:tcp_async_write", "src/modules/libevent/nm_libevent_tcp.c:tcp_async_read", "src/modules/libevent/nm_libevent_tcp.c:tcp_abort", "src/modules/libevent/nm_libevent_tcp.c:tcp_bufferevent_event"]}
{"id": "C107", "title": "A TCP socket is a stream of bytes in both directions", "statement": "The bytes which reads are given are the bytes of the peer in order, without loss; a read which completes OK got at least one byte and no more than its buffer holds; the end of the stream is told only after everything was read; a write which completes OK has been handed to the system in full, and the bytes of writes are not mixed; an operation does not stay pending when the network allows it to go on.", "quantifier": "every history of operations and network events, every split of the data, and every schedule of the two threads", "why_tests_cant": "the splits of the stream and the interleaving of the threads are unbounded", "anchors": ["src/modules/select_unix/nm_select_unix_tcp.c:tcp_do_read", "src/modules/select_unix/nm_select_unix_tcp.c:tcp_do_write", "src/modules/select_unix/nm_select_unix_tcp.c:async_write", "src/modules/libevent/nm_libevent_tcp.c:tcp_bufferevent_event_read", "src/modules/libevent/nm_libevent_tcp.c:tcp_bufferevent_event_write", "src/modules/libevent/nm_libevent_tcp.c:tcp_async_read", "src/modules/libevent/nm_libevent_tcp.c:tcp_eof"]}
{"id": "C108", "title": "A name lookup delivers what fits", "statement": "A lookup of a host name writes the addresses found, in order, to the array of its caller, as many as fit, reports how many it wrote, and never writes outside the array; it ends with OK exactly if there was an address; an address in text form stands for itself.", "quantifier": "every host, every size of the array and every answer of the name service, with any number of addresses", "why_tests_cant": "the number of addresses a name server returns is not under control of a test", "anchors": ["src/modules/dns/unix/nm_unix_dns.c:resolve_one_ec", "src/modules/libevent/nm_libevent_dns.c:dns_cb_deferred", "src/modules/libevent/nm_libevent_dns.c:async_resolve_v4", "src/modules/libevent/nm_libevent_dns.c:async_resolve_v6", "src/core/nc_dns_multi_resolver.c:nc_dns_multi_resolver_resolve"]}
{"id": "C109", "title": "Each name lookup is answered exactly once", "statement": "Each lookup is answered exactly once, also when the resolver is stopped while it is waiting or being worked at; a lookup is not forgotten by a sleeping resolver; taking the resolver down ends; and a lookup is not answered into memory of a device which has been freed.", "quantifier": "every schedule of the callers, the resolver thread and the stop, and every number of lookups", "why_tests_cant": "lost wakeups and the races with stop depend on single steps of two threads", "anchors": ["src/modules/dns/unix/nm_unix_dns.c:async_resolve", "src/modules/dns/unix/nm_unix_dns.c:resolve_thread", "src/modules/dns/unix/nm_unix_dns.c:stop_resolver", "src/modules/dns/unix/nm_unix_dns.c:nm_unix_dns_resolver_deinit", "platform_integration_example/select_unix_platform.c:nabto_device_platform_deinit", "src/api/nabto_device.c:nabto_device_free"]}
{"id": "C110", "title": "Saving a file is all or nothing", "statement": "A save which ends anywhere, in success, in an error or in a crash, leaves the old or the new content; a save which reports success has written everything.", "quantifier": "every content of the file, every new content, every order in which the C library hands bytes to the operating system, and every crash point", "why_tests_cant": "crash points and the moment of a full disk are not under control of a test", "anchors": ["src/modules/fs/posix/nm_fs_posix.c:write_file", "apps/common/string_file.c:string_file_save"]}
{"id": "C111", "title": "The tunnel device starts with its last saved state or not at all", "statement": "After any history of starts, saves of the IAM state, write errors and crashes, a tunnel device which starts uses the state it tried to write last; a torn or partly read file is refused and never taken for another state, such as one with open pairing or without users.", "quantifier": "every history of starts and saves of any states with any write events and crashes, and every short read", "why_tests_cant": "a torn file can end at any byte of any state; a test tries a few", "anchors": ["apps/tcp_tunnel_device/src/tcp_tunnel_state.c:load_tcp_tunnel_state", "apps/tcp_tunnel_device/src/tcp_tunnel_state.c:save_tcp_tunnel_state", "3rdparty/cjson/cjson/cJSON.c:cJSON_Parse", "apps/common/string_file.c:string_file_load"]}
{"id": "C112", "title": "A device keeps its private key", "statement": "All starts of a device use the same private key, whatever crashes and errors happen; a stored key is not overwritten; an interrupted first start can be repeated.", "quantifier": "every history of starts with any write events, crashes and short reads", "why_tests_cant": "the interruption can happen at any byte of the first save", "anchors": ["apps/common/private_key.c:load_or_create_private_key", "apps/common/private_key.c:create_private_key"]}
{"id": "C113", "title": "Loading a file is memory safe and complete", "statement": "Loading a text or JSON file never reads or writes outside its buffer, also when another process changes the file or memory runs out, and what it delivers with success is the file.", "quantifier": "every file before and after a change by somebody else, every short read, and every failure to allocate", "why_tests_cant": "needs another process between two system calls and errors of the disk", "anchors": ["apps/common/string_file.c:string_file_load", "apps/common/json_config.c:json_config_load", "src/modules/fs/posix/nm_fs_posix.c:read_file", "src/modules/fs/posix/nm_fs_posix.c:size"]}
{"id": "C114", "title": "The default access control of the tunnel device does what it says", "statement": "With the configuration the tunnel device creates, an unpaired client can only pair, a guest can also list users and roles and see, name and delete themselves, a standard user can also open tunnels, and only an administrator can do the rest. No sequence of requests makes somebody an administrator without a request of an administrator, local initial pairing or the password of an administrator. A newly set up device does not change until somebody has the password of its administrator.", "quantifier": "every user, action, attribute and connection; every history of requests by any clients, with connections closing and callbacks in between", "why_tests_cant": "a test tries the requests its author thinks of; privilege escalation is a sequence of requests nobody thought of", "anchors": ["apps/tcp_tunnel_device/src/iam_config.c:iam_config_create_default", "apps/tcp_tunnel_device/src/tcp_tunnel_init.c:create_state_default", "src/modules/iam/nm_iam.c:nm_iam_check_access", "src/modules/iam/nm_iam_internal.c:nm_iam_internal_check_access_role"]}
{"id": "C115", "title": "Generated passwords are well formed and equally likely", "statement": "A generated password has exactly the length asked for, consists of readable letters and digits, and every such password is equally likely if every byte of the generator is; generating ends as soon as enough usable bytes came, never touches memory outside of its arrays, and a device which was set up has passwords.", "quantifier": "every length, every sequence of answers of the random generator including failures, and every pair of passwords", "why_tests_cant": "the number of passwords and of byte sequences is out of reach of a test; a statistical test does not see a small bias", "anchors": ["apps/common/random_string.c:random_password", "apps/tcp_tunnel_device/src/tcp_tunnel_init.c:create_state_default"]}
{"id": "C116", "title": "What is typed at a prompt is what is stored", "statement": "A prompt stores the line which was typed, never writes outside of its buffer, and reports a line which does not fit. A yes/no question is answered by the first line which is y, yes, n or no, a question for a number by the first number which is not above the maximum. Prompts end when the input ends.", "quantifier": "every sequence of bytes and ends of input, every buffer size, every number of refused lines before the answer, and both kinds of char", "why_tests_cant": "a test types a few lines; it does not type tabulators, NUL, letters outside of ASCII or nothing at all, and runs on one platform", "anchors": ["apps/common/prompt_stdin.c:prompt", "apps/common/prompt_stdin.c:prompt_repeating", "apps/common/prompt_stdin.c:prompt_yes_no", "apps/common/prompt_stdin.c:prompt_yes_no_default", "apps/common/prompt_stdin.c:prompt_uint16", "apps/common/prompt_stdin.c:prompt_uint16_default", "apps/tcp_tunnel_device/src/tcp_tunnel_init.c:createService"]}
{"id": "C117", "title": "Services and device configuration survive their files", "statement": "The services and the device configuration which are written are the ones which are loaded again. A services file is accepted only if every element describes a service, and then each service is the one described. A crash during a write never leads to other services. A new device offers ssh on itself and nothing else, and a device can be started again after any crash.", "quantifier": "every list of services, every document, every crash point of a write, every outcome of reads and every allocation failure while writing", "why_tests_cant": "a test writes a few services and reads them; it does not tear the file at every byte nor fail every allocation", "anchors": ["apps/tcp_tunnel_device/src/tcp_tunnel_services.c:load_tcp_tunnel_services", "apps/tcp_tunnel_device/src/tcp_tunnel_services.c:load_services_from_json", "apps/tcp_tunnel_device/src/tcp_tunnel_services.c:service_from_json", "apps/tcp_tunnel_device/src/tcp_tunnel_services.c:tcp_tunnel_service_as_json", "apps/tcp_tunnel_device/src/tcp_tunnel_services.c:tcp_tunnel_create_default_services_file", "apps/common/device_config.c:load_device_config", "apps/common/device_config.c:save_device_config", "apps/common/json_config.c:json_config_save"]}
{"id": "C118", "title": "A reachability check is told one true result", "statement": "Every reachability check of a TCP probe is told exactly one result: how the connect ended, that it was aborted when it was stopped first, or that it was refused because another one is under way or the host is no IPv4 address. Freeing a probe is safe, whatever is under way, and no check is forgotten by it.", "quantifier": "every history of checks, stops, ends of connects, event thread steps and frees of a probe, on both platforms", "why_tests_cant": "Which of stop, free, the end of the connect and the event thread comes first is decided by the network and the scheduler; the bad orders need a connect which is still open when the probe is freed", "anchors": ["src/api/nabto_device_tcp_probe.c: nabto_device_tcp_probe_new, nabto_device_tcp_probe_free, nabto_device_tcp_probe_stop, nabto_device_tcp_probe_check_reachability, probe_free, connect_callback", "src/platform/np_completion_event.c: np_completion_event_resolve, np_completion_event_deinit", "src/modules/libevent/nm_libevent_tcp.c: tcp_async_connect, tcp_abort, tcp_destroy", "src/modules/select_unix/nm_select_unix_tcp.c: async_connect, tcp_abort"]}
{"id": "C119", "title": "CoAP messages are sent, sent again and given up in time", "statement": "Whatever the CoAP library of the device wants next (send a message, resolve a request, wait for a timeout) is always looked after: the event thread has it in its queue, a packet is with a DTLS connection, or a timer is set no later than the library wants. A lost message is therefore sent again and a request without an answer is given up, however long the device has been running and whatever memory there is, and one connection cannot stop messages to others.", "quantifier": "every CoAP library state machine, every history of packets, requests, timeouts, finished sends, memory failures and refused sends, and any time which passes in between, for the CoAP client and the CoAP server", "why_tests_cant": "The timer logic works on 32-bit stamps; the failure needs a device which has been idle for more than six days, and the other one a connection which closes in the moment a response is sent", "anchors": ["src/core/nc_coap_client.c: nc_coap_client_init, nc_coap_client_handle_packet, nc_coap_client_handle_send, nc_coap_client_handle_wait, nc_coap_client_handle_timeout, nc_coap_client_handle_callback, nc_coap_client_event, nc_coap_client_send_to_callback, nc_coap_client_set_infinite_stamp", "src/core/nc_coap_server.c: nc_coap_server_event, nc_coap_server_handle_send, nc_coap_server_handle_wait, nc_coap_server_handle_timeout, nc_coap_server_send_to_callback, nc_coap_server_set_infinite_stamp"]}
{"id": "C120", "title": "The password exchange lets in exactly those who have the password", "statement": "A client which uses the password of the user and the fingerprints of the connection ends up with the same key as the device, whether the device was built with mbed TLS or wolfSSL, is authenticated and gets the confirmation it expects. Anyone who is authenticated has used that very password, the fingerprints and messages of this very connection and the secret point of the device, or has found a collision of the hash. For a user who does not exist or has no password the device uses 32 random bytes as the password, so that nobody can be authenticated without guessing them.", "quantifier": "every group, hash and encoding of points as assumed in PakeSpec, every password, private keys, random bytes, fingerprints, messages and proof of a client", "why_tests_cant": "An attacker chooses any message; that the wolfSSL build accepts a fixed secret for unknown users does not show in a test with a right and a wrong password", "anchors": ["src/modules/mbedtls/nm_mbedtls_spake2.c: nm_mbedtls_spake2_calculate_key, mbedtls_spake2_key_confirmation, hashLength, hashData, hashPoint, hashMpi", "src/modules/wolfssl/nm_wolfssl_spake2.c: wolfssl_spake2_calculate_key_ex, password_to_mpi, calculate_S, calculate_K, wolfssl_spake2_key_confirmation"]}
{"id": "C121", "title": "Secure sessions behave the same when the device is built with wolfSSL", "statement": "With wolfSSL as with mbed TLS: every message given to the secure session of a client or of the basestation is reported exactly once and in order of acceptance, those reported as sent are exactly those which the encryption took; the session is freed once after it was given up and not used afterwards; a session which is closed goes away; the attacher hears of the end of its session once and of no session which it has given up; the timer of the handshake does not outlive it.", "quantifier": "every history of handshakes, received packets, messages, closes, socket completions, timers, and results of wolfSSL, including lack of buffers", "why_tests_cant": "the order of events is decided by the network and the scheduler, and the tests are run with one of the two libraries", "anchors": ["src/modules/wolfssl/nm_wolfssl_srv.c: nm_wolfssl_srv_do_one, handle_timeout, nm_wolfssl_srv_start_send_deferred, nm_wolfssl_srv_async_close, nm_wolfssl_srv_connection_send_callback", "src/modules/wolfssl/nm_wolfssl_cli.c: event_do_one, handle_timeout, start_send_deferred, async_close, nm_dtls_udp_send_callback"]}
{"id": "C122", "title": "Received data reaches the connection with its own channel and number", "statement": "The data of every datagram of the client is handed to the connection once, in the order of arrival, with the channel on which it came and with a number which orders the data as the client sent it; forged datagrams change nothing of this, and a device built with wolfSSL treats its connections exactly as one built with mbed TLS.", "quantifier": "every sequence of datagrams (forged ones included), every division of records into datagrams, epochs and numbers, calls of the library in between, both libraries", "why_tests_cant": "An attacker can put together datagrams; two records in one datagram never occur with the usual client; that the wolfSSL module reads the number at the wrong place does not show as long as the order is kept", "anchors": ["src/modules/mbedtls/nm_mbedtls_srv.c: nm_mbedtls_srv_handle_packet, nm_mbedtls_srv_do_one", "src/modules/wolfssl/nm_wolfssl_srv.c: wolfssl_recv, nm_wolfssl_srv_do_one", "src/modules/wolfssl/nm_wolfssl_cli.c: nm_dtls_wolfssl_recv", "src/core/nc_client_connection.c: nc_client_connection_handle_data"]}
{"id": "C123", "title": "The switch for the basestation attach does what it says", "statement": "nabto_device_set_basestation_attach works before and after the start of the device and fails only when the device is closed: once the attach is switched off the device does not resolve the name of the basestation, opens no connection to it and is not attached until it is switched on; once it is switched on the device turns to the basestation; and closing the device completes whatever the switch did before.", "quantifier": "every history of switching, starting, closing and stopping, with every completion of names, connections, requests and timers of the attacher in between, and every failure of memory", "why_tests_cant": "the switch may be used while the device starts, attaches, retries or closes; a test waits for the start", "anchors": ["src/core/nc_device.c: nc_device_set_basestation_attach, nc_device_disable_remote_access, nc_device_sockets_bound, nc_device_close", "src/core/nc_attacher.c: nc_attacher_start, nc_attacher_restart, nc_attacher_async_close", "include/nabto/nabto_device.h: nabto_device_set_basestation_attach"]}
{"id": "C124", "title": "A device announces over mDNS what the application asked for", "statement": "The service is announced exactly when mDNS was enabled before the start, the start has completed and the device has not closed; with the port of the local socket, the name <product id>-<device id>, exactly the subtypes which were added with success and <product id>-<device id>, and exactly the TXT items which were set with success, each with the value set last, productid and deviceid being those of the device.", "quantifier": "every history of setting ids, enabling, adding subtypes and TXT items before and after the start, failing and succeeding starts, and closing; every failure of memory; every behaviour of the string map on existing keys, and a library which copies or keeps pointers", "why_tests_cant": "the map is changed by failing calls too, and what is announced afterwards depends on later calls", "anchors": ["src/core/nc_device.c: nc_device_enable_mdns, nc_device_mdns_add_subtype, nc_device_mdns_add_txt_item, nc_device_populate_mdns, reload_mdns, nc_device_sockets_bound", "src/api/nabto_device_mdns.c", "src/modules/mdns/nm_mdns_server.c: publish_service, nm_mdns_server_close", "include/nabto/nabto_device.h: nabto_device_mdns_add_txt_item"]}
{"id": "C125", "title": "The thermostat example shows what was set, keeps it over restarts, and its temperature reaches the target", "statement": "A CoAP request to set the mode, the power or the target is accepted exactly when the client has access and sent a CBOR value of the right type, and changes nothing otherwise; a client with access reads the values which were set last, also after restarts; each request gets one response; while the thermostat is on the temperature moves towards the target, never past it, and comes as close to it as one likes.", "quantifier": "every sequence of requests with every payload, every half precision number, any number of updates and restarts, every outcome of writing the file", "why_tests_cant": "the values are real numbers, NaN and infinities among them, and the file may be written partly; convergence ranges over unboundedly many updates", "anchors": ["examples/thermostat/src/thermostat_set_mode.c: handle_request", "examples/thermostat/src/thermostat_set_power.c: handle_request", "examples/thermostat/src/thermostat_set_target.c: handle_request", "examples/thermostat/src/thermostat_get.c: handle_request", "examples/thermostat/src/thermostat_coap_handler.c: thermostat_init_cbor_parser", "examples/thermostat/src/thermostat_state_file_backend.c: thermostat_state_file_backend_update, save_state", "examples/thermostat/src/thermostat_state_data.c", "examples/thermostat/src/cbor_extra.c: decode_halff", "examples/thermostat/src/thermostat_main.c: run_thermostat"]}
{"id": "C126", "title": "Printing a CoAP packet for the log does not corrupt memory", "statement": "Whatever CoAP packet a client sends, with any number of options of any number and length, printing it for the log writes nothing outside of its buffers and lets no pointer leave them; the log shows the description of the packet, cut off after 1022 bytes, or that it cannot be printed.", "quantifier": "every packet, header and outcome of the allocation", "why_tests_cant": "the packet comes from the network and the buffers are of fixed size: the worst case over all options, tokens and numbers decides", "anchors": ["src/core/nc_coap_packet_printer.c: nc_coap_packet_print, safeWrite, blockToString, tokenToString, coapCodeToString, coapOptionToString", "src/core/nc_coap_server.c: nc_coap_server_handle_packet"]}
{"id": "C127", "title": "The log callback gets the messages at the level which was set, with its own data", "statement": "The callback which was set last gets each message whose severity is at or below the level which was set last, once, its text cut off after 254 bytes, with the user data it was set with; a callback which was removed is not called any more; logging is defined whatever the messages are made of, the lines of the TLS libraries included.", "quantifier": "every history of setting levels and callbacks and of messages, every schedule of several threads, every content of lines", "why_tests_cant": "the variables are global without a lock: what the callback gets depends on the schedule; lines of the TLS libraries contain bytes chosen by the peer", "anchors": ["src/api/nabto_device_logging.c: logging_log, nabto_device_logging_set_callback, nabto_device_set_log_level", "src/platform/np_logging.c: np_raw_adapter, np_error_adapter", "src/modules/mbedtls/nm_mbedtls_util.c: my_debug", "src/modules/wolfssl/nm_wolfssl_util.c: logging_callback"]}
{"id": "C128", "title": "Packets and connections go to the host that is meant, and answers go back to the sender", "statement": "A UDP packet or TCP connection goes to the host and port its endpoint means, whatever the families of the socket and of the endpoint are, and is refused only if the socket is for IPv4 and the endpoint is not an IPv4 host; the endpoint reported for a received packet means its sender, so that an answer goes back to it; an error which the interface calls recoverable does not end reception.", "quantifier": "every address, port, family of the socket, outcome of the system calls and later history", "why_tests_cant": "the byte orders and mappings must agree for every address; link-local peers and errors of the system do not occur on a loopback test", "anchors": ["src/modules/libevent/nm_libevent_udp.c: udp_send_to, udp_recv_from", "src/modules/select_unix/nm_select_unix_udp.c: udp_send_to, udp_recv_from", "src/modules/libevent/nm_libevent_tcp.c: tcp_async_connect", "src/modules/select_unix/nm_select_unix_tcp.c: nm_select_unix_tcp_async_connect", "src/core/nc_udp_dispatch.c: async_recv_wait_complete"]}
{"id": "C129", "title": "A timed wait lasts as long as asked for, and a timer is due when its time has passed", "statement": "nabto_device_future_timed_wait on a future nobody resolves, and the wait of the event thread for its next timer, last as long as asked for, to a millisecond; the time between two time stamps is the time which went by; neither depends on the width of the types of the machine nor on somebody setting the clock of the system.", "quantifier": "every time, duration, width of long and time_t, and course of the wall clock", "why_tests_cant": "tests run on one machine with a clock nobody sets", "anchors": ["src/modules/threads/unix/nabto_device_threads_unix.c: nabto_device_threads_cond_timed_wait", "src/modules/timestamp/unix/nm_unix_timestamp.c: ts_now_ms", "src/modules/libevent/nm_libevent_timestamp.c: ts_now_ms", "src/api/nabto_device_future.c: nabto_device_future_timed_wait", "src/modules/event_queue/thread_event_queue.c: queue_thread"]}
{"id": "C130", "title": "The documents the device sends say what they should", "statement": "The request to attach, the upload of tokens, a push notification, a service invocation, a request for ICE servers, the endpoints and the descriptions of tunnel services are each sent as exactly one CBOR document with the fields and values they should have, which the other side reads back whatever the strings, addresses and numbers are; without memory nothing is sent and an error is reported.", "quantifier": "every string, message, list of tokens, endpoint, service and metadata, and every outcome of the allocation", "why_tests_cant": "the size of each document is computed in a first pass and must agree with the second pass for every length of every field; tests use a few short strings", "anchors": ["src/core/nc_attacher_attach_start.c: encode_cbor_request", "src/core/nc_attacher_sct.c: encode_scts", "src/core/nc_attacher_fcm.c: encode_request", "src/core/nc_attacher_service_invoke.c: encode_request", "src/core/nc_attacher_ice_servers.c: encode_request", "src/core/nc_stun_coap.c: encode_ep, encode_endpoints_response", "src/modules/tcp_tunnel/nm_tcp_tunnel_coap.c: encode_services_list, encode_service", "src/core/nc_cbor.h: NC_CBOR_CHECK_FOR_ERROR_EXCEPT_OOM"]}
{"id": "C131", "title": "A device offers the addresses at which it can be reached on its networks", "statement": "The addresses announced over mDNS and given to clients which ask for endpoints are addresses of the device, at most as many as there is room for; and every network the device is connected to finds an address among them.", "quantifier": "every set of interfaces and routes, every outcome of the system calls, every size of the array", "why_tests_cant": "tests run on one machine with one network and a default route", "anchors": ["src/modules/unix/nm_unix_local_ip.c: get_local_ips", "src/modules/libevent/nm_libevent_get_local_ip.c: get_local_ips", "src/platform/np_local_ip_wrapper.c: np_local_ip_get_local_ips", "src/modules/mdns/nm_mdns_server.c: nm_mdns_update_local_ips", "src/core/nc_stun_coap.c: nc_rendezvous_endpoints_completed"]}
{"id": "C132", "title": "Making a device succeeds whole or leaves no trace", "statement": "If `nabto_device_new` returns a device, everything the device needs is there, and `nabto_device_free` gives all of it back. If it returns NULL, nothing is kept, no thread runs and the process is as before.", "quantifier": "every outcome of every allocation, thread, event, socket and library call made while a device is made, alone or together", "why_tests_cant": "there are some eighty things which can fail; tests run with all of them succeeding", "anchors": ["src/api/nabto_device.c: nabto_device_new, nabto_device_new_resolve_failure, nabto_device_stop, nabto_device_free", "src/nabto_device_libevent/nabto_platform_libevent.c: nabto_device_platform_init, nabto_device_platform_deinit, nabto_device_platform_stop_blocking", "src/core/nc_device.c: nc_device_init, nc_device_deinit", "src/api/nabto_device_future_queue.c: nabto_device_future_queue_init", "src/modules/event_queue/thread_event_queue.c: thread_event_queue_run, thread_event_queue_stop_blocking"]}
{"id": "C133", "title": "Every IAM request is answered once, given back once, and leaves nothing behind", "statement": "Every request which is delivered to a resource of the IAM service is answered exactly once and given back exactly once, after which the resource waits for the next one. No memory is lost and no freed memory is used, also when the sending of a test notification fails.", "quantifier": "every history of requests, of completed notifications and of a stop, for each of the 27 resources; every content of the request, state of the module and outcome of every allocation and call", "why_tests_cant": "each handler has between 10 and 600 ways through it, most of which need a failing allocation or a failing basestation", "anchors": ["src/modules/iam/coap_handler/nm_iam_coap_handler.c: nm_iam_coap_handler_init, nm_iam_coap_handler_deinit, request_callback, nm_iam_coap_handler_async_request_end, nm_iam_cbor_send_error_response", "src/modules/iam/coap_handler/nm_iam_send_fcm_test.c: handle_request, msg_sent_callback, nm_iam_send_fcm_test_init", "src/modules/iam/coap_handler/*.c: handle_request", "src/modules/iam/nm_iam_internal.c: nm_iam_internal_check_access, nm_iam_internal_pair_new_client"]}
{"id": "C134", "title": "Users and states are what was asked for, also when memory is short", "statement": "A call of the State Builder API that answers success did what it was asked to do, one that answers failure changed nothing. A copy of a state is complete or refused. A load that answers success has loaded the whole document. Nothing leaks and nothing is freed twice.", "quantifier": "every user and state, every sequence of calls, every document and every pattern of failing requests for memory", "why_tests_cant": "a user has twelve fields and each is a request of its own; a test would have to fail each of them in turn, for each sequence of calls", "anchors": ["src/modules/iam/nm_iam_user.c: nm_iam_user_new, nm_iam_user_free, nm_iam_user_copy, nm_iam_user_set_password, nm_iam_user_set_notification_categories, nm_iam_user_set_fingerprint, nm_iam_user_add_fingerprint, nm_iam_user_remove_fingerprint", "src/modules/iam/nm_iam_state.c: nm_iam_state_copy, nm_iam_state_free, nm_iam_state_set_friendly_name", "src/modules/iam/nm_iam_from_json.c: nm_iam_user_from_json", "src/modules/iam/nm_iam_serializer.c: nm_iam_serializer_state_load_json", "src/modules/iam/nm_iam.c: nm_iam_dump_state"]}
{"id": "C135", "title": "A device with a private key has its certificate and its fingerprint", "statement": "Making a key, setting it as text or as bytes, and making the certificate and the fingerprint of it say OK exactly when they did it: the text handed out is that of the key, the certificate is self-signed by the key and valid, the fingerprint is the SHA-256 of the public key and the same one a peer computes from the certificate. Contexts of the cryptographic library and texts are given back exactly once, whatever fails.", "quantifier": "every key, every text, every sequence of calls and every pattern of failing library calls and requests for memory, for mbedtls 2, mbedtls 3 and wolfSSL", "why_tests_cant": "each function makes up to twelve library calls and each can fail; tests link against a library which does not fail", "anchors": ["src/modules/mbedtls/nm_mbedtls_util.c: nm_mbedtls_create_crt_from_private_key, nm_mbedtls_get_fingerprint_from_private_key, nm_mbedtls_util_fp_from_crt, nm_mbedtls_util_create_private_key", "src/modules/wolfssl/nm_wolfssl_util.c: nm_wolfssl_create_crt_from_private_key, nm_wolfssl_get_fingerprint_from_private_key, nm_wolfssl_util_fp_from_crt, nm_wolfssl_util_create_private_key", "src/api/nabto_device.c: nabto_device_set_private_key", "src/api/nabto_device_util.c: nabto_device_create_private_key"]}
{"id": "C136", "title": "A raw private key is taken exactly when it is a valid one", "statement": "nabto_device_set_private_key_secp256r1 takes a key of 32 bytes whose number lies between 1 and n-1, n being the order of the group. Anything else is refused and the device keeps the key it has.", "quantifier": "every list of bytes of every length", "why_tests_cant": "there are 2^256 keys; the boundary is a number of 32 bytes compared byte by byte", "anchors": ["src/api/nabto_device_experimental_set_private_key_secp256r1_mbedtls.c: nabto_device_set_private_key_secp256r1, nabto_device_set_private_key_secp256r1_compute", "src/api/nabto_device_experimental_set_private_key_secp256r1_wolfssl.c: compare_key_against_group_order, nabto_device_set_private_key_secp256r1"]}
{"id": "C137", "title": "A configuration built by code contains exactly what the successful calls said", "statement": "After any sequence of calls of the configuration builder which uses handles only while they are alive, adds a policy or role at most once and does not free it afterwards, a configuration contains the policies and roles added to it, each with the statements, actions, conditions and values of the calls which returned success, in order and each string once. A call which returns NULL or false changes nothing. Freeing the configuration frees all of it exactly once; when everything was freed or handed over no memory is in use.", "quantifier": "every sequence of calls, every name and every pattern of failing requests for memory", "why_tests_cant": "the number of structures and of points of failure is unbounded, and a leaked or doubly freed node shows only for some shapes", "anchors": ["src/modules/iam/nm_iam_configuration.c: nm_iam_configuration_new, nm_iam_configuration_free, nm_iam_configuration_add_policy, nm_iam_configuration_add_role, nm_iam_configuration_set_unpaired_role, nm_iam_configuration_policy_create_statement, nm_iam_configuration_statement_create_condition", "src/modules/iam/nm_iam_role.c: nm_iam_role_new, nm_iam_role_free", "src/modules/iam/policies/nm_policy.c: nm_policy_new, nm_policy_free", "src/modules/iam/policies/nm_statement.c: nm_statement_new, nm_statement_free", "src/modules/iam/policies/nm_condition.c: nm_condition_new_with_key, nm_condition_free"]}
{"id": "C138", "title": "Listeners for connection events and device events miss nothing, keep order and do not disturb each other", "statement": "With any number of listeners of both kinds, each initialised at most once and freed after it was stopped: a listener hands over the numbers of exactly the events of its kind which happen while it is open, each once and in order, as long as the application asks for them; what was not asked for yet waits in its queue. Each future given to a listener is resolved exactly once, at the latest when the listener ends. A listener which runs out of memory ends alone with OUT_OF_MEMORY: what a listener says does not depend on the calls made for other listeners. Freed memory is not used, and when all listeners are at an end no event, context or registration is left.", "quantifier": "every sequence of calls and events, every number of listeners and every pattern of failing requests for memory", "why_tests_cant": "the number of listeners, events and points of failure is unbounded, and lists which are changed while they are walked fail only for some histories", "anchors": ["src/api/nabto_device_connection_events.c: nabto_device_connection_events_init_listener, nabto_device_listener_connection_event, nabto_device_connection_events_listener_cb, nabto_device_connection_events_core_cb", "src/api/nabto_device_events.c: nabto_device_device_events_init_listener, nabto_device_listener_device_event", "src/api/nabto_device_listener.c: nabto_device_listener_add_event, nabto_device_listener_init_future, nabto_device_listener_try_resolve, nabto_device_listener_set_error_code, nabto_device_listener_stop, nabto_device_listener_free", "src/core/nc_device.c: nc_device_add_connection_events_listener, nc_device_events_listener_notify"]}
{"id": "C139", "title": "The application is told who is at the two ends of each connection", "statement": "A connection is virtual exactly if the application made it and has not freed it; its reference is never given to another connection. For a virtual connection the fingerprints told are those which were set last, as a terminated string of 64 hexadecimal digits in lower case (32 for the functions that show half); a text is accepted only if it is a fingerprint in hexadecimal digits and a refused text changes nothing. For a client they are the digits of its certificate, and for the device those of its key. A failing call changes nothing, a call which says OK gives a string, no call writes outside its buffers, futures are resolved, and all memory is given back when the virtual connections and strings were freed.", "quantifier": "every sequence of calls with any number of virtual and client connections, every text, every fingerprint and every pattern of failing requests for memory", "why_tests_cant": "texts and histories are unbounded, a missing terminator is seen only if the next byte in memory happens not to be zero, and failing requests for memory are not produced by tests", "anchors": ["src/api/nabto_device_virtual_connection.c: nabto_device_virtual_connection_new, nabto_device_virtual_connection_free, nabto_device_virtual_connection_close, nabto_device_virtual_connection_set_client_fingerprint, nabto_device_virtual_connection_set_device_fingerprint, nabto_device_connection_is_virtual, nabto_device_connection_get_device_fingerprint", "src/core/nc_virtual_connection.c: nc_virtual_connection_set_client_fingerprint, nc_virtual_connection_destroy", "src/core/nc_connection.c: nc_connection_get_client_fingerprint, nc_connection_is_local", "src/api/nabto_device.c: toHex, nabto_device_get_device_fingerprint, nabto_device_connection_get_client_fingerprint, nabto_device_connection_get_client_fingerprint_hex, nabto_device_connection_is_local"]}
{"id": "C140", "title": "Access is decided by the configuration, on the request as it was made", "statement": "When the core asks whether a client may do something, the verdict it is told is whether the configuration and users, as they were at some moment between the question and the answer, permit the action with exactly the attributes that were added to the request (the first of several with one key) to whoever uses the connection. Without a running handler the verdict is no. Every question gets exactly one verdict, nothing undefined happens, and no memory is lost.", "quantifier": "every sequence of requests, attributes, failing requests for memory, changes of the configuration, the users and the connections, and every place of starting, stopping and of the steps of the handler in it", "why_tests_cant": "the handler runs in its own thread and the order of its steps with respect to new requests, configuration changes and stopping is up to the scheduler", "anchors": ["src/modules/iam/nm_iam_auth_handler.c: nm_iam_auth_handler_init, nm_iam_auth_handler_stop, nm_iam_auth_handler_deinit, start_listen, request_callback, handle_request", "src/api/nabto_device_authorization.c: add_string_attribute, get_attribute, get_attributes_size, nabto_device_authorization_request_get_attributes_size, nabto_device_authorization_request_get_attribute_name, nabto_device_authorization_request_get_attribute_value, nabto_device_authorization_request_get_action, nabto_device_authorization_request_get_connection_ref"]}
{"id": "C141", "title": "The device attaches only to the right server and an attempt leaves nothing behind", "statement": "Unless certificate validation has been turned off, the device completes the handshake only with a server whose certificate is valid for the host name the device was started with and comes from a trusted root; root certificates set by the user replace the default one. A server with such a certificate is accepted, and with validation off every server is. An attempt which fails, for whatever reason, leaves nothing allocated and no pointer to freed memory, and after the end of the device nothing is left.", "quantifier": "every history of setting roots (also failing halfway), turning validation off, starting, attempts with any step failing, answers of servers, packets, closings and the end of the device, for both TLS libraries", "why_tests_cant": "a test sees one server, one store of roots and few of the places where creating a connection can fail, and setting a shared TLS configuration in one attempt acts on later ones", "anchors": ["src/modules/mbedtls/nm_mbedtls_cli.c: create_connection, create_attach_connection, set_root_certs, init_mbedtls_config, initialize_context", "src/modules/wolfssl/nm_wolfssl_cli.c: create_client_connection, create_attach_connection, do_destroy_connection, set_root_certs", "src/core/nc_attacher.c: nc_attacher_set_root_certs, nc_attacher_disable_certificate_validation, handle_state_change, reset_dtls_connection, nc_attacher_handle_dtls_packet, nc_attacher_deinit"]}
{"id": "C142", "title": "Opening a connection is all or nothing", "statement": "Whatever fails while a client opens a connection (memory, events, the TLS library), afterwards either there is a complete new connection or nothing is left allocated; nothing undefined happens; the connections which are open stay as they are; there are never more than the limit; the end of every connection is told to the listener exactly once; and after the end of the device nothing is left.", "quantifier": "every history of first packets with any combination of failing steps, completed handshakes, closings, limits and the end of the device, for both TLS libraries", "why_tests_cant": "there are a dozen places where opening can fail, the damage shows only in what is left over much later, and failing events or TLS objects cannot be provoked by sending packets to a healthy device", "anchors": ["src/core/nc_client_connection.c: nc_client_connection_init, nc_client_connection_destroy_connection", "src/core/nc_client_connection_dispatch.c: nc_client_connection_dispatch_handle_packet", "src/core/nc_connection.c: nc_connections_alloc_client_connection, nc_connections_free_connection, nc_connections_deinit", "src/modules/mbedtls/nm_mbedtls_srv.c: nm_mbedtls_srv_create_connection, nm_mbedtls_srv_destroy_connection", "src/modules/wolfssl/nm_wolfssl_srv.c: nm_wolfssl_srv_create_connection, nm_wolfssl_srv_destroy_connection"]}
{"id": "C143", "title": "Every future of a virtual stream is resolved once", "statement": "Every future given to a virtual stream is resolved exactly once, with the result of its operation; a second operation of a kind is refused while one is in progress; aborting resolves all futures; a handle may be freed when its futures are resolved, and then nothing of it is left; and nothing undefined happens, whatever the other end does.", "quantifier": "every history of calls on a handle (opening, reading, writing, closing, aborting, freeing), of the device's application at the other end and of the event queue, with and without memory", "why_tests_cant": "whether a future is resolved depends on the interleaving of both ends and the event queue; a future which is never resolved shows only by waiting for ever", "anchors": ["src/api/nabto_device_virtual_connection.c: nabto_device_virtual_stream_new, nabto_device_virtual_stream_free, nabto_device_virtual_stream_open, nabto_device_virtual_stream_read_all, nabto_device_virtual_stream_read_some, nabto_device_virtual_stream_write, nabto_device_virtual_stream_close, nabto_device_virtual_stream_abort", "src/core/nc_virtual_stream.c: nc_virtual_stream_client_stop, nc_virtual_stream_destroy", "src/core/nc_stream_manager.c: nc_stream_manager_accept_virtual_stream"]}
{"id": "C144", "title": "The DTLS timer keeps the contract of mbed TLS", "statement": "Asking the timer of a DTLS session gives -1 if it is off, 0 while no delay has passed, 1 once the intermediate delay has passed and 2 once the final delay has; its callback runs once for every setting which is not replaced or cancelled, not before the final delay, and never after cancelling.", "quantifier": "every history of settings, cancellations, passing time and steps of the event thread and of other threads using the event queue, across wraps of the 32 bit clock", "why_tests_cant": "whether a retransmission comes early, late or not at all depends on when the event thread takes an event and which thread sets the timer at that moment", "anchors": ["src/modules/mbedtls/nm_mbedtls_timer.c: nm_mbedtls_timer_init, nm_mbedtls_timer_set_delay, nm_mbedtls_timer_get_delay, nm_mbedtls_timer_cancel, timer_cb", "src/modules/event_queue/thread_event_queue.c: queue_thread, post_timed_event, cancel_event"]}
{"id": "C145", "title": "A configuration loaded when memory is short grants no more than its document", "statement": "If nm_iam_serializer_configuration_load_json reports success, a user or an unpaired client is granted no action which the configuration in the document does not grant, also if memory allocation failed while it was loaded; if it reports failure the configuration is as before; in both cases no memory is lost.", "quantifier": "all documents, all configurations loaded into, all patterns of failing allocations, all roles, actions and attributes", "why_tests_cant": "tests run with memory enough; which value or policy is lost depends on which single allocation fails, and whether the loss widens access depends on the document", "anchors": ["src/modules/iam/nm_iam_serializer.c: nm_iam_serializer_configuration_load_json", "src/modules/iam/nm_iam_from_json.c: nm_iam_role_from_json", "src/modules/iam/policies/nm_policies_from_json.c: nm_policy_from_json, nm_statement_from_json, nm_condition_from_json", "src/modules/iam/policies/nm_condition.c: nm_condition_matches"]}
{"id": "C146", "title": "The IAM module starts completely or can be ended without a trace", "statement": "If nm_iam_init returns true all its services listen; nm_iam_stop may then be called at any time and no service takes a request after it. Whether or not nm_iam_init succeeded, nabto_device_stop followed by nm_iam_deinit frees all it made, once, and uses nothing which is not there.", "quantifier": "all patterns of refused memory during the start, all histories of requests, callbacks and stops", "why_tests_cant": "thirty services with three requests for memory each: which one is refused decides what must be undone, and tests run with memory enough", "anchors": ["src/modules/iam/nm_iam.c: nm_iam_init, nm_iam_stop, nm_iam_deinit", "src/modules/iam/nm_iam_internal.c: nm_iam_internal_init_coap_handlers, nm_iam_internal_deinit_coap_handlers, nm_iam_internal_stop", "src/modules/iam/coap_handler/nm_iam_coap_handler.c: nm_iam_coap_handler_init, nm_iam_coap_handler_stop, nm_iam_coap_handler_deinit", "src/modules/iam/nm_iam_auth_handler.c: nm_iam_auth_handler_init", "src/modules/iam/nm_iam_pake_handler.c: nm_iam_pake_handler_init", "src/modules/iam/nm_iam_connection_events.c: nm_iam_connection_events_init"]}
{"id": "C147", "title": "Only who proved the password of a user is taken for that user", "statement": "With the IAM module, an access check takes a client which is neither paired nor authorised for a user only if that client proved, on this connection, the password this user has in the IAM state.", "quantifier": "all states of device and IAM module, all connections, all histories of authentication requests, answers and changes of users", "why_tests_cant": "the decision is made from what three modules left behind at different times; needs every interleaving of requests for different names", "anchors": ["src/core/nc_spake2.c: nc_spake2_password_ready", "src/core/nc_spake2_coap.c: nc_spake2_handle_coap_2", "src/modules/iam/nm_iam_pake_handler.c: handle_request", "src/modules/iam/nm_iam_internal.c: nm_iam_internal_check_access", "src/api/nabto_device_password_authentication.c: nabto_device_connection_get_password_authentication_username"]}
{"id": "C148", "title": "A tunnel is opened exactly for whom the IAM configuration lets connect to the service", "statement": "With the IAM module, a TCP tunnel is opened for a stream only if, after the stream arrived at a service, the IAM configuration lets the connection of this stream do TcpTunnel:Connect with the id and the type of this service, and the tunnel goes to this service; a stream is refused only if that is not so, the service is gone, its limit is reached, the IAM module is not running or memory is short. Services are listed and described over CoAP only to clients who may list or see them.", "quantifier": "all configurations and IAM states and their changes at any time, all histories of streams, CoAP requests, services added and removed, all interleavings of the core, the IAM handler's thread and the event queue, all allocation failures while requests are made", "why_tests_cant": "the decision crosses four modules and two threads, while services and users change; tests fix one order and one configuration", "anchors": ["src/modules/tcp_tunnel/nm_tcp_tunnel.c: nm_tcp_tunnel_service_stream_listener_callback, service_stream_iam_callback", "src/modules/tcp_tunnel/nm_tcp_tunnel_coap.c: list_services, get_service_action", "src/api/nabto_device_authorization.c: create_request, add_string_attribute, check_access, handle_verdict", "src/modules/iam/nm_iam_auth_handler.c: handle_request", "src/modules/iam/nm_iam_internal.c: nm_iam_internal_check_access"]}
{"id": "C149", "title": "Who pairs with a password has proved the password of that pairing mode", "statement": "A client makes a user by password open pairing only if its connection proved the password of open pairing. A client is paired by password invitation only with a user whose password its connection proved, and an invitation pairs no further client once it was used.", "quantifier": "all histories of connections, password authentications, IAM requests of all clients and changes of the IAM state by the application, in all orders; all configurations, users, passwords and keys", "why_tests_cant": "the proof is made in the core and used in the IAM module later, after any other requests and changes; tests play through one client at a time", "anchors": ["src/core/nc_spake2.c: nc_spake2_password_ready, nc_spake2_handle_coap_2", "src/modules/iam/nm_iam_pake_handler.c: handle_request", "src/modules/iam/coap_handler/nm_iam_pairing_password_open.c: handle_request", "src/modules/iam/coap_handler/nm_iam_pairing_password_invite.c: handle_request", "src/api/nabto_device_password_authentication.c: nabto_device_connection_is_password_authenticated, nabto_device_connection_get_password_authentication_username"]}
{"id": "C150", "title": "A test notification goes to the user it is for, with the text of the test", "statement": "A request for a test notification sends a notification only if the client may test the notifications of the named user; it is for the project and the token of this user, and is the JSON message with the fixed title and body of the test and this token, whatever the token is.", "quantifier": "all IAM configurations and states, clients, user names, tokens and projects; all number conversions of the JSON reader", "why_tests_cant": "the token is text chosen by a client; tests send tokens as phones make them", "anchors": ["src/modules/iam/coap_handler/nm_iam_send_fcm_test.c: handle_request, noti1, noti2"]}
{"id": "C151", "title": "A started device has the key which was set last", "statement": "When a start succeeds, the DTLS client and the DTLS server of the device show the certificate of the private key which was set last, have that key, and the device has its fingerprint, also if earlier starts failed or other keys were set before; no memory is lost.", "quantifier": "all histories of setting keys and ids and of starts, with all failures of the steps of a start; both TLS libraries, for MbedTLS whatever it does when it is used against its documentation", "why_tests_cant": "depends on every start that was tried before and on where it failed; tests start a device once", "anchors": ["src/api/nabto_device.c: nabto_device_start", "src/core/nc_device.c: nc_device_set_keys", "src/modules/mbedtls/nm_mbedtls_cli.c: set_keys", "src/modules/mbedtls/nm_mbedtls_srv.c: nm_mbedtls_srv_init_config", "src/modules/wolfssl/nm_wolfssl_cli.c: set_keys", "src/modules/wolfssl/nm_wolfssl_srv.c: nm_wolfssl_srv_init_config"]}
{"id": "C152", "title": "The device sends one attach request of a kind at a time", "statement": "At any time at most one attach start request, one token upload and one attach end request of the device are outstanding, whatever connections were lost and opened since they were sent: a further one is sent only when the one before it was answered or given up, and no answer is taken without a request.", "quantifier": "all histories of starts, stops, closes, tokens, resolved names, connections coming up and failing, answers, timeouts and timers", "why_tests_cant": "the requests of a lost connection are given up later than the next connection comes up; tests answer each request before they go on", "anchors": ["src/core/nc_attacher_attach_start.c: nc_attacher_attach_start_request", "src/core/nc_attacher_attach_end.c: nc_attacher_attach_end_request", "src/core/nc_attacher_sct.c: nc_attacher_sct_upload"]}
{"id": "C153", "title": "The device is attached when the server has said so", "statement": "The application is told that the device is attached only when the server answers the attach end request of the connection the device has with success, after it accepted the attach start request on that same connection; an attach end request is sent only on a connection on which the start was accepted.", "quantifier": "all histories of starts, stops, closes, tokens, resolved names, connections coming up and failing, answers (also late ones of lost connections), timeouts and timers", "why_tests_cant": "answers of earlier connections can come at any time of a later attempt; tests use one connection after the other", "anchors": ["src/core/nc_attacher.c: coap_attach_start_callback, send_attach_sct_request_callback, coap_attach_end_handler", "src/core/nc_attacher_attach_end.c: coap_attach_end_handler"]}
{"id": "C154", "title": "mDNS queries are heard on every network of the device", "statement": "While mDNS is enabled, a query on any network the device is on is heard, also if some interfaces cannot do multicast or are listed several times, and also on networks which come up or come back later.", "quantifier": "all lists of interfaces and addresses, all refusals of the system, all histories of networks coming and going", "why_tests_cant": "depends on the interfaces of the machine and how they change; tests run on one machine with fixed interfaces", "anchors": ["src/modules/select_unix/nm_select_unix_mdns_udp_bind.c: mdns_update_ipv4_socket_registration, mdns_update_ipv6_socket_registration", "src/modules/libevent/nm_libevent_mdns_udp_bind.c: nm_libevent_mdns_update_ipv4_socket_registration", "src/modules/unix/nm_unix_mdns.c: nm_unix_mdns_update_ipv4_socket_registration"]}
{"id": "C155", "title": "The expiration of the certificate of the basestation can be asked for at any time", "statement": "The call which asks when the certificate of the basestation expires may be made in every state of the device: while the device is attached it answers with the time of the certificate in seconds since 1970, otherwise it answers that the device is not attached.", "quantifier": "all histories of the device and of its attach attempts, all certificates, all builds of the library", "why_tests_cant": "the answer depends on the moment of the call relative to lookups, retries and redirects, and on the calendar", "anchors": ["src/api/nabto_device_experimental.c: nabto_device_get_attach_certificate_expiration", "src/modules/mbedtls/nm_mbedtls_cli.c: get_certificate_expiration", "src/modules/wolfssl/nm_wolfssl_cli.c: get_certificate_expiration", "include/nabto/nabto_device_experimental.h: nabto_device_get_attach_certificate_expiration"]}
{"id": "C156", "title": "The event queue on libevent runs what was posted, and nothing else", "statement": "With the event queue on libevent, a posted event runs, a delayed one not before its delay is over, a cancelled one not until it is posted again, never more often than asked for, and no call of the queue hangs, however the threads of the application and of libevent interleave.", "quantifier": "all sequences of calls from the application and from the callback, all delays, all interleavings with the thread of libevent", "why_tests_cant": "depends on where the thread of libevent is when a call is made", "anchors": ["src/nabto_device_libevent/libevent_event_queue.c: post, post_maybe_double, post_timed, cancel, handle_event", "src/nabto_device_libevent/libevent_event_queue.h: libevent_event_queue_create"]}
{"id": "C157", "title": "The lines of the loggers carry the time at which they were written", "statement": "Each line which the loggers of the library print carries the time at which it was written, to the millisecond, so that lines are stamped in the order in which they were written, together with the level and the end of the name of the file.", "quantifier": "all times at which lines are written, all sequences of lines, all names of files", "why_tests_cant": "the result depends on when the clock is read within a line", "anchors": ["src/modules/logging/api/std_out_logger.c: getTimestamp, nabto_device_logging_std_out_callback", "src/modules/logging/unix/nm_unix_logging.c: nm_unix_log"]}
{"id": "C158", "title": "A request for ICE servers gives the servers of the answer or none, and all memory back", "statement": "After a request for ICE servers which succeeded, the application sees exactly the servers of the answer, with their names, credentials and urls; after one which failed it sees none. Whatever the answer is and whenever the memory runs out, releasing the request gives all its memory back and nothing undefined happens.", "quantifier": "all answers with any number of servers and urls, all patterns in which requests for memory fail", "why_tests_cant": "the answers come from the network, and each request for memory can fail", "anchors": ["src/core/nc_attacher_ice_servers.c: parse_response, ice_server_clean, nc_attacher_ice_servers_ctx_deinit", "src/api/nabto_device_ice_servers.c: nabto_device_ice_servers_request_get_server_count, nabto_device_ice_servers_request_get_credential, nabto_device_ice_servers_request_get_url, nabto_device_ice_servers_request_free"]}
{"id": "C159", "title": "Every CoAP request reaches the application or is answered by the device, and its memory is given back", "statement": "Every CoAP request which comes in for a listener is given to the application exactly once and in the order of arrival, or is answered by the device with an error because memory ran out or the listener was stopped. The device does not crash, no memory is released twice, and once the application has released its requests and stopped the listener no memory is left in use.", "quantifier": "all sequences of initialising, listening, requests from clients, stopping and releasing, all patterns in which requests for memory fail", "why_tests_cant": "each request for memory can fail, and requests come in any order with the calls of the application", "anchors": ["src/api/nabto_device_coap.c: nabto_device_coap_init_listener, nabto_device_listener_new_coap_request, nabto_device_coap_request_free, nabto_device_coap_resource_handler, nabto_device_coap_listener_callback", "src/core/nc_coap_server.c: resource_callback, nc_coap_server_add_resource, nc_coap_server_remove_resource, nc_coap_server_request_free", "src/api/nabto_device_listener.c: nabto_device_listener_add_event, nabto_device_listener_try_resolve, nabto_device_listener_resolve_error_state"]}
{"id": "C160", "title": "Every error code an application sees is one of the header, with its message and string", "statement": "Every number the library returns or resolves a future with is one of the codes of the public header. Each of these has a message and a string of its own, the string being the name of the code. A push notification, a service invocation or a request for ICE servers is reported as successful exactly when the basestation gave what was asked for.", "quantifier": "all integers as codes of the core, all ways in which a request can start and end, all responses", "why_tests_cant": "a code can be any integer, and the endings of a request depend on memory, the network and the basestation", "anchors": ["src/api/nabto_device_error.c: nabto_device_error_core_to_api, nabto_device_error_get_message, nabto_device_error_get_string", "src/platform/np_error_code.c: np_error_code_to_string", "src/core/nc_attacher_fcm.c: coap_handler, nc_attacher_fcm_send", "src/core/nc_attacher_service_invoke.c: coap_handler, nc_attacher_service_invoke_execute", "src/core/nc_attacher_ice_servers.c: coap_handler, nc_attacher_request_ice_servers", "src/api/nabto_device_fcm.c: fcm_send_callback", "src/api/nabto_device_service_invocation.c: service_invoke_send_callback", "src/api/nabto_device_ice_servers.c: turn_req_send_callback", "src/core/nc_coap.c: nc_coap_error_to_core"]}
