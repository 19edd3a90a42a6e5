# Formal model of nabto-embedded-sdk in Lean 4

This file says, property by property, what is modelled and how it is proved, and states the trusted
base. It is written before the proofs and kept current. `properties.jsonl` has the full statements,
`MANIFEST.json` the theorem names.

## 1. Conventions

* One Lean module (or a small group) per C module of the SDK, under `lean/Verif/`.
  `*/Model.lean` (or the first half of a file) holds the transcription of the C code; every definition
  cites file and lines in `/repo`. `*/Spec*.lean` holds specifications that do not mention the model's
  helpers; `*/Props*.lean` holds the theorems that answer the properties, each with a non-vacuity
  `example` beside it.
* C structs become Lean structures, linked lists become `List`, `char*` becomes `Option String`
  where NULL is legal and `String` where it is not; buffers become `List UInt8` / `List Nat`.
* Fixed width arithmetic is modelled where it matters (`UInt32`, `UInt64`, `% 2^k`).
* Undefined behaviour (NULL dereference, out of bounds read, use after free, division by zero,
  deadlock on the library lock) is an explicit outcome in the models, not assumed away.
* Asynchronous code becomes a transition system `step : State -> Op -> State x Output`; theorems
  quantify over all finite sequences of operations (`List Op`), that is over all schedules.
* External code (missing `nabto-common` submodule, mbedtls, OS) is a parameter or an operation chosen
  by the environment; the assumptions are listed in section 3.
* Where the pinned code violates a property, the theorem proves the negation with a concrete witness
  (name suffix `_violated`), and a `_partial` theorem proves what does hold.

## 2. Plan per property

| Id | Model | Proof |
|----|-------|-------|
| C01 | policy, statement, condition evaluation, role check (`Iam/Policy`) | characterisation of the fold over the flattened statement list, by induction |
| C02 | same | monotonicity and permutation invariance derived from C01's characterisation |
| C03 | same | decision logic against an independent inductive spec |
| C04 | `nm_condition.c`, with `strtod` and the double comparison as parameters | induction over the value list against an independent spec |
| C05 | same | negation by witness; partial: one-element lists |
| C06 | `nm_iam_internal_check_access` (`Iam/Access`) | case analysis |
| C07 | same, with both possible behaviours of `nn_string_map_insert` on an existing key | theorem for overwrite semantics, negation for keep-first semantics |
| C08 | same | decision logic |
| C09 | `nc_spake2.c`, `nc_spake2_coap.c` as a transition system over connections (`Core/Spake2`) | negation by witness execution; partial: invariant under the restriction to one username per connection |
| C10 | same plus token timer | invariant by induction over executions with a clock |
| C11 | IAM state machine: all API setters, pairing and CoAP handlers (`Iam/State`, `Iam/Coap`) | invariant by induction over operation lists |
| C12 | same | negation by witness (open pairing), partial for all other operations |
| C13 | same plus `validate_state` | invariant over histories; negation by witness for the routes that break it |
| C14 | same | negation by witness; partial for CoAP fingerprint operations |
| C15, C16 | dump and load functions (`Iam/Json`), cJSON printer and parser on bytes (`Json/Cjson`) | structural round trips for documents, C70 for their texts |
| C17 | same | negation by witness; partial for documents in the canonical form |
| C18, C19 | users with allocation identity, authorised connections holding pointers (`Iam/AuthConn`) | negation by witness (use after free); partial invariants |
| C20, C21, C22, C23 | CoAP handlers as `step` of the IAM state machine | case analysis and induction over histories |
| C24 | the GET handlers on top of the tinycbor encoder (`Iam/Listing`) | non interference, content and injectivity |
| C25 | two pass encoding over the tinycbor encoder model (`Cbor`) | negation by witness for every state |
| C26, C27 | futures and future queue (`Api/Future`) with application, core, callback threads as operations | invariants by induction; negation for spurious wake up |
| C28, C29 | `nabto_device_listener.c` (`Api/Listener`) | ghost history refinement: delivered ++ released ++ queued = added |
| C30 | authorization request life cycle (`Api/Authorization`) | invariant by induction over schedules |
| C31, C64 | control flow of every function that takes a lock, extracted by `tools/lockskel.py` (`Api/Lock`, `Api/LockTable`) | checker run on the whole table by the kernel, with a soundness proof over all executions; lock order gives freedom of deadlock; negations by witness |
| C34 | `np_util.c` (`Util/Hex`) | round trip by induction |
| C35 | `np_timestamp_wrapper.c` (`Util/Timestamp`) | modular arithmetic |
| C36, C43 | `nc_packet.c`, stream packet header (`Core/Packet`) | round trip; negation by witness packets |
| C37 | `nc_keep_alive.c` (`Core/KeepAlive`) | invariants by induction over checks, exact detection bound |
| C38, C39, C67, C68 | `nc_attacher.c`, attach start and end, the DTLS client's events (`Core/Attacher`) as transition system with pending asynchronous operations | invariant of regular executions (something is always pending), ranking function for progress, potential function for redirects; negations by witness with an invariant of stuck states |
| C40 | `nc_attacher_sct.c` in the same model | invariant with a log of acknowledged uploads |
| C55 | `nc_attacher_watchdog.c` (`Core/Watchdog`) | exact condition on the history, composed with the attacher's notifications |
| C41 | `nc_udp_dispatch.c` (`Core/Dispatch`) | decision logic |
| C42, C81, C82 | `nc_stream_manager.c` and the life of streams in `nc_stream.c`, `nc_virtual_stream.c` (`Stream/Manager`, spec `Stream/ManagerSpec`); every choice of the streaming module is an input | reference counting invariant per stream, frame relation for the other streams, induction over histories; what each operation tells (`Stream/ManagerOut`); the lost RST buffer over every continuation |
| C44 | `nc_client_connection_dispatch.c`, `nc_connection.c`, `nc_client_connection.c`, references of `nc_device.c` (`Core/Conn`, spec `Core/ConnSpec`) | invariants by induction over histories (`Core/ConnLemmas`, `Core/ConnProps`); the exception after 2^64 connections by an explicit history |
| C45, C80 | operations of `nc_stream.c` on streams of clients (`Stream/Ops`), the stream module is an input; futures and completion events of `nabto_device_stream.c` (`Stream/Api`) | exactly-once accounting by counting over histories; books of every operation's bytes; negations by witness |
| C46 | `nc_virtual_stream.c` with the functions of `nc_stream.c` for virtual streams (`Stream/Virtual`) | bytes got, bytes in the buffer of a waiting read and bytes of a waiting write are always the bytes written (invariant over histories); counting of completions; negations by witness and, for what waits for ever, over every continuation |
| C47, C83, C84 | one tunnel connection with its socket and stream (`Tunnel/Conn`), a flag says whether the socket looks at its abort flag | phases of both directions as an abstraction function, every step computed by `rfl` on a phase; a rank for the end of an aborted connection; counterexamples by evaluation |
| C48, C85, C86 | services, limits, access checks, CoAP resources of tunnels (`Tunnel/Manager`) | one relation which lists all effects of an operation, invariants by induction over histories; counterexamples by evaluation |
| C49 | `nc_rendezvous.c` and the sending part of `nc_rendezvous_coap.c` (`Core/Rendezvous`) | multiset accounting of asked and sent packets by induction over histories; exact characterisation of the wrong comparison |
| C50 | `nc_stun.c` and `nc_stun_coap.c` (`Core/Stun`); the STUN library is an input | state invariant, permutation of answered and waiting requests, by induction over histories |
| C51 | `nc_dns_multi_resolver.c` (`Core/Dns`), whole file; the platform's lookups are inputs | refinement of a specification machine with at most one request; induction over the merging loop |
| C52, C87, C88 | virtual CoAP requests (`Coap/Virtual`): one request, its client, handler, listener and connection | invariant by induction over histories in which the client keeps to its contract; the response as a fold over the history; paths by induction over segments |
| C53 | tinycbor encoder and parser on bytes (`Cbor/Encoder`, `Cbor/Parser`), items as specification (`Cbor/Item`) | encoder: position invariant for every call; parser: position relation for every function, by recursion on items; a client reading any document by the public functions |
| C54 | `tinyalloc.c` with wrapping arithmetic (`Alloc/TinyAlloc`) | blocks tile the memory: invariant by induction; refinement to an ideal memory; negations by witness for sizes which wrap and for empty requests |
| C56 | password request life cycle (`Api/Password`) | invariant by induction |
| C57 | allocation failure as an input of the access check (`Iam/Access`) | decision logic |
| C58 | CoAP handlers with failing registration or allocation as inputs | case analysis over all requests against an inductive spec of the intended effect; negation by witnesses |
| C59 | `nm_iam_add_user_fingerprint` | negation for every key; partial with a name |
| C60 | CoAP handlers with undefined behaviour as an outcome | negation by witnesses; partial for payloads without null |
| C62 | all IAM API functions | case analysis against an inductive spec of the exact change; negation by witness for create user |
| C61 | password open pairing | negation by witness; partial: some password was proved |
| C63 | same model as C09, getter with undefined behaviour as an outcome | negation for every connection without authentication; partial when authenticated |
| C65 | uses of core state (calls of nc_ and nm_tcp_ functions, event callbacks, the list of listeners) as `touch` in the same table | the same checker in a stricter mode; race freedom of interleavings from mutual exclusion; negations by witness |
| C32, C33, C66 | event queue (`Event/Queue`) and the threads using it (`Event/Thread`), uses under the queue lock are atomic steps | refinement to the list of pending events in posting order; invariants over all interleavings; negations by witness |
| C69 | the dump functions in a monad in which every allocation can fail (`Iam/Json`) | negation by witness (a lost condition, a lost user); partial for dumps without failures by stability of every function |
| C70 | cJSON's parser, printer and string decoding on bytes with the outcome `ub` (`Json/Cjson`) | induction on the recursion bound with an invariant on the rest of the input; independence of the bound; round trip by mutual recursion |
| C71 | the decoders of CBOR payloads in the core and in the IAM module on top of the tinycbor model (`Core/CborUse`) | safety: `R.Sat` invariant of the parser; meaning: position relation of C53 for each decoder against `Core/CborUseSpec` |
| C72 | the GET handlers of the IAM module on top of the tinycbor encoder (`Iam/Listing`) | two pass encoding: an encoder function writes the same bytes whatever the buffer; modes by cases |
| C73, C74, C75 | `nc_client_connection.c` (`Core/Conn`, spec `Core/ConnSpec`), DTLS session as environment | effect of each event on each connection (`Core/ConnChan`), then per connection invariants (`Core/ConnChanProps`); violations as universally quantified statements |
| C76, C77 | `nc_connection.c`, `nc_client_connection.c` (`Core/Conn`) | order of outputs and of the close callback by induction over histories (`Core/ConnCloseProps`) |
| C78, C79 | `nc_stun.c` with heap blocks of host names and outstanding sends (`Core/Stun`), `nc_rendezvous.c` (`Core/Rendezvous`) | counting invariants; concrete histories for the violations |
| C89 | making a server connect token (`Device/Token`): the loop over random bytes | bijection between the sequences of bytes which give two tokens, by induction over the sequence |
| C90 | starting, closing and stopping a device (`Device/Life`): the futures, the callbacks of the core, the events of binding, the count of connections | invariant over histories; violations proved for all continuations |
| C91, C92 | the settings of a device (`Device/Identity`): heap strings, key, certificate and fingerprint, what a start hands to the core | induction over histories, with the last successful call computed from the trace of return codes |
| C93, C94 | the secure session of a client (`Dtls/Server`): the send queue, the packet on its way, closing, destroying, and the connection which owns it; the TLS library is the environment | invariants over histories, measure on the queue; violations proved for all continuations where something never happens |
| C95, C96 | the secure session with the basestation (`Dtls/Client`): the send queue, the packet on its way, closing, destroying, and the attacher which destroys it on its end; the TLS library is the environment | one invariant over histories, measure on the queue; witnesses for the second report |
| C97, C98, C99, C100 | push notifications, service invocations and requests for ICE servers (`Device/Ask`): one object, the attacher's session, and the CoAP library as the environment which calls the handler once | invariants over histories, a contract for the application; violations by witness or for all continuations |
| C101, C102 | the mDNS server (`Net/Mdns`): the two families, their completion events, buffers and packets; the codec is a parameter | invariants over histories; what each step sends by cases; goodbye of a busy family by witness |
| C103, C104 | UDP sockets of libevent and of select (`Net/Udp`): one socket, its waits and the descriptors of the process; the two threads in `Net/Udp.Race` | invariants over histories for both platforms at once; races and leaks by witness, the fallback for all states |
| C105 | the network thread of select, its pipe, the sets of descriptors and the core (`Net/Loop`); select is a parameter | invariant over all schedules; the blocked thread for all continuations |
| C106, C107 | TCP sockets of select and of libevent (`Net/Tcp`): slots of pending operations, buffers, bytes of the peer and bytes sent, tagged by the write; libevent itself by its documented behaviour | invariants over histories; told exactly once shared by both platforms; the stuck write for all continuations; the race by schedule |
| C108, C109 | what a lookup writes to the array of its caller, for both implementations of np_dns; the thread of the unix resolver with its list, mutex and condition (`Net/Lookup`) | induction over the answer; invariant over all schedules; progress by induction over the position in the list |
| C110, C111, C112, C113 | files of the example applications: stdio and the operating system as events, crashes at any of them; the state and key files of the tunnel device over all histories (`Apps/Files`) | invariant of a write (in the file, in the buffer, to be written); a proper prefix of a printed JSON object is rejected, by induction over the document (`Json/CjsonTorn`); induction over histories |
| C114 | the default configuration and state of the tunnel device (`Apps/Defaults`) in the IAM machine (`Iam/Machine`) | decision table from the policy engine; what each permitted request can do to users, roles, passwords and keys; induction over histories of requests of clients who are not administrators |
| C115 | `random_password` over any answers of the random generator (`Apps/Password`) | closed form of the loop by induction; recurrence for the number of byte sequences which give a password, which depends on its length only |
| C116 | `prompt` and the questions built on it over any list of answers of `getchar`, with unwritten bytes of buffers as a distinct value and both kinds of `char` (`Apps/Prompt`) | closed form of the loop for printable lines; induction over refused lines; end of input for any number of answers |
| C117 | writing and loading of services and device configuration over the models of cJSON and of files (`Apps/Services`) | round trip through `C70_parse_print`; torn texts through `parse_torn`; induction over elements and over metadata members |
| C118 | the probe, its socket as far as the connect, and its completion event in the queue, for both platforms (`Net/Probe`) | invariant over histories: a pending check is under way in exactly one place; violated orders for all prefixes and continuations |
| C119 | the drivers of the CoAP client and server over any CoAP library (`Coap/Driver`), time as unbounded ms, stamps modulo 2^32 | invariant over histories: expiry and timer stand for the same time; both violations for all continuations |
| C120 | both implementations of the password exchange over any group and hash (`Core/Pake`) | algebra in a commutative group, injectivity of the transcript, reduction to an explicit collision; violation for all random bytes |
| C121 | `nm_wolfssl_srv.c` and `nm_wolfssl_cli.c` with the handshake timer (`Dtls/WolfServer`, `Dtls/WolfClient`) | refinement: every history is translated to one of `Dtls/Server` or `Dtls/Client` with the same observable state; own invariants for the timer and for what wolfSSL took; violations for all continuations |
| C122 | the record layer as far as the session sees it: bytes of the record header, what is left of a datagram, the number (`Dtls/Records`) | induction over histories with the invariant that nothing is left; arithmetic of the header bytes; simulation of `Core/Conn` under an order preserving renumbering; violations for all records and states |
| C123 | `nc_device_set_basestation_attach`, `nc_device_disable_remote_access`, start and close of the device above the attacher of C38 (`Device/Attach`) | invariants over histories of the composition; a closed or not yet started attacher is silent in every step; violations by witness and for all continuations |
| C124 | what `nabto_device_mdns_*`, the start and the close of the device hand to the mDNS server; insertion semantics and copying of the library are parameters (`Device/Announce`) | two invariants relating the device to a fold over the calls and their results; violations by witness for every choice of the parameters |
| C125 | the CoAP handlers, the state file and the simulated temperature of `examples/thermostat` (`Apps/Thermostat`); numbers are rationals, infinities and NaN | refinement to a fold over accepted requests; round trip of the file; contraction and the Archimedean property for the temperature; violations by witness and for all continuations |
| C126 | `nc_coap_packet_printer.c` with its static arrays and the block of memory (`Coap/Printer`); what the CoAP library parses is a parameter | invariant on the memory (text so far, zero, rest) through all writes; bounds of decimal lengths for the arrays; equality with a description by pieces |
| C127 | `nabto_device_logging.c`, the adapters and the hooks of mbedtls and wolfssl, in steps between which other threads run (`Api/Logging`) | refinement of sequential histories to a fold; invariant over all schedules; violations by schedules and for all histories |
| C128 | address conversions and error codes of the UDP and TCP sockets (`Net/Addr`), with the receive loop (`Core/Dispatch`) | byte arithmetic of ports; case distinction over families; induction over later events for the violation |
| C129 | timed wait and time stamps in the arithmetic of C, with the widths of `long` and `time_t` as parameters, and an arbitrary wall clock (`Event/Clock`) | linear arithmetic; overflow is an outcome of its own |
| C130 | the CBOR encoders of the core and of the tunnels on top of the tinycbor encoder, with both passes and their checks (`Core/Payloads`) | each call appends the encoding of its item, whatever the buffer; then the round trip of C53 |
| C131 | `get_local_ips` over a system of interfaces and routes, and its two users (`Core/LocalIp`) | case analysis of the calls; the answer by C130 |
| C132 | `nabto_device_new` and `nabto_device_free` with the init and deinit functions of the platform, the core and its modules, the tunnels and the queue of futures, as commands which may fail and guarded actions (`Device/Create`) | all ways through the list of commands (a soundness theorem for a scan which branches where a result is ignored), evaluated by the kernel; the quantification over outcomes is by the soundness theorem |
| C133 | the loop of `nm_iam_coap_handler.c`, the 27 handlers, `nm_iam_internal_check_access`, `nm_iam_internal_pair_new_client` and `msg_sent_callback` as programs which ask questions, take and free memory and answer (`Iam/Service`) | all ways through each program (soundness theorem of a search, evaluated by the kernel), then an invariant over histories; violations by concrete requests, that of the failed notification for every world, that of the lost fingerprint for every number of requests |
| C134 | `nm_iam_user.c`, `nm_iam_state.c`, the loading of a user and of a state as functions on blocks of memory with an oracle for each request (`Iam/Record`) | an accounting of the blocks in use as a permutation, composed call by call; induction over fingerprints, categories, users and sequences of calls; violations for every document |
| C135 | `nm_mbedtls_util.c`, `nm_wolfssl_util.c` and `nabto_device_set_private_key` as programs over an oracle for each library call, with contexts as resources (`Device/Keys`) | a rule for one call of the library, applied step by step; exact accounting of the contexts; induction over sequences of calls; violations for every key |
| C136 | the raw key functions of both libraries: bytes, their number, the comparison with the order of the group (`Device/Keys`) | induction over the bytes: the first difference decides; composition with C135 |
| C137 | the functions of `nm_iam_configuration.c`, `nm_iam_role.c`, `nm_policy.c`, `nm_statement.c` and `nm_condition.c` which make and free structures, as a heap of nodes with a count of blocks (`Iam/Builder`) | invariant: the heap is a forest and each node is what the history says of the call which made it; freeing removes exactly the nodes below; the contract on histories is proved to be the same as the absence of misuse on the heap |
| C138 | `nabto_device_connection_events.c`, `nabto_device_events.c`, `nabto_device_listener.c` and the lists of listeners of `nc_device.c`, with contexts and listeners as blocks of memory (`Api/Events`) | refinement: each listener taken for itself is a small machine with a queue and at most one waiting future (`Api/EventsSpec`); an invariant over all listeners shows that every call does to each listener what its machine does; order, futures and independence follow from the machine by induction |
| C138 | `nabto_device_connection_events.c`, `nabto_device_events.c`, `nabto_device_listener.c` and the lists of listeners of `nc_device.c`, with contexts and listeners as blocks of memory (`Api/Events`) | refinement: each listener taken for itself is a small machine with a queue and at most one waiting future (`Api/EventsSpec`); an invariant over all listeners shows that every call does to each listener what its machine does; order, futures and independence follow from the machine by induction |
| C139 | `nabto_device_virtual_connection.c` (connections and fingerprints), `nc_virtual_connection.c`, the getters of `nc_connection.c` and `nabto_device.c`; strings handed out are blocks of bytes, `toHex` writes into its block byte by byte, memory is counted (`Api/ConnFp`) | refinement: each connection refines a record with two texts (`Api/ConnFpSpec`), by an invariant over the list of connections and one lemma per call; conversion to and from digits shown equal to spelling and lower case for all texts; the violations hold for every history or for every state |
| C140 | `nm_iam_auth_handler.c`, the attributes of `nabto_device_authorization.c`, on top of the models of authorization requests (C30), listeners and `nm_iam_internal_check_access` (C01); the handler's calls interleave with everything else (`Iam/Handler`) | invariant over histories relating the handler's place to the requests handed over, the calls made so far and the data added by the history (`Iam/HandlerStep`, `Iam/HandlerInv`); the decision from C01; specification by folds over the history (`Iam/HandlerSpec`) |
| C141 | creation of the attach connection in `nm_mbedtls_cli.c` and `nm_wolfssl_cli.c` with every step that can fail, root certificates, the switch for validation, and the uses of the connection in `nc_attacher.c` (`Dtls/Attach`); certificate verification inside the libraries is a parameter (root and names of the certificate) | complete case lists of the two creations (`attemptMbed_cases`, `attemptWolf_cases`), invariants over histories (`Dtls/AttachLemmas`, `Dtls/AttachMem`), specification by folds over the history (`Dtls/AttachSpec`) |
| C142 | `nc_client_connection_init` and its cleanup, `nc_connections_alloc_client_connection`, `nc_connections_free_connection`, the creation and destruction of sessions in `nm_mbedtls_srv.c` and `nm_wolfssl_srv.c` with every step that can fail (`Dtls/Accept`) | complete case list of a first packet (`first_cases`), counters of what is made and freed, invariant over histories (`Dtls/AcceptLemmas`) |
| C143 | the functions for virtual streams of `nabto_device_virtual_connection.c` with their completion events and the event queue, over the model of virtual streams of C46 (`Stream/VirtualApi`) | invariant per kind of operations (idle, in the core, in the queue) over histories, using the accounting of completions of C46; counts of futures and event objects; negations by witness and over every continuation |
| C144 | `nm_mbedtls_timer.c` over the event queue and its thread (`Dtls/Timer` on `Event/Thread`), other events and threads arbitrary | the trace of settings, cancellations and callbacks as a small automaton of its own; invariant relating it to the entry in the queue and the place of the event thread, over all interleavings; negations by witness and for all states |
| C145 | loading of an IAM configuration with an allocator which may refuse each request, and evaluation of what was loaded, with undefined behaviour as an outcome of its own (`Iam/ConfigLoad`, reusing the tree of `Iam/Json` and the matching of `Iam/Policy`) | relation between the configuration loaded and the one of the document by induction over its lists; monotonicity of Allow-only evaluation; balance of blocks; equality with the model of `Iam/Json` if no request fails; negations by witness |
| C146 | start, stop and end of the IAM module: mutex, state, configuration, and thirty services with listener and future each, with an allocator which may refuse each request; misuse is recorded (`Iam/Lifecycle`) | invariant of each service over any history; a fold over lists of services without duplicates; induction over the handlers for a start which breaks off; negations by witness |
| C147 | the core's password authentication with the IAM module as the one who answers and who asks for the result (`Iam/Login`, composing `Core/Spake2` and `Iam/State`) | negation for all states; refinement: each history of the composition is a history of the core with the passwords of the IAM module as answers, and C09 is used on it |
| C148 | TCP tunnels whose checks are authorization requests decided by the handler of the IAM module (`Tunnel/Access`, composing `Tunnel/Manager` and `Iam/Handler`): who asks for what, with which attributes, and the way of the verdict back | each history of the composition is a history of both parts (invariant over histories); C48, C85 and C140 are used on them, and the request behind a check keeps its connection, action and attributes |
| C149 | password authentication and the CoAP requests of the IAM module in one system (`Iam/Pairing`, composing `Iam/Login` and `Iam/Coap`) | negations for all states and a witness; each history of the composition is a history of the password authentication with changes of the IAM module (projection), on which C09 and C147 are used; C20 and C58 for the requests |
| C150 | the request for a test notification and the bytes which are sent (`Iam/FcmTest`), read with the JSON reader of `Json/Cjson` | case analysis of the request; the reader is followed through the message for all plain tokens, and for all crafted ones |
| C151 | `nabto_device_start` up to the core, with the four `set_keys` (`Dtls/Identity`); the behaviour of MbedTLS outside of its documentation is a parameter | induction over histories; the contexts of the server are untouched before the first start |
| C152 | the attacher (`Core/Attacher`), its three requests (`Core/AttacherRequests*`) | a count of requests sent less those outstanding, invariant under every function but the three callbacks |
| C153 | the attacher (`Core/Attacher`), the order of its requests (`Core/AttacherOrder*`) | invariant: outstanding end requests and uploads of an attach are on connections with an accepted start |
| C154 | the binds of the mDNS sockets and the groups they join (`Net/Multicast`), the kernel after its documentation | induction over the list of interfaces and over histories of networks |
| C155 | `nabto_device_get_attach_certificate_expiration` on the attacher (`Core/Expiry`, `Core/Attacher`), `timegm` after POSIX | the invariant of the attacher; induction over years for the calendar |
| C156 | `libevent_event_queue.c`, the mutex and two threads (`Event/Libevent`), libevent after version 2.1 | invariants over all interleavings; negations for every continuation of a witness |
| C157 | the time, the name of the file and the level in the lines of std_out_logger.c and nm_unix_logging.c (`Api/Stamp`), the clock as a number | arithmetic, induction over lines; negations for all times around the end of a second |
| C158 | `parse_response` and the cleanup of nc_attacher_ice_servers.c on decoded answers (`Core/IceServers`), the memory of `Iam/Record` | accounting of blocks by induction over urls and servers, for every oracle of the allocator; negations for all answers of a shape |
| C159 | init, listen, arrival, stop and release of nabto_device_coap.c with `resource_callback` and the listener queue (`Api/CoapRequest`), the memory of `Iam/Record` | invariants over all histories: accounting of blocks with the lost ones counted, permutation and order of requests; negations for all histories of a shape |
| C160 | the tables of error codes and their lookups, the results of push notifications, service invocations and requests for ICE servers (`Api/ErrorCode`) | lookup lemmas for every integer, case analysis of the requests; negations for all requests which end so |

## 3. Trusted base

* Lean 4.33.0 kernel. No own axioms; theorems depend at most on `propext`, `Classical.choice`,
  `Quot.sound`.
* The transcription from C to Lean (by hand; each definition cites the lines it transcribes).
* For C31 and C64 the extraction of control flow by `tools/lockskel.py` (default configuration: mbedtls,
  future queue, password authentication). Its output `Api/LockTable.lean` is committed and can be read.
* Contracts of code that is not in the repository, stated where used:
  `nn_llist` is a doubly linked list, `nn_string_set` a set, `nn_string_map` a map,
  `nn_vector` an array, allocation succeeds unless the model says otherwise.
* `strtod`, double comparison, cryptography (the group, hash and point encoding of SPAKE2; DTLS), OS sockets, DNS and the `nabto_stream`,
  `nabto_coap`, `nabto_stun` libraries are environment parameters.
* For C32, C33 and C66: uses of the queue under its mutex are atomic, a condition variable wakes every waiter at
  a signal and may wake it at other times.
* For C38–C40, C67 and C68 the assumptions in the header of `Core/Attacher.lean`: each sent CoAP request gets one
  answer, responses arrive on the connection of the request.
* For C15–C17, C69 and C70 the contract `Strtod` of `strtod` (inhabited by `someStrtod`), sets which keep the order of
  insertion, and UTF-8 strings in loaded documents (cJSON itself is modelled on arbitrary bytes).
* For C24, C25, C53 and C71 tinycbor without writer and reader functions, sizes below `SIZE_MAX`; half floats,
  validation and pretty printing are not modelled.

## 4. Findings

Violations of the stated properties by the pinned code are collected here as they are proved. Each has
a theorem with the suffix `_violated` and a `_partial` theorem for what does hold.

* C05 `StringNotEquals` with several values is a disjunction, so it matches everything.
* C07 On an unpaired connection the caller of the access check can supply `Connection:Username` itself,
  since the reserved attribute is only written for paired users.
* C12 Open pairing creates users without looking at the maximum number of users.
* C13 API functions and pairing store fingerprints and users that a later load of the saved state rejects.
* C14 API functions and local initial pairing give the same fingerprint to two users.
* C18 Deleting a user leaves the pointer held for connections authorised by OAuth: use after free.
* C19 A connection authorised twice keeps one authorisation after it is closed.
* C21 Clients that proved an invitation password before it was cleared can still pair as that user.
* C22 A create user request whose response cannot be built is answered 500 but has created the user.
* C23 State changes made through the user functions of the C API are not reported to the state change
  callback.
* C57 When memory runs out while `Connection:IsLocal` is inserted, a Deny statement conditioned on it no
  longer applies.
* C58 Create user is answered 201 although the user was thrown away when the server connect token could
  not be registered; FCM settings and the friendly name are answered 204 when memory ran out.
* C59 `nm_iam_add_user_fingerprint` with a NULL name is undefined.
* C60 A null username in a create user request, and a null in a list of notification categories (before
  any access check), reach `strlen(NULL)`.
* C62 `nm_iam_create_user` returns OK although the user was thrown away when the server connect token could
  not be registered.
* C61 Password open pairing accepts a client that authenticated with the invitation password of some user.
* C09 After proving one user's password, a client that merely starts an authentication as another user is
  reported as password authenticated as that other user.
* C63 Asking for the password authentication username of a connection on which none was attempted
  dereferences NULL; the header promises INVALID_STATE.
* C37 A keep alive context declares a live peer dead once a 32 bit packet counter wraps; settings from the
  server can overflow the limit or divide by zero; a reset keeps the number of checks per interval of the
  old settings.
* C43 A stream packet that ends right after a 4 or 8 byte stream id is read one byte beyond its end.
* C26: a future which the application has seen complete by polling `nabto_device_future_error_code` may
  still be in the queue of finished futures; a new use of it resolves it a second time while it is queued,
  so the same list node is appended twice. Proved as `C26_reuse_after_poll_violated`.
* C27: `nabto_device_future_wait` waits once on the condition variable without a loop, so it returns before
  completion on a spurious wake up; it also never returns for a future that has a callback set, and of two
  threads waiting on one future only one is woken.
* C30: the module keeps its pointer to the authorization listener after the application stopped and freed
  it. The next check uses freed memory, and no new authorization listener can ever be installed
  (`NABTO_DEVICE_EC_IN_USE`).
* C56: if the password request cannot be allocated, the error is ignored by the CoAP handler and the client
  never gets an answer.
* C31: `nabto_device_stream_init_listener` and `nabto_device_stream_init_listener_ephemeral` return with the
  device's lock held when the listener is already initialised or the port is taken;
  `nabto_device_virtual_stream_read_all` does so when a read is pending. (`thread_event_queue_stop_blocking`
  does so when called twice, which the platform code does not do.)
* C65: `nabto_device_listener_new` appends to the device's list of listeners before taking the lock
  (`nabto_device_listener.c:28`; the lock and unlock just after guard nothing), and
  `nabto_device_ice_servers_request_new` (`nabto_device_ice_servers.c:25`) makes a request of the core's
  CoAP client without the lock. Two threads, or one thread and the event thread, can corrupt these lists.
  `nabto_device_stop` walks the list of listeners without the lock.
* C33: `queue_thread` releases the queue lock after it took an event and before it takes the core lock
  (`thread_event_queue.c:214-217`). A thread that holds the core lock and cancels or destroys the event in
  between does not stop the callback, which then runs with whatever state the cancelling code left behind;
  if the event was destroyed, `event->cb` reads freed memory.
* C38 When the attach connection cannot be created, `handle_state_change_deferred` posts an event whose
  handler is the same function: the event reposts itself for ever (a busy loop), the retry timer is never
  started and the device never attaches again (`nc_attacher.c:417-420`, 445-449).
* C38 Enabling attach while a close event is posted: the event still runs `resolve_close`, which cancels the
  retry timer; without memory for the name the device is stuck.
* C39 Disabling attach on an attached device reports two detached events; disabling it on a device which is
  not attached reports a detached event without an attached one (`nc_device.c:653-671`).
* C39 `nc_attacher_async_close` overwrites the callback of a close in progress: when the device is closed while
  attach is being disabled, the callback which reports that attach is disabled is lost; enabling attach while a
  close is in progress does the same.
* C39 A close event posted before attach is enabled again completes the next close at once, while a name is
  still being resolved; the callback may then free what the resolver writes to.
* C55 `nc_attacher_watchdog_init` is never called in the library (only in a test), so
  `NABTO_DEVICE_EVENT_WATCHDOG_FAILURE` (`nabto_device.h:729-730`) is never delivered.
* **C17**: `nm_condition_from_json` looks only at the first operator of a condition and
  `nm_condition_from_json_parse` only at its first attribute, `nm_statement_from_json_parse` ignores a
  member `Conditions` which is not an array, `cJSON_GetObjectItem` finds only the first of two, and
  `nm_iam_role_from_json` skips references which are not strings. In each case the document is accepted and
  allows more than it says (`C17_*_violated`).
* **C69**: all dump functions ignore the results of `cJSON_Create*` and `cJSON_AddItemTo*`. When one
  allocation fails the dump returns true with a document in which a condition, a statement, a user or a
  field is missing; a reload of it gives remote users what only local ones were allowed
  (`C69_condition_lost_violated`) or forgets a user (`C69_user_lost_violated`). The load functions ignore
  failures of the setters in the same way (not modelled).
* `cbor_value_get_int` (tinycbor) negates `INT_MIN` for the CBOR integer -2^31-1: signed overflow
  (`get_int_overflow_violated`). It is reached by answers of the basestation to FCM sends and service
  invocations and by error answers.
* **C71**: `read_username_and_password` (`nc_spake2_coap.c:52-77`) calls `cbor_value_map_find_value` without
  checking that the payload is a map. Any client which has opened a connection can send the one byte `00` to
  `/p2p/pwd-auth/1`: undefined behaviour before authentication (an assertion, or a container entered which
  is none) (`C71_password_request_violated`).
* **C71**: the loop over ICE servers (`nc_attacher_ice_servers.c:180-242`) does the same for elements which
  are not maps (`C71_ice_servers_violated`); a string set with the element `null` inserts a NULL string
  (`C71_string_set_violated`).
* Not modelled: `handle_redirect` allocates with `calloc` what is freed by `np_free`; ports are truncated to 16 bits.
* **C25**: `encode_users` and `encode_roles` return 0 at the first call of the measuring pass, which reports
  `CborErrorOutOfMemory` by design. `GET /iam/roles` always answers 500 and `GET /iam/users` answers 205
  with an empty payload (or not at all if `calloc(1, 0)` is NULL).
* **C72**: `nm_iam_get_me.c`, `nm_iam_settings_get.c`, `nm_iam_pairing_get.c` and `nm_iam_list_users.c`
  return without a response when `calloc` fails: the client waits for ever and the request is never freed.
  `nm_iam_pairing_get.c` evaluates the modes in both passes; if the connection becomes password
  authenticated in between, the second document does not fit and is sent cut off.
* **C54** (`tinyalloc.c` 162, 238): sizes are not checked. `ta_calloc(n, m)` whose product wraps and
  `ta_alloc` of a size which wraps when it is rounded hand out a block of no bytes instead of refusing
  (`C54_calloc_overflow_violated`, `C54_alloc_overflow_violated`). Requests of no bytes get the address of
  the next block, and returning them returns that block, which is then handed out twice
  (`C54_empty_violated`).
* Status codes of answers to push notifications and service invocations are cut off to 32 bits before they
  are checked: 2^32 + 200 is taken as 200 (`status_code_cut_off_violated`).
* **C51** A lookup of the platform which ends with `NABTO_EC_OPERATION_IN_PROGRESS` wedges the resolver for
  ever: `nc_dns_multi_resolver.c` uses that code to mark an outstanding lookup (`C51_in_progress_violated`).
* C44: the 64 bit counter of connection references is only tested for having wrapped once (nc_device.c:491):
  after 2^64 connections one connection is refused and the references start again from 1. Of theoretical
  interest only.
* C73: the address of a connection is updated before the datagram is authenticated
  (nc_client_connection.c:123): whoever knows the 16 byte header of a connection, which is sent in the
  clear, redirects its traffic with a single forged datagram until the client sends again.
  `C73_authenticated_violated`.
* C74: in the default build `nc_client_connection_handle_packet` gives the current channel id to the DTLS
  session instead of the channel id of the packet (nc_client_connection.c:133, compare line 131), so data
  never seems to come from another channel: a connection never changes its channel and
  NABTO_DEVICE_CONNECTION_EVENT_CHANNEL_CHANGED is never reported. `C74_never_violated`.
* C75: in the client only build a packet for a channel which is neither the current nor the alternative one
  is dropped without completing it (nc_client_connection.c:363-368): the session waits for ever.
  `C75_client_violated`.
* C76: `nc_connections_async_close` stores the callback after asking the connections to close
  (nc_connection.c:56-57), but a session in its handshake closes within that call
  (nm_mbedtls_srv.c:489-505), so the callback is lost and `nabto_device_close` does not resolve
  (`C76_sync_violated`). `nabto_device_stop` during a close replaces the callback by NULL
  (`C76_stop_violated`).
* **C49**: `nc_client_connection_dispatch_validate_connection_id` gets a pointer to the id (`buffer+1`) and
  hands it to `nc_connections_connection_from_id`, which skips a byte itself. The bytes 2..15 of the
  datagram are compared with the bytes 1..14 of the header of the connection. The request of a client is
  answered only if all 14 bytes of the id equal the channel (`C49_genuine_violated`); a request with another
  id can be answered (`C49_foreign_violated`).
* **C79**: `nc_dns_multi_resolver_resolve` makes a copy of the host name but gives the pointer of its caller
  to the platform; `nm_unix_dns.c` keeps that pointer for its thread. `nc_stun_set_host` (called for every
  attach response) frees the old name, also while it is looked up (`C79_host_violated`).
* **C78**: if the answer of the STUN server arrives before the send is completed, the next analysis writes
  to the same buffer and uses the same completion event (`C78_stun_violated`). Harmless with `select_unix`,
  which sends synchronously; not allowed by the contract of `np_udp`.
* **C45** `nabto_device_stream_close` (nabto_device_stream.c:322-334) does not look whether the stream is
  being closed, although the documentation promises `NABTO_DEVICE_EC_OPERATION_IN_PROGRESS`: it overwrites
  the future and the completion event of the first call. The first future is never resolved, and since the
  callback of the refused call destroys the event object, the completion of the first close posts an event
  which has been freed (`C45_api_close_twice_violated`, `C45_api_close_early_violated`).
* **C45** The results of `np_completion_event_init` are not looked at in `nabto_device_stream.c`: without
  memory for the event object the completion of the operation dereferences NULL (`C45_api_memory_violated`).
  Freeing a stream with unresolved futures, for which the documentation only says that they may not be
  resolved, makes the callback run on freed memory (`C45_api_free_early_violated`). An accepted stream
  answers another accept with `OPERATION_IN_PROGRESS` (`C45_api_accept_again_violated`).
* **C45** A write of no bytes and a read into an empty buffer are never completed by events of the stream
  module, since 0 bytes always mean that the operation has to wait (nc_stream.c:515-571;
  `C45_empty_write_violated`, `C45_empty_read_violated`). They end only with the stream.
* **C46** When the client has closed a virtual stream while its write waits, `nc_stream_async_read_all`
  (nc_stream.c:399-402) reports the end of data although the bytes of the write are still to be read
  (`C46_eof_server_violated`); `nc_stream_async_read_some` looks at the waiting write.
* **C46** When the device's application has closed a virtual stream while its write waits, the reads of the
  client (nc_virtual_stream.c:243-281) report the end of data, the bytes are lost, and neither the write nor
  the close is completed until an end aborts (`C46_eof_client_violated`, `C46_close_violated`). If the
  application aborts after that, the client sees a proper end of data (`C46_eof_abort_violated`).
* **C46** `nc_stream_stop` of a virtual stream completes nothing of the client: its opening (which the
  documentation promises to resolve when the stream is freed), read, write and close wait until the client
  aborts (`C46_open_violated`, `C46_abort_not_seen_violated`). Reads of the client do not look whether the
  stream is stopped: one which is started after the client's abort is never completed
  (`C46_read_after_abort_violated`). `nc_virtual_stream_client_stop` does not complete a waiting close of
  the application (`C46_close_abort_violated`). An empty write completes a read with success and no bytes
  (`C46_empty_violated`).
* C42 is violated: `nc_stream_manager_send_rst` (nc_stream_manager.c:255-283) does not look at the result of
  `nc_connection_async_send_data`. A DTLS connection which is closing refuses the packet without resolving
  the completion event (nm_mbedtls_srv.c:454-464), `rstBuf` is never freed, and no RST packet is sent on any
  connection until the device restarts. It takes one application freeing a stream while its connection is
  closing (`C42_rst_violated`).
* C81 is violated: `nc_stream_manager_accept_virtual_stream` (nc_stream_manager.c:233-247) counts the
  reference of the list after `nc_virtual_stream_init` has offered the stream. Without a listener on the
  port (or with a listener which has no memory) `nc_stream_destroy` takes both references, the stream is
  freed, and then its reference count is increased and the freed stream is given to the client; the future
  of `nabto_device_virtual_stream_open` is never resolved (`C81_no_listener_violated`,
  `C81_listener_memory_violated`).
* C81 is violated: `nc_stream_event` goes on with the stream after ACCEPT (nc_stream.c:151-155). When it
  runs from the timer no reference is held, so an ACCEPT which nobody keeps frees the stream under its feet
  (`C81_timer_violated`; it depends on the streaming module whether a timer can do this).
* C81 is violated: `nabto_device_virtual_connection_free` does not tell the stream manager; streams of the
  virtual connection keep a dangling pointer. When the memory is used again for the connection of a client,
  a packet for stream 0 is given to the virtual stream, whose streaming module was never initialised
  (`C81_stale_connection_violated`), and closing that connection stops the virtual stream.
* `nc_stream_send_packet` (nc_stream.c:275-287): when the connection refuses the packet `isSending` stays
  set, so the stream never sends again (the connection is closing in this case). `nc_stream_init`
  (nc_stream.c:62-75) does not free its events when a later allocation fails. `nc_stream_manager_deinit`
  calls listeners while it walks their list.
* C83: `stream_readen` (nm_tcp_tunnel_connection.c:256-263) looks at the size before the error code. When
  the stream is lost, the size is 0, so the TCP server gets a FIN, as if the client had ended its data.
  `tcp_readen` (:187-196) does the same for an error of the first read, and the client sees a clean close.
* C84: `tcp_async_read` and `tcp_async_write` of libevent do not look at `aborted`. If a service is removed
  while the completion of a write waits in the event queue, the callback starts a read which nothing ends.
  With either implementation, a tunnel whose client is gone lives as long as the TCP server keeps silent,
  and counts against the limit of its type.
* C48: `nm_tcp_tunnel_limit_concurrent_connections_by_type` (nm_tcp_tunnel.c:87-99) erases the limit before
  it inserts the new one; without memory the type is left with no limit at all.
* C85: `get_service_iam` (nm_tcp_tunnel_coap.c:243-282) looks the service up by id again after the check. If
  it was replaced, a description is sent whose type was never checked. `get_service_action` answers 404
  before the check, so a client without rights learns which ids exist.
* C86: `nm_tcp_tunnel_service_add_metadata` ignores the result of the insertion; services with equal ids can
  be added and only one of them is removed; `nabto_device_add_tcp_tunnel_service` does not free the service
  when its initialisation fails.
* Tunnels, not modelled: `nm_tcp_tunnel_connection_start` is defined with two parameters
  (nm_tcp_tunnel_connection.c:128) and declared and called with one; the callbacks of the select and
  libevent sockets and `abort` use fields of the socket from two threads without a lock;
  `nm_tcp_tunnels_deinit` with checks which still wait.
* C52, C87, C88 (virtual CoAP): `nabto_device_virtual_coap_request_free` before the future is resolved
  leaves the handler a request whose response is written to the freed struct (`C52_free_early_violated`).
  `nabto_device_coap_request_free` of a virtual request without an answer does not send the documented error
  500 and the future waits until the connection ends (`C52_unanswered_violated`). A stopped listener refuses
  the requests in its queue but never frees virtual ones (`C52_stop_leak_violated`). A payload set twice
  leaks (`C52_payload_leak_violated`). Absent content formats and payloads are not told with NO_DATA
  (`C87_absent_violated`). The path "" makes `nabto_device_virtual_coap_request_new` read the byte before
  the string (`C88_empty_path`).
* Read but not modelled, virtual connections: executing a request twice overwrites the pointer to the first;
  a virtual request without content format is given to the handler with format 0 instead of none.
* C90: nabto_device_start while a start is pending overwrites startFut (nabto_device.c:488-517), so the
  future of the first start is never resolved.
* C90: nabto_device_stop while a close waits for connections replaces the callback of the connections by
  NULL (nc_connection.c:37-60), so the future of nabto_device_close is never resolved, although the
  documentation of stop says that all futures are resolved.
* C90: a virtual connection holds back a close only if a client is connected as well:
  nc_connections_async_close looks only at the clients, but nc_connections_free_connection at both. New
  clients are accepted while the device is closing, so a close can succeed while a client is connected.
* C90: closing a device which is still starting resolves the future of the close with
  NABTO_DEVICE_EC_STOPPED, which is not documented. nabto_device_close reads closeFut before it takes the
  lock.
* C91: after nabto_device_set_private_key failed (bad key), nabto_device_get_device_fingerprint gives the
  fingerprint of the previous key, or 64 zeros, with success. If only the fingerprint cannot be made, the
  device starts with the new key and the old fingerprint. Without memory nabto_device_get_device_fingerprint
  returns success and NULL.
* C92: the setters free the old string before the new one is allocated; a failing call loses the value.
  Strings given out by nabto_device_get_product_id and the like are documented to be valid until the device
  is freed but are freed by the next set; the attacher keeps raw pointers to them as well.
* C92: a start which fails after the default host name was made keeps it; if the product id is then changed,
  the device connects to the host of the old product. A product id and device id of more than 62 bytes
  together make nabto_device_start fail with INVALID_STATE even if mDNS is not used. mdnsInstanceName leaks
  on a second start.
* C93: start_send_deferred of the server session (nm_mbedtls_srv.c) writes one message per event and posts
  no further event. If the packet is dropped (no buffer, or the sender fails) or ssl_write fails, the
  messages behind it wait until something else is sent; the dropped message is reported as sent. If the
  connection is then closed and the close notify is dropped as well, the close never completes. The client
  session (nm_mbedtls_cli.c) posts the event again.
* C94: a handshake which the device refuses with an alert leaks the session: the connection ends while the
  alert is on its way, and with it the completion event on which the session waits. Any client can do this,
  without being authenticated. The same happens when the close notify of a client arrives while a packet is
  on its way; the waiting messages are then never reported.
* C94: nm_mbedtls_srv_connection_send_callback frees a destroyed session only in the state CLOSING. If the session ended
  by itself (state CONNECTING or DATA) and the completion event was already queued, the callback goes on to
  use the connection which was freed. If the handshake fails within the send callback, the session is freed
  and then used by start_send.
* C94: the close notify of a session is lost if a packet is on its way when it is closed and no message
  waits.
* C96: when the session with the basestation ends while a packet is on its way, dtls_udp_send_callback
  (nm_mbedtls_cli.c:720-745) raises CLOSED again for a session which the attacher has destroyed; the
  attacher takes it for the end of what it is doing now, and enters RETRY_WAIT even from the state DNS.
* C97: nabto_device_fcm_send, nabto_device_service_invocation_execute and
  nabto_device_ice_servers_request_send store the future in the object and never reset it: an object whose
  send was refused with NOT_ATTACHED (or which has completed) answers every further send with
  OPERATION_IN_PROGRESS for ever.
* C97: nabto_device_ice_servers_request_free cancels a request in flight without resolving its future; the
  application waits for ever.
* C98: the stop functions of push notifications and service invocations cancel through a pointer to the CoAP
  request which the handler has freed and not cleared: stopping just after the operation ended is a use
  after free which the application cannot avoid.
* C98: sending a push notification without project id or payload, or a service invocation without service
  id, reads a null pointer, where INVALID_STATE is promised; a failed set_message leaves a null message with
  the old length; the result of nabto_coap_client_request_new is not checked; the CoAP request leaks when
  there is no memory for its payload.
* C98: a service invocation may be freed while it runs according to the documentation; the handler of the
  CoAP library then uses it.
* C99: a request for ICE servers is bound to the session with the basestation when the object is made
  (without taking the device's lock), not when it is sent: after the device attached again it goes on a
  session which was destroyed.
* C100: the body of a push notification is stored before the status code is checked: after BAD_RESPONSE the
  getter gives the body, where NULL is promised.
* C97: nabto_device_ice_servers_request_send returns OK always, though NOT_ATTACHED and INVALID_ARGUMENT are
  promised as return values; nabto_device_ice_servers_request_free(NULL) reads the null pointer.
* C102: a family which is busy sending when the mDNS server is closed skips the goodbye although close
  reports OK (nm_mdns_server.c:171-175); the error of the IPv4 part of close is overwritten by the IPv6 part
  (124-132).
* C101: nm_mdns_server_deinit without stop destroys sockets whose waits then resolve events which were
  freed; publishing changed information is not announced on the network, only given when asked; unpublish
  does nothing; the failure paths of nm_mdns_server_init leak.
* C103: the network thread and the thread which aborts a UDP socket take the pending completion event
  without a common lock, on both platforms: both may resolve it, so a wait is told twice.
* C103: waiting on a libevent UDP socket which was not bound passes a NULL event to libevent and the wait is
  never told.
* C104: create_socket_any of select tests s->sock instead of the new descriptor after the attempt with IPv4:
  on a host without IPv6 every bind fails and each attempt leaks a descriptor
  (nm_select_unix_udp.c:429-434). If IPV6_V6ONLY cannot be cleared it closes s->sock instead of the new
  descriptor.
* C104: after a failed bind, select's sockets and the mDNS sockets of both platforms keep the number of the
  closed descriptor, and destroying the socket closes it again: if the number was given to somebody else in
  the meantime, that descriptor is closed.
* libevent's udp_send_to reports OK when the system answers EAGAIN, although the packet was dropped.
* C105: after an error of select (a descriptor of the set was closed, or too many) the sets are left as they
  were built, so the thread reads the pipe, which is empty, and blocks until somebody notifies
  (nm_select_unix.c:101-115).
* C105: FD_SET and FD_ISSET are used with descriptor -1 for TCP sockets which are not connected, and
  descriptors are not compared with FD_SETSIZE (nm_select_unix_tcp.c:55-106). Binding a UDP socket does not
  notify the thread.
* C106: reading from a libevent TCP socket on which a read is pending completes the pending read with
  OPERATION_IN_PROGRESS, and the new one never; connecting twice loses the first completion
  (nm_libevent_tcp.c:219-302).
* C106: an error met while libevent writes completes the pending read but not the pending write; a write of
  no bytes is never completed. The tunnel, which always has a read pending, gets away with it.
* C106: a libevent TCP socket which was aborted goes on taking operations and sending; what is pending then
  is not completed even by destroy. Connecting a select TCP socket again after a failed connect leaks the
  first descriptor.
* C107: async_write of select stores the completion event before the data and its length, without a lock:
  the network thread may complete the write with OK having sent nothing (nm_select_unix_tcp.c:349-379). A
  read with an empty buffer is told EOF.
* C108: `resolve_one_ec` compares `*ipsResolved`, which stays 0 in the loop, with the size of the array
  (nm_unix_dns.c:77-95): a host with five addresses overflows the arrays of four of the core, and the number
  reported is larger than the array.
* C109: `nabto_device_free` releases the core before the platform (nabto_device.c:233-238); on the select
  platform the resolver is stopped in `nabto_device_platform_deinit` only, so a lookup in progress is
  answered into released memory and posted to an event queue which has been taken down.
* C109: `async_resolve` looks at `stopped` without the mutex (nm_unix_dns.c:191-209): a request appended
  after the stop is never answered and leaks.
* C110: `write_file` truncates the file before it writes (nm_fs_posix.c:124) and does not look at the result
  of `fclose` (136): a crash loses the old and the new content, a full disk is reported as success. The
  tunnel device writes its IAM state this way on every change; afterwards it refuses to start (C111: it
  never starts with a wrong state).
* C112: `load_or_create_private_key` creates a key only if there is no file (private_key.c:26): after an
  interrupted first start the empty key file makes every later start fail.
* C113: `read_file` compares an unsigned number with zero (nm_fs_posix.c:108), so errors of `fread` are not
  noticed; `string_file_load` reads one byte more than the size and returns a string without end if the file
  has grown (string_file.c:25); `json_config_load` does not check `calloc` (json_config.c:31).
* C115: `random_password` returns NULL without entropy or memory (random_string.c:27-36);
  `create_state_default` and the demo setup pass it on unchecked (tcp_tunnel_init.c:201-207): the result is
  a device whose administrator has no password and which nobody can pair with.
* C116: prompts (prompt_stdin.c). At the end of the input every question is asked forever; where `char` has
  no sign (ARM) `c == EOF` never holds and a single prompt reads until `i` overflows. A byte which is not
  printable leaves a gap in the buffer: `1<TAB>2` is taken as 1, `y<TAB>` and non-ASCII letters in the
  friendly name (tcp_tunnel_init.c:153, an uninitialised array) make the program read bytes nobody wrote.
  NUL ends a prompt without terminating the buffer. Names of services may have 20 characters according to
  the question, of longer ones and of those with exactly 20 the first 19 are stored
  (tcp_tunnel_init.c:219-224, result of `prompt_repeating` ignored); a longer product or device id is cut as
  well (device_config.c:85-98).
* C117: a port out of range in a services file or device configuration is converted with
  `(uint16_t)port->valuedouble` (tcp_tunnel_services.c:97, device_config.c:45), which is undefined; it
  should be refused. A crash while the default services file is created leaves an empty file which no later
  start accepts or replaces (tcp_tunnel_services.c:34-39). Without memory `tcp_tunnel_service_as_json`
  leaves out members or whole services and success is reported. `load_tcp_tunnel_services` and
  `load_device_config` leak the document when they refuse it.
* C118: `probe_free` (nabto_device_tcp_probe.c:110-116) destroys the completion event before the socket,
  whose abort then resolves a connect which is under way with the destroyed event: a use after free on both
  platforms for every free of a probe whose connect is open. `tcp_tunnel_device --self-test` does this for
  every service which does not answer within five seconds (tcp_tunnel_main.c:739-751). The other order of
  the two calls would leave an event in the queue which points to the freed probe; the free has to wait for
  the callback. With libevent a connect after a stop is not refused (nm_libevent_tcp.c:219-258).
* C119: `currentExpiry` is set to now + 2^29 ms when the driver starts and when a timeout fires, and a timer
  is set only when the next timeout is before it (nc_coap_client.c:128-142, 216-222,
  nc_coap_server.c:154-168, 238-242). When the device has had no CoAP timeout for 6.2 days the stamp has
  passed, the comparison fails for the next 24.8 days and no timer is set: a lost attach, service
  invocation, FCM or ICE request, or a lost response of the CoAP server, is never sent again and the request
  never times out. The stamp should be reset whenever no timer is running.
* C119: `nc_coap_client_handle_send` and `nc_coap_server_handle_send` ignore the result of `async_send_data`
  (nc_coap_client.c:124, nc_coap_server.c:150). A DTLS connection which is closing refuses
  (nm_mbedtls_srv.c:454-464); the send buffer is then never freed and no CoAP message is sent to any client
  again. `C119_refused_violated`.
* Not modelled: `nc_client_connection_keep_alive_send_req`
  and `..._send_response` (nc_client_connection.c:269-297) pass `(size_t*)&sendCtx->bufferSize`, the address
  of a 16-bit field; on a big endian machine the length becomes 0.
* C120: `password_to_mpi` (nm_wolfssl_spake2.c:67-71) takes `wc_RNG_GenerateBlock` to return the number of
  bytes; it returns 0 when it worked. The function returns that 0, its caller goes on, and the password
  number is 0 for every user who does not exist or has no password. With wolfSSL a client which uses 0 as
  password number is authenticated as any such user (`C120_unknown_violated`). With IAM this means: the
  request for a user without password is left unanswered (nm_iam_pake_handler.c), the core takes that as no
  password, and a password authenticated connection is taken for the named user (nm_iam_internal.c:47-49). A
  client can therefore act as any existing user without a password, for example an administrator who paired
  locally. The result should be compared with 0, as nm_wolfssl_random.c:51-54 does.
* Not modelled: `mbedtls_spake2_key_confirmation` ignores the results of the two hash calls
  (nm_mbedtls_spake2.c:226-227); the wolfSSL version does not check the results of `wc_ecc_new_point`, and
  does not check that the point of the client is on the curve; `Sound` and the option result of `read` take
  this to be the business of the library.
* C121: `start_send_deferred` of the client (nm_wolfssl_cli.c:574) tests `ret < 0`; wolfSSL_write returns 0
  or less when it failed. A message for which it returns 0 is reported as sent and never written
  (`C121_client_zero_violated`). The server module tests `ret <= 0`.
* C121: `handle_timeout` of the client (nm_wolfssl_cli.c:520-544) does not look at the state, and
  `destroy_connection` does not cancel the timer while a packet is on its way. If the retransmissions fail
  in that time the attacher is called although it destroyed the session (`C121_client_dead_violated`); if
  the device was freed meanwhile, this is freed memory. The mbed TLS module does nothing there.
* Not modelled in the wolfSSL modules, noticed while reading: `nm_wolfssl_cli.c:384-392` leaks the X509 of
  the peer on every fingerprint; `create_connection` of both modules leaks on errors and the server does not
  check `wolfSSL_new`; `get_server_fingerprint` and `get_certificate_expiration` answer NOT_IMPLEMENTED; the
  udp callback of the client in the closing state leaves `sslSendBuffer` dangling (it is not used again
  before the session is freed, `C121_client_ends`); the callback which verifies certificates accepts all of
  them.
* C122: `wolfssl_recv` (nm_wolfssl_srv.c:656-660) and `nm_dtls_wolfssl_recv` (nm_wolfssl_cli.c:736-739) read
  eight bytes from offset 4; epoch and number of a record are at offset 3 (RFC 6347, 4.1). The number is
  (epoch mod 256)·2^56 + number·2^8 + high byte of the length. The order is kept as long as the epoch is
  below 256 (`C122_order`, `C122_same`).
* C122: the number of the wolfSSL module is that of the first record header of a datagram, before the
  library has looked at it. If wolfSSL goes on after a record it discards (depends on the version, not
  checked), someone on the path can put a header in front of a genuine record and set the number
  (`C122_forged_violated`); with a number near 2^64 the connection never moves to another channel again
  (nc_client_connection.c:198).
* C122: both modules read once per datagram and then forget the buffer. After a datagram with two data
  records the next datagram is not looked at (`C122_lost_violated`), and the second record is taken to come
  from the channel of the dropped datagram, whoever sent that. Reading until WANT_READ would do.
* C123: `nc_device_set_basestation_attach(dev, false)` on a running device does not clear `enableAttach`
  (nc_device.c:670-672). Between `nabto_device_start` and the moment the sockets are bound the call returns
  OK and has no effect: the device attaches (`C123_off_starting_violated`).
* C123: switching the attach on between `nabto_device_start` and the moment the sockets are bound starts the
  attacher at once; `nc_device_sockets_bound` then starts it a second time, which fails, and returns without
  receiving packets: the start of the device is reported to have failed (nc_device.c:350-356,
  `C123_on_starting_violated`).
* C123: switching on an attach which is on returns INVALID_STATE (nc_device.c:667-669), which the
  documentation has for a closed device only (`C123_again_violated`).
* C123: `enableAttach` is set before `nc_attacher_start` (nc_device.c:663-666). If that fails for want of
  memory the attach can never be switched on again (`C123_memory_violated`).
* C124: `nc_device_mdns_add_txt_item` erases the key before it inserts it (nc_device.c:707-711). If the
  insertion fails for want of memory the old item is gone, and not announced any more with the next change
  (`C124_lost_violated`).
* C124: `nc_device_populate_mdns` (nc_device.c:306-341) adds TXT items and the subtype before the start can
  still fail. After a failed start with other ids the device is announced under the old `<product>-<device>`
  too (`C124_stale_violated`), and unless the string map overwrites on insertion the TXT item `productid` is
  that of the failed start (`C124_stale_txt_violated`).
* C125: `thermostat_set_target.c:39-44` accepts NaN and infinities. With NaN the temperature becomes NaN
  with the next update and stays so until the program is restarted, whatever target is set
  (`C125_nan_violated`). cJSON writes both as `null`, so they are forgotten with a restart
  (`C125_forgotten_violated`).
* C125: `save_state` ignores the result of `json_config_save` (thermostat_state_file_backend.c:111-113): the
  client is told that the setting was stored (`C125_unsaved_violated`).
* C125: a state file which was written partly makes `run_thermostat` end at every start; `--init`, which
  would make a new one, is only looked at after the file was loaded (thermostat_main.c:160-187,
  `C125_torn_violated`).
* C125: `thermostat_init_cbor_parser` sends an error response, and `thermostat_set_power.c:31-34` and
  `thermostat_set_target.c:34-37` send a second one (`C125_response_violated`); `thermostat_get.c:55-58`
  sends none when there is no memory.
* C126: `safeWrite` returns `buffer + written` where `written` is the length the text would have had
  (nc_coap_packet_printer.c:115-120), a pointer outside of the block after a long option; a client can cause
  it with a path of 1024 bytes (`C126_pointer_violated`). Nothing is written there.
* C127: `my_debug` and `logging_callback` give the line of the TLS library to `NABTO_LOG_RAW` as the format
  (nm_mbedtls_util.c:276, nm_wolfssl_util.c:289). mbedtls dumps received bytes, the printable ones as text,
  at the level trace: a peer which sends `%s` or `%n` makes the device read or write through arguments which
  do not exist (`C127_format_violated`). Only in builds with NABTO_DEVICE_DTLS_LOG, which is off by default.
* C127: `userData` and `logCallback` are stored one after the other without a lock
  (nabto_device_logging.c:72-77): a message logged meanwhile calls the old callback with the new data
  (`C127_mixed_violated`), and a removed callback may still be called after the removal returned
  (`C127_removed_violated`).
* C128: `udp_recv_from` drops `sin6_scope_id` and `udp_send_to` sets it to zero (nm_libevent_udp.c:312,
  nm_select_unix_udp.c:306): a client on a link-local IPv6 address, which mDNS may well give it, gets no
  answer sent to it with its link (`C128_reply_violated`).
* C128: one `recvfrom` that fails with ENOMEM, ENOBUFS or EINTR is reported as NABTO_EC_UDP_SOCKET_ERROR
  (nm_select_unix_udp.c:363, nm_libevent_udp.c:364) although np_udp.h:36-41 counts these as recoverable;
  `nc_udp_dispatch` then never receives again (`C128_transient_violated`).
* C129: `tp.tv_sec * 1000` (nabto_device_threads_unix.c:158) overflows a `time_t` of 32 bits, and
  `(long)future_ms / 1000` (line 160) cuts off to a `long` of 32 bits before dividing: on 32 bit Linux every
  timed wait returns at once or is undefined (`C129_wait_none_violated`, `C129_wait_undefined_violated`);
  the event thread then spins whenever a timer is pending.
* C129: timed waits and time stamps use the wall clock (no `pthread_condattr_setclock`, `CLOCK_REALTIME` in
  nm_unix_timestamp.c:29): a clock set back by an hour, for example by the first NTP answer, stops all
  timers for an hour (`C129_timer_set_back_violated`).
* C131: the local addresses are found by connecting a socket to 8.8.8.8 and 2001:4860:4860::8888
  (nm_unix_local_ip.c:52, nm_libevent_get_local_ip.c:77): on a network without a default route, such as an
  access point of the device itself, mDNS announces no address and `GET /p2p/endpoints` answers with an
  empty list (`C131_no_internet_violated`); a device on two networks offers only the address on the one with
  the default route (`C131_two_networks_violated`).
* C132: `nabto_device_platform_init` (nabto_platform_libevent.c:55-150) undoes no failure, and
  `nabto_device_platform_deinit` does nothing because `device->platformData` is only set at :132: a failure
  leaks everything made before it (`C132_platform_violated`). If the thread of the event queue cannot be
  started (thread_event_queue.c:66-69), `thread_event_queue_stop_blocking` (:97-99) joins a thread which was
  never started (`C132_crash_violated`). nc_udp_dispatch.c:29-33, nc_coap_server.c:40-44 and nc_stun.c:56-86
  mark themselves as initialised too late and leak; nc_coap_client.c:29 and nc_attacher.c:104 too early, so
  that the CoAP client and the set of tokens are destroyed without having been made.
  `nabto_device_new_resolve_failure` sets `closing`, so that the CoAP resources of the tunnels are never
  given back (nabto_device.c:63-68,190-192) (`C132_leak_violated`). The results of setting up MbedTLS
  (nabto_device.c:95-104), of the timer of the password tokens (nc_spake2.c:28) and of the event of the
  stream manager (nc_stream_manager.c:35) are ignored: the device is made without them and crashes when they
  are used (`C132_half_made_violated`).
* C133: nm_iam_send_fcm_test.c:52-60 and :64-71 free `ctx` and then read `ctx->handler`: use after free
  whenever the basestation refuses a notification or memory is short (`C133_failure_violated`).
  nm_iam_pairing_local_open.c:49-85 and nm_iam_pairing_password_open.c:58-104 give a string of the library
  to `nm_iam_free`, which is `free`: with `nabto_device_set_custom_allocator` every open pairing corrupts
  the heap (`C133_allocator_violated`). nm_iam_pairing_password_open.c:66-73 does not free the fingerprint
  when the request contains a password (`C133_leak_violated`). nm_iam_cbor_send_error_response
  (nm_iam_coap_handler.c:131-143) has no `break`: up to four answers (`C133_repeated_violated`), on virtual
  connections with a leak each (`C133_repeated_leak_violated`). nm_iam_delete_user.c:37-45 answers an error
  twice. nm_iam_create_user.c:88 ignores the result of `nm_iam_internal_add_user` (`C133_create_violated`).
  nm_iam_get_me.c, nm_iam_list_users.c, nm_iam_pairing_get.c and nm_iam_settings_get.c do not answer without
  memory (`C133_unanswered_violated`). nm_iam_get_notification_categories.c:57-60 does not free the payload.
  nm_iam_send_fcm_test.c:29-30 sets `async` after the listener is started (`C133_race_violated`).
  nm_iam_coap_handler_init does not free the listener when there is no future (`C133_lifetime_violated`).
* C134: nm_iam_user_set_notification_categories (nm_iam_user.c:193-201) ignores the answers of
  `nn_string_set_insert` and returns true: without memory the user has no categories any more and the client
  is told 2.04 (`C134_categories_violated`). nm_iam_user_from_json (nm_iam_from_json.c:65-131) and
  nm_iam_serializer_state_load_json (nm_iam_serializer.c:237-281) ignore the answers of all setters and
  leave out users that cannot be made: when memory is short during a load it returns true with users, roles,
  passwords or fingerprints missing, and the next store of the state deletes them for good
  (`C134_load_violated`). nm_iam_serializer.c:232-235 does not free the parsed document when its version is
  above 2 (`C134_load_leak_violated`).
* C135: nm_wolfssl_create_crt_from_private_key (nm_wolfssl_util.c:121-125) stores the result of
  `wc_SignCert` in `certLen` and then tests `ret`: a failing signature is not noticed, and the negative
  length becomes one near 2^32 in `wc_DerToPem` on a buffer of 512 bytes; only the checks of the library
  stand between this and a read out of bounds (`C135_sign_violated`). Line 134 of the same function returns
  without freeing the generator and the key (`C135_leak_violated`). nm_mbedtls_sha256
  (nm_mbedtls_util.c:290-298) returns 0 whatever `mbedtls_sha256` of version 3 says, and
  nm_mbedtls_util_fp_from_crt (line 35) ignores the result with every version: a digest which fails gives
  whatever was in the output beforehand as the fingerprint of the device or of a peer
  (`C135_hash_violated`). nm_mbedtls_util_create_private_key (lines 245-247) returns OK with a NULL text
  when memory is short (`C135_create_violated`).
* C136: compare_key_against_group_order (..._wolfssl.c:18-36) lets the key zero through, which the
  documentation and the mbedtls build exclude; it is refused only if wolfSSL does (`C136_zero_violated`).
* C137: nm_condition_new_with_key (nm_condition.c:27-36) does not look at the result of copying the key:
  when memory is short it returns a condition whose key is NULL, the builder reports success, and the next
  evaluation looks up the attribute NULL (`C137_key_violated`). nm_iam_configuration_role_free and
  nm_iam_configuration_policy_free, unlike nm_iam_configuration_free, do not accept NULL.
* C138: nabto_device_listener_init (nabto_device_listener.c) does not check whether the listener was
  initialised before. A second call of an init function is answered with OK, each event is then given twice,
  and after stop and free the first context stays registered and is used by the next event although it was
  freed (`C138_twice_violated`).
* C138: nabto_device_listener_init (nabto_device_listener.c) does not check whether the listener was
  initialised before. A second call of an init function is answered with OK, each event is then given twice,
  and after stop and free the first context stays registered and is used by the next event although it was
  freed (`C138_twice_violated`).
* C139: nabto_device_connection_get_device_fingerprint of a virtual connection
  (nabto_device_virtual_connection.c:180-206) allocates 64 bytes for 64 digits, so the string has no
  terminator, whatever was set (`C139_terminator_violated`); the allocation is not checked.
  nabto_device_virtual_connection_close (lines 112-118) never resolves its future (`C139_close_violated`).
  Both setters do not check their buffer (`C139_buffer_violated`), and with memory short they lose the
  fingerprint that was set before (`C139_lost_violated`). The getters of nabto_device.c say OK with NULL
  when memory is short (`C139_null_violated`). set_client_fingerprint accepts 63 digits,
  set_device_fingerprint does not. A virtual connection whose handle cannot be allocated is announced by
  OPENED and CLOSED events.
* C140: handle_request of nm_iam_auth_handler.c (lines 66-70) does not check nn_string_map_insert: with
  memory short an attribute such as TcpTunnel:ServiceId is missing in the decision and a Deny statement
  about it is skipped, so that a client is let through although the configuration never permits it
  (`C140_memory_short_violated`).
* C141: `nabto_device_set_root_certs` is documented as overriding the default "Nabto Root CA 1"
  (nabto_device.h:326-330), but `set_root_certs` of both libraries adds to the store which
  `nc_attacher_init` filled with the default root, so the default root stays trusted whatever the user sets
  (`C141_override_violated`).
* C141: `create_connection` of nm_mbedtls_cli.c (lines 285-307) sets `*connection` only at the end, so the
  cleanup of its callers frees nothing when an event cannot be created; `create_client_connection` of
  nm_wolfssl_cli.c (line 247) returns without freeing. The connection is lost for ever
  (`C141_leak_violated`).
* C141: `create_attach_connection` of nm_wolfssl_cli.c (lines 300-310) destroys the connection when the host
  name cannot be set but leaves it in `*connection`; the attacher then hands the next packet to freed memory
  or frees it again in `nc_attacher_deinit` (`C141_dangling_violated`). Line 254 ignores a failing
  `np_completion_event_init`, and the first packet sent then posts a NULL event.
* C141: `create_attach_connection` of nm_mbedtls_cli.c (line 355) turns validation off in the configuration
  shared by all attach connections and never on again. The attacher never turns validation on again either,
  so no user of the API sees it (`C141_authentic` and `C141_disabled` hold).
* C142: `nm_mbedtls_srv_create_connection` (nm_mbedtls_srv.c:232-282) and `nm_wolfssl_srv_create_connection`
  (nm_wolfssl_srv.c:263-303) return from every failure after the allocation of the session without freeing
  it; each first packet of an unauthenticated client during a shortage loses memory for ever
  (`C142_leak_violated`).
* C142: `nm_wolfssl_srv_destroy_connection` (nm_wolfssl_srv.c:336-343) follows its argument without a check,
  and `nc_client_connection_dispatch_handle_packet` destroys a connection whose initialisation failed and
  which therefore has no session: with wolfSSL a first packet during a shortage of memory crashes the device
  (`C142_crash_violated`). mbedTLS checks for NULL.
* C143: `nabto_device_virtual_stream_free` passes the stream to `nc_stream_ref_count_dec`
  (nc_stream.c:686-696) without a check: freeing a handle which was never opened, or whose opening failed
  for lack of memory, follows a NULL pointer, and so do abort, read, write and close
  (`C143_not_opened_violated`, `C143_open_failed_violated`). After a failed opening the event object of
  `openEv` is lost too.
* C143: `nc_virtual_stream_client_async_read_all` and `_read_some` do not look at `virt.stopped`: a read
  started after `nabto_device_virtual_stream_abort` is never resolved, whatever either end does, and since
  abort returns early the second time the handle can never be freed as documented
  (`C143_read_after_abort_violated`).
* C143: `nabto_device_virtual_stream_open` has no guard against a second opening (the other operations have
  one): the first future is lost for ever (`C143_open_twice_violated`).
* C143: a handle freed with an unresolved future leaves pointers to its completion events in the core; the
  documentation says only that the future may not be resolved, but when the other end accepts or writes,
  freed memory is used (`C143_free_early_violated`).
* C144: `nm_mbedtls_timer_get_delay` says that the final delay has passed only after the event thread has
  run the callback; a busy event thread makes mbed TLS see 1 for any length of time (`C144_late_violated`).
  Harmless as long as every use of the session is on the event thread, since the callback makes it look
  again.
* C144: the event thread takes an event before it waits for the core's lock
  (`thread_event_queue.c:195-217`). `nm_mbedtls_srv_async_close` cancels the timer from an API thread
  (`nm_mbedtls_srv.c:501`): the callback may still run (`C144_cancel_raced_violated`). Setting the timer
  there would make the new delays count as passed at once (`C144_set_raced_violated`); no such call was
  found on the server, on the client `nabto_device_start` only sets a fresh timer.
* C145: three results are not looked at while a configuration is loaded: the copy of the key of a condition
  (`nm_policies_from_json.c:54`), the insertion of its values (`nm_policies_from_json.c:63`) and the
  insertion of the policies of a role (`nm_iam_from_json.c:30`). The load reports success; a Deny statement
  or policy may be lost (`C145_value_lost_violated`, `C145_policy_lost_violated`), or the NULL key is
  compared at each access check (`C145_key_lost_violated`). The unpaired role, whose result is not looked at
  either (`nm_iam_serializer.c:120`), is harmless: without it unpaired clients are refused.
* C145: a load which fails keeps in the configuration what it had loaded (`C145_half_loaded_violated`);
  loading again into the same configuration would add the same policies twice.
* C146: `nm_iam_init` undoes nothing when it fails. `nm_iam_deinit` does most of it, but not the listener of
  a CoAP handler without a future (`C146_leak_violated`), and it deinitialises `notificationCategories` and
  `authorizedConnections` although they are not initialised if the state or the configuration could not be
  made (`C146_sets_violated`; whether that is harmless for zeroed structures depends on the missing nn
  library). `nm_iam_stop` may not be called after a failed start (`C146_stop_violated`). `simple_push_device.c:293` and
  `thermostat_iam.c:28` do not look at the result of `nm_iam_init`.
* C147: the consequence of C09 with IAM: whoever knows the password of a guest, or that of password open
  pairing, becomes administrator by asking to be authenticated as one, without completing it, and without
  the administrator having a password (`C147_takeover_violated`). `nc_spake2_password_ready`
  (nc_spake2.c:91-93) should clear `passwordAuthenticated` when it replaces the username.
* C148: with a configuration which denies a service by a Deny statement, the tunnel to it is opened when
  `nn_string_map_insert` fails in `handle_request` (nm_iam_auth_handler.c:66-70), since its result is not
  checked (`C148_memory_short_violated`); the end-to-end consequence of C140.
* C149: `POST /iam/pairing/password-open` checks only that the connection is password authenticated, not as
  whom (nm_iam_pairing_password_open.c:38-41). Who knows the password of any user makes a new user with the
  role of open pairing, without the password of open pairing, also when pairing by invitation is disabled
  (`C149_open_violated`).
* C149: with the takeover of C147, who knows the password of open pairing or of one user pairs its own key
  with any other user whose role allows pairing by invitation, for instance an administrator who was never
  invited, and clears that user's password (`C149_invite_violated`). This outlives the connection.
* C149: an invitation is not for one client only: all clients who proved its password before the first of
  them paired are paired, since the handler does not look at the password again
  (nm_iam_pairing_password_invite.c:35-76, `C149_twice_violated`). The same goes for a password which was
  changed or removed meanwhile.
* C150: `POST /iam/users/{user}/fcm-test` puts the FCM token of the user between two fixed texts without
  escaping it (nm_iam_send_fcm_test.c:14-15,165-167). Who may set the token of a user can close the string
  and add members to the message, for instance a second title, which then goes to FCM in the name of the
  vendor's project (`C150_text_violated`).
* C151: each `nabto_device_start` parses certificate and key into the contexts of the DTLS modules again,
  without freeing them (nm_mbedtls_srv.c:528-560, nm_mbedtls_cli.c:482-484). After a start which was
  refused, for instance for a missing product id, the next one seeds a seeded `mbedtls_ctr_drbg_context` and
  parses a key into a used `mbedtls_pk_context`, both against the documentation of MbedTLS
  (`C151_misuse_violated`), and the client loses its certificate and key (`C151_lost_violated`). The
  certificate is appended to the chain, so that the server goes on showing the first one
  (`C151_certificate_violated`); if the library puts up with the rest, the server has the certificate of one
  key and the private key of another (`C151_mixed_violated`).
* C154: the sockets of the mDNS server join the group of mDNS on the interfaces which exist when they are
  bound (nm_select_unix_mdns_udp_bind.c:65 and :100, nm_libevent_mdns_udp_bind.c:88 and :121), and never
  again. A device which is started before its network is up, or whose interface is removed and comes back,
  is not found on that network by mDNS until mDNS is started again (`C154_late_violated`,
  `C154_back_violated`).
* C155: `nabto_device_get_attach_certificate_expiration` passes the connection of the attacher on without a
  look at it (nabto_device_experimental.c:43), and the MbedTLS module reads its state
  (nm_mbedtls_cli.c:393). The pointer is NULL before the device is started, while a name is looked up, while
  the device waits to try again and after a close: an application which asks then crashes
  (`C155_null_violated`). NABTO_DEVICE_EC_NOT_ATTACHED, which the documentation promises, is never answered
  (`C155_code_violated`).
* C156: `cancel` of the event queue on libevent does not reset `posted` (libevent_event_queue.c:145-148): an
  event which was posted and cancelled is refused by `post_maybe_double` until someone posts it otherwise
  (`C156_lost_violated`). `event_del` waits for a running handler of the event, and the handler begins with
  the mutex which the caller of `cancel` holds (libevent_event_queue.c:78): the device hangs
  (`C156_hang_violated`). The file is compiled, but nabto_platform_libevent.c uses thread_event_queue.c.
* C156: libevent takes an event which is active because of its timer out of its queue when the timer is set
  again. If the event was posted in between, `post_timed` (libevent_event_queue.c:139) takes the post away
  with it, and the event waits for the new timer (`C156_late_violated`).
* C157: `getTimestamp` reads the clock twice, std_out_logger.c:33 for the milliseconds and
  std_out_logger.c:36 for the seconds. A line which is printed when a second ends is stamped up to 999 ms in
  the future, and the lines after it have earlier times (`C157_future_violated`, `C157_order_violated`).
  `nm_unix_log` reads it once.
* C158: `parse_response` calls `ice_server_clean` before `nn_vector_init` if `Urls` is not an array
  (nc_attacher_ice_servers.c:212, `C158_undefined_violated`); loses a url if `nn_vector_push_back` fails
  (nc_attacher_ice_servers.c:221, `C158_leak_violated`); leaves the servers in front of a mistake in the
  request, where the getters find them (`C158_rest_violated`); and does not copy `Credential` if there is no
  `Username` (nc_attacher_ice_servers.c:202, `C158_credential_violated`).
* C159: `resource_callback` (nc_coap_server.c:251-259) does not check the result of `np_calloc`
  (`C159_crash_violated`). `nabto_device_coap_listener_callback` (nabto_device_coap.c:226-233) answers the
  requests which wait when a listener is stopped and frees its own structure, but does not call
  `nc_coap_server_request_free`: the request of the core and that of the library stay in memory
  (`C159_stop_violated`). `nabto_device_coap_init_listener` (nabto_device_coap.c:37-39) does not release the
  structure `nc_coap_server_add_resource` made if the library could not register it (`C159_init_violated`).
* C160: `fcm_send_callback`, `service_invoke_send_callback` and `turn_req_send_callback` resolve the future
  of the application with the code of the core (nabto_device_fcm.c:92,
  nabto_device_service_invocation.c:101, nabto_device_ice_servers.c:45) without
  `nabto_device_error_core_to_api`. NABTO_EC_TIMEOUT and NABTO_EC_BAD_RESPONSE are not among the codes of
  nabto_device.h: the application gets 43 or 44, which it can compare with nothing, and the message is
  "Unknown error code, this should not happen" (`C160_timeout_violated`, `C160_bad_violated`).
  `nabto_device_error_get_string` (nabto_device_error.c:24) gives "NABTO_DEVICE_OK", the header promises
  "NABTO_DEVICE_EC_OK" (`C160_string_violated`).
