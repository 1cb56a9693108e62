{
 "claims": [
  {
   "property": "C01",
   "status": "proved",
   "theorems": [
    "MsgRs.Props.C01_reqrep_roundtrip"
   ],
   "note": "byte-level round-trip, payload < 2^32 as in the statement"
  },
  {
   "property": "C02",
   "status": "proved",
   "theorems": [
    "MsgRs.Props.C02_reqrep_fragmentation"
   ],
   "note": "every cut, pending, error, EOF; tokio_util Framed modelled"
  },
  {
   "property": "C03",
   "status": "proved",
   "theorems": [
    "MsgRs.Props.C03_reqrep_arbitrary_bytes",
    "MsgRs.Props.C03_reqrep_no_panic"
   ],
   "note": ""
  },
  {
   "property": "C04",
   "status": "proved",
   "theorems": [
    "MsgRs.Props.C04_pubsub_roundtrip"
   ],
   "note": ""
  },
  {
   "property": "C05",
   "status": "proved",
   "theorems": [
    "MsgRs.Props.C05_pubsub_fragmentation"
   ],
   "note": ""
  },
  {
   "property": "C06",
   "status": "proved",
   "theorems": [
    "MsgRs.Props.C06_pubsub_arbitrary_bytes",
    "MsgRs.Props.C06_pubsub_no_panic"
   ],
   "note": ""
  },
  {
   "property": "C07",
   "status": "proved",
   "theorems": [
    "MsgRs.Props.C07_auth_roundtrip"
   ],
   "note": ""
  },
  {
   "property": "C08",
   "status": "partial",
   "theorems": [
    "MsgRs.Props.C08_auth_fragmentation_partial",
    "MsgRs.Props.C08_server_decode_panics_iff",
    "MsgRs.Props.C08_auth_fragmentation_refuted"
   ],
   "note": "The property is false of the code: auth.rs reads index 4 with only 4 bytes and compares len with id_size instead of id_size+5. The dangerous cuts are characterised exactly."
  },
  {
   "property": "C09",
   "status": "proved",
   "theorems": [
    "MsgRs.Props.C09_client_decision",
    "MsgRs.Props.C09_client_ack_only"
   ],
   "note": ""
  },
  {
   "property": "C10",
   "status": "proved",
   "theorems": [
    "MsgRs.Props.C10_wire_ids_separate",
    "MsgRs.Props.C10_frames_start_with_their_id"
   ],
   "note": ""
  },
  {
   "property": "C100",
   "status": "proved",
   "theorems": [
    "MsgRs.Props.C100_quiet_delivered",
    "MsgRs.Props.C100_quiet_wildcards",
    "MsgRs.Props.C100_session_idle",
    "MsgRs.Props.C100_link_idle"
   ],
   "note": "Room: the session was never more than session_buffer_size messages behind, fewer than 1024 messages of the connection and fewer than ingress_buffer_size for the user were waiting, at most 64 subscription commands, fewer bytes of them than the write buffer (without room messages and commands are dropped: C23, C46, C50). Messages whose payload is below 4 GiB. C100_session_idle and C100_link_idle: a poll that returned Pending leaves the task idle. C100_quiet_wildcards: with patterns, as far as the trie honours them (C17)."
  },
  {
   "property": "C101",
   "status": "proved",
   "theorems": [
    "MsgRs.Props.C101_builder",
    "MsgRs.Props.C101_windows",
    "MsgRs.Props.C101_stays_alive",
    "MsgRs.Props.C101_default"
   ],
   "note": "What quinn does with the settings is trusted; what the code does not set is left out. When the windows overflow see C58 (partial)."
  },
  {
   "property": "C102",
   "status": "proved",
   "theorems": [
    "MsgRs.Props.C102_slow_subscriber",
    "MsgRs.Props.C102_channel",
    "MsgRs.Props.C102_all_subscribers",
    "MsgRs.Props.C102_refuted_errors"
   ],
   "note": "The bound counts the bytes of frames: buffers' spare capacity and the bookkeeping of the runtime are left out. The hypothesis that writes do not fail is needed: C102_refuted_errors."
  },
  {
   "property": "C103",
   "status": "partial",
   "theorems": [
    "MsgRs.Props.C103_codecs",
    "MsgRs.Props.C103_publisher",
    "MsgRs.Props.C103_replier",
    "MsgRs.Props.C103_requester",
    "MsgRs.Props.C103_subscriber_partial",
    "MsgRs.Props.C103_no_smaller_limit",
    "MsgRs.Props.C103_refuted_subscriber"
   ],
   "note": "False for a subscriber that gets malformed bytes (C103_refuted_subscriber): the session goes on reading after a decode error and the codec leaves the bytes in the buffer. Everything else is proved. Spare capacity of buffers is not counted."
  },
  {
   "property": "C104",
   "status": "partial",
   "theorems": [
    "MsgRs.Props.C104_subscriber",
    "MsgRs.Props.C104_replier",
    "MsgRs.Props.C104_requester",
    "MsgRs.Props.C104_refuted_replier",
    "MsgRs.Props.C104_refuted_requester"
   ],
   "note": "All bounds of the bounded queues are proved; the egress queues of reply and request sockets have none (C104_refuted_replier, C104_refuted_requester). For publishers see C102."
  },
  {
   "property": "C105",
   "status": "proved",
   "theorems": [
    "MsgRs.Props.C105_call",
    "MsgRs.Props.C105_history",
    "MsgRs.Props.C105_full"
   ],
   "note": "C105_full: a state in which the calls are refused or wait is reachable."
  },
  {
   "property": "C106",
   "status": "partial",
   "theorems": [
    "MsgRs.Props.C106_refuted_requester",
    "MsgRs.Props.C106_refuted_subscriber",
    "MsgRs.Props.C106_refuted_publisher",
    "MsgRs.Props.C90_subscriber_session",
    "MsgRs.Props.C90_publisher_session",
    "MsgRs.Props.C90_request_driver",
    "MsgRs.Props.C90_subscriber_driver_partial",
    "MsgRs.Props.C74_request_driver_returns",
    "MsgRs.Props.C74_subscriber_driver_returns",
    "MsgRs.Props.C74_subscriber_session_returns",
    "MsgRs.Props.C74_publisher_session_returns",
    "MsgRs.Props.C106_refuted_replier",
    "MsgRs.Props.C106_reply_pause",
    "MsgRs.Props.C106_reply_turn_is_history"
   ],
   "note": "False as stated: each of these tasks looks at the other work only when the connection (or the channel) has nothing for it, so a flood of any length delays it (four refutations, one per socket; for the reply socket C106_refuted_replier: new clients wait). What holds: as soon as there is a pause the task catches up: it returns Pending only with nothing left to do (C90), it does return (C74), and a reply socket none of whose clients has anything deals with the new ones in the same iteration (C106_reply_pause, C86). Tokio's cooperative budget, which is not modelled, only pauses the task: when it is used up the calls, timers and listeners are Pending too."
  },
  {
   "property": "C107",
   "status": "partial",
   "theorems": [
    "MsgRs.Props.C107_subscriber_partial",
    "MsgRs.Props.C107_bind_partial",
    "MsgRs.Props.C107_requester_partial",
    "MsgRs.Props.C107_session_partial",
    "MsgRs.Props.C107_publisher_partial",
    "MsgRs.Props.C107_refuted_sizes",
    "MsgRs.Props.C107_refuted_huge_flush",
    "MsgRs.Props.C107_refuted_zero_flush",
    "MsgRs.Props.C36_no_panic",
    "MsgRs.Props.C75_subscriber_no_panic",
    "MsgRs.Props.C107_refuted_read_buffer"
   ],
   "note": "False as stated; the exact values are given. A subscriber with an ingress buffer of 0 or >= 2^61, a publisher with a session buffer of 0 or >= 2^63, a reply socket with >= 2^63 maximum clients and a request socket with a timeout below 10 ns or a zero flush interval panic in the caller (C107_refuted_sizes). A publisher with a zero flush interval loses its driver with its first client, silently (C107_refuted_zero_flush); a subscriber with a read buffer >= 2^63 loses it with its first connection (C107_refuted_read_buffer). A flush interval like Duration::MAX panics the request driver at its first poll and every session of a publisher (C107_refuted_huge_flush). All other values: no panic. Allocation failure is not modelled (a large buffer may also abort for lack of memory)."
  },
  {
   "property": "C108",
   "status": "partial",
   "theorems": [
    "MsgRs.Props.C108_closed_partial",
    "MsgRs.Props.C108_refuted_timeout",
    "MsgRs.Props.C79_cancelled_waiting",
    "MsgRs.Props.C79_sent_at_most_once"
   ],
   "note": "True for SocketClosed (first 2^32 calls). False for Timeout: the request stays in the outgoing queue, survives the loss of the connection and is sent on the next one (C108_refuted_timeout). It is sent at most once (C79_sent_at_most_once). A call given up while it waits for room is never sent (C79_cancelled_waiting)."
  },
  {
   "property": "C109",
   "status": "partial",
   "theorems": [
    "MsgRs.Props.C109_publisher_partial",
    "MsgRs.Props.C109_quiet_partial",
    "MsgRs.Props.C109_refuted"
   ],
   "note": "True for the publisher from the moment it has handled the unsubscription (C109_publisher_partial: nothing on the topic is sent any more, not even messages published before), and end to end from any moment at which both sides have nothing left to do (C109_quiet_partial). False at the moment unsubscribe() returns, or even once the publisher was told: the subscriber does not filter, so messages on the topic that are on their way or in its buffers are still delivered (C109_refuted)."
  },
  {
   "property": "C11",
   "status": "partial",
   "theorems": [
    "MsgRs.Props.C11_reqrep_intact_iff_partial",
    "MsgRs.Props.C11_pubsub_intact_iff_partial",
    "MsgRs.Props.C11_oversize_reqrep_refuted",
    "MsgRs.Props.C11_topic_limits"
   ],
   "note": "False for payloads of 4 GiB and more (size field truncates) and for topics over 65535 bytes (panic)."
  },
  {
   "property": "C110",
   "status": "proved",
   "theorems": [
    "MsgRs.Props.C110_connection_after_connection",
    "MsgRs.Props.C110_reconnects"
   ],
   "note": "C110_reconnects is about one publisher socket and one subscriber socket whose actions are interleaved in any way. The network is a hypothesis (OneNet): a connection carries bytes in order, and the publisher serves a connection only once the attempt that leads to it is under way. No other hypothesis but payloads below 4 GiB and a decompressor that inverts the compressor."
  },
  {
   "property": "C111",
   "status": "partial",
   "theorems": [
    "MsgRs.Props.C111_publisher_lockout_refuted",
    "MsgRs.Props.C111_reply_lockout_refuted",
    "MsgRs.Props.C111_publisher_room_partial",
    "MsgRs.Props.C111_reply_room_partial",
    "MsgRs.Props.C111_refused_stays_refuted"
   ],
   "note": "False as stated: clients are counted when accepted, and an authentication task has no time limit, so max_clients silent connections keep everybody out for ever (C111_publisher_lockout_refuted, C111_reply_lockout_refuted: for every limit, every authenticator and every later history of the whole socket). Proved: with room for one more connection, unauthenticated ones included, a client that authenticates is served, and a client whose handshake fails (for instance because it hangs up) gives its place back."
  },
  {
   "property": "C112",
   "status": "proved",
   "theorems": [
    "MsgRs.Props.C112_at_most_once",
    "MsgRs.Props.C112_many_clients"
   ],
   "note": "The network is a hypothesis (Wired): connections have two ends, bytes arrive in order, nobody reads what was not written. The last part is for the first 2^32 calls (ids wrap, see C34). The example beside the theorem has two connections, the first of which breaks. C112_many_clients: the same for any number of request sockets connected to one reply socket."
  },
  {
   "property": "C113",
   "status": "partial",
   "theorems": [
    "MsgRs.Props.C113_publisher_returns",
    "MsgRs.Props.C113_publisher_partial",
    "MsgRs.Props.C113_publisher_refuted",
    "MsgRs.Props.C113_reply_returns",
    "MsgRs.Props.C113_reply_partial",
    "MsgRs.Props.C113_reply_refuted",
    "MsgRs.Props.C113_connect"
   ],
   "note": "False of the code for bind: the transport is taken out of the socket before transport.bind(..).await, so giving up there loses it and every later bind panics (C113_publisher_refuted, C113_reply_refuted, for every later history). Proved: as long as the transport's bind never has to wait (TCP, QUIC and IPC: there is nothing to wait for in them), giving up at any point is harmless; connect is always safe. Giving up request() is C79, giving up the methods of a subscriber C105."
  },
  {
   "property": "C114",
   "status": "proved",
   "theorems": [
    "MsgRs.Props.C114_one_order"
   ],
   "note": "Under the same network hypothesis as C110 for each of the two subscribers (OneNet on the part of the history that concerns it and the publisher). The example beside the theorem has two subscribers and three messages."
  },
  {
   "property": "C115",
   "status": "proved",
   "theorems": [
    "MsgRs.Props.C115_isolated",
    "MsgRs.Props.C115_as_if_alone"
   ],
   "note": "Two theorems: histories that agree in the view of a client (when it was polled, how writes were taken, what was done with its requests and which were refused) give it the same bytes and its requests the same fates; and for a client never refused there is such a history in which no other client ever comes. The hypothesis on arrivals says that the (ghost) name of the connection is its own. Not covered by it because other properties are: a new connection from the same address replaces the old one (C32), refusal for lack of room (C44), starvation (C106), places taken by clients that are not yet authenticated (C111)."
  },
  {
   "property": "C116",
   "status": "proved",
   "theorems": [
    "MsgRs.Props.C116_isolated",
    "MsgRs.Props.C116_as_if_alone"
   ],
   "note": "Two theorems: histories that agree in the view of a session bring it to the same state, and for every session of every history there is one with the same view in which no other subscriber ever comes. In both the options for messages (compressor, smallest size to compress, sizes of the channel and of the write buffer) are the same. What a subscriber cannot be kept from: others may have taken the places that max_clients allows (C91, C111). Tasks share the runtime's threads: when a session runs is part of its view."
  },
  {
   "property": "C117",
   "status": "proved",
   "theorems": [
    "MsgRs.Props.C117_as_if_alone",
    "MsgRs.Props.C117_isolated"
   ],
   "note": "From every history the part that concerns one address is taken (`aloneActs`, a history itself: no other address occurs in it; a call is made when the driver takes its command). In it the sessions of that address, the messages taken from them and the state of the connection are the same, and the user gets at least the messages it got in the original, all of them if none was refused for lack of room. When sessions and driver run is part of the view: a busy publisher delays the others' commands and connections (C106)."
  },
  {
   "property": "C118",
   "status": "proved",
   "theorems": [
    "MsgRs.Props.C118_every_message_accounted",
    "MsgRs.Props.C118_wildcards_accounted",
    "MsgRs.Props.C118_any_moment",
    "MsgRs.Props.C118_any_moment_wildcards"
   ],
   "note": "No assumption on room (C100 is the case with room, where nothing is missed or dropped). The subscriptions in the history are changes the user requested; with at most 64 commands and room in the write buffer they end as the user asked. C118_any_moment holds at every moment, quiet or not, also when the connection has failed: what is not yet accounted for as above waits its turn at the publisher, is under way (sent, not read: lost if the connection fails), or waits for the subscriber's background task."
  },
  {
   "property": "C119",
   "status": "proved",
   "theorems": [
    "MsgRs.Props.C119_one_answer_one_call",
    "MsgRs.Props.C119_callers"
   ],
   "note": "At most 2^32 calls per request socket (identifiers wrap after that, C34_own_response_mod), frames below 4 GiB, decompression inverts compression. Example `Twins`: two clients make the same call with the same number and payload and get their own responses."
  },
  {
   "property": "C12",
   "status": "proved",
   "theorems": [
    "MsgRs.Props.C12_tag_identifies"
   ],
   "note": ""
  },
  {
   "property": "C120",
   "status": "proved",
   "theorems": [
    "MsgRs.Props.C120_own_publication",
    "MsgRs.Props.C120_only_subscribed"
   ],
   "note": "The network is a hypothesis for each publisher (OneNet, see C110). Payloads below 4 GiB, decompression inverts compression. Example `Both`: two publishers publish the same message and the user gets both. C120_only_subscribed: and every one is on a topic matched by a pattern for which subscribe or try_subscribe returned Ok(()) (well-formed patterns)."
  },
  {
   "property": "C121",
   "status": "partial",
   "theorems": [
    "MsgRs.Props.C121_one_connection_partial",
    "MsgRs.Props.C121_refuted_reconnect"
   ],
   "note": "Missing: order across connections, which is false (C121_refuted_reconnect: the connections of a client are independent peers of the reply socket, polled in any order). Calls are ordered as they entered the driver's queue (C80: for calls that found room, the order in which they were made)."
  },
  {
   "property": "C13",
   "status": "proved",
   "theorems": [
    "MsgRs.Props.C13_request_transparent",
    "MsgRs.Props.C13_reply_transparent",
    "MsgRs.Props.C13_publish_transparent",
    "MsgRs.Props.C61_published_in_order",
    "MsgRs.Props.C92_every_request_answered"
   ],
   "note": "the codec libraries are parameters; 'decompress inverts compress' is the hypothesis in the English statement; C61 and C92 carry it through whole histories of the sockets"
  },
  {
   "property": "C14",
   "status": "partial",
   "theorems": [
    "MsgRs.Props.C14_min_compress_partial",
    "MsgRs.Props.C14_request_socket",
    "MsgRs.Props.C14_reply_socket_partial",
    "MsgRs.Props.C14_publish_socket_partial",
    "MsgRs.Props.C14_min_compress_refuted"
   ],
   "note": "false of the code for replies and try_publish (refuted with a witness); proved for request and publish, on the wire of the sockets in every history"
  },
  {
   "property": "C15",
   "status": "proved",
   "theorems": [
    "MsgRs.Props.C15_literal_exact",
    "MsgRs.Props.C15_session"
   ],
   "note": ""
  },
  {
   "property": "C16",
   "status": "proved",
   "theorems": [
    "MsgRs.Props.C16_no_unsolicited",
    "MsgRs.Props.C16_malformed_pattern_sticks",
    "MsgRs.Props.C16_session"
   ],
   "note": "malformed patterns (non-final >) are shown to be the exception that sticks"
  },
  {
   "property": "C17",
   "status": "partial",
   "theorems": [
    "MsgRs.Props.C17_wildcard_complete_refuted",
    "MsgRs.Props.C17_gt_ineffective",
    "MsgRs.Props.C17_wildcard_complete_partial",
    "MsgRs.Props.C17_subscribed_topic_passes",
    "MsgRs.Props.C17_exactly",
    "MsgRs.Props.C17_session_exact"
   ],
   "note": "full completeness is false of the code (refuted with witness); proved for the patterns and histories where it holds"
  },
  {
   "property": "C18",
   "status": "proved",
   "theorems": [
    "MsgRs.Props.C18_only_active_set_matters",
    "MsgRs.Props.C18_unsub_absent",
    "MsgRs.Props.C18_unsub_undoes",
    "MsgRs.Props.C18_session",
    "MsgRs.Props.C18_unsub_keeps_others"
   ],
   "note": ""
  },
  {
   "property": "C19",
   "status": "proved",
   "theorems": [
    "MsgRs.Props.C19_no_residue",
    "MsgRs.Props.C19_session"
   ],
   "note": ""
  },
  {
   "property": "C20",
   "status": "proved",
   "theorems": [
    "MsgRs.Props.C20_control_meaning",
    "MsgRs.Props.C20_control_arrives",
    "MsgRs.Props.C20_commands"
   ],
   "note": ""
  },
  {
   "property": "C21",
   "status": "proved",
   "theorems": [
    "MsgRs.Props.C21_reserved_refused",
    "MsgRs.Props.C21_others_accepted",
    "MsgRs.Props.C21_start_is_harmless",
    "MsgRs.Props.C21_control_is_reserved"
   ],
   "note": "The refused call starts the driver task, which does nothing."
  },
  {
   "property": "C22",
   "status": "proved",
   "theorems": [
    "MsgRs.Props.C22_session_in_order",
    "MsgRs.Props.C22_session_no_panic",
    "MsgRs.Props.C22_session_progress"
   ],
   "note": ""
  },
  {
   "property": "C23",
   "status": "proved",
   "theorems": [
    "MsgRs.Props.C23_feed_subsequence",
    "MsgRs.Props.C23_lag_only_oldest",
    "MsgRs.Props.C23_publisher_in_time"
   ],
   "note": ""
  },
  {
   "property": "C24",
   "status": "proved",
   "theorems": [
    "MsgRs.Props.C24_sessions_independent",
    "MsgRs.Props.C24_publish_ignores_sessions",
    "MsgRs.Props.C24_publisher",
    "MsgRs.Props.C24_started_session"
   ],
   "note": "C24_started_session: under any limit on clients, once a session was started nothing but the calls on the socket and its own iterations matters to it."
  },
  {
   "property": "C25",
   "status": "proved",
   "theorems": [
    "MsgRs.Props.C25_publish_bind",
    "MsgRs.Props.C25_bind_then_publish",
    "MsgRs.Props.C25_history"
   ],
   "note": ""
  },
  {
   "property": "C26",
   "status": "proved",
   "theorems": [
    "MsgRs.Props.C26_only_control_changes_filter",
    "MsgRs.Props.C26_non_control",
    "MsgRs.Props.C26_error_is_local",
    "MsgRs.Props.C26_error_ends_session"
   ],
   "note": ""
  },
  {
   "property": "C27",
   "status": "proved",
   "theorems": [
    "MsgRs.Props.C27_publisher_max_clients",
    "MsgRs.Props.C91_limit"
   ],
   "note": ""
  },
  {
   "property": "C28",
   "status": "proved",
   "theorems": [
    "MsgRs.Props.C28_reply_max_clients",
    "MsgRs.Props.C28_reply_socket"
   ],
   "note": "all histories of the reply driver"
  },
  {
   "property": "C29",
   "status": "partial",
   "theorems": [
    "MsgRs.Props.C29_counter_exact_partial",
    "MsgRs.Props.C29_counter_leaks_refuted",
    "MsgRs.Props.C29_reply_counter_exact_partial",
    "MsgRs.Props.C29_room_admits",
    "MsgRs.Props.C32_same_address_refuted"
   ],
   "note": "False as stated: a client whose auth frame is cut at a dangerous position makes the auth task panic and the counter is never decremented (machine-checked witness). Proved: counter never below the real number, exact when no auth task panics. Publisher driver; the reply driver is treated under C28/C32.; reply socket: exact when addresses are distinct and no authentication task panics"
  },
  {
   "property": "C30",
   "status": "proved",
   "theorems": [
    "MsgRs.Props.C30_handshake",
    "MsgRs.Props.C30_only_authenticated_served",
    "MsgRs.Props.C30_reply_only_authenticated",
    "MsgRs.Props.C30_verdict",
    "MsgRs.Props.C30_reply_socket",
    "MsgRs.Props.C91_admitted_only"
   ],
   "note": "; reply socket included"
  },
  {
   "property": "C31",
   "status": "proved",
   "theorems": [
    "MsgRs.Props.C31_client_needs_ack",
    "MsgRs.Props.C31_otherwise_not_usable",
    "MsgRs.Props.C31_request_socket",
    "MsgRs.Props.C31_subscriber_socket"
   ],
   "note": ""
  },
  {
   "property": "C32",
   "status": "partial",
   "theorems": [
    "MsgRs.Props.C32_distinct_addresses_served_partial",
    "MsgRs.Props.C32_same_address_refuted",
    "MsgRs.Props.C32_own_address_partial",
    "MsgRs.Props.C32_admission_partial"
   ],
   "note": "false for clients sharing an address (IPC): the first is dropped when the second connects; proved for distinct addresses; C32_own_address_partial asks only that nobody shares this client's address (other clients may share theirs, fail or crash), C32_admission_partial holds without any condition on addresses"
  },
  {
   "property": "C33",
   "status": "proved",
   "theorems": [
    "MsgRs.Props.C33_each_call_in_one_place",
    "MsgRs.Props.C33_at_most_once",
    "MsgRs.Props.C33_result_stays",
    "MsgRs.Props.C79_cancel_isolated"
   ],
   "note": "every history of the request driver"
  },
  {
   "property": "C34",
   "status": "proved",
   "theorems": [
    "MsgRs.Props.C34_own_response",
    "MsgRs.Props.C34_own_response_mod",
    "MsgRs.Props.C34_refuted_wrap",
    "MsgRs.Props.C79_own_response"
   ],
   "note": "request socket and reply socket composed through prefix-of-the-other-end byte streams; the first 2^32 calls of a socket (ids wrap: beyond that up to congruence modulo 2^32, and C34_refuted_wrap is a history in which call number 2^32 gets the answer to call 0); C79_own_response: for the calls as the users make them"
  },
  {
   "property": "C35",
   "status": "partial",
   "theorems": [
    "MsgRs.Props.C35_never_early",
    "MsgRs.Props.C35_prompt_partial",
    "MsgRs.Props.C35_unconnected_refuted",
    "MsgRs.Props.C35_call_never_early",
    "MsgRs.Props.C106_refuted_requester"
   ],
   "note": "never early: proved; prompt only when the driver gets to finish a poll while connected: while the connection is down no timeout is checked (C35_unconnected_refuted), nor while the server keeps sending (C106_refuted_requester)"
  },
  {
   "property": "C36",
   "status": "proved",
   "theorems": [
    "MsgRs.Props.C36_end_resolves_all",
    "MsgRs.Props.C36_no_panic"
   ],
   "note": ""
  },
  {
   "property": "C37",
   "status": "proved",
   "theorems": [
    "MsgRs.Props.C37_backoff_schedule"
   ],
   "note": ""
  },
  {
   "property": "C38",
   "status": "partial",
   "theorems": [
    "MsgRs.Props.C38_options_ignored_refuted",
    "MsgRs.Props.C38_fixed_schedule_partial",
    "MsgRs.Props.C38_options_without_effect"
   ],
   "note": "refuted as stated: the options are ignored; the schedule actually used is proved"
  },
  {
   "property": "C39",
   "status": "partial",
   "theorems": [
    "MsgRs.Props.C39_clean_close_refuted",
    "MsgRs.Props.C39_error_recovers_partial",
    "MsgRs.Props.C39_nothing_lost_partial",
    "MsgRs.Props.C39_next_connection_partial",
    "MsgRs.Props.C39_rest_sent_partial"
   ],
   "note": "After an error nothing that waits is lost, any number of attempts may fail (C93), the first that succeeds is used, and exactly the requests not handed over before are sent on it, in order. Missing and false: after a clean close by the server the driver ends (refuted)."
  },
  {
   "property": "C40",
   "status": "proved",
   "theorems": [
    "MsgRs.Props.C40_in_order_at_most_once"
   ],
   "note": ""
  },
  {
   "property": "C41",
   "status": "partial",
   "theorems": [
    "MsgRs.Props.C41_reply_bytes_partial",
    "MsgRs.Props.C41_reply_bytes_refuted",
    "MsgRs.Props.C41_request_bytes_partial",
    "MsgRs.Props.C41_request_bytes_refuted",
    "MsgRs.Props.C41_rtt_between",
    "MsgRs.Props.C41_publisher_bytes_partial",
    "MsgRs.Props.C41_publisher_bytes_refuted",
    "MsgRs.Props.C41_publisher_total_partial"
   ],
   "note": "the byte counters are one short per frame (reply socket bytes_rx counts payloads only); the exact relation is proved; the RTT average is proved to stay between the extremes Publisher sessions likewise: bytes_tx is one short per frame."
  },
  {
   "property": "C42",
   "status": "proved",
   "theorems": [
    "MsgRs.Props.C42_responses_match",
    "MsgRs.Props.C42_response_payload",
    "MsgRs.Props.C42_reply_socket"
   ],
   "note": "all histories, any number of peers and requests"
  },
  {
   "property": "C43",
   "status": "partial",
   "theorems": [
    "MsgRs.Props.C43_responses_sent_partial",
    "MsgRs.Props.C43_drop_delays_response_refuted",
    "MsgRs.Props.C43_reply_socket_partial",
    "MsgRs.Props.C43_reply_socket_enough_partial"
   ],
   "note": "false as stated: a dropped request makes the poll return Pending without handling a completed response behind it; proved when no waiting request of the connection was dropped; also proved: each dropped request costs at most one more poll, after which every response is queued"
  },
  {
   "property": "C44",
   "status": "partial",
   "theorems": [
    "MsgRs.Props.C44_delivered_in_order_partial",
    "MsgRs.Props.C44_socket_receives",
    "MsgRs.Props.C44_overload_refuted",
    "MsgRs.Props.C44_no_panic"
   ],
   "note": "false when 1024 requests wait unreceived; otherwise every decodable request is handed over, in order per peer"
  },
  {
   "property": "C45",
   "status": "partial",
   "theorems": [
    "MsgRs.Props.C45_undecodable_dropped_partial",
    "MsgRs.Props.C45_nothing_else_changes",
    "MsgRs.Props.C45_delays_response_refuted",
    "MsgRs.Props.C45_reply_socket_partial"
   ],
   "note": "never delivered, never answered, nothing else changes; but it can delay another response of the same connection (lost wake-up)"
  },
  {
   "property": "C46",
   "status": "partial",
   "theorems": [
    "MsgRs.Props.C46_told_partial",
    "MsgRs.Props.C46_gets_written_partial",
    "MsgRs.Props.C46_65_topics_refuted"
   ],
   "note": "Proved for at most 64 commands per connection (or none refused) and while the control frames fit the write buffer (or none lost or overtaken); refuted as stated: the 65th of the topics subscribed before connecting is never requested."
  },
  {
   "property": "C47",
   "status": "partial",
   "theorems": [
    "MsgRs.Props.C47_disconnected_partial",
    "MsgRs.Props.C47_pending_attempt_refuted"
   ],
   "note": "Proved when no connection attempt is registered at the time the disconnect is handled; refuted as stated: an attempt in progress is not aborted and its connection is used."
  },
  {
   "property": "C48",
   "status": "partial",
   "theorems": [
    "MsgRs.Props.C48_specified_partial",
    "MsgRs.Props.C48_unspecified_refuted",
    "MsgRs.Props.C48_dials_loopback_partial"
   ],
   "note": "Proved for specified IPs; refuted for unspecified ones (0.0.0.0, ::), which connect rewrites and disconnect does not. C48_dials_loopback_partial: an unspecified IP is dialled as 127.0.0.1 with the same port, which is then the endpoint to disconnect from; endpoints that name no address are refused without effect."
  },
  {
   "property": "C49",
   "status": "partial",
   "theorems": [
    "MsgRs.Props.C49_task_end_recovers_partial",
    "MsgRs.Props.C49_never_reconnects_refuted"
   ],
   "note": "Proved: when the task that serves a connection ends, the driver gives the connection up and starts over (attempts as in C77). Missing and false: the task does not end when its connection is closed or fails; then no attempt is ever made (refuted in general: unless the user disconnects or a topic is too long)."
  },
  {
   "property": "C50",
   "status": "proved",
   "theorems": [
    "MsgRs.Props.C50_attributed_in_order",
    "MsgRs.Props.C50_newest_dropped",
    "MsgRs.Props.C50_only_appended",
    "MsgRs.Props.C50_complete"
   ],
   "note": ""
  },
  {
   "property": "C51",
   "status": "proved",
   "theorems": [
    "MsgRs.Props.C51_one_attempt",
    "MsgRs.Props.C51_finished_frees"
   ],
   "note": "An attempt that panics does not free its slot (see C66)."
  },
  {
   "property": "C52",
   "status": "partial",
   "theorems": [
    "MsgRs.Props.C52_in_order_partial",
    "MsgRs.Props.C52_offered_in_order",
    "MsgRs.Props.C52_reordered_refuted"
   ],
   "note": "Proved while the control frames fit the write buffer (or none was overtaken); refuted as stated by a schedule with backpressure."
  },
  {
   "property": "C53",
   "status": "partial",
   "theorems": [
    "MsgRs.Props.C53_skipped_partial",
    "MsgRs.Props.C53_stalls_refuted"
   ],
   "note": "The message is skipped and the next look at the connection delivers the one behind; refuted as stated: the driver may go to sleep without any waker registered."
  },
  {
   "property": "C54",
   "status": "partial",
   "theorems": [
    "MsgRs.Props.C54_nothing_new_partial",
    "MsgRs.Props.C54_drop_keeps_connections_refuted"
   ],
   "note": "Proved: after the drop no new command is taken, nothing is delivered, no endpoint is contacted that was not known or in a waiting connect command. Missing and false: the driver goes on and every connection stays (refuted in general)."
  },
  {
   "property": "C55",
   "status": "proved",
   "theorems": [
    "MsgRs.Props.C55_connect_idempotent",
    "MsgRs.Props.C55_one_connection"
   ],
   "note": ""
  },
  {
   "property": "C56",
   "status": "partial",
   "theorems": [
    "MsgRs.Props.C56_accept_partial",
    "MsgRs.Props.C56_first_ready",
    "MsgRs.Props.C56_tcp_immediate",
    "MsgRs.Props.C56_ipc_immediate",
    "MsgRs.Props.C56_unbound",
    "MsgRs.Props.C56_quic_loses_refuted"
   ],
   "note": "True and proved for TCP and IPC for every history (first report, nothing lost, no lost wakeup). False for QUIC: a connection whose accept future is pending at its first poll is dropped and the task is never woken again (C56_quic_loses_refuted); C56_first_ready says what is yielded in general."
  },
  {
   "property": "C57",
   "status": "proved",
   "theorems": [
    "MsgRs.Props.C57_binds_first_usable",
    "MsgRs.Props.C57_stops_at_first"
   ],
   "note": ""
  },
  {
   "property": "C58",
   "status": "partial",
   "theorems": [
    "MsgRs.Props.C58_window_partial",
    "MsgRs.Props.C58_window_refuted"
   ],
   "note": "Proved when 8*BDP fits in 32 bits; false otherwise (wraps silently; panics with overflow checks)."
  },
  {
   "property": "C59",
   "status": "partial",
   "theorems": [
    "MsgRs.Props.C59_ids",
    "MsgRs.Props.C59_active",
    "MsgRs.Props.C59_linux",
    "MsgRs.Props.C59_start_macos_refuted",
    "MsgRs.Props.C59_stop_macos_refuted"
   ],
   "note": "Distinct ids proved for every history; bookkeeping of active simulations proved; \"does not affect others\" holds on Linux (where nothing is simulated) and is false on macOS for both start and stop."
  },
  {
   "property": "C60",
   "status": "proved",
   "theorems": [
    "MsgRs.Props.C60_fifo",
    "MsgRs.Props.C60_fifo_back",
    "MsgRs.Props.C60_independent",
    "MsgRs.Props.C60_bounded",
    "MsgRs.Props.C60_end",
    "MsgRs.Props.C60_no_panic",
    "MsgRs.Props.C60_closed",
    "MsgRs.Props.C60_subscriber_channel",
    "MsgRs.Props.C60_driver_holds_end"
   ],
   "note": "For every interleaving of try_send/poll_ready/start_send/poll_send/send/recv/close/drop calls on the two ends of a new channel: what arrives on one end is a prefix of what the other end accepted (and together with the queue all of it, unless the receiving end is dropped or closed), each direction evolves and reports independently of the other, each is bounded by its capacity, end of stream is reported exactly when everything was received and the sending half is gone; no panic unless start_send is called without poll_ready (a precondition of the Sink contract). The subscriber model is tied to the channel model: each of its operations on a session is the channel operation."
  },
  {
   "property": "C61",
   "status": "proved",
   "theorems": [
    "MsgRs.Props.C61_published_in_order",
    "MsgRs.Props.C61_only_subscribed"
   ],
   "note": "Publisher and subscriber models joined by a connection (each end reads a prefix of what the other wrote, any fragmentation). Hypotheses: well-formed patterns, payloads below 2^32 bytes."
  },
  {
   "property": "C62",
   "status": "proved",
   "theorems": [
    "MsgRs.Props.C62_server_switch",
    "MsgRs.Props.C62_client_switch",
    "MsgRs.Props.C62_publisher",
    "MsgRs.Props.C62_publisher_no_auth",
    "MsgRs.Props.C62_reply_socket",
    "MsgRs.Props.C62_reply_socket_no_auth",
    "MsgRs.Props.C62_request_socket",
    "MsgRs.Props.C62_request_socket_no_auth",
    "MsgRs.Props.C62_subscriber_socket",
    "MsgRs.Props.C62_subscriber_socket_no_auth"
   ],
   "note": "Proved for peers that wait for the Ack (all msg-rs peers); an example shows that a pipelining peer loses bytes. Handshake level and, for every history, each of the four sockets."
  },
  {
   "property": "C63",
   "status": "partial",
   "theorems": [
    "MsgRs.Props.C63_local_addr",
    "MsgRs.Props.C63_accepts_where",
    "MsgRs.Props.C63_quic_rebind_partial",
    "MsgRs.Props.C63_quic_rebind_refuted"
   ],
   "note": "Over every history of binds, dials, arrivals and accepts. True as long as no bind succeeds after the first poll_accept that found an endpoint; false after it (for every such history): connections are taken from the old endpoint for ever."
  },
  {
   "property": "C64",
   "status": "partial",
   "theorems": [
    "MsgRs.Props.C64_ipc_bind_partial",
    "MsgRs.Props.C64_ipc_history_partial",
    "MsgRs.Props.C64_ipc_socket_there",
    "MsgRs.Props.C64_ipc_bind_deletes_refuted"
   ],
   "note": "One bind, and every history of binds: only the given paths are touched, directories never, and the outcome is characterised. Missing: an existing regular file at the path is deleted, even if the bind then fails (refuted)."
  },
  {
   "property": "C65",
   "status": "partial",
   "theorems": [
    "MsgRs.Props.C65_start_shapes",
    "MsgRs.Props.C65_stop_restores",
    "MsgRs.Props.C65_restart_refuted",
    "MsgRs.Props.C65_failed_start_leaks_refuted"
   ],
   "note": "Proved for endpoints without an active simulation when all commands succeed; false for a restart on the same endpoint and for failing starts."
  },
  {
   "property": "C66",
   "status": "partial",
   "theorems": [
    "MsgRs.Props.C66_counts",
    "MsgRs.Props.C66_spawn",
    "MsgRs.Props.C66_running_partial",
    "MsgRs.Props.C66_panic_blocks_refuted",
    "MsgRs.Props.C66_subscriber_tasks",
    "MsgRs.Props.C66_subscriber_history"
   ],
   "note": "Proved for every history: counts, spawn iff key absent; without panics a key is present exactly while its task runs. With a panicking task the key stays for ever (refuted). The connection attempts of the subscriber model are shown to be the tasks of such a set, for every history."
  },
  {
   "property": "C67",
   "status": "proved",
   "theorems": [
    "MsgRs.Props.C67_everything_arrives",
    "MsgRs.Props.C67_publisher_everything_arrives",
    "MsgRs.Props.C67_enough_room"
   ],
   "note": "C67_enough_room assumes nothing about what was dropped: that nothing was follows from there having been room at every moment. Concrete pairs of histories meet all hypotheses (examples beside the theorems)."
  },
  {
   "property": "C68",
   "status": "proved",
   "theorems": [
    "MsgRs.Props.C68_reqrep_frames",
    "MsgRs.Props.C68_pubsub_frames",
    "MsgRs.Props.C68_encoders"
   ],
   "note": "Against a specification of the wire formats written independently of the codecs."
  },
  {
   "property": "C69",
   "status": "partial",
   "theorems": [
    "MsgRs.Props.C69_reqrep_close_partial",
    "MsgRs.Props.C69_pubsub_close_partial",
    "MsgRs.Props.C69_payload_missing_refuted"
   ],
   "note": "Proved except when exactly the whole payload of the last frame is missing: then the codec has consumed the header, the buffer is empty and Framed reports a clean end (refuted with a witness)."
  },
  {
   "property": "C70",
   "status": "proved",
   "theorems": [
    "MsgRs.Props.C70_idle_means_sent",
    "MsgRs.Props.C70_flushed_within_interval"
   ],
   "note": "Timers fire when the clock has reached their deadline and the driver is polled then; that the runtime polls it is assumed."
  },
  {
   "property": "C71",
   "status": "proved",
   "theorems": [
    "MsgRs.Props.C71_responses_on_the_wire",
    "MsgRs.Props.C71_reply_socket"
   ],
   "note": "Which answered requests have been queued is C43; this is about what is queued."
  },
  {
   "property": "C72",
   "status": "proved",
   "theorems": [
    "MsgRs.Props.C72_is_a_session",
    "MsgRs.Props.C72_idle_means_sent",
    "MsgRs.Props.C72_flushed_within_interval"
   ],
   "note": "Timers fire when the clock has reached their deadline and the session is polled then; that the runtime polls it is assumed."
  },
  {
   "property": "C73",
   "status": "partial",
   "theorems": [
    "MsgRs.Props.C73_drop_ends_partial",
    "MsgRs.Props.C73_socket_drop_partial",
    "MsgRs.Props.C73_unconnected_refuted"
   ],
   "note": "While connected (or once a connection is made) the task ends after flushing, or waits only for the connection to take the remaining bytes. Missing: without a connection the driver does not look at its socket and keeps retrying for the whole backoff (refuted by witness)."
  },
  {
   "property": "C74",
   "status": "proved",
   "theorems": [
    "MsgRs.Props.C74_request_driver_returns",
    "MsgRs.Props.C74_reply_driver_returns",
    "MsgRs.Props.C74_publisher_session_returns",
    "MsgRs.Props.C74_publisher_driver_returns",
    "MsgRs.Props.C74_subscriber_driver_returns",
    "MsgRs.Props.C74_subscriber_session_returns"
   ],
   "note": "One theorem per task. The publisher session needs topics of at most 65535 bytes (longer ones panic, see C11) and the drivers need that outside input does not arrive for ever. The reply driver serves peers in an arbitrary order, so its theorem bounds the number of productive steps in any order."
  },
  {
   "property": "C75",
   "status": "proved",
   "theorems": [
    "MsgRs.Props.C75_subscriber_no_panic"
   ],
   "note": "A topic too long for the wire panics the session task, not the driver (see C76)."
  },
  {
   "property": "C76",
   "status": "partial",
   "theorems": [
    "MsgRs.Props.C76_short_topics_partial",
    "MsgRs.Props.C76_long_topic_refuted"
   ],
   "note": "Names up to 65525 bytes: no session ends unless the user disconnected. Refuted in general: a topic over 65527 bytes is accepted and ends every session that comes to it."
  },
  {
   "property": "C77",
   "status": "proved",
   "theorems": [
    "MsgRs.Props.C77_schedule",
    "MsgRs.Props.C77_at_once",
    "MsgRs.Props.C77_timer_set",
    "MsgRs.Props.C77_retried"
   ],
   "note": "Schedule, promptness of the first attempt, timers always armed when idle, a due timer starts an attempt."
  },
  {
   "property": "C78",
   "status": "proved",
   "theorems": [
    "MsgRs.Props.C78_no_panic",
    "MsgRs.Props.C78_unconnected",
    "MsgRs.Props.C78_connects_once"
   ],
   "note": "The socket front-end over the driver model; panics of connect are explicit results."
  },
  {
   "property": "C79",
   "status": "proved",
   "theorems": [
    "MsgRs.Props.C79_cancel_isolated",
    "MsgRs.Props.C79_cancelled_waiting",
    "MsgRs.Props.C79_sent_at_most_once",
    "MsgRs.Props.C79_own_response",
    "MsgRs.Props.C79_all_resolve"
   ],
   "note": "C79_own_response lifts C34 to the calls as made by the user (same hypotheses on link, frame sizes and fewer than 2^32 calls)."
  },
  {
   "property": "C80",
   "status": "proved",
   "theorems": [
    "MsgRs.Props.C80_bounded",
    "MsgRs.Props.C80_waits",
    "MsgRs.Props.C80_room"
   ],
   "note": "While the socket is unconnected the driver does not take requests, so waiting callers wait until it is (see C35)."
  },
  {
   "property": "C81",
   "status": "proved",
   "theorems": [
    "MsgRs.Props.C81_respond_ok",
    "MsgRs.Props.C81_respond_effect"
   ],
   "note": "The connection is the one whose reader issued the request; replaced and ended connections count as gone."
  },
  {
   "property": "C82",
   "status": "partial",
   "theorems": [
    "MsgRs.Props.C82_bind_once_partial",
    "MsgRs.Props.C82_failed_bind_refuted"
   ],
   "note": "Proved up to the first attempt to bind and after the first successful one. Missing and false: after a failed attempt the transport is gone and binding again panics (refuted, reply and publisher sockets)."
  },
  {
   "property": "C83",
   "status": "partial",
   "theorems": [
    "MsgRs.Props.C83_held_survive_partial",
    "MsgRs.Props.C83_only_received_answered",
    "MsgRs.Props.C83_no_panic",
    "MsgRs.Props.C83_drop_keeps_serving_refuted"
   ],
   "note": "Missing and false: the background task notices nothing of the drop; it goes on accepting clients and reading requests (refuted)."
  },
  {
   "property": "C84",
   "status": "partial",
   "theorems": [
    "MsgRs.Props.C84_drop_delivers_partial",
    "MsgRs.Props.C84_sessions_end",
    "MsgRs.Props.C84_close_loses_refuted",
    "MsgRs.Props.C84_publisher_drop_partial",
    "MsgRs.Props.C84_publisher_sessions_end"
   ],
   "note": "Missing and false: the session makes a single attempt to flush before it ends, so what a busy connection does not take at that moment is lost (refuted). The accepting task itself goes on running after the drop."
  },
  {
   "property": "C85",
   "status": "partial",
   "theorems": [
    "MsgRs.Props.C85_pipe_command",
    "MsgRs.Props.C85_last_setting",
    "MsgRs.Props.C85_start_settings_partial",
    "MsgRs.Props.C85_commands",
    "MsgRs.Props.C85_latency_refuted",
    "MsgRs.Props.C85_protocols_refuted",
    "MsgRs.Props.C85_protocol_names"
   ],
   "note": "Missing and false: fractions of a millisecond are dropped, the list of protocols has no effect (both refuted). What the commands do to the system is C59 and C65."
  },
  {
   "property": "C86",
   "status": "partial",
   "theorems": [
    "MsgRs.Props.C86_publisher_partial",
    "MsgRs.Props.C86_reply_partial",
    "MsgRs.Props.C86_publisher_poll_is_history",
    "MsgRs.Props.C86_reply_poll_is_history",
    "MsgRs.Props.C86_publisher_left_waiting_refuted",
    "MsgRs.Props.C86_reply_left_waiting_refuted"
   ],
   "note": "Missing and false: when the authentication task reported first panicked (a frame cut at four bytes), the loop returns with the others still unread (refuted)."
  },
  {
   "property": "C87",
   "status": "partial",
   "theorems": [
    "MsgRs.Props.C87_bytes_of_last_connection",
    "MsgRs.Props.C87_counts_while_connected",
    "MsgRs.Props.C87_kept_until_disconnect",
    "MsgRs.Props.C87_removed_partial",
    "MsgRs.Props.C87_zombie_refuted"
   ],
   "note": "Missing and false: a connection task that finishes after the disconnect installs a session and its statistics (refuted)."
  },
  {
   "property": "C88",
   "status": "partial",
   "theorems": [
    "MsgRs.Props.C88_latency_partial",
    "MsgRs.Props.C88_rtt_partial",
    "MsgRs.Props.C88_rtt_samples",
    "MsgRs.Props.C88_latency_refuted",
    "MsgRs.Props.C88_rtt_refuted",
    "MsgRs.Props.C88_freeze_refuted",
    "MsgRs.Props.C88_wrap_refuted"
   ],
   "note": "Proved, for samples that add up to less than 2^64: never above the mean, at most (n-1)/2 below it; what the samples are. Missing and false: the division truncates at every step, so the average does not move for samples up to n above it (refuted, in general); and the sum is computed in 64 bits, so that a publisher whose clock stands at 0 makes the average latency meaningless after some ten thousand messages (C88_wrap_refuted)."
  },
  {
   "property": "C89",
   "status": "partial",
   "theorems": [
    "MsgRs.Props.C89_stays_connected_partial",
    "MsgRs.Props.C89_long_topic_refuted",
    "MsgRs.Props.C89_client_lost_refuted"
   ],
   "note": "Missing and false: a topic of more than 65535 bytes is accepted by publish and ends every session with a matching subscription (refuted, in general and from the start)."
  },
  {
   "property": "C90",
   "status": "partial",
   "theorems": [
    "MsgRs.Props.C90_subscriber_session",
    "MsgRs.Props.C90_publisher_session",
    "MsgRs.Props.C90_reply_connection_partial",
    "MsgRs.Props.C90_request_driver",
    "MsgRs.Props.C90_subscriber_driver_partial",
    "MsgRs.Props.C43_drop_delays_response_refuted",
    "MsgRs.Props.C53_stalls_refuted",
    "MsgRs.Props.C86_publisher_left_waiting_refuted",
    "MsgRs.Props.C86_reply_left_waiting_refuted"
   ],
   "note": "Proved in full for the publisher and subscriber sessions and the request driver. Missing and false: a dropped request hides answered ones; a message that fails to decompress leaves the rest of the queue unread; a panicking authentication task leaves connections waiting (each refuted)."
  },
  {
   "property": "C91",
   "status": "proved",
   "theorems": [
    "MsgRs.Props.C91_admitted_only",
    "MsgRs.Props.C91_gets_published",
    "MsgRs.Props.C91_end_to_end",
    "MsgRs.Props.C91_limit",
    "MsgRs.Props.C91_counter",
    "MsgRs.Props.C91_one_session_each",
    "MsgRs.Props.C91_exactly_subscribed"
   ],
   "note": "On the composed model of the publisher (Model/PubServer). The end-to-end statement assumes payloads below 4 GiB after compression, as C61."
  },
  {
   "property": "C92",
   "status": "proved",
   "theorems": [
    "MsgRs.Props.C92_every_request_answered",
    "MsgRs.Props.C92_every_caller_answered",
    "MsgRs.Props.C92_connection_answered",
    "MsgRs.Props.C92_connection_callers"
   ],
   "note": "On the joint histories Spec.Together of Model/ReqDriver and Model/RepDriver. Request ids have not wrapped (fewer than 2^32 requests), frames are below 4 GiB, and the reply socket's 1024-message queue was never full; example `liveActs` meets all hypotheses. C92_connection_answered / C92_connection_callers need only this connection's own requests to be received and answered: those of other clients may be dropped, held or waiting, and the queue may have been full for them; example `busyActs`."
  },
  {
   "property": "C93",
   "status": "proved",
   "theorems": [
    "MsgRs.Props.C93_schedule",
    "MsgRs.Props.C93_timer_set",
    "MsgRs.Props.C93_retried_or_given_up",
    "MsgRs.Props.C93_later_calls",
    "MsgRs.Props.C93_fresh",
    "MsgRs.Props.C93_not_before"
   ],
   "note": "That the configured backoff options play no role is C38."
  },
  {
   "property": "C94",
   "status": "proved",
   "theorems": [
    "MsgRs.Props.C94_lost_only_for_room",
    "MsgRs.Props.C94_newest_lost",
    "MsgRs.Props.C50_newest_dropped"
   ],
   "note": "Messages whose payload cannot be decompressed are C53; messages of a connection after disconnect() are C47."
  },
  {
   "property": "C95",
   "status": "proved",
   "theorems": [
    "MsgRs.Props.C95_tcp",
    "MsgRs.Props.C95_ipc",
    "MsgRs.Props.C95_bind_result"
   ],
   "note": "The listener itself (arrival order, which connections) is the operating system."
  },
  {
   "property": "C96",
   "status": "proved",
   "theorems": [
    "MsgRs.Props.C96_dials",
    "MsgRs.Props.C63_local_addr"
   ],
   "note": "quinn (the endpoint) is the environment."
  },
  {
   "property": "C97",
   "status": "proved",
   "theorems": [
    "MsgRs.Props.C97_req_options",
    "MsgRs.Props.C97_pub_options",
    "MsgRs.Props.C97_sub_options",
    "MsgRs.Props.C97_rep_options",
    "MsgRs.Props.C38_options_without_effect"
   ],
   "note": "The reply socket takes no threshold at all (its code never reads the option), so the model of the socket has none. That the three ignored options of the request socket have no effect contradicts their documentation: C38."
  },
  {
   "property": "C98",
   "status": "proved",
   "theorems": [
    "MsgRs.Props.C98_server_admits_the_client",
    "MsgRs.Props.C98_client_proceeds_only_if_accepted",
    "MsgRs.Props.C98_both_reach_the_verdict",
    "MsgRs.Props.C98_dangerous_cut",
    "MsgRs.Props.C98_mismatch_fails_safe",
    "MsgRs.Props.C98_request_socket",
    "MsgRs.Props.C98_subscriber_socket"
   ],
   "note": "The excluded cuts are C08's: C98_dangerous_cut shows that they kill the server task and that the client then does not go on either."
  },
  {
   "property": "C99",
   "status": "proved",
   "theorems": [
    "MsgRs.Props.C99_quiet_answered",
    "MsgRs.Props.C99_quiet_callers",
    "MsgRs.Props.C99_client_idle",
    "MsgRs.Props.C99_peer_idle",
    "MsgRs.Props.C99_every_call_accounted",
    "MsgRs.Props.C99_every_caller_accounted",
    "MsgRs.Props.C99_any_moment",
    "MsgRs.Props.C99_any_moment_callers",
    "MsgRs.Props.C99_one_place"
   ],
   "note": "C99_client_idle and C99_peer_idle: a poll that returned Pending leaves the task idle in the sense of Spec.ClientIdle / Spec.PeerIdle. Request ids have not wrapped, frames are below 4 GiB, the queue of 1024 requests to the application was never full. Nothing is assumed about the number of polls or about what the connection will do later. C99_every_call_accounted / C99_every_caller_accounted drop the assumptions on the application: at a quiet moment every call has returned, or lost its connection, or its request is waiting or held by the application, was dropped by it, or was turned away by a full queue; example `accountActs`. C99_any_moment / C99_any_moment_callers assume nothing about quietness: at every moment every call has returned, or waits for room, for the driver or for a connection, or its request was handed to a connection and is at one of the places listed in Spec.Whereabouts; example `momentActs`, four calls at four different places. C99_one_place: the calls in the three places at the client are all calls, in order, each once."
  }
 ]
}
