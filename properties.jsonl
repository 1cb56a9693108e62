{"id": "C01", "title": "Request/reply frames round-trip", "statement": "Encoding any request/reply message (any compression type byte, any 32-bit id, any payload shorter than 4 GiB) with the wire codec and decoding the resulting bytes with a fresh decoder yields exactly that message, consumes exactly the encoded bytes, and leaves any bytes that follow untouched.", "quantifier": "every compression byte, every id, every payload < 2^32 bytes, every trailing byte string", "why_tests_cant": "payloads and ids are unbounded; a test only samples them", "anchors": ["msg-wire/src/reqrep.rs: Message, Header, Codec::encode, Codec::decode"]}
{"id": "C02", "title": "Request/reply stream is independent of fragmentation", "statement": "However the byte stream carrying a sequence of request/reply frames is cut into reads, the framed connection yields exactly the messages that were sent, in order, with nothing extra.", "quantifier": "every list of messages and every way of cutting the encoded stream into chunks", "why_tests_cant": "number of cuts is exponential in the stream length", "anchors": ["msg-wire/src/reqrep.rs: Codec::decode", "tokio_util Framed (dependency)"]}
{"id": "C03", "title": "Request/reply decoder is total and chunk-insensitive on arbitrary bytes", "statement": "For arbitrary (also malicious) input, the request/reply decoder never panics, and the sequence of messages/errors it produces depends only on the bytes received, not on how they were split into reads.", "quantifier": "every byte string and every two chunkings of it", "why_tests_cant": "adversarial inputs and read boundaries cannot be enumerated", "anchors": ["msg-wire/src/reqrep.rs: Codec::decode"]}
{"id": "C04", "title": "Pub/sub frames round-trip", "statement": "Encoding any pub/sub message (any topic up to 65535 bytes, any timestamp, sequence number, compression byte and payload shorter than 4 GiB) and decoding it yields exactly that message and leaves following bytes untouched.", "quantifier": "every topic, timestamp, seq, compression byte, payload and trailing bytes", "why_tests_cant": "unbounded field values", "anchors": ["msg-wire/src/pubsub.rs: Message, Header, Codec::encode, Codec::decode"]}
{"id": "C05", "title": "Pub/sub stream is independent of fragmentation", "statement": "However the byte stream carrying a sequence of pub/sub frames is cut into reads, the framed connection yields exactly the messages sent, in order.", "quantifier": "every list of messages, every chunking", "why_tests_cant": "exponentially many cuts", "anchors": ["msg-wire/src/pubsub.rs: Codec::decode"]}
{"id": "C06", "title": "Pub/sub decoder is total and chunk-insensitive on arbitrary bytes", "statement": "For arbitrary input the pub/sub decoder never panics and the messages/errors produced depend only on the bytes, not on read boundaries.", "quantifier": "every byte string and every two chunkings of it", "why_tests_cant": "adversarial inputs cannot be enumerated", "anchors": ["msg-wire/src/pubsub.rs: Codec::decode"]}
{"id": "C07", "title": "Authentication frames round-trip", "statement": "An authentication message with any id token shorter than 4 GiB, delivered whole, is decoded by the server side to exactly that token; Ack and Reject are decoded by the client side to Ack and Reject.", "quantifier": "every token and every trailing bytes", "why_tests_cant": "unbounded tokens", "anchors": ["msg-wire/src/auth.rs: Codec"]}
{"id": "C08", "title": "Authentication decoding is safe for every fragmentation", "statement": "However the bytes of a client's authentication message are cut into reads, the server-side decoder yields the token and never panics.", "quantifier": "every token, every chunking, every byte string", "why_tests_cant": "the panic needs a cut at specific offsets relative to the token length", "anchors": ["msg-wire/src/auth.rs: Codec::decode"]}
{"id": "C09", "title": "Only an explicit acknowledgement authenticates", "statement": "The client side of the handshake reports success for a two-byte reply exactly when the wire id is the auth wire id and the status byte is non-zero; status 0 is a rejection and any other wire id is an error; fewer than two bytes decide nothing.", "quantifier": "every byte string", "why_tests_cant": "all byte strings", "anchors": ["msg-wire/src/auth.rs: Codec::decode (State::Ack)"]}
{"id": "C10", "title": "Frames of one protocol are never accepted by another", "statement": "A frame produced by the auth, request/reply or pub/sub encoder, delivered to the decoder of another of the three protocols, is rejected with a wire-id error as soon as enough bytes arrived; it is never decoded as a message.", "quantifier": "every message of each protocol and every pair of distinct protocols", "why_tests_cant": "all messages", "anchors": ["msg-wire/src/auth.rs", "msg-wire/src/reqrep.rs", "msg-wire/src/pubsub.rs"]}
{"id": "C11", "title": "Messages of any size are delivered intact", "statement": "Every message that the API accepts, whatever its payload or topic size, is delivered intact.", "quantifier": "every payload size and topic size", "why_tests_cant": "needs 4 GiB payloads", "anchors": ["msg-wire/src/reqrep.rs: Message::new", "msg-wire/src/pubsub.rs: Message::new"]}
{"id": "C12", "title": "Compression tag identifies the algorithm", "statement": "The algorithm selected by the tag carried in a frame is the algorithm that produced the payload, tag 0 means the payload is returned unchanged and every unassigned tag is an error, never wrongly decompressed.", "quantifier": "every tag byte and every payload", "why_tests_cant": "quantifies over the codecs' whole input space", "anchors": ["msg-wire/src/compression/mod.rs: CompressionType, try_decompress_payload"]}
{"id": "C13", "title": "Compression is transparent end to end", "statement": "For each algorithm whose decompressor inverts its compressor, a payload sent with compression enabled is what the application receives on the other side, in both directions of request/reply and in pub/sub, whether or not it was compressed.", "quantifier": "every compressor, every payload, every threshold", "why_tests_cant": "all payloads and thresholds", "anchors": ["msg-socket/src/req/driver.rs", "msg-socket/src/rep/driver.rs", "msg-socket/src/pub/mod.rs", "msg-socket/src/pub/socket.rs", "msg-socket/src/sub/driver.rs"]}
{"id": "C14", "title": "min_compress_size is honoured", "statement": "A payload is compressed iff a compressor is configured and the payload is longer than min_compress_size, on every send path (request, reply, publish, try_publish).", "quantifier": "every payload size, threshold and send path", "why_tests_cant": "threshold x size space", "anchors": ["msg-socket/src/req/driver.rs: on_command", "msg-socket/src/rep/driver.rs: PeerState::poll", "msg-socket/src/pub/socket.rs: publish, try_publish"]}
{"id": "C15", "title": "Literal topic subscriptions are exact", "statement": "After any history of subscribe/unsubscribe with wildcard-free topics, a wildcard-free topic is matched iff it was subscribed and not unsubscribed since.", "quantifier": "every history of operations, every topic", "why_tests_cant": "histories are unbounded", "anchors": ["msg-socket/src/pub/trie.rs: PrefixTrie"]}
{"id": "C16", "title": "No unsolicited topics", "statement": "After any history, a published topic is matched only if some currently active subscription pattern matches it in the NATS sense.", "quantifier": "every history of subscribe/unsubscribe with well-formed patterns, every topic", "why_tests_cant": "histories are unbounded", "anchors": ["msg-socket/src/pub/trie.rs: PrefixTrie::contains"]}
{"id": "C17", "title": "Wildcard subscriptions are complete", "statement": "After any history, a published topic is matched whenever some active pattern ('*' = one segment, trailing '>' = one or more segments) matches it.", "quantifier": "every history, every topic", "why_tests_cant": "needs interaction of several patterns", "anchors": ["msg-socket/src/pub/trie.rs: PrefixTrie::contains"]}
{"id": "C18", "title": "Unsubscribing one topic does not affect others", "statement": "Removing a pattern removes that pattern only; removing a pattern that is not present changes nothing observable; inserting twice and removing once leaves the pattern unsubscribed.", "quantifier": "every trie state reachable, every pair of patterns", "why_tests_cant": "pairs over unbounded histories", "anchors": ["msg-socket/src/pub/trie.rs: insert, remove"]}
{"id": "C19", "title": "Unsubscribing everything returns to the empty state", "statement": "After any history of subscriptions, once every subscribed pattern was unsubscribed no memory of them remains (the trie is the fresh trie), so long-lived sessions do not accumulate state.", "quantifier": "every history", "why_tests_cant": "unbounded histories", "anchors": ["msg-socket/src/pub/trie.rs: remove"]}
{"id": "C20", "title": "Subscription control messages arrive as sent", "statement": "A subscribe(t)/unsubscribe(t) sent by a subscriber is received by the publisher session as exactly subscribe(t)/unsubscribe(t) for every valid topic t, also topics containing dots or the words SUB/UNSUB, through the wire.", "quantifier": "every topic string within the size limit", "why_tests_cant": "all strings", "anchors": ["msg-wire/src/pubsub.rs: new_sub,new_unsub", "msg-socket/src/pub/session.rs: msg_to_control"]}
{"id": "C21", "title": "Reserved topics are refused without side effect", "statement": "subscribe/try_subscribe/unsubscribe/try_unsubscribe on a topic starting with MSG fail with the reserved-topic error and have no effect on the socket; any other topic is never refused as reserved; the topics of the control messages themselves are among the refused ones.", "quantifier": "every topic, every socket state", "why_tests_cant": "all strings and states", "anchors": ["msg-socket/src/sub/socket.rs"]}
{"id": "C22", "title": "A publisher session delivers in order, gap-free", "statement": "The messages written by a publisher session to a subscriber are exactly the subscribed messages taken from the session's feed, in publication order, with sequence numbers consecutive modulo 2^32 starting at 0, none duplicated or lost between feed and connection, under every readiness schedule.", "quantifier": "every schedule of connection readiness, feed arrivals and control messages", "why_tests_cant": "unbounded interleavings", "anchors": ["msg-socket/src/pub/session.rs: poll, on_outgoing"]}
{"id": "C23", "title": "Broadcast lag only loses the oldest", "statement": "Each connected session's feed yields, in publish order without duplicates, a subsequence of the messages published after it connected, losing messages only when it was more than the session buffer size behind, and then exactly the oldest ones.", "quantifier": "every publish/poll interleaving, every buffer size", "why_tests_cant": "unbounded interleavings", "anchors": ["tokio broadcast (dependency)", "msg-socket/src/pub/driver.rs", "msg-socket/src/pub/session.rs: poll"]}
{"id": "C24", "title": "Slow subscribers do not disturb publisher or others", "statement": "What one session receives, and the result of publish, do not depend on whether other sessions keep up.", "quantifier": "every schedule of several sessions", "why_tests_cant": "unbounded interleavings", "anchors": ["msg-socket/src/pub/socket.rs: publish", "msg-socket/src/pub/session.rs"]}
{"id": "C25", "title": "Publish before bind fails, after bind succeeds", "statement": "publish and try_publish on an unbound socket return the closed error and publish nothing; once bound every publish of a valid topic succeeds for any number of connected subscribers, including none.", "quantifier": "every socket state, every topic, payload, subscriber count", "why_tests_cant": "state space", "anchors": ["msg-socket/src/pub/socket.rs"]}
{"id": "C26", "title": "Non-control input never changes subscriptions", "statement": "Bytes from a subscriber that do not form a subscribe/unsubscribe control message leave its subscriptions unchanged, and a wire error ends that session only.", "quantifier": "every incoming message", "why_tests_cant": "all messages", "anchors": ["msg-socket/src/pub/session.rs: on_incoming, msg_to_control, poll"]}
{"id": "C27", "title": "max_clients is never exceeded by the publisher", "statement": "With max_clients = n, at every moment at most n connections are being served or authenticated by the publisher.", "quantifier": "every n and every history of accepts, auth outcomes, disconnects", "why_tests_cant": "unbounded histories", "anchors": ["msg-socket/src/pub/driver.rs"]}
{"id": "C28", "title": "max_clients is never exceeded by the reply socket", "statement": "With max_clients = n, at every moment at most n connections are being served or authenticated by the reply socket.", "quantifier": "every n and history", "why_tests_cant": "unbounded histories", "anchors": ["msg-socket/src/rep/driver.rs"]}
{"id": "C29", "title": "Client counters are accurate", "statement": "The active client counter equals the number of connections served or being authenticated, at every moment; so after all clients leave it is zero and new clients are admitted.", "quantifier": "every history", "why_tests_cant": "the leak needs a task failure or an address collision", "anchors": ["msg-socket/src/pub/driver.rs", "msg-socket/src/rep/driver.rs", "msg-socket/src/pub/session.rs: Drop"]}
{"id": "C30", "title": "Unauthenticated clients are never served", "statement": "With an authenticator configured, a connection reaches the serving state only after sending a token that the authenticator accepted; a rejected client gets Reject and nothing else.", "quantifier": "every client byte stream, every authenticator", "why_tests_cant": "adversarial clients", "anchors": ["msg-socket/src/pub/driver.rs", "msg-socket/src/rep/driver.rs"]}
{"id": "C31", "title": "A client with credentials only proceeds on Ack", "statement": "A request or subscriber socket with an auth token treats the connection as usable only after receiving Ack; with any other server behaviour the handshake fails.", "quantifier": "every server byte stream", "why_tests_cant": "adversarial servers", "anchors": ["msg-socket/src/req/mod.rs, req/driver.rs", "msg-socket/src/sub/driver.rs: connect"]}
{"id": "C32", "title": "Every connected client of a reply socket is served", "statement": "Any number of concurrent clients of a reply socket are all served (as long as max_clients allows), whatever the transport.", "quantifier": "every history of connects with every address assignment", "why_tests_cant": "address collisions depend on transport", "anchors": ["msg-socket/src/rep/driver.rs: peer_states", "msg-transport/src/ipc/mod.rs"]}
{"id": "C33", "title": "Each request completes at most once", "statement": "Every request() call completes at most once, and at all times every request that was issued is either still queued, pending, or completed - none is forgotten.", "quantifier": "every history of requests, responses (also bogus), timeouts, resets", "why_tests_cant": "unbounded interleavings", "anchors": ["msg-socket/src/req/driver.rs"]}
{"id": "C34", "title": "A request gets its own response", "statement": "If request() returns a payload, this payload is the response a reply-socket application produced for that very request (not another request of this or another client), for the first 2^32 requests of a socket and any interleaving of outstanding requests, reordering of responses and reconnects.", "quantifier": "every schedule of requests, responses, delays, timeouts, reconnects", "why_tests_cant": "unbounded interleavings", "anchors": ["msg-socket/src/req/driver.rs", "msg-socket/src/rep/driver.rs", "msg-wire/src/reqrep.rs"]}
{"id": "C35", "title": "Requests time out", "statement": "A request whose response does not arrive completes with the timeout error within timeout plus one check interval, and never completes with a timeout error before the timeout elapsed.", "quantifier": "every schedule and clock", "why_tests_cant": "timing schedules", "anchors": ["msg-socket/src/req/driver.rs: check_timeouts, poll"]}
{"id": "C36", "title": "Dropping or stopping the request socket resolves all requests", "statement": "When the request driver ends, every outstanding request completes (with an error), none hangs.", "quantifier": "every state of the driver", "why_tests_cant": "all states", "anchors": ["msg-socket/src/req/driver.rs", "msg-socket/src/req/socket.rs"]}
{"id": "C37", "title": "Backoff schedule is exponential and bounded", "statement": "Reconnection delays are initial*2, initial*4, ... doubling each time; the number of attempts is bounded by the configured maximum and then the backoff ends.", "quantifier": "every initial duration and maximum", "why_tests_cant": "all configurations", "anchors": ["msg-socket/src/connection/backoff.rs"]}
{"id": "C38", "title": "Connection options of the request socket are honoured", "statement": "The configured retry attempts and backoff duration determine the reconnect schedule of the request socket.", "quantifier": "every option value", "why_tests_cant": "all configurations", "anchors": ["msg-socket/src/req/mod.rs: ReqOptions", "msg-socket/src/req/driver.rs: reset_connection"]}
{"id": "C39", "title": "The request socket recovers from connection loss", "statement": "After the connection to the server is lost (error or clean close), the request socket reconnects and later requests are sent.", "quantifier": "every history", "why_tests_cant": "crash points", "anchors": ["msg-socket/src/req/driver.rs: poll"]}
{"id": "C40", "title": "Requests are sent in issue order, at most once", "statement": "On a connection the requests appear on the wire in the order issued, each at most once.", "quantifier": "every schedule of readiness and flushes", "why_tests_cant": "unbounded interleavings", "anchors": ["msg-socket/src/req/driver.rs: poll"]}
{"id": "C41", "title": "Statistics are faithful", "statement": "bytes_tx/bytes_rx equal the byte sizes of the frames sent/received and the average RTT stays between the smallest and largest observed RTT.", "quantifier": "every history", "why_tests_cant": "unbounded histories, rounding", "anchors": ["msg-socket/src/req/stats.rs", "msg-socket/src/rep/stats.rs", "msg-socket/src/req/driver.rs"]}
{"id": "C42", "title": "Responses go to the connection and id of their request", "statement": "A response produced by the application for a request is sent only on the connection the request came from and carries the request's id; each request is answered at most once.", "quantifier": "every schedule of several peers and requests, response order", "why_tests_cant": "unbounded interleavings", "anchors": ["msg-socket/src/rep/driver.rs: PeerState", "msg-socket/src/rep/mod.rs: Request"]}
{"id": "C43", "title": "Dropping a request does not disturb other requests", "statement": "If the application drops a request without responding, the responses to other requests are still sent promptly.", "quantifier": "every order of drops and responses", "why_tests_cant": "wake-up schedules", "anchors": ["msg-socket/src/rep/driver.rs: PeerState::poll"]}
{"id": "C44", "title": "Requests are not lost on the reply side", "statement": "Every request frame received by a reply socket is handed to the application, in order per peer.", "quantifier": "every rate of arrival and consumption", "why_tests_cant": "schedules that fill the queue", "anchors": ["msg-socket/src/rep/driver.rs: poll"]}
{"id": "C45", "title": "Undecodable requests are isolated", "statement": "A request whose payload cannot be decompressed is not handed to the application, is not answered, and affects no other request or peer.", "quantifier": "every request stream", "why_tests_cant": "all streams", "anchors": ["msg-socket/src/rep/driver.rs"]}
{"id": "C46", "title": "Subscriptions reach every publisher", "statement": "Every topic subscribed before or after connecting to a publisher is requested from every connected publisher; after unsubscribe the publisher is told.", "quantifier": "every set of topics and publishers, every order of subscribe/connect", "why_tests_cant": "unbounded topic sets", "anchors": ["msg-socket/src/sub/driver.rs: subscribe, on_connection"]}
{"id": "C47", "title": "disconnect() is effective", "statement": "After disconnect(endpoint) completed no further connection to that endpoint is established and no messages from it are delivered unless connect is called again.", "quantifier": "every history, every timing relative to pending connection attempts", "why_tests_cant": "race timings", "anchors": ["msg-socket/src/sub/driver.rs: on_command, poll"]}
{"id": "C48", "title": "connect and disconnect agree on the endpoint", "statement": "disconnect(e) undoes connect(e) for every endpoint e.", "quantifier": "every socket address", "why_tests_cant": "all addresses", "anchors": ["msg-socket/src/sub/socket.rs"]}
{"id": "C49", "title": "The subscriber recovers from connection loss", "statement": "After an established connection to a publisher is closed the subscriber tries to reconnect.", "quantifier": "every history", "why_tests_cant": "crash points", "anchors": ["msg-socket/src/sub/stream.rs", "msg-socket/src/sub/driver.rs"]}
{"id": "C50", "title": "Received messages are attributed and ordered", "statement": "Each message delivered to the subscriber carries the source address of the publisher connection that received it and messages of one connection are delivered in the order received, without duplicates; only the newest are dropped when the ingress buffer is full.", "quantifier": "every schedule of several publishers", "why_tests_cant": "unbounded interleavings", "anchors": ["msg-socket/src/sub/driver.rs: poll_publishers, on_message"]}
{"id": "C51", "title": "At most one connection attempt per endpoint", "statement": "At any time there is at most one connection attempt in progress per endpoint and it is tagged with that endpoint; an attempt that returns a result frees the slot.", "quantifier": "every history", "why_tests_cant": "unbounded histories", "anchors": ["msg-common/src/task.rs: JoinMap", "msg-socket/src/sub/driver.rs"]}
{"id": "C52", "title": "Commands reach the publisher in order under backpressure", "statement": "subscribe(t) followed by unsubscribe(t) reaches the publisher in that order, whatever the connection readiness.", "quantifier": "every command sequence, every readiness schedule", "why_tests_cant": "backpressure schedules", "anchors": ["msg-socket/src/sub/session.rs: poll"]}
{"id": "C53", "title": "A bad message does not stall the subscriber", "statement": "A message whose payload cannot be decompressed is skipped and the messages behind it are still delivered.", "quantifier": "every message stream, every wake-up schedule", "why_tests_cant": "wake-up schedules", "anchors": ["msg-socket/src/sub/driver.rs: poll_publishers"]}
{"id": "C54", "title": "Dropping the subscriber socket stops its background work", "statement": "After the SubSocket is dropped its driver terminates and closes the connections.", "quantifier": "every state", "why_tests_cant": "all states", "anchors": ["msg-socket/src/sub/socket.rs: Drop", "msg-socket/src/sub/driver.rs: poll"]}
{"id": "C55", "title": "connect is idempotent", "statement": "Connecting twice to the same endpoint has the same effect as connecting once; no message is delivered twice because of it.", "quantifier": "every history", "why_tests_cant": "unbounded histories", "anchors": ["msg-socket/src/sub/driver.rs: connect, is_known"]}
{"id": "C56", "title": "Acceptor yields the next connection", "statement": "Waiting for a connection yields exactly the first result the listener reports as ready; a pending listener keeps the waiter pending with its waker registered.", "quantifier": "every listener behaviour", "why_tests_cant": "unbounded poll sequences", "anchors": ["msg-transport/src/lib.rs: Acceptor"]}
{"id": "C57", "title": "Binding uses the first usable address", "statement": "try_bind binds the first address in the given order that can be bound and no other, and fails with the no-endpoint error iff none can be bound (for buffer sizes that do not make it panic: C107).", "quantifier": "every list of addresses and every bind outcome", "why_tests_cant": "all lists", "anchors": ["msg-socket/src/pub/socket.rs: try_bind", "msg-socket/src/rep/socket.rs: try_bind"]}
{"id": "C58", "title": "QUIC window sizing", "statement": "The derived QUIC windows equal bandwidth-delay product based values for every configured RTT and bandwidth.", "quantifier": "every rtt and bandwidth", "why_tests_cant": "32-bit overflow", "anchors": ["msg-transport/src/quic/config.rs"]}
{"id": "C59", "title": "Simulator ids are unique", "statement": "Each started simulation gets a distinct id; stopping one endpoint does not affect others.", "quantifier": "every history of start/stop", "why_tests_cant": "unbounded histories", "anchors": ["msg-sim/src/lib.rs"]}
{"id": "C60", "title": "The bidirectional channel is two independent FIFOs", "statement": "What is sent on one end is received on the other end in order and not on the same end; the two directions are independent, each bounded by the capacity; an end is told that the other has finished exactly when that one closed or dropped its sender (and used its permit) and everything was received; nothing is accepted from a closed sender.", "quantifier": "every interleaving of operations", "why_tests_cant": "unbounded interleavings", "anchors": ["msg-common/src/channel.rs"]}
{"id": "C61", "title": "End-to-end pub/sub", "statement": "Every message a subscriber receives over a connection was published (after the publisher accepted that connection) on a topic matching a pattern this subscriber subscribed to, with the published topic and payload, in publish order, and at most once per publication. (Well-formed patterns; payloads below 4 GiB.)", "quantifier": "every schedule of publisher, network fragmentation, subscriber", "why_tests_cant": "unbounded interleavings", "anchors": ["msg-socket/src/pub/*", "msg-socket/src/sub/*", "msg-wire/src/pubsub.rs"]}
{"id": "C62", "title": "Switching from handshake to data loses no bytes", "statement": "After authentication, the bytes a protocol-following peer sends next are all seen by the data codec, and no earlier byte is.", "quantifier": "every token, every chunking", "why_tests_cant": "read boundary positions", "anchors": ["msg-socket/src/pub/driver.rs", "msg-socket/src/rep/driver.rs", "msg-wire/src/auth.rs"]}
{"id": "C63", "title": "Binding a QUIC transport again moves the server", "statement": "After a second successful bind, connections are accepted on the address that local_addr reports.", "quantifier": "every history of bind and accept", "why_tests_cant": "depends on the order of bind and first accept", "anchors": ["msg-transport/src/quic/mod.rs: bind, poll_accept"]}
{"id": "C64", "title": "Binding an IPC transport is confined to its path and replaces only sockets", "statement": "Binding to a path touches nothing else in the file system; on success a socket is at the path and local_addr reports it; a file that is not a stale socket is not destroyed.", "quantifier": "every file system state, path and bind outcome", "why_tests_cant": "all file system states", "anchors": ["msg-transport/src/ipc/mod.rs: bind"]}
{"id": "C65", "title": "A started simulation shapes exactly its endpoint until it is stopped", "statement": "When start returns an id, traffic to the endpoint is shaped as configured; stop restores the system; a failed start leaves nothing behind.", "quantifier": "every simulator state, endpoint, configuration and set of failing commands", "why_tests_cant": "needs root and all command outcomes", "anchors": ["msg-sim/src/lib.rs", "msg-sim/src/dummynet.rs"]}
{"id": "C66", "title": "Keyed task sets run at most one task per key and free the key when it ends", "statement": "spawn starts a task exactly if no task for the key is running; contains_key and len report the running tasks; a finished task frees its key.", "quantifier": "every history of spawn and join, every way tasks end", "why_tests_cant": "unbounded histories and panics", "anchors": ["msg-common/src/task.rs: JoinMap"]}
{"id": "C67", "title": "End-to-end delivery", "statement": "If neither the publisher's session buffer, nor the connection, nor the subscriber's channel and ingress buffer dropped anything for lack of room, and both ends have drained their queues, then a subscriber whose (literal) subscriptions reached the publisher before the first message was published has received exactly the messages published on its topics, in publish order.", "quantifier": "every history of publisher and subscriber, every fragmentation of both byte streams, every compressor with a matching decompressor", "why_tests_cant": "unbounded interleavings of two sockets and a network", "anchors": ["msg-socket/src/pub/session.rs", "msg-socket/src/pub/socket.rs", "msg-socket/src/sub/session.rs", "msg-socket/src/sub/driver.rs", "msg-wire/src/pubsub.rs"]}
{"id": "C68", "title": "Received messages are exactly the frames in the byte stream", "statement": "For every byte stream, well-formed or not, the messages a connection yields are exactly the complete frames at the start of the stream in the documented wire format, field by field; a byte that is not the wire id at a frame boundary yields the wire-id error, and an unfinished frame yields nothing.", "quantifier": "every byte string, every cut of it into reads", "why_tests_cant": "the set of byte strings is infinite; both directions (nothing invented, nothing missed) must hold for all of them", "anchors": ["msg-wire/src/reqrep.rs: Codec", "msg-wire/src/pubsub.rs: Codec"]}
{"id": "C69", "title": "A connection cut inside a frame is reported as an error", "statement": "When the peer closes the connection, the receiver gets a clean end of stream if the stream ended at a frame boundary and an error if it ended inside a frame.", "quantifier": "every list of frames, every position of the cut, every cut into reads", "why_tests_cant": "every cut position of every frame matters; tests try a few", "anchors": ["msg-wire/src/reqrep.rs: Codec::decode", "msg-wire/src/pubsub.rs: Codec::decode"]}
{"id": "C70", "title": "A request reaches the wire promptly", "statement": "When a connected request socket goes idle, every request() call made so far has been handed to the connection unless the connection refuses data while the write buffer is full, and without a flush interval all its bytes are on the wire; with a flush interval they are on the wire at the latest one interval later, as long as the connection lasts and accepts data.", "quantifier": "every history of calls, reads, writes, reconnects and clock advances", "why_tests_cant": "the flag that remembers an outstanding flush must survive every interleaving of partial writes, interval ticks and reconnects", "anchors": ["msg-socket/src/req/driver.rs: ReqDriver::poll, should_flush", "msg-socket/src/req/mod.rs: ReqOptions::flush_interval"]}
{"id": "C71", "title": "Responses reach the wire promptly", "statement": "Whenever the reply socket has nothing more to do for a connection, all responses queued for that connection have been written to it completely and in order, unless the connection was just offered the remaining bytes and did not take them.", "quantifier": "every history of a reply socket, every connection, every pattern of partial and refused writes", "why_tests_cant": "needs an invariant tying the flush flag to the buffered bytes over all interleavings of responses, reads and partial writes", "anchors": ["msg-socket/src/rep/driver.rs: PeerState::poll_next"]}
{"id": "C72", "title": "Published messages reach the wire promptly", "statement": "Whenever a subscriber's session of a publisher without flush interval goes idle, every message taken from the feed for a subscribed topic is on the wire, whole and in order, unless the connection was just offered the remaining bytes and did not take them; with a flush interval, everything handed to the connection is on the wire at the latest one interval later, as long as the connection takes the bytes it is offered.", "quantifier": "every history of a session: feed, control messages, partial and refused writes, passing of time", "why_tests_cant": "needs an invariant over all interleavings of interval ticks, resets and partial writes", "anchors": ["msg-socket/src/pub/session.rs: SubscriberSession::poll, should_flush", "msg-socket/src/pub/mod.rs: PubOptions::flush_interval"]}
{"id": "C73", "title": "Dropping a request socket ends its background task", "statement": "After the last handle of a request socket is dropped, its background task ends: it writes out what was handed to the connection, closes it and stops; it does not keep reconnecting.", "quantifier": "every history before the drop, every behaviour of the connection afterwards", "why_tests_cant": "the drop can fall at any point of a connect, read, write or backoff; a leak shows only as a task that never ends", "anchors": ["msg-socket/src/req/driver.rs: ReqDriver::poll (from_socket closed, conn.poll_close)", "msg-socket/src/connection/state.rs: ConnectionState"]}
{"id": "C74", "title": "A poll of a background task returns", "statement": "Every poll of a background task of a socket (request driver, reply driver, publisher driver and session, subscriber driver and session) returns after finitely many loop iterations and does not panic, whatever peers send and however connections, timers and connection attempts behave; new input from outside (requests, publications, new connections) can prolong it only while it keeps arriving.", "quantifier": "every reachable state of every socket and every infinite sequence of environment answers", "why_tests_cant": "a livelock needs a particular unbounded sequence of answers; a test can only run into it by accident and cannot show that none exists", "anchors": ["msg-socket/src/req/driver.rs: ReqDriver::poll", "msg-socket/src/rep/driver.rs: RepDriver::poll, PeerState::poll_next", "msg-socket/src/pub/driver.rs: PubDriver::poll", "msg-socket/src/pub/session.rs: SubscriberSession::poll", "msg-socket/src/sub/driver.rs: SubDriver::poll", "msg-socket/src/sub/session.rs: PublisherSession::poll"]}
{"id": "C75", "title": "A subscriber cannot be crashed by publishers", "statement": "The background task of a subscriber socket never panics, whatever the publishers it connects to send, whatever connection attempts do and whatever the user calls, in every history, provided the configured initial backoff doubled 16 times is a representable duration.", "quantifier": "every history of calls, connection attempts, received bytes and clock readings", "why_tests_cant": "the panic sites (indexing, slicing, duration arithmetic, missing map entries) are reachable only through particular histories", "anchors": ["msg-socket/src/sub/driver.rs: SubDriver::poll", "msg-socket/src/sub/session.rs", "msg-socket/src/connection/backoff.rs: ExponentialBackoff"]}
{"id": "C76", "title": "A topic too long for the wire does not break a subscriber", "statement": "A subscription (or its removal) to a topic whose name does not fit in the wire format is refused, or at least does not disturb the subscriber's connections: no connection is lost because of the topics the user subscribes to.", "quantifier": "every history, every topic name", "why_tests_cant": "the failure needs a name of more than 65,527 bytes and hits a background task of every connection, each time it is made", "anchors": ["msg-socket/src/sub/socket.rs: try_subscribe, subscribe", "msg-socket/src/sub/session.rs: on_command", "msg-wire/src/pubsub.rs: Message::new_sub, new_unsub"]}
{"id": "C77", "title": "A subscriber retries failed connection attempts with exponential backoff", "statement": "When a subscriber is told to connect to an endpoint, an attempt is started at once; while it fails, further attempts are started: at most 15, the i-th (from 0) no earlier than initial_backoff * (2^(i+1) - 1) after the call was handled, and none is forgotten: whenever the task goes idle, a timer is armed for every endpoint that is known and not connected, and when it runs out with no attempt under way, the next attempt is started.", "quantifier": "every history, every outcome and duration of the attempts, every polling time", "why_tests_cant": "the schedule depends on when the task is polled, on how long attempts take and on what else happens meanwhile", "anchors": ["msg-socket/src/sub/driver.rs: connect, on_command, poll (publishers loop)", "msg-socket/src/connection/backoff.rs: ExponentialBackoff", "msg-socket/src/sub/mod.rs: SubOptions::initial_backoff"]}
{"id": "C78", "title": "Life of a request socket: unconnected, connected once", "statement": "Until connect is called, every request fails at once with SocketClosed and connect is still possible: it succeeds unless the timeout is below 10 ns or the flush interval is zero (then it panics). After the first attempt, successful or not, every further connect panics and changes nothing. The background task of the socket never panics (for a flush interval whose sum with the current instant still is one: see C107).", "quantifier": "every history of connecting, requesting, polling, giving up, network events and time", "why_tests_cant": "histories and option values are unbounded", "anchors": ["msg-socket/src/req/socket.rs: try_connect, connect, request", "msg-socket/src/req/driver.rs"]}
{"id": "C79", "title": "Giving up a request is isolated", "statement": "Dropping the future of a request() call (a timeout or select! in the application) has no effect on any other call: the bytes sent and the results of all other calls are those that would have been had the future simply not been polled any more. A call given up before its command entered the channel is never sent; every call is sent at most once. A call that returns a payload returns what the server application answered to that call's own payload, whatever other calls were given up. When the background task ends, every remaining call returns.", "quantifier": "every history of connecting, requesting, polling, giving up (at any point), network events and time", "why_tests_cant": "cancellation can hit at every await point of every interleaving", "anchors": ["msg-socket/src/req/socket.rs: request", "msg-socket/src/req/driver.rs: on_send, on_message, check_timeouts", "msg-socket/src/req/mod.rs: SendCommand"]}
{"id": "C80", "title": "Requests wait for room when the driver is behind", "statement": "At most 1024 requests wait between the callers and the background task; a further caller waits, without error and without effect, and enters when there is room; once the background task of a connected socket is idle there is room.", "quantifier": "every history, any number of callers", "why_tests_cant": "needs more than a thousand concurrent callers and a slow task", "anchors": ["msg-socket/src/req/socket.rs: request, try_connect", "msg-socket/src/lib.rs: DEFAULT_BUFFER_SIZE", "msg-socket/src/req/driver.rs: poll"]}
{"id": "C81", "title": "respond() tells whether the answer can be sent", "statement": "Request::respond returns Ok exactly when the connection the request was read from is still being served; if it returns an error no connection is affected; if it returns Ok the response is queued for writing on that very connection, with the bytes given.", "quantifier": "every history of clients connecting, closing, failing or reusing an address, every request the application holds", "why_tests_cant": "the connection can go away at any point between receiving and answering", "anchors": ["msg-socket/src/rep/mod.rs: Request::respond", "msg-socket/src/rep/driver.rs: RepDriver::poll, PeerState::poll_next, PendingRequest"]}
{"id": "C82", "title": "A server socket can be bound until it is bound", "statement": "A reply or publisher socket that is not bound can be bound (with buffer sizes and client limits that do not panic: C107), whatever was tried before; binding picks the first address that can be bound and reports it as the local address for ever after; polling a bound socket for requests never panics.", "quantifier": "every history of calls, every list of addresses, every outcome of binding each of them", "why_tests_cant": "depends on which addresses the operating system refuses at each attempt", "anchors": ["msg-socket/src/rep/socket.rs: try_bind, bind, poll_next", "msg-socket/src/pub/socket.rs: try_bind"]}
{"id": "C83", "title": "Dropping a reply socket stops serving", "statement": "After a reply socket is dropped it accepts no more clients and its connections are closed; requests the application already received can still be answered; requests it never received are never answered.", "quantifier": "every history before and after the drop", "why_tests_cant": "the drop can fall at any point of any number of conversations", "anchors": ["msg-socket/src/rep/socket.rs: RepSocket", "msg-socket/src/rep/driver.rs: RepDriver::poll"]}
{"id": "C84", "title": "Dropping a publisher delivers what was published", "statement": "When every clone of a publisher socket has been dropped, each subscriber session works through everything published before that it has not missed, writes what its subscriber asked for, and then closes the connection and ends; no published message is lost because of the drop.", "quantifier": "every history of publishing, connecting, reading and writing, every point at which the socket is dropped, every behaviour of the connections afterwards", "why_tests_cant": "the drop can find each session at any point of its work, with any amount buffered", "anchors": ["msg-socket/src/pub/session.rs: SubscriberSession::poll", "msg-socket/src/pub/socket.rs: PubSocket"]}
{"id": "C85", "title": "A simulation uses the settings asked for", "statement": "Starting a simulation configures, on the pipe and anchor carrying its id and for its endpoint, exactly the latency, bandwidth, loss rate and protocols asked for; stopping removes exactly these.", "quantifier": "every configuration, endpoint and id, every order of setting the options", "why_tests_cant": "every combination of options and number has its own command line", "anchors": ["msg-sim/src/dummynet.rs: Pipe, PacketFilter", "msg-sim/src/lib.rs: Simulation::start", "msg-sim/src/protocol.rs: Protocol"]}
{"id": "C86", "title": "Nobody ready is left waiting", "statement": "Each time a listening socket runs, it deals with every client whose handshake has finished, every connection that is established and every connection request before it goes back to waiting: a client whose authentication succeeded is served from then on, whatever other clients did.", "quantifier": "every history, every number and order of finished handshakes, established connections and connection requests ready at the same time, everything the connected clients do in between", "why_tests_cant": "which tasks have finished when the driver runs depends on the scheduler", "anchors": ["msg-socket/src/pub/driver.rs: PubDriver::poll", "msg-socket/src/rep/driver.rs: RepDriver::poll"]}
{"id": "C87", "title": "Subscriber statistics belong to the publisher asked for", "statement": "SubSocket::stats().bytes_rx(addr) is the number of payload bytes received over the connection to addr that was established last; it is there from the first connection until the user disconnects from addr, and not afterwards.", "quantifier": "every history of connects, disconnects, lost and re-established connections, messages and addresses", "why_tests_cant": "which connection the counters belong to depends on how reconnects, disconnects and connection tasks interleave", "anchors": ["msg-socket/src/sub/stats.rs: SocketStats::{insert,remove,bytes_rx}", "msg-socket/src/sub/driver.rs: on_connection, on_command", "msg-socket/src/sub/session.rs: on_incoming"]}
{"id": "C88", "title": "Reported averages are the averages", "statement": "ReqSocket::stats().rtt() and SubSocket::stats().avg_latency(addr) are the mean of the round-trip times (latencies) of all answered requests (received messages), in whole microseconds.", "quantifier": "every history, every sequence of round-trip times and latencies", "why_tests_cant": "rounding errors accumulate over the sequence of samples", "anchors": ["msg-socket/src/req/stats.rs: SocketStats::update_rtt", "msg-socket/src/sub/stats.rs: SessionStats::update_latency", "msg-socket/src/req/driver.rs: on_message", "msg-socket/src/sub/session.rs: on_incoming"]}
{"id": "C89", "title": "Publishing never costs a subscriber its connection", "statement": "A subscriber session of a publisher whose peer keeps the connection open and sends proper frames stays up for as long as the publisher socket exists, whatever is published, by whomever and in whatever order, and however slow its connection is.", "quantifier": "every history of publishes, connects and session polls; every topic, payload and fragmentation of the incoming bytes; every sequence of write results, including errors", "why_tests_cant": "whether a session ends depends on what it finds in the channel when it comes to it", "anchors": ["msg-socket/src/pub/session.rs: SubscriberSession::poll, on_outgoing", "msg-socket/src/pub/mod.rs: PubMessage::into_wire", "msg-wire/src/pubsub.rs: Message::new", "msg-socket/src/pub/socket.rs: publish, try_publish"]}
{"id": "C90", "title": "A task goes to sleep only when nothing is left to do", "statement": "Whenever one of the background tasks of a socket (a driver, a subscriber session of a publisher, a connection of a subscriber or of a reply socket) returns Pending, everything that was ready has been handled: commands and requests have been taken, the connection has been read until it had nothing to give, what was queued has been written unless the connection refused it, responses the application gave have been collected, and the timers are set for later. So no event is left for which no wake-up will come.", "quantifier": "every state the task can be in, every answer of its connections, timers and channels", "why_tests_cant": "a lost wake-up shows only under a particular interleaving, as a hang", "anchors": ["msg-socket/src/sub/session.rs: PublisherSession::poll", "msg-socket/src/sub/driver.rs: SubDriver::poll, poll_publishers", "msg-socket/src/pub/session.rs: SubscriberSession::poll", "msg-socket/src/rep/driver.rs: PeerState::poll_next", "msg-socket/src/req/driver.rs: ReqDriver::poll"]}
{"id": "C91", "title": "The publisher as a whole serves admitted clients what is published after their admission", "statement": "Whatever a publisher socket goes through (calls to bind, publish, try_publish, its being dropped; connections arriving, authenticating, leaving; its tasks scheduled in any order), each connection its listener reports is served by at most one session; with an authenticator, only connections whose client sent an accepted token are served; what a session takes are messages of successful publish calls made after it was started and before the socket was dropped, in order and each at most once, and all of them as long as it is not told it missed some; a subscriber on that connection gets only these. With max_clients = n, at most n connections occupy the publisher at any time, and active_clients counts exactly these (as long as no client makes its authentication task panic, C29).", "quantifier": "every history of calls, arrivals, handshakes and schedules; every connection behaviour", "why_tests_cant": "unbounded interleavings of the application, the driver and the sessions", "anchors": ["msg-socket/src/pub/socket.rs: try_bind, publish, try_publish", "msg-socket/src/pub/driver.rs: PubDriver::poll, on_incoming", "msg-socket/src/pub/session.rs: SubscriberSession::poll, Drop"]}
{"id": "C92", "title": "Every request that got through is answered, unless it timed out", "statement": "A request socket and a reply socket run together, in any interleaving, over a network that delivers bytes in order. Once the requests sent on a connection have been read by the reply socket, the application has received and answered all of them without dropping any, the reply socket has nothing left to write, and the request socket has read everything that was written to it, every request sent on that connection has completed: with the response the application gave to the request with that payload, or with a timeout after more than the configured timeout.", "quantifier": "every joint history of the two sockets, every schedule, every splitting of the byte streams, any number of requests and responses in any order", "why_tests_cant": "needs every interleaving of two state machines and the network", "anchors": ["msg-socket/src/req/driver.rs: ReqDriver::poll, on_message, check_timeouts", "msg-socket/src/rep/driver.rs: RepDriver::poll, PeerState::poll_next", "msg-wire/src/reqrep.rs: Codec::decode, Codec::encode"]}
{"id": "C93", "title": "A request socket retries with exponential backoff, then gives up and fails its calls", "statement": "After connect(), and after its connection failed, a request socket starts connection attempts: at most 15 until a connection is made, the i-th (from 0) no earlier than 20 ms * (2^(i+1) - 1) after the connect or the loss, and never two at a time. None is forgotten: whenever the background task goes idle without a connection a timer is set, at most 20 ms * 2^15 away, and when it runs out the next attempt is started unless one is still under way (which then goes on). When the 16th timer runs out the task ends instead, even with an attempt under way: every call not yet returned fails (Timeout if late, SocketClosed otherwise), and so does every later call, at once.", "quantifier": "every history of a request socket, every schedule and behaviour of the network, any time", "why_tests_cant": "needs all sequences of failed attempts, calls and clock steps over more than 20 minutes of simulated time", "anchors": ["msg-socket/src/req/driver.rs: ReqDriver::poll, try_connect, reset_connection", "msg-socket/src/req/socket.rs: ReqSocket::try_connect", "msg-socket/src/connection/backoff.rs: ExponentialBackoff", "msg-socket/src/connection/state.rs: ConnectionState"]}
{"id": "C94", "title": "A subscriber loses a message only for lack of room", "statement": "Every message that is read from a connection in use and whose payload can be decompressed is delivered to the user, in the order read, unless it arrived while 1024 messages of that connection were waiting for the background task, or while ingress_buffer_size messages were waiting for the user; then this newest message is the one lost, the ones waiting are kept and the connection goes on.", "quantifier": "every history of a subscriber socket that is not dropped, every connection in use, every schedule of the session tasks, the driver and the user", "why_tests_cant": "needs all interleavings of reading, forwarding and receiving, with queues of any length", "anchors": ["msg-socket/src/sub/session.rs: PublisherSession::on_incoming", "msg-socket/src/sub/driver.rs: SubDriver::poll_publishers, on_connection", "msg-common/src/channel.rs: Channel::try_send", "msg-socket/src/sub/mod.rs: SubOptions::ingress_buffer_size"]}
{"id": "C95", "title": "Binding a TCP or IPC transport again moves the server; a failed bind changes nothing", "statement": "After any sequence of binds, local_addr reports the last one that succeeded; accept fails at once while there was none, and from then on hands out exactly the connections that arrived at the listener of the last successful bind, each once, in order, waiting only when there is none. For IPC the peer address of a connection is the path of the listener it arrived at.", "quantifier": "every history of binds (successful or not), arrivals and accepts", "why_tests_cant": "the history is unbounded: any number of binds and connections, in any order", "anchors": ["msg-transport/src/tcp/mod.rs: Tcp::bind, Tcp::poll_accept, Tcp::local_addr", "msg-transport/src/ipc/mod.rs: Ipc::bind, Ipc::poll_accept, Ipc::local_addr"]}
{"id": "C96", "title": "A QUIC transport dials from the endpoint it has", "statement": "Every outgoing connection is dialled from the address local_addr reports: the one bound last, or else one endpoint that the first dial opens and all later dials share; a dial fails for want of an endpoint only if there was none.", "quantifier": "every history of binds, dials, arrivals and accepts", "why_tests_cant": "the history is unbounded", "anchors": ["msg-transport/src/quic/mod.rs: Quic::connect, Quic::new_endpoint, Quic::bind, Quic::local_addr"]}
{"id": "C97", "title": "Socket options: the last setting wins, everything else keeps its documented default", "statement": "For every chain of builder calls on the options of a request, reply, publisher or subscriber socket, each option the socket is created with is the argument of the last call of that option's own method, or the documented default if there was none; no call alters another option. Two request sockets whose options differ at most in blocking_connect, backoff_duration and retry_attempts, and two reply sockets whose options differ at most in min_compress_size, behave alike in every history.", "quantifier": "every chain of builder calls, every history of the sockets", "why_tests_cant": "chains and histories are unbounded; that an option has no effect is a statement about all pairs of executions", "anchors": ["msg-socket/src/req/mod.rs: ReqOptions", "msg-socket/src/pub/mod.rs: PubOptions", "msg-socket/src/sub/mod.rs: SubOptions", "msg-socket/src/rep/mod.rs: RepOptions", "msg-socket/src/req/driver.rs: ReqDriver"]}
{"id": "C98", "title": "Both ends of an authenticated connection agree", "statement": "For a client with a token and a server with an authenticator at the two ends of one connection, whatever the connection does (cuts, delays, errors, bytes never delivered): the server admits nobody but this client under exactly its token, and only if the authenticator accepts it; the client goes on to use the connection only if the authenticator accepted its token. If the connection takes and delivers what both ends write, the token not being cut at one of the places of C08, both ends reach the authenticator's verdict: both go on, each reading exactly what follows, or both give up. If only one end takes part in authentication, neither goes on as if it had succeeded.", "quantifier": "every token, authenticator, behaviour of the two directions of the connection", "why_tests_cant": "The two ends run concurrently and each sees an arbitrary cut and delay of what the other wrote; agreement is a statement about all pairs of such runs.", "anchors": ["msg-socket/src/rep/driver.rs:on_incoming", "msg-socket/src/pub/driver.rs:on_incoming", "msg-socket/src/req/driver.rs:try_connect", "msg-socket/src/sub/driver.rs:connect", "msg-wire/src/auth.rs:Codec"]}
{"id": "C99", "title": "When everything is quiet, no call is left unanswered", "statement": "A request socket and a reply socket run together in any interleaving over a network that delivers bytes in order. Whenever a moment comes at which both tasks have nothing left to do (their last polls returned Pending and their connection took every byte), no byte is under way, and the server application has received everything, holds no request and never dropped one, every call made on the request socket and not given up has returned: with the payload the application passed to `respond` for a request with this call's payload, or with a timeout after more than the configured time, or (if made before connecting) with an error; the only exception are calls whose request had been handed to an earlier connection that was lost. At any other moment each call is at a known place: it waits for the client's driver or connection, is under way to the server, waits for the application or is held by it, was dropped or turned away, or its response is under way.", "quantifier": "every joint history of the two sockets, every schedule and splitting of the byte streams, any number of calls, cancellations, reconnects", "why_tests_cant": "A lost wakeup, a request left in some queue or a response left in a buffer shows up only under particular interleavings; the claim is about all quiet moments of all histories.", "anchors": ["msg-socket/src/req/driver.rs:ReqDriver", "msg-socket/src/req/socket.rs:request", "msg-socket/src/rep/driver.rs:RepDriver", "msg-socket/src/rep/driver.rs:PeerState"]}
{"id": "C100", "title": "When everything is quiet, everything wanted has been delivered", "statement": "A publisher and a subscriber socket, each with any history of its own, joined by a connection. Whenever a moment comes at which the publisher's session and the subscriber's connection task have nothing left to do (their last polls returned Pending, the connection took every byte), no byte is under way, and there was always room, the user has received exactly the messages that were published while their topic was subscribed to, in order, with their payloads: there is one sequence of the subscription changes (as requested by the user, ending in what the user asked for) and of the publish calls since the client was admitted (all of them, in order) that accounts for every message received.", "quantifier": "every history of the publisher and of the subscriber, every schedule and splitting of the byte streams, any number of subscription changes and publish calls interleaved with them, literal topics (and wildcard patterns as far as C17 goes)", "why_tests_cant": "A message left in a queue, a lost wakeup or a subscription change applied at the wrong moment shows up only under particular interleavings; the claim is about all quiet moments of all histories.", "anchors": ["msg-socket/src/pub/session.rs:SubscriberSession", "msg-socket/src/pub/socket.rs:publish", "msg-socket/src/sub/session.rs:PublisherSession", "msg-socket/src/sub/stream.rs:PublisherStream", "msg-socket/src/sub/driver.rs:SubDriver"]}
{"id": "C101", "title": "QUIC configuration: the last setting wins, both sides agree, connections stay alive", "statement": "For every chain of calls on the QUIC ConfigBuilder, each setting of the built configuration is the argument of the last call of its own method or the default; client and server side have the same transport settings, without datagrams and unidirectional streams and with the same window in both directions (eight times the bandwidth-delay product if that fits in 32 bits); with the keep-alive interval and idle timeout left alone keep-alives precede the idle timeout; build panics exactly for an idle timeout of 2^62 ms or more or an overflow of the windows (with overflow checks). The default configuration is the builder's for 1000 MiB/s, a 10 s keep-alive interval and a 1 MiB initial congestion window.", "quantifier": "every chain of builder calls with every argument", "why_tests_cant": "chains and arguments are unbounded; a swapped or dropped assignment shows up only in combinations of calls", "anchors": ["msg-transport/src/quic/config.rs:ConfigBuilder", "msg-transport/src/quic/config.rs:Config"]}
{"id": "C102", "title": "A slow subscriber costs the publisher a bounded amount of memory", "statement": "Whatever is published and however slowly or rarely a client reads, a session of a PubSocket never holds more for its client than backpressure_boundary - 1 bytes and one frame, as long as no write to the client's connection fails; with max_clients = n all sessions together hold at most n times that; and the publisher's channel holds fewer than twice session_buffer_size messages, each of them given to publish or try_publish. (If every write fails without the session being ended, the session's buffer grows with every message: shown as a refutation.)", "quantifier": "every history of a publisher: publications, accepted clients, polls of sessions with every answer of their connections", "why_tests_cant": "the bound is about unboundedly long histories with clients that read at arbitrary speed", "anchors": ["msg-socket/src/pub/session.rs:SubscriberSession", "msg-socket/src/pub/driver.rs:PubDriver", "msg-socket/src/pub/socket.rs:PubSocket"]}
{"id": "C103", "title": "What a peer can make a socket hold in its receive buffer is bounded", "statement": "Whatever bytes a peer sends, however they are cut into reads of up to C bytes, and however often the connection is polled, the receive buffer of a connection of a publisher, a reply socket or a request socket holds at most 2^32 - 2 + C bytes: one unfinished frame and one read. For a subscriber this holds as long as the publisher's bytes are those of messages; malformed bytes make its buffer grow without bound. There is no smaller limit: for every k up to 2^32 - 2 a peer can make a socket hold k bytes, before it has authenticated itself too.", "quantifier": "every sequence of reads, every history of the four sockets", "why_tests_cant": "a bound over all byte streams and all schedules; tests send a few frames", "anchors": ["msg-wire/src/pubsub.rs:Codec", "msg-wire/src/reqrep.rs:Codec", "msg-wire/src/auth.rs:Codec", "msg-socket/src/sub/stream.rs:PublisherStream", "msg-socket/src/sub/session.rs:PublisherSession"]}
{"id": "C104", "title": "The queues inside the sockets are bounded", "statement": "Whatever their history: a subscriber holds at most ingress_queue_size messages not yet received and 1024 unhandled commands, and per publisher at most 1024 messages between session and background task, 64 commands and a write buffer of read_buffer_size - 1 bytes and one subscription frame; a reply socket holds at most 1024 requests not yet received; a request socket at most 1024 calls its background task has not received. The queues of messages to be written are not bounded while a connection is blocked: a client that never reads makes a reply socket hold any number of answers, and a request socket any number of requests.", "quantifier": "every history of a subscriber, reply and request socket", "why_tests_cant": "bounds over unboundedly long histories", "anchors": ["msg-socket/src/sub/driver.rs:SubDriver", "msg-socket/src/sub/session.rs:PublisherSession", "msg-socket/src/rep/driver.rs:PeerState", "msg-socket/src/req/driver.rs:ReqDriver"]}
{"id": "C105", "title": "What a call of a subscriber returns is what happens", "statement": "subscribe, unsubscribe, connect and disconnect and their try_ forms: a reserved topic is refused; otherwise the call returns Ok(()) while fewer than 1024 calls wait for the background task, and with 1024 waiting the try_ form returns ChannelFull while the other waits. Whatever the history, the commands the background task has handled, followed by those it has yet to handle, are exactly those of the calls that returned Ok(()), each once, in the order of the calls; a call that returned an error, or was given up while it waited, has no effect.", "quantifier": "every history of a subscriber socket", "why_tests_cant": "exactly-once over unboundedly long histories and a queue limit no unit test reaches", "anchors": ["msg-socket/src/sub/socket.rs:SubSocket", "msg-socket/src/sub/driver.rs:SubDriver"]}
{"id": "C106", "title": "A busy connection does not keep other work from being done", "statement": "While messages keep arriving on a connection (or, for a publisher, keep being published), the socket still does its other work: a request socket takes new calls and times out old ones, a subscriber handles its user's calls and tells the publisher about new subscriptions, a publisher handles the subscriptions of its clients, a reply socket accepts and authenticates new clients.", "quantifier": "every number of messages, every history of the sockets", "why_tests_cant": "starvation only shows under a flood that never pauses; a test that ends cannot show its absence", "anchors": ["msg-socket/src/req/driver.rs:ReqDriver::poll", "msg-socket/src/sub/driver.rs:SubDriver::poll", "msg-socket/src/sub/session.rs:PublisherSession::poll", "msg-socket/src/pub/session.rs:SubscriberSession::poll", "msg-socket/src/rep/driver.rs:RepDriver::poll"]}
{"id": "C107", "title": "No value of an option makes a socket panic", "statement": "Whatever the options are set to (buffer sizes, maximum number of clients, timeouts, flush intervals), creating, binding and connecting a socket does not panic, and neither do its background tasks.", "quantifier": "every value of the options, every history", "why_tests_cant": "the values are unbounded, and some panics come only with the first client or the first poll of a task nobody waits for", "anchors": ["msg-socket/src/sub/socket.rs:SubSocket::with_options", "msg-socket/src/pub/socket.rs:PubSocket::try_bind", "msg-socket/src/rep/socket.rs:RepSocket::try_bind", "msg-socket/src/req/socket.rs:ReqSocket::try_connect", "msg-socket/src/pub/driver.rs:PubDriver", "msg-socket/src/pub/session.rs:SubscriberSession::should_flush", "msg-socket/src/req/driver.rs:ReqDriver::should_flush"]}
{"id": "C108", "title": "A request that has failed is not carried out afterwards", "statement": "Once request() has returned an error saying that the socket is closed or that the request timed out, the server does not get this request any more, so that the caller can safely repeat it.", "quantifier": "every history of a request socket, every point at which the call returned, everything that happens afterwards", "why_tests_cant": "what happens to the request after the call has returned depends on the state of the connection at any later time: blocked, broken, re-established", "anchors": ["msg-socket/src/req/socket.rs:ReqSocket::request", "msg-socket/src/req/driver.rs:ReqDriver::check_timeouts", "msg-socket/src/req/driver.rs:ReqDriver::on_command", "msg-socket/src/req/driver.rs:ReqDriver::poll"]}
{"id": "C109", "title": "Unsubscribing is effective", "statement": "After the user of a subscriber has unsubscribed from a topic, it receives no more messages on it (as long as it does not subscribe to a matching pattern again).", "quantifier": "every history of the publisher and the subscriber, every later history of both, every topic and set of patterns", "why_tests_cant": "it concerns everything that may be published or received at any later time, whatever else is subscribed to or left meanwhile", "anchors": ["msg-socket/src/sub/socket.rs:SubSocket::unsubscribe", "msg-socket/src/sub/driver.rs:SubDriver::unsubscribe", "msg-socket/src/pub/session.rs:SubscriberSession::poll", "msg-socket/src/pub/trie.rs:PrefixTrie::remove"]}
{"id": "C110", "title": "Reconnecting neither repeats nor reorders messages", "statement": "What the user of a subscriber receives from one publisher, over all the connections to it that succeed one another, is in the order in which it was published, and no published message is received twice: everything received over an earlier connection comes before everything received over a later one, and was published before it.", "quantifier": "every history of the publisher and the subscriber, every number of connections, every way in which they are lost, every interleaving", "why_tests_cant": "it relates everything received over all connections of an unbounded history with everything ever published", "anchors": ["msg-socket/src/sub/driver.rs:SubDriver::on_connection", "msg-socket/src/sub/driver.rs:SubDriver::reset_publisher", "msg-socket/src/sub/driver.rs:SubDriver::poll_publishers", "msg-socket/src/pub/driver.rs:PubDriver::poll", "msg-common/src/task.rs:JoinMap::spawn"]}
{"id": "C111", "title": "Clients that do not authenticate cannot keep others out", "statement": "With an authenticator, a client that authenticates is served as long as fewer than max_clients authenticated clients are being served: clients that merely connect, and never authenticate, do not use up the places.", "quantifier": "every authenticator, every limit, every set of clients that connect without authenticating, every later history", "why_tests_cant": "it says something about everything that can happen after clients connected, for every number of them; a test shows one attacker for a limited time", "anchors": ["msg-socket/src/pub/driver.rs:PubDriver::poll", "msg-socket/src/pub/driver.rs:PubDriver::on_incoming", "msg-socket/src/rep/driver.rs:RepDriver::poll", "msg-socket/src/rep/driver.rs:RepDriver::on_incoming"]}
{"id": "C112", "title": "A request is carried out at most once, over all connections", "statement": "However often the connection between a request socket and a reply socket breaks and is made again, every request the server's application receives from the request socket belongs to a call of request() with that payload, and no call's request is received twice; and if a call has returned a response, the application has received its request exactly once.", "quantifier": "every history of the request socket and of the reply socket, every number of connections between them and of other clients, every way in which connections are lost, every splitting of the byte streams", "why_tests_cant": "it relates everything received over all connections of an unbounded history with every call ever made", "anchors": ["msg-socket/src/req/driver.rs:ReqDriver::poll", "msg-socket/src/req/driver.rs:ReqDriver::on_command", "msg-socket/src/req/driver.rs:ReqDriver::reset_connection", "msg-socket/src/rep/driver.rs:RepDriver::poll", "msg-socket/src/rep/driver.rs:PeerState::poll_next"]}
{"id": "C113", "title": "Giving up a call of bind or connect leaves the socket usable", "statement": "If the caller of bind() or connect() stops waiting and drops the future (for instance because of a timeout around it) at any point before the call has returned, the socket is as if the call had not been made: it can be bound or connected later. A call that does return has done what bind or connect does, however often it was suspended on the way.", "quantifier": "every await point at which the call may be given up, every sequence of polls before, every answer of the lookup and of the transport; for the counterexamples every later history of the socket", "why_tests_cant": "every possible cancellation point of every schedule of the call is a case of its own, and the consequence concerns all later uses of the socket", "anchors": ["msg-socket/src/pub/socket.rs:PubSocket::bind", "msg-socket/src/pub/socket.rs:PubSocket::try_bind", "msg-socket/src/rep/socket.rs:RepSocket::bind", "msg-socket/src/rep/socket.rs:RepSocket::try_bind", "msg-socket/src/req/socket.rs:ReqSocket::connect", "msg-socket/src/req/socket.rs:ReqSocket::try_connect"]}
{"id": "C114", "title": "All subscribers of a publisher see one order", "statement": "What the users of different subscribers get from one publisher agrees in order: there is one order of messages, that of the calls of publish and try_publish, and every user gets messages at increasing positions of it, however often the subscribers lose their connections and make new ones. If no two messages published are alike, two users who both get two messages get them in the same order.", "quantifier": "every history of one publisher and any number of subscribers, every interleaving, every number of connections of each subscriber", "why_tests_cant": "the order must agree for every schedule of the sessions, of the network and of the subscribers, and for every pattern of losses and reconnects", "anchors": ["msg-socket/src/pub/socket.rs:PubSocket::publish", "msg-socket/src/pub/session.rs:SubscriberSession", "msg-socket/src/sub/driver.rs:SubDriver", "msg-socket/src/sub/session.rs:PublisherSession"]}
{"id": "C115", "title": "Clients of a reply socket do not affect each other", "statement": "What a reply socket reads from a client, hands to the application and writes to the client depends only on what this client sends, on how its connection takes the writes and on what the application does with this client's requests: not on the other clients, what they send, how many there are or how the application mixes its answers to them. The one exception is room in the socket's queue: a request may be refused because the requests of other clients fill it.", "quantifier": "every pair of histories of two reply sockets that agree in what concerns one client, with any other clients, limits and authenticators; every history and every client of it that was never refused", "why_tests_cant": "noninterference relates two whole histories: what another client does at any moment, in any schedule, must make no difference", "anchors": ["msg-socket/src/rep/driver.rs:RepDriver::poll", "msg-socket/src/rep/driver.rs:PeerState::poll_next", "msg-socket/src/rep/mod.rs:Request::respond"]}
{"id": "C116", "title": "Subscribers of a publisher do not affect each other", "statement": "What the session of a subscriber does (which messages it takes and which it misses, which subscriptions are in force, which bytes it writes) depends only on what this subscriber sends, on how its connection takes the writes, on when the session runs and on what the application publishes from its start on: not on the other subscribers, what they subscribe to, how many there are or how slow they are, and not on what was published before.", "quantifier": "every pair of histories of two publishers that agree in what concerns one subscriber of each, with any other subscribers, limits and authenticators; every history and every session of it", "why_tests_cant": "noninterference relates two whole histories: what another subscriber does at any moment, in any schedule, must make no difference; a shared ring of messages, in which the sessions have their own positions, is where it could go wrong", "anchors": ["msg-socket/src/pub/session.rs:SubscriberSession", "msg-socket/src/pub/driver.rs:PubDriver::poll", "msg-socket/src/pub/socket.rs:PubSocket::publish"]}
{"id": "C117", "title": "Publishers of a subscriber do not affect each other", "statement": "What a subscriber socket does with one publisher (its connection, what it sends there, which messages it reads and takes, in which order) depends only on the application's calls that concern this publisher or its topics, on the outcomes of the connection attempts to it, on what its connections do, and on when its session and the driver run: not on the other publishers the socket is connected to, how many there are, what they send or how they fail. The one exception is room in the queue to the application: a message may be refused because the messages of other publishers fill it.", "quantifier": "every history of a subscriber socket and every publisher address; every pair of histories that agree in what concerns one publisher", "why_tests_cant": "noninterference relates two whole histories: what any other publisher does at any moment, in any schedule, must make no difference; one driver serves them all, with common maps of publishers, connection tasks and statistics", "anchors": ["msg-socket/src/sub/driver.rs:SubDriver::poll", "msg-socket/src/sub/driver.rs:poll_publishers", "msg-socket/src/sub/driver.rs:on_command", "msg-socket/src/sub/driver.rs:on_connection", "msg-socket/src/sub/session.rs:PublisherSession"]}
{"id": "C118", "title": "Every published message is accounted for", "statement": "Take any publisher and any subscriber connected to it, after any history, with queues that may have been full and a session that may have fallen behind. Once both ends are at rest, every publish call made since the subscriber was admitted is in exactly one class: its compression failed; the subscriber's session missed it, which happens only if the session was at some moment more than session_buffer_size messages behind; its topic was not subscribed to when it came to its turn; it was received by the user, in order and with its payload; or the subscriber dropped it, writing one of its two log lines about it (no room in the channel to the driver; slow subscriber socket), which happens only if 1024 messages of the connection, or the whole buffer for the user, were waiting at some moment. There is no other way to lose a message. At any earlier moment, also if the connection has failed, the remaining calls wait for their turn at the publisher, or their messages are under way on the connection or wait for the subscriber's background task.", "quantifier": "every history of a publisher socket and of a subscriber socket, every pair of sessions over one connection that is now at rest; every queue size, compressor and payload; literal subscriptions, and wildcard subscriptions for topics without `>`", "why_tests_cant": "a lost message leaves no trace a test could look for: that losses are exactly the counted ones has to hold for every interleaving of publishing, lagging, overflowing, subscribing and reading", "anchors": ["msg-socket/src/pub/session.rs:SubscriberSession::poll", "msg-socket/src/pub/socket.rs:PubSocket::publish", "msg-socket/src/sub/session.rs:PublisherSession", "msg-socket/src/sub/driver.rs:poll_publishers", "msg-socket/src/sub/session.rs:on_incoming"]}
{"id": "C119", "title": "One response answers one call, among all clients", "statement": "Any number of request sockets, connected to one reply socket over any number of connections each, have made any calls. Every call that returned a payload got it from one call of `respond` by the server application, made for a request carrying this call's payload, and no two calls, of the same or of different request sockets, got theirs from the same call of `respond`.", "quantifier": "every number of request sockets, every history of each of them and of the reply socket (reconnects, timeouts, calls given up, identical payloads and identical request numbers at different clients), every network that delivers bytes in order between the two ends of a connection", "why_tests_cant": "request numbers are the same at every client and payloads may be equal, so a mixed-up or duplicated response looks like the right one; that it never happens is a statement over all interleavings of all clients", "anchors": ["msg-socket/src/rep/driver.rs:PeerState::poll_next", "msg-socket/src/rep/mod.rs:Request::respond", "msg-socket/src/req/driver.rs:on_message", "msg-socket/src/req/driver.rs:ReqDriver::poll"]}
{"id": "C120", "title": "A subscriber of many publishers gets each publication at most once, from the right publisher", "statement": "Any number of publishers, each at its own address, and a subscriber that connects to them. Every message the user receives with the address of one of them comes from one call of `publish` or `try_publish` of that publisher, with its topic and payload. No two messages come from the same call, whatever the publishers have in common and however often connections are lost and made again, and the messages of one publisher are in the order of its calls. Each is on a topic matched by a (well-formed) pattern for which subscribe or try_subscribe returned Ok(()).", "quantifier": "every number of publishers, every interleaved history of all of them and of the subscriber (reconnects, disconnect and connect, identical messages at different publishers, lagging sessions, full queues), every network that delivers bytes in order between the two ends of a connection", "why_tests_cant": "two publishers may publish the same messages with the same sequence numbers, so that a message attributed to the wrong one, or taken twice, looks right; that it never happens is a statement over all interleavings of all publishers and all reconnects", "anchors": ["msg-socket/src/sub/driver.rs:SubDriver::poll_publishers", "msg-socket/src/sub/session.rs:PublisherSession::poll", "msg-socket/src/sub/driver.rs:SubDriver::on_connection", "msg-socket/src/pub/session.rs:SubscriberSession::poll"]}
{"id": "C121", "title": "Requests arrive in the order of the calls", "statement": "What the server application receives from a request socket are the requests of its calls in the order in which the calls were made (those that arrive at all), each at most once. True over one connection, whatever the fragmentation, the queues and the polls; not across a reconnect, where a reply socket may get to the newer connection first.", "quantifier": "every history of the request socket and of the reply socket, every connection between them, with any number of other clients", "why_tests_cant": "order is decided by queues in both sockets, the wire and the fair polling of connections; a test sees one schedule, and reordering after a reconnect needs the two connections polled in the unlucky order", "anchors": ["msg-socket/src/req/driver.rs:ReqDriver::poll", "msg-socket/src/rep/driver.rs:RepDriver::poll", "msg-socket/src/rep/driver.rs:PeerState::poll"]}
