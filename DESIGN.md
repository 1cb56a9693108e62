# Formal model of chainbound/msg-rs in Lean 4

Layout: `lean/Verif/Model` the code, function by function, with citations; `lean/Verif/Spec` vocabulary for the
statements that does not depend on the model's helpers; `lean/Verif/Proofs` invariants and lemmas; `lean/Verif/Props` the property
theorems (`Cxx_...`), each with a concrete case that meets its hypotheses beside it. `MANIFEST.json` maps properties to theorems,
`seeded/LOG.jsonl` records the wrong programs the theorems were tried against.

## 1. Trusted base

* Lean 4.33.0's kernel. No axioms of our own, no compiled evaluation. The property theorems depend on at most
  `propext`, `Classical.choice` and `Quot.sound`; section 6 lists them per theorem.
* The reading of `/repo` into `lean/Verif/Model`. Every definition there cites the file and lines it models and says what
  it simplifies. Nothing checks this reading mechanically (the code cannot be built here).
* The specification files and the English statements in `properties.jsonl`.
* The behaviour of dependencies that are not in `/repo`, modelled from their documentation and known source:
  `bytes` (`split_to`, `advance`, indexing: their panics are explicit), `tokio_util::codec::Framed` 0.7 (`Model/Framed`, `Model/Writer`),
  `tokio::sync::{mpsc, broadcast, oneshot}` and `tokio_util::sync::PollSender` (`Model/Channel`, `Model/Broadcast`, queues inside the drivers),
  `tokio::task::JoinSet` (`Model/JoinMap`, lists of tasks inside the drivers), `tokio::time::interval` (`Model/Backoff`),
  `FuturesUnordered`, `tokio_stream::StreamMap` (any order), `FxHashMap` (association lists; no result depends on its order).
  The four compression libraries are parameters: any functions, with "decompress inverts compress" as an explicit hypothesis
  where a property says so. `String::from_utf8_lossy` is a parameter that inverts UTF-8 encoding (`Lossy`).

## 2. What is modelled, file by file

| file in /repo | model | left out |
|---|---|---|
| msg-wire/src/auth.rs | `Model/Auth`: codecs, byte level, panics explicit | `Debug`/`Display` |
| msg-wire/src/reqrep.rs | `Model/ReqRep`: header, message, codec with its two states | same |
| msg-wire/src/pubsub.rs | `Model/PubSub`: same, `new_sub`, `new_unsub` with the length panic | same |
| msg-wire/src/compression/mod.rs | `Model/Compression`: tags, dispatch, `try_decompress_payload` | - |
| msg-wire/src/compression/{gzip,zstd,snappy,lz4}.rs | parameters | the algorithms |
| msg-common/src/channel.rs | `Model/Channel`: two bounded FIFOs with permits, every method | wakers |
| msg-common/src/task.rs | `Model/JoinMap` | wakers, abort of the tasks on drop |
| msg-common/src/lib.rs | - | `unix_micros` (a number given by the environment), the `BoxFuture` alias |
| msg-transport/src/lib.rs | `Model/Transport`: `Acceptor`, `Transport` as an interface | - |
| msg-transport/src/tcp/mod.rs | `Model/Transport`, `Model/Endpoints`: `bind`, `poll_accept`; the order of the addresses tried is in `Model/PubSocket`/`Props/Transport` | OS; `connect` is an answer of the environment |
| msg-transport/src/ipc/mod.rs | `Model/Transport`, `Model/Endpoints`: `bind` with the file that may be at the path, `poll_accept` | OS; reads and writes pass through |
| msg-transport/src/quic/{mod,config}.rs | `Model/Endpoints`: `bind`, `connect` up to the endpoint used, the accept task, `poll_accept`; `Model/Transport`: accept futures, window arithmetic; `Model/QuicConfig`: the builder, MTU, windows, keep-alive and idle timeout | quinn |
| msg-transport/src/quic/{stream,tls}.rs | - | reads and writes pass through; TLS |
| msg-socket/src/connection/{state,backoff}.rs | `Model/Backoff`; the connection state is a field of the drivers | - |
| msg-socket/src/req/{driver,mod,stats}.rs | `Model/ReqDriver`: every branch of `poll`, timers, backoff, statistics | log output |
| options in msg-socket/src/{req,rep,pub,sub}/mod.rs | `Model/Options`: defaults, builder calls, where each option goes | - |
| msg-socket/src/req/socket.rs | `Model/ReqSocket`: `connect`, `request` as a future that can wait, finish or be dropped | address resolution |
| msg-socket/src/rep/{driver,socket,mod,stats}.rs | `Model/RepDriver`, `Model/RepSocket`, `Model/AcceptPoll`: admission, authentication, peers, requests, `respond`, delivery to the application, binding | log output |
| msg-socket/src/pub/trie.rs | `Model/Trie` | - |
| msg-socket/src/pub/session.rs | `Model/PubSession` (loop of `poll`), `Model/PubTimed` (with clock and interval), `Model/OptionPanics` (overflow of `Interval::reset`) | log output |
| msg-socket/src/pub/{driver,mod,socket,stats}.rs | `Model/PubDriver`, `Model/PubSocket`, `Model/AcceptPoll`, `Model/Broadcast`, composed in `Model/PubServer` | address resolution |
| msg-socket/src/sub/{session,stream,stats}.rs | `Model/SubSession`, `Model/SubStats` | log output |
| msg-socket/src/sub/{driver,socket,mod}.rs | `Model/SubDriver`: every branch of `poll`, the front-end, timers, sessions | address resolution |
| msg-sim/src/{lib,dummynet,protocol}.rs | `Model/Sim`: bookkeeping, what the commands do to the packet filter; `Model/Dummynet`: the commands themselves | running them |
| msg/ (facade, benches, examples), tests | - | no behaviour of their own |

Not modelled at all: the operating system, TLS, quinn, tokio's scheduler (replaced by "every schedule": the environment supplies the
answer of each nested poll and decides when a task is polled), wakers (except where a property is about a lost wake-up: then the model says
whether a poll returned with work left), threads and memory safety, log output, wrap-around of 64-bit counters.

## 3. Conventions

* A Rust panic is an explicit value (`R.panic`). Integer widths: `UInt8/16/32/64` where wrap-around is
  observable, otherwise `Nat`. Times are nanoseconds.
* `String` topics are `List Char` (sequences of Unicode scalar values), encoded by UTF-8 at the wire.
* A `poll` function is a function of the state and of the answers the environment gives to the
  nested polls; "all schedules" is quantification over these answers and over lists of actions.
* Fields called ghost record history (what was sent, read, delivered, called) for the statements; no definition decides on them.
* Where the code violates the property, a theorem `Cxx_..._refuted` exhibits a concrete history in the model, and a
  `_partial` theorem proves the strongest true part found. Such a claim has the status `partial`: it cannot become `proved` without changing the code.

## 4. Plan per property

| id | property | model | proof | status |
|---|---|---|---|---|
| C01 | Request/reply frames round-trip | `ReqRep` | computation lemmas for big-endian integers, case analysis of the two decoder states | proved |
| C02 | Request/reply stream is independent of fragmentation | `ReqRep`, `Framed` | the reader is a function of the concatenated chunks (`FramedAny`), induction over the answers of the connection | proved |
| C03 | Request/reply decoder is total and chunk-insensitive on arbitrary bytes | `ReqRep`, `Framed` | totality of the decoder; same lemma on arbitrary bytes | proved |
| C04 | Pub/sub frames round-trip | `PubSub` | as C01 | proved |
| C05 | Pub/sub stream is independent of fragmentation | `PubSub`, `Framed` | as C02 | proved |
| C06 | Pub/sub decoder is total and chunk-insensitive on arbitrary bytes | `PubSub`, `Framed` | as C03 | proved |
| C07 | Authentication frames round-trip | `Auth` | as C01 | proved |
| C08 | Authentication decoding is safe for every fragmentation | `Auth`, `Framed` | exact characterisation of the inputs that panic; refuted, partial for the other cuts | partial |
| C09 | Only an explicit acknowledgement authenticates | `Auth` | case analysis of the client decoder | proved |
| C10 | Frames of one protocol are never accepted by another | `Auth`, `ReqRep`, `PubSub` | case analysis on the first byte | proved |
| C11 | Messages of any size are delivered intact | sizes as `UInt32`/`UInt16` casts | round trip iff the size fits; witnesses above | partial |
| C12 | Compression tag identifies the algorithm | `Compression` | case analysis | proved |
| C13 | Compression is transparent end to end | `Compression` | case analysis with inverse hypotheses | proved |
| C14 | min_compress_size is honoured | `Compression`, `ReqSocket`, `RepSocket`, `PubServer` | case analysis, lifted to the frames each socket sends in any history; refuted for replies and try_publish | partial |
| C15 | Literal topic subscriptions are exact | `Trie` | refinement of the trie to the list of operations (`Spec.active`) | proved |
| C16 | No unsolicited topics | `Trie` | same, against the NATS matching relation of `Spec/Topics` | proved |
| C17 | Wildcard subscriptions are complete | `Trie` | same; refuted for `>` and for tokens under a `*` | partial |
| C18 | Unsubscribing one topic does not affect others | `Trie` | the filter depends on the active set only | proved |
| C19 | Unsubscribing everything returns to the empty state | `Trie` | structural invariant: no empty nodes | proved |
| C20 | Subscription control messages arrive as sent | `PubSession`, `SubSession` | string lemmas, round trip through the wire | proved |
| C21 | Reserved topics are refused without side effect | `SubDriver` | case analysis of `subscribe` | proved |
| C22 | A publisher session delivers in order, gap-free | `PubSession` | invariant over all schedules of the session | proved |
| C23 | Broadcast lag only loses the oldest | `Broadcast` | ring invariant | proved |
| C24 | Slow subscribers do not disturb publisher or others | `PubSocket` | projection of histories to one session | proved |
| C25 | Publish before bind fails, after bind succeeds | `PubSocket` | case analysis and invariant | proved |
| C26 | Non-control input never changes subscriptions | `PubSession` | step analysis | proved |
| C27 | max_clients is never exceeded by the publisher | `PubDriver` | counting invariant | proved |
| C28 | max_clients is never exceeded by the reply socket | `RepDriver` | counting invariant | proved |
| C29 | Client counters are accurate | `PubDriver`, `RepDriver` | counting invariant without panicking tasks; witness with one | partial |
| C30 | Unauthenticated clients are never served | `Handshake`, `PubDriver`, `RepDriver` | origin invariant: every session goes back to an accepted handshake | proved |
| C31 | A client with credentials only proceeds on Ack | `Handshake`, `ReqDriver`, `SubDriver` | same on the client side | proved |
| C32 | Every connected client of a reply socket is served | `RepDriver` | invariant under distinct addresses; witness with a shared one | partial |
| C33 | Each request completes at most once | `ReqDriver` | conservation: each call is in exactly one place | proved |
| C34 | A request gets its own response | `ReqDriver` and `RepDriver` joined by byte streams | composition of the two invariants through the round trip | proved |
| C35 | Requests time out | `ReqDriver` | timer invariants; witness without connection | partial |
| C36 | Dropping or stopping the request socket resolves all requests | `ReqDriver` | conservation at the end | proved |
| C37 | Backoff schedule is exponential and bounded | `Backoff` | induction over polls | proved |
| C38 | Connection options of the request socket are honoured | `ReqDriver` | schedule of attempts; witness that options do not matter | partial |
| C39 | The request socket recovers from connection loss | `ReqDriver` | step analysis; frame of unconnected iterations by induction over histories; C70 and C93; witness for a clean close | partial |
| C40 | Requests are sent in issue order, at most once | `ReqDriver` | sequence invariant | proved |
| C41 | Statistics are faithful | `ReqDriver`, `RepDriver`, `PubSession`, `PubServer` | exact sums by invariants; witnesses | partial |
| C42 | Responses go to the connection and id of their request | `RepDriver` | origin invariant | proved |
| C43 | Dropping a request does not disturb other requests | `RepDriver` | analysis of a poll of a peer; witness of the lost wake-up | partial |
| C44 | Requests are not lost on the reply side | `RepDriver` | reading invariant; witness at 1024 waiting requests | partial |
| C45 | Undecodable requests are isolated | `RepDriver` | step analysis; witness | partial |
| C46 | Subscriptions reach every publisher | `SubDriver`, `SubSession` | invariants `TInv`, `SInv`; witness with 65 topics | partial |
| C47 | disconnect() is effective | `SubDriver` | step analysis and invariant; witness with an attempt under way | partial |
| C48 | connect and disconnect agree on the endpoint | `SubDriver` | case analysis; witness | partial |
| C49 | The subscriber recovers from connection loss | `SubDriver` | witness: the connection stays for ever; partial: when the session task itself ends, the loss is noticed, the entry dropped and the back-off armed; C77 proves what is retried | partial |
| C50 | Received messages are attributed and ordered | `SubSession`, `SubDriver` | per-session log invariants | proved |
| C51 | At most one connection attempt per endpoint | `SubDriver`, `JoinMap` | key invariant | proved |
| C52 | Commands reach the publisher in order under backpressure | `SubSession` | sequence invariant; witness under backpressure | partial |
| C53 | A bad message does not stall the subscriber | `SubSession`, `SubDriver` | step analysis; witness of the stall | partial |
| C54 | Dropping the subscriber socket stops its background work | `SubDriver` | witness; partial: no new endpoints, and a dropped socket receives nothing further | partial |
| C55 | connect is idempotent | `SubDriver` | key invariant | proved |
| C56 | Acceptor yields the next connection | `Transport` | invariants per transport; witness for QUIC | partial |
| C57 | Binding uses the first usable address | `Transport` | induction over the addresses | proved |
| C58 | QUIC window sizing | `Transport` | 32-bit arithmetic; witness | partial |
| C59 | Simulator ids are unique | `Sim` | invariant; witnesses | partial |
| C60 | The bidirectional channel is two independent FIFOs | `Channel` | invariant over every interleaving of calls on the two ends | proved |
| C61 | End-to-end pub/sub | `PubSocket`, `PubSession`, `SubDriver` joined by byte streams | composition | proved |
| C62 | Switching from handshake to data loses no bytes | `Handshake` and the four drivers | framed lemmas, origin invariants | proved |
| C63 | Binding a QUIC transport again moves the server | `Endpoints`: bind, dial, accept over a history | invariant over the events of all histories; general refutation and witness | partial |
| C64 | Binding an IPC transport is confined to its path and replaces only sockets | `Endpoints` with the file system | case analysis, induction over histories; refutation | partial |
| C65 | A started simulation shapes exactly its endpoint until it is stopped | `Sim` | step analysis; witnesses | partial |
| C66 | Keyed task sets run at most one task per key and free the key when it ends | `JoinMap` | invariant; witness | partial |
| C67 | End-to-end delivery | as C61 | composition, with liveness hypotheses spelled out | proved |
| C68 | Received messages are exactly the frames in the byte stream | `ReqRep`, `PubSub`, `Framed` | against the grammar in `Spec/Frames` | proved |
| C69 | A connection cut inside a frame is reported as an error | `Framed` | characterisation of the end of a stream; witness | partial |
| C70 | A request reaches the wire promptly | `ReqDriver` | flush invariant `FInv` | proved |
| C71 | Responses reach the wire promptly | `RepDriver` | flush invariant | proved |
| C72 | Published messages reach the wire promptly | `PubTimed` | flush invariant | proved |
| C73 | Dropping a request socket ends its background task | `ReqDriver` | step analysis; witness without connection | partial |
| C74 | A poll of a background task returns | all drivers and sessions | termination measures per task (`Proofs/Returns`, `Potential`) | proved |
| C75 | A subscriber cannot be crashed by publishers | `SubDriver` | totality of every step | proved |
| C76 | A topic too long for the wire does not break a subscriber | `SubDriver`, `SubSession` | invariant `Unbroken`; witness | partial |
| C77 | A subscriber retries failed connection attempts with exponential backoff | `SubDriver` | invariants `Timely`, `Armed` | proved |
| C78 | Life of a request socket: unconnected, connected once | `ReqSocket` | invariant `FrontInv` | proved |
| C79 | Giving up a request is isolated | `ReqSocket` | commutation of cancellation with every action; composition with C34 | proved |
| C80 | Requests wait for room when the driver is behind | `ReqSocket` | invariant; C70 | proved |
| C81 | respond() tells whether the answer can be sent | `RepSocket`, `RepDriver` | ownership invariant `OwnInv`: every request handle belongs to exactly one connection | proved |
| C82 | A server socket can be bound until it is bound | `RepSocket`, `PubSocket` | induction over histories; witness | partial |
| C83 | Dropping a reply socket stops serving | `RepSocket` | invariant `After` over everything after the drop; witness | partial |
| C84 | Dropping a publisher delivers what was published | `PubSocket`, `PubSession`, `PubServer` | measure of the work left; invariants of C22 and C23; histories of the whole publisher projected to histories of channel and sessions; witness | partial |
| C85 | A simulation uses the settings asked for | `Dummynet` | against a reader of `dnctl` command lines in `Spec/Dummynet`; witnesses | partial |
| C86 | Nobody ready is left waiting | `AcceptPoll` (on `PubDriver`, `RepDriver`) | induction over what is ready; the poll as a piece of a history; witnesses | partial |
| C87 | Subscriber statistics belong to the publisher asked for | `SubStats` (on `SubDriver`) | invariant: the map points to the last session of each address; entries persist; witness | partial |
| C88 | Reported averages are the averages | `SubStats`, `SubSession.Stats`, `ReqDriver.updateRtt` (64-bit arithmetic) | invariant: the running average against the sum of the samples as long as that does not wrap; times of calls; witnesses; induction up to the first wrap | partial |
| C89 | Publishing never costs a subscriber its connection | `PubSession`, `PubSocket.Sys`, `Broadcast` | invariant: a running session with an open, proper stream stays so at every iteration; witness | partial |
| C90 | A task goes to sleep only when nothing is left to do | the iteration functions of all drivers and sessions; `Spec/Asleep` | case analysis of one iteration that returns `Pending` from an arbitrary (or reachable) state; reader lemma: `Pending` means the stream was asked and the buffer holds no complete frame | partial |
| C91 | The publisher as a whole serves admitted clients what is published after their admission | `PubServer` (socket, driver and sessions composed), `Spec/PubServer` | invariant: every history of the composed publisher is a history of its parts (`Pub.Sys`, `Pub.Driver`) which agree on who is served; then the theorems about the parts; counting for one session each | proved |
| C92 | Every request that got through is answered, unless it timed out | `ReqDriver`, `RepDriver`, joint histories in `Spec/ReqRep` | invariants of both sides (every sent request is pending, answered or read from the wire; every request read is queued, held or answered), decoding inverts encoding on what was read so far, then counting what has to be on the wire | proved |
| C93 | A request socket retries with exponential backoff, then gives up and fails its calls | `ReqDriver` with the ghost list of attempt times | invariant over all steps since the loss of the connection: number of attempts ≤ timers run out = count of the backoff ≤ 15, deadline bounds; an attempt under way is not replaced | proved |
| C94 | A subscriber loses a message only for lack of room | the subscriber socket: sessions, their channels, the driver, the ingress buffer | invariant "nothing lost" kept by every action after which there is room, over all histories | proved |
| C95 | Binding a TCP or IPC transport again moves the server; a failed bind changes nothing | `Endpoints`: one listener | invariant: what waits = what arrived since the last bind minus what was handed out | proved |
| C96 | A QUIC transport dials from the endpoint it has | `Endpoints`: QUIC | invariant over the events of all histories | proved |
| C97 | Socket options: the last setting wins, everything else keeps its documented default | `Options`: builder chains; `ReqSocket`, run twice | induction over the chain; simulation between two runs | proved |
| C98 | Both ends of an authenticated connection agree | `Handshake`: both tasks, over a pipe | the two one-sided results composed; awaiting a frame in pieces by induction over the reads | proved |
| C99 | When everything is quiet, no call is left unanswered | `Req.Socket` and `Rep.Driver` run together (`Spec.CallersTogether`) | a reader that is dry has seen every frame of the bytes it was given; then the chain call – request – response as for C92 | proved |
| C100 | When everything is quiet, everything wanted has been delivered | `Pub.Server` and `Sub.Driver`, each with its own history, and the bytes between them | a dry reader has seen every frame of the bytes it was given; the session's events are one interleaving of subscription changes and publish calls; then C15/C17, C46, C50 | proved |
| C101 | QUIC configuration: the last setting wins, both sides agree, connections stay alive | `Transport.QuicBuilder`, function by function | `foldl_setTo` as for C97, and C58 | proved |
| C102 | A slow subscriber costs the publisher a bounded amount of memory | `Pub.Server`, sessions with `Writer` | invariant `SesMem` of every session over the run; `act_chan` for the channel | proved |
| C103 | What a peer can make a socket hold in its receive buffer is bounded | `Reader` with the four codecs; `Pub.Server`, `Rep.Socket`, `Req.State`, `Sub.Driver` | `Codec.Needs`: a decoder asks for more only while it has less than a frame; invariants `RdMem`, `RdOk` of the reader over polls | partial |
| C104 | The queues inside the sockets are bounded | `Sub.Driver`, `Rep.Socket`, `Req.Socket` | invariants over the steps; for the refutations an induction that adds one message to the queue of a blocked connection | partial |
| C105 | What a call of a subscriber returns is what happens | `Sub.Driver` with its calls; `Spec/SubCalls`: what each call asks for and returns | case analysis per call; the log (handled ++ queued) grows by exactly what an action promised | proved |
| C106 | A busy connection does not keep other work from being done | `Req.State`, `Sub.Driver`, `Pub.Session`, `Model/RepTurn` (iterations of the reply driver in the order of its branches) | induction on the number of messages: a state with a call waiting and messages to read is followed by one with the call still waiting | partial |
| C107 | No value of an option makes a socket panic | `Sub.Driver.new`, `Pub.Socket.tryBind`, `Rep.Socket.tryBind`, `Req.State.new`; `Model/OptionPanics`: request driver and publisher sessions with the overflow of `Interval::reset`, publisher with the panic of `interval(0)` in its driver | case analysis; simulation of the model without these panics under the bounds; invariant of a publisher with a zero interval | partial |
| C108 | A request that has failed is not carried out afterwards | `Req.Socket` and its driver `Req.State` | SocketClosed is returned only by the front-end or when the driver ends, after which it writes nothing; concrete history for the timeout | partial |
| C109 | Unsubscribing is effective | `Pub.Server` and `Sub.Driver` with their sessions | replay of the publisher session; growth of a subscriber session along any history (frames sent later come from commands accepted later); both combined at a quiet moment; concrete history for the counterexample | partial |
| C110 | Reconnecting neither repeats nor reorders messages | `Pub.Server` and `Sub.Driver` with their sessions, in one interleaved history | invariant of the subscriber: messages of one source are sorted by connection and the established connection is the newest; once a newer attempt is under way nothing is taken from older connections; strong induction on the length of the history with the per-connection end-to-end theorem at the moment each publisher session was started | proved |
| C111 | Clients that do not authenticate cannot keep others out | `Pub.Server`, `Rep.Socket` with drivers and handshakes | the state reached by silent clients is preserved by every action; the positive part from the counter invariants | partial |
| C112 | A request is carried out at most once, over all connections | `Req.Socket`, `Rep.Socket` with their drivers and connections | requests sent over all connections are the frames of the first calls, numbered by their place in the concatenation; requests read from a connection are a prefix of those sent over it; every handle belongs to one connection | proved |
| C113 | Giving up a call of bind or connect leaves the socket usable | `Model/BindFut`: the futures of `bind` and `connect`, polled with arbitrary answers of lookup and transport | the states of a call after any polls are classified by induction over the polls; a spent socket stays spent in every history | partial |
| C114 | All subscribers of a publisher see one order | `Props/OneOrder`: histories of one publisher and many subscribers, projected to `Props/Reconnect` | C110 for each subscriber; sublists of one sequence; in a sequence without duplicates two elements have one order | proved |
| C115 | Clients of a reply socket do not affect each other | `Spec/RepAlone`: the events of a history that concern one client, the fates of its requests | a machine with one client simulates its part of every history (`Proofs/RepAlone`); conversely a history with one client is built from any history (`Proofs/RepSolo`) | proved |
| C116 | Subscribers of a publisher do not affect each other | `Spec/PubAlone`: the events of a history that concern one session | a new channel with a single receiver is in step with every session of every history, its position shifted by the number of messages sent before (`Proofs/PubAlone`) | proved |
| C117 | Publishers of a subscriber do not affect each other | `Spec/SubAlone`: the history of one address as a history of the same model | the situation of one address (entry, tasks, sessions, fates, up to the numbering of sessions) is the same in both after each action (`Proofs/SubAlone`, `Proofs/SubAloneRun`) | proved |
| C118 | Every published message is accounted for | `Spec/AccountPub`: histories in which each publish call is missed or comes to its turn | the session's event history replayed over the publisher's log (`weaveFated`), conservation at the subscriber: taken = delivered + turned away, read = taken + dropped (`Sub.taken_count`) | proved |
| C119 | One response answers one call, among all clients | `Spec/Crowd`: a family of request sockets and one reply socket, each connection of the reply socket belonging to at most one connection of one client | C34 on the connection that is the other end (`own_response_via`); a handle belongs to one connection and one request of it (`OwnInv`), numbers below 2^32 are told apart by their identifiers | proved |
| C120 | A subscriber of many publishers gets each publication at most once, from the right publisher | `Spec/Publishers`: a history of a family of publisher sockets and one subscriber socket; the view of each publisher of it | C110_reconnects for the view of each publisher; addresses are distinct, so the messages of different publishers are told apart by their source | proved |
| C121 | Requests arrive in the order of the calls | request socket and reply socket, one connection of each being the two ends of one connection | C40 (order on the wire), the codec theorems, C44 (order of the handles at the application); the payload of a handle is what its frame decompresses to | partial |

## 5. Assumptions that appear in statements

* Two ends of a connection (C34, C61, C67, C79): each end reads a prefix of the bytes the other end has written, cut anyhow (`Linked`); nothing else
  is assumed about the network.
* Frame sizes below the wire limits (4 GiB payloads, 65535-byte topics), where the statement says so; C11 and C76 show what happens beyond.
* Fewer than 2^32 calls per request socket for C34 and C79; `C34_own_response_mod` is the version without it.
* Promptness (C35, C70-C72, C77): that the runtime polls a task whose timer or waker fired is assumed; the statements say what the poll then does.
* tokio's cooperative budget is not modelled: a nested poll of a channel, timer or oneshot that is ready may return `Pending` once a task has used its
  budget in one poll (and wakes the task). For the task this is the same as the message arriving or the timer firing a little later, i.e. another
  history of the model, in which that event comes later.
* Clones of a `PubSocket` (pub/socket.rs:18-19 says it can be cloned) are not modelled as separate front-ends: the derived `Clone` needs a transport that is `Clone`, and none of
  `Tcp`, `Quic`, `Ipc` is (msg-transport/src/{tcp,quic,ipc}/mod.rs), so a socket with a transport of this repository cannot be cloned at all. That is a matter of Rust's types, not of
  behaviour. Several tasks that share one socket (`publish` takes `&self` and has no await point) are covered: their calls are the calls of one history.
* Integer overflow wraps, as in this workspace's profiles (Cargo.toml:58-60 turns overflow checks off for development builds, and release builds have them off by default): the
  running averages of C88 and C41 are computed modulo 2^64, request identifiers modulo 2^32. Counters that only count events (bytes, messages, sequence numbers of the broadcast
  channel) are unbounded numbers in the model: reaching 2^64 takes 2^64 events. A build that turns the checks back on panics instead of wrapping; that is modelled for the QUIC window
  only (`checks`, C58), not elsewhere.

## 6. Axioms per theorem

From `#print axioms`, for every theorem named in `MANIFEST.json` (prefix `MsgRs.Props.` left out; P = `propext`, C = `Classical.choice`, Q = `Quot.sound`).

* P: C08_auth_fragmentation_refuted, C108_refuted_timeout, C25_bind_then_publish, C26_error_is_local, C29_counter_leaks_refuted, C35_unconnected_refuted, C38_options_ignored_refuted, C39_clean_close_refuted, C41_request_bytes_refuted, C53_skipped_partial, C56_ipc_immediate, C56_quic_loses_refuted, C56_tcp_immediate, C58_window_refuted, C60_independent, C69_payload_missing_refuted, C73_unconnected_refuted, C77_at_once, C80_waits, C86_publisher_poll_is_history, C88_rtt_refuted, C97_pub_options, C97_rep_options, C97_req_options, C97_sub_options.
* P C Q: C01_reqrep_roundtrip, C02_reqrep_fragmentation, C04_pubsub_roundtrip, C05_pubsub_fragmentation, C07_auth_roundtrip, C08_auth_fragmentation_partial, C08_server_decode_panics_iff, C100_quiet_delivered, C100_quiet_wildcards, C100_session_idle, C102_all_subscribers, C102_channel, C102_refuted_errors, C102_slow_subscriber, C103_publisher, C103_refuted_subscriber, C103_replier, C103_requester, C103_subscriber_partial, C104_refuted_replier, C104_replier, C104_subscriber, C105_history, C107_refuted_sizes, C107_requester_partial, C107_subscriber_partial, C108_closed_partial, C109_publisher_partial, C109_quiet_partial, C109_refuted, C110_connection_after_connection, C110_reconnects, C111_publisher_lockout_refuted, C111_refused_stays_refuted, C111_reply_lockout_refuted, C111_reply_room_partial, C112_at_most_once, C112_many_clients, C114_one_order, C115_as_if_alone, C115_isolated, C116_as_if_alone, C116_isolated, C117_as_if_alone, C117_isolated, C118_any_moment, C118_any_moment_wildcards, C118_every_message_accounted, C118_wildcards_accounted, C119_callers, C119_one_answer_one_call, C11_oversize_reqrep_refuted, C11_pubsub_intact_iff_partial, C11_reqrep_intact_iff_partial, C120_only_subscribed, C120_own_publication, C121_one_connection_partial, C13_publish_transparent, C13_reply_transparent, C13_request_transparent, C14_publish_socket_partial, C14_reply_socket_partial, C14_request_socket, C16_malformed_pattern_sticks, C17_session_exact, C17_wildcard_complete_refuted, C18_session, C20_commands, C20_control_arrives, C20_control_meaning, C21_control_is_reserved, C23_feed_subsequence, C23_lag_only_oldest, C23_publisher_in_time, C24_publisher, C25_history, C26_non_control, C28_reply_max_clients, C28_reply_socket, C29_reply_counter_exact_partial, C30_reply_only_authenticated, C30_reply_socket, C30_verdict, C31_request_socket, C31_subscriber_socket, C32_admission_partial, C32_distinct_addresses_served_partial, C32_own_address_partial, C33_at_most_once, C33_each_call_in_one_place, C34_own_response, C34_own_response_mod, C34_refuted_wrap, C35_call_never_early, C35_never_early, C35_prompt_partial, C36_end_resolves_all, C36_no_panic, C38_fixed_schedule_partial, C39_error_recovers_partial, C39_next_connection_partial, C39_nothing_lost_partial, C39_rest_sent_partial, C40_in_order_at_most_once, C41_publisher_bytes_refuted, C41_publisher_total_partial, C41_reply_bytes_partial, C41_request_bytes_partial, C41_rtt_between, C42_reply_socket, C42_response_payload, C42_responses_match, C43_reply_socket_enough_partial, C43_reply_socket_partial, C43_responses_sent_partial, C44_delivered_in_order_partial, C44_no_panic, C44_overload_refuted, C45_nothing_else_changes, C45_reply_socket_partial, C45_undecodable_dropped_partial, C46_65_topics_refuted, C46_gets_written_partial, C46_told_partial, C47_disconnected_partial, C47_pending_attempt_refuted, C49_never_reconnects_refuted, C49_task_end_recovers_partial, C50_attributed_in_order, C50_complete, C50_newest_dropped, C51_finished_frees, C51_one_attempt, C52_in_order_partial, C52_offered_in_order, C52_reordered_refuted, C53_stalls_refuted, C54_drop_keeps_connections_refuted, C54_nothing_new_partial, C55_one_connection, C56_accept_partial, C56_first_ready, C59_ids, C60_driver_holds_end, C60_end, C61_only_subscribed, C61_published_in_order, C62_publisher, C62_reply_socket, C62_reply_socket_no_auth, C62_request_socket, C62_request_socket_no_auth, C62_server_switch, C62_subscriber_socket, C62_subscriber_socket_no_auth, C66_counts, C66_panic_blocks_refuted, C66_running_partial, C66_spawn, C67_enough_room, C67_everything_arrives, C67_publisher_everything_arrives, C68_encoders, C68_pubsub_frames, C68_reqrep_frames, C69_pubsub_close_partial, C69_reqrep_close_partial, C70_flushed_within_interval, C70_idle_means_sent, C71_reply_socket, C71_responses_on_the_wire, C73_drop_ends_partial, C73_socket_drop_partial, C74_publisher_session_returns, C74_reply_driver_returns, C74_request_driver_returns, C74_subscriber_driver_returns, C74_subscriber_session_returns, C75_subscriber_no_panic, C76_long_topic_refuted, C76_short_topics_partial, C77_retried, C77_schedule, C77_timer_set, C78_connects_once, C78_no_panic, C78_unconnected, C79_all_resolve, C79_own_response, C79_sent_at_most_once, C80_room, C81_respond_effect, C81_respond_ok, C82_bind_once_partial, C83_held_survive_partial, C83_no_panic, C83_only_received_answered, C84_close_loses_refuted, C84_drop_delivers_partial, C84_publisher_drop_partial, C84_publisher_sessions_end, C84_sessions_end, C85_commands, C85_last_setting, C85_latency_refuted, C85_pipe_command, C85_protocol_names, C85_protocols_refuted, C85_start_settings_partial, C86_publisher_partial, C86_reply_partial, C87_bytes_of_last_connection, C87_counts_while_connected, C87_kept_until_disconnect, C87_zombie_refuted, C88_latency_partial, C88_latency_refuted, C88_rtt_partial, C88_rtt_samples, C88_wrap_refuted, C89_client_lost_refuted, C89_stays_connected_partial, C90_publisher_session, C90_reply_connection_partial, C90_request_driver, C90_subscriber_driver_partial, C91_end_to_end, C91_exactly_subscribed, C91_gets_published, C92_connection_answered, C92_connection_callers, C92_every_caller_answered, C92_every_request_answered, C93_fresh, C93_not_before, C93_retried_or_given_up, C93_schedule, C93_timer_set, C94_lost_only_for_room, C94_newest_lost, C98_both_reach_the_verdict, C98_client_proceeds_only_if_accepted, C98_dangerous_cut, C98_request_socket, C98_server_admits_the_client, C98_subscriber_socket, C99_any_moment, C99_any_moment_callers, C99_client_idle, C99_every_call_accounted, C99_every_caller_accounted, C99_one_place, C99_peer_idle, C99_quiet_answered, C99_quiet_callers.
* P Q: C03_reqrep_arbitrary_bytes, C03_reqrep_no_panic, C06_pubsub_arbitrary_bytes, C06_pubsub_no_panic, C09_client_ack_only, C09_client_decision, C100_link_idle, C101_builder, C101_default, C101_stays_alive, C101_windows, C103_codecs, C103_no_smaller_limit, C104_refuted_requester, C104_requester, C105_call, C105_full, C106_refuted_publisher, C106_refuted_replier, C106_refuted_requester, C106_refuted_subscriber, C106_reply_pause, C106_reply_turn_is_history, C107_bind_partial, C107_publisher_partial, C107_refuted_huge_flush, C107_refuted_read_buffer, C107_refuted_zero_flush, C107_session_partial, C10_wire_ids_separate, C111_publisher_room_partial, C113_connect, C113_publisher_partial, C113_publisher_refuted, C113_publisher_returns, C113_reply_partial, C113_reply_refuted, C113_reply_returns, C11_topic_limits, C121_refuted_reconnect, C12_tag_identifies, C14_min_compress_partial, C15_literal_exact, C15_session, C16_no_unsolicited, C16_session, C17_exactly, C17_gt_ineffective, C17_subscribed_topic_passes, C17_wildcard_complete_partial, C18_only_active_set_matters, C18_unsub_absent, C18_unsub_keeps_others, C18_unsub_undoes, C19_no_residue, C19_session, C21_others_accepted, C21_reserved_refused, C21_start_is_harmless, C22_session_in_order, C22_session_no_panic, C22_session_progress, C24_publish_ignores_sessions, C24_sessions_independent, C24_started_session, C25_publish_bind, C26_error_ends_session, C26_only_control_changes_filter, C27_publisher_max_clients, C29_counter_exact_partial, C29_room_admits, C30_handshake, C30_only_authenticated_served, C31_client_needs_ack, C31_otherwise_not_usable, C32_same_address_refuted, C33_result_stays, C37_backoff_schedule, C38_options_without_effect, C41_publisher_bytes_partial, C41_reply_bytes_refuted, C43_drop_delays_response_refuted, C44_socket_receives, C45_delays_response_refuted, C48_dials_loopback_partial, C48_specified_partial, C48_unspecified_refuted, C50_only_appended, C55_connect_idempotent, C57_binds_first_usable, C57_stops_at_first, C58_window_partial, C59_active, C59_linux, C59_start_macos_refuted, C59_stop_macos_refuted, C60_bounded, C60_closed, C60_fifo, C60_fifo_back, C60_no_panic, C60_subscriber_channel, C62_client_switch, C62_publisher_no_auth, C63_accepts_where, C63_local_addr, C63_quic_rebind_partial, C63_quic_rebind_refuted, C64_ipc_bind_deletes_refuted, C64_ipc_bind_partial, C64_ipc_history_partial, C64_ipc_socket_there, C65_failed_start_leaks_refuted, C65_restart_refuted, C65_start_shapes, C65_stop_restores, C66_subscriber_history, C66_subscriber_tasks, C72_flushed_within_interval, C72_idle_means_sent, C72_is_a_session, C74_publisher_driver_returns, C79_cancel_isolated, C79_cancelled_waiting, C80_bounded, C82_failed_bind_refuted, C83_drop_keeps_serving_refuted, C86_publisher_left_waiting_refuted, C86_reply_left_waiting_refuted, C86_reply_poll_is_history, C87_removed_partial, C88_freeze_refuted, C89_long_topic_refuted, C90_subscriber_session, C91_admitted_only, C91_counter, C91_limit, C91_one_session_each, C93_later_calls, C95_bind_result, C95_ipc, C95_tcp, C96_dials, C98_mismatch_fails_safe.
* none: C10_frames_start_with_their_id, C14_min_compress_refuted, C56_unbound.
