import Verif.Model.SubSession
import Verif.Model.Backoff
/-!
# msg-socket/src/sub — the subscriber socket

The loop of `SubDriver::poll` (sub/driver.rs:56-90), the session tasks it spawned, and the front-end
(sub/socket.rs). Times are in nanoseconds and only move between iterations.
-/
namespace MsgRs.Sub
open MsgRs

/-- `SubOptions`, sub/mod.rs:56-107. -/
structure Options where
  token : Option Bytes := none
  ingress : Nat := 1024
  readBuffer : Nat := 8192
  initialBackoff : Nat := 100000000

/-- `Command`, sub/mod.rs:42-54. -/
inductive Command (A : Type) where
  | subscribe (topic : Str)
  | unsubscribe (topic : Str)
  | connect (a : A)
  | disconnect (a : A)
  | shutdown
  deriving Repr, DecidableEq

/-- `PubMessage`, sub/mod.rs:109-120. Ghost: `conn`, the session that received it. -/
structure InMsg (A : Type) where
  source : A
  topic : Str
  payload : Bytes
  conn : Nat
  deriving Repr, DecidableEq

/-- `ConnectionState`, connection/state.rs:9-21. The channel is given by the number of the session. -/
inductive PState where
  | inactive (b : Backoff)
  | active (u : Nat)
  deriving Repr, DecidableEq

/-- What became of a message the driver received from a session (ghost). -/
inductive Fate where
  | delivered
  | undecodable
  | full
  | gone
  deriving Repr, DecidableEq

/-- `SubDriver` (sub/driver.rs:30-47) with the front-end (sub/socket.rs:26-40) and the session tasks.
`cmdq`: the command channel; `started`: the driver task was spawned; `closed`: the socket was dropped;
`inbox`: the channel to the socket; `pubs`: the map of publishers; `tasks`, `keys`: the `JoinMap` of connection
tasks and its key set; `sessions`: all session tasks ever spawned, by number, and `addrs` their addresses
(`PublisherSession::addr`, sub/session.rs:30-31); `stats`: the map in
`SocketStats`. Ghost: `processed`, the commands the driver handled; `received`, the messages the user took; `fates`, by session, the messages taken from its
channel and what became of them; `woken`, whether anything asked for the driver task to be polled since it
last returned `Pending` (a timer or a connection task may do so too, at any time while there is one). -/
structure Driver (A : Type) where
  opts : Options
  now : Nat := 0
  cmdq : List (Command A) := []
  started : Bool := false
  closed : Bool := false
  inbox : List (InMsg A) := []
  topics : List Str := []
  pubs : List (A × PState) := []
  tasks : List A := []
  keys : List A := []
  sessions : List Session := []
  addrs : List A := []
  stats : List (A × Nat) := []
  received : List (InMsg A) := []
  fates : List (Nat × TopicMsg × Fate) := []
  woken : Bool := true
  processed : List (Command A) := []

variable {A : Type} [DecidableEq A]

/-- `HashMap::get`. -/
def lookup (a : A) : List (A × β) → Option β
  | [] => none
  | (x, v) :: l => if x = a then some v else lookup a l

/-- `HashMap::remove`. -/
def erase (a : A) (l : List (A × β)) : List (A × β) := l.filter (fun x => decide (x.1 ≠ a))

/-- `HashMap::insert`. -/
def insert (a : A) (v : β) (l : List (A × β)) : List (A × β) := erase a l ++ [(a, v)]

/-- The driver drops its end of the channel of the session at `a`, if that publisher is active (a map value is
overwritten or removed). -/
def Driver.hangUp (d : Driver A) (a : A) : Driver A :=
  match lookup a d.pubs with
  | some (.active u) =>
    match d.sessions[u]? with
    | some s => { d with sessions := d.sessions.set u { s with alive := false, armed := false } }
    | none => d
  | _ => d

/-- `reset_publisher`, sub/driver.rs:98-109. -/
def Driver.resetPublisher (d : Driver A) (a : A) : Driver A :=
  let d := d.hangUp a
  { d with pubs := insert a (.inactive (Backoff.new d.opts.initialBackoff 16)) d.pubs }

/-- `JoinMap::spawn` of the connection task, sub/driver.rs:228-290, msg-common/src/task.rs:41-49. -/
def Driver.connect (d : Driver A) (a : A) : Driver A :=
  if a ∈ d.keys then d else { d with keys := d.keys ++ [a], tasks := d.tasks ++ [a] }

/-- The loop of `subscribe`/`unsubscribe` over the publishers, sub/driver.rs:131-147, 165-181: the command is
offered to every active one; those whose session is gone are reset (afterwards; each concerns its own entry
only). The other failure, a full channel, is ignored. -/
def Driver.tell (d : Driver A) (c : Cmd) : List (A × PState) → Driver A
  | [] => d
  | (a, .active u) :: rest =>
    match d.sessions[u]? with
    | some s =>
      match s.offer c with
      | (.closed, s) => Driver.tell ({ d with sessions := d.sessions.set u s }.resetPublisher a) c rest
      | (_, s) => Driver.tell { d with sessions := d.sessions.set u s } c rest
    | none => Driver.tell d c rest
  | (_, .inactive _) :: rest => Driver.tell d c rest

/-- `subscribe`, sub/driver.rs:125-157. -/
def Driver.subscribe (d : Driver A) (t : Str) : Driver A :=
  if t ∈ d.topics then d
  else { d with topics := d.topics ++ [t] }.tell (.subscribe t) d.pubs

/-- `unsubscribe`, sub/driver.rs:160-191. -/
def Driver.unsubscribe (d : Driver A) (t : Str) : Driver A :=
  if t ∈ d.topics then { d with topics := d.topics.filter (· ≠ t) }.tell (.unsubscribe t) d.pubs
  else d

/-- `on_command`, sub/driver.rs:193-226. -/
def Driver.onCommand (d : Driver A) : Command A → Driver A
  | .subscribe t => d.subscribe t
  | .unsubscribe t => d.unsubscribe t
  | .connect a => if (lookup a d.pubs).isSome then d else (d.connect a).resetPublisher a
  | .disconnect a =>
    if (lookup a d.pubs).isSome then
      let d := d.hangUp a
      { d with pubs := erase a d.pubs, stats := erase a d.stats }
    else d
  | .shutdown => d

/-- How a connection task ends: it panics, the transport cannot connect, or it has a connection that behaves as
given during the handshake and after. -/
inductive TaskOut where
  | panicked
  | failed
  | connected (hs : HsEnv)
  deriving Repr, DecidableEq

/-- The task of sub/driver.rs:232-289: `none`, not finished; `some none`, an error; otherwise the reads left for
the data codec. With a token, the connection is used only after the handshake. -/
def taskResult (token : Option Bytes) : TaskOut → R (Option (Option (HsEnv × List ReadAns)))
  | .panicked => .panic
  | .failed => .ok (some none)
  | .connected hs =>
    match token with
    | none => .ok (some (some (hs, hs.reads)))
    | some tok =>
      match hsClient tok hs with
      | .waiting _ => .ok none
      | .accepted _ _ rest _ => .ok (some (some (hs, rest)))
      | .failed _ => .ok (some none)
      | .panicked => .panic

/-- sub/driver.rs:314-318 -/
def offerAll (s : Session) : List Str → Session
  | [] => s
  | t :: ts => offerAll (s.offer (.subscribe t)).2 ts

/-- `on_connection`, sub/driver.rs:292-324. `order`: the order in which the set of topics is iterated. -/
def Driver.onConnection (d : Driver A) (order : List Str) (a : A) (via : HsEnv) (input : List ReadAns) : Driver A :=
  match lookup a d.pubs with
  | some (.active _) => d
  | _ =>
    let ts := if order.isPerm d.topics then order else d.topics
    { d with
      sessions := d.sessions ++ [offerAll (Session.new d.opts.readBuffer via input) ts]
      addrs := d.addrs ++ [a]
      pubs := insert a (.active d.sessions.length) d.pubs
      stats := insert a d.sessions.length d.stats }

/-- `to_socket.try_send`, sub/driver.rs:357: what becomes of a message. -/
def Driver.deliver (d : Driver A) (a : A) (u : Nat) (t : TopicMsg) (payload : Bytes) : Driver A :=
  if d.closed then { d with fates := d.fates ++ [(u, t, .gone)] }
  else if d.inbox.length < d.opts.ingress then
    { d with
      inbox := d.inbox ++ [{ source := a, topic := t.topic, payload, conn := u }]
      fates := d.fates ++ [(u, t, .delivered)] }
  else { d with fates := d.fates ++ [(u, t, .full)] }

/-- One publisher in the loop of `poll_publishers`, sub/driver.rs:340-395, with the deferred actions of
399-410 for it (they concern this entry and its connection task only). Returns `progress`. -/
def Driver.pollPub (D : Decompressors) (d : Driver A) (a : A) : R (Driver A × Bool) :=
  match lookup a d.pubs with
  | none => .ok (d, false)
  | some (.active u) =>
    match d.sessions[u]? with
    | none => .ok (d, false)
    | some s =>
      match s.driverRecv with
      | (some (some t), s) =>
        let d := { d with sessions := d.sessions.set u s }
        match tryDecompress D t.ctype t.payload with
        | none => .ok ({ d with fates := d.fates ++ [(u, t, .undecodable)] }, false)
        | some payload => .ok (d.deliver a u t payload, true)
      | (some none, _) => .ok (d.resetPublisher a, true)
      | (none, s) => .ok ({ d with sessions := d.sessions.set u s }, false)
  | some (.inactive b) => do
    let (o, b) ← b.poll d.now
    let d := { d with pubs := d.pubs.map fun x => if x.1 = a then (a, .inactive b) else x }
    match o with
    | .pending => return (d, false)
    | .item _ => return (d.connect a, true)
    | .ended => return ({ d with pubs := erase a d.pubs }, false)

/-- `poll_publishers`, sub/driver.rs:332-417; `order`: the order in which the map is iterated. -/
def Driver.pollPublishers (D : Decompressors) (d : Driver A) : List A → R (Driver A × Bool)
  | [] => .ok (d, false)
  | a :: as => do
    let (d, p) ← d.pollPub D a
    let (d, q) ← Driver.pollPublishers D d as
    return (d, p || q)

/-- Environment of one iteration of the driver's loop: iteration orders of the map and of the topic set, and
which connection task (by position) finishes, how. -/
structure Env (A : Type) where
  order : List A
  topicOrder : List Str := []
  join : Option (Nat × TaskOut) := none

/-- What an iteration did: go on looping, or return `Pending`. There is no `Ready`: the driver never ends. -/
inductive Out where
  | again
  | pending
  deriving Repr, DecidableEq

/-- The connection tasks, sub/driver.rs:73-85 with `JoinMap::poll_join_next` (msg-common/src/task.rs:93-105). A
`JoinError` (the task panicked) is not matched: the key stays and the driver returns `Pending`. -/
def Driver.joinStep (d : Driver A) (e : Env A) : Driver A × Out :=
  match e.join with
  | none => (d, .pending)
  | some (i, out) =>
    match d.tasks[i]? with
    | none => (d, .pending)
    | some a =>
      match taskResult d.opts.token out with
      | .panic => ({ d with tasks := d.tasks.eraseIdx i }, .pending)
      | .ok none => (d, .pending)
      | .ok (some none) => ({ d with tasks := d.tasks.eraseIdx i, keys := d.keys.filter (· ≠ a) }, .again)
      | .ok (some (some (via, input))) =>
        ({ d with tasks := d.tasks.eraseIdx i, keys := d.keys.filter (· ≠ a) }.onConnection e.topicOrder a via input,
          .again)

/-- One iteration of the loop of `SubDriver::poll`, sub/driver.rs:58-88. -/
def Driver.iter (D : Decompressors) (d : Driver A) (e : Env A) : R (Driver A × Out) := do
  let (d, progress) ← d.pollPublishers D e.order
  if progress then return (d, .again)
  else
    match d.cmdq with
    | c :: q => return ({ d with cmdq := q, processed := d.processed ++ [c] }.onCommand c, .again)
    | [] => return d.joinStep e

/-! ## The front-end -/

/-- `SubError` (sub/mod.rs:24-40), as far as the front-end's methods return it. -/
inductive SubErr where
  | io
  | socketClosed
  | channelFull
  | noValidEndpoints
  | reservedTopic
  deriving Repr, DecidableEq

/-- `DEFAULT_BUFFER_SIZE`, msg-socket/src/lib.rs:26-27, for the command channel (sub/socket.rs:130). -/
def cmdCap : Nat := 1024

/-- `try_send_command`, sub/socket.rs:255-262. (`Closed` cannot happen: the driver does not end.) -/
def Driver.trySend (d : Driver A) (c : Command A) : Except SubErr Unit × Driver A :=
  if d.cmdq.length < cmdCap then (.ok (), { d with cmdq := d.cmdq ++ [c], woken := true }) else (.error .channelFull, d)

/-- `send_command`, sub/socket.rs:249-253: `none` — waiting for room. -/
def Driver.send (d : Driver A) (c : Command A) : Option (Except SubErr Unit) × Driver A :=
  if d.cmdq.length < cmdCap then (some (.ok ()), { d with cmdq := d.cmdq ++ [c], woken := true }) else (none, d)

/-- `ensure_active_driver`, sub/socket.rs:264-270. -/
def Driver.ensureActive (d : Driver A) : Driver A := { d with started := true }

/-- `topic.starts_with("MSG")`, sub/socket.rs:196,210,224,238. -/
def reserved (t : Str) : Bool := ['M', 'S', 'G'].isPrefixOf t

/-- `try_subscribe`, sub/socket.rs:206-217. -/
def Driver.trySubscribe (d : Driver A) (t : Str) : Except SubErr Unit × Driver A :=
  let d := d.ensureActive
  if reserved t then (.error .reservedTopic, d) else d.trySend (.subscribe t)

/-- `subscribe`, sub/socket.rs:192-203. -/
def Driver.subscribeAsync (d : Driver A) (t : Str) : Option (Except SubErr Unit) × Driver A :=
  let d := d.ensureActive
  if reserved t then (some (.error .reservedTopic), d) else d.send (.subscribe t)

/-- `try_unsubscribe`, sub/socket.rs:234-245. -/
def Driver.tryUnsubscribe (d : Driver A) (t : Str) : Except SubErr Unit × Driver A :=
  let d := d.ensureActive
  if reserved t then (.error .reservedTopic, d) else d.trySend (.unsubscribe t)

/-- `unsubscribe`, sub/socket.rs:220-231. -/
def Driver.unsubscribeAsync (d : Driver A) (t : Str) : Option (Except SubErr Unit) × Driver A :=
  let d := d.ensureActive
  if reserved t then (some (.error .reservedTopic), d) else d.send (.unsubscribe t)

/-- `connect_inner`/`try_connect_inner`, sub/socket.rs:161-173: the latter; the former differs as `send` does
from `trySend`. -/
def Driver.tryConnect (d : Driver A) (a : A) : Except SubErr Unit × Driver A := d.ensureActive.trySend (.connect a)
def Driver.connectAsync (d : Driver A) (a : A) : Option (Except SubErr Unit) × Driver A :=
  d.ensureActive.send (.connect a)

/-- `disconnect_inner`/`try_disconnect_inner`, sub/socket.rs:175-187. -/
def Driver.tryDisconnect (d : Driver A) (a : A) : Except SubErr Unit × Driver A :=
  d.ensureActive.trySend (.disconnect a)
def Driver.disconnectAsync (d : Driver A) (a : A) : Option (Except SubErr Unit) × Driver A :=
  d.ensureActive.send (.disconnect a)

/-- `poll_next` of the socket, sub/socket.rs:284-290: `none` — pending. (The driver never drops its end.) -/
def Driver.recv (d : Driver A) : Option (InMsg A) × Driver A :=
  match d.inbox with
  | m :: ms => (some m, { d with inbox := ms, received := d.received ++ [m] })
  | [] => (none, d)

/-- `Drop`, sub/socket.rs:277-282: a `Shutdown` command, if there is room; then the ends of both channels go
away (a driver that was never spawned goes with the socket). -/
def Driver.dropSocket (d : Driver A) : Driver A :=
  { (d.trySend .shutdown).2 with closed := true, inbox := [], woken := true }

/-- `SubSocket::with_options`, sub/socket.rs:128-159. `mpsc::channel` panics for a buffer of 0 messages and of more than `Semaphore::MAX_PERMITS`
(`usize::MAX >> 3`, here with 64 bits). -/
def Driver.new (opts : Options) (now : Nat) : R (Driver A) :=
  if opts.ingress = 0 ∨ 2 ^ 61 ≤ opts.ingress then .panic else .ok { opts, now }

/-- A method of the socket. -/
inductive Call (A : Type) where
  | subscribe (t : Str)
  | trySubscribe (t : Str)
  | unsubscribe (t : Str)
  | tryUnsubscribe (t : Str)
  | connect (a : A)
  | tryConnect (a : A)
  | disconnect (a : A)
  | tryDisconnect (a : A)
  | recv
  deriving Repr, DecidableEq

/-- Things that happen to a subscriber socket: an iteration of the driver's loop (once it was spawned), an
iteration of the loop of session task `u`, the clock moves, a method call, the socket is dropped. -/
inductive Act (A : Type) where
  | iter (e : Env A)
  | session (u : Nat) (e : SEnv)
  | advance (dt : Nat)
  | call (c : Call A)
  | dropSocket

/-- The state after a method call. -/
def Driver.call (d : Driver A) : Call A → Driver A
  | .subscribe t => (d.subscribeAsync t).2
  | .trySubscribe t => (d.trySubscribe t).2
  | .unsubscribe t => (d.unsubscribeAsync t).2
  | .tryUnsubscribe t => (d.tryUnsubscribe t).2
  | .connect a => (d.connectAsync a).2
  | .tryConnect a => (d.tryConnect a).2
  | .disconnect a => (d.disconnectAsync a).2
  | .tryDisconnect a => (d.tryDisconnect a).2
  | .recv => d.recv.2

/-- One action. A panic is one of the driver. -/
def Driver.act (L : Lossy) (D : Decompressors) (d : Driver A) : Act A → R (Driver A)
  | .iter e => if d.started then do
      let (d, o) ← d.iter D e
      return { d with woken := o = .again }
    else .ok d
  | .session u e =>
    match d.sessions[u]? with
    | some s =>
      let s' := s.step L e
      .ok { d with sessions := d.sessions.set u s', woken := d.woken || (s.armed && !s'.armed) }
    | none => .ok d
  | .advance dt => .ok { d with now := d.now + dt }
  | .call c => if d.closed then .ok d else .ok (d.call c)
  | .dropSocket => if d.closed then .ok d else .ok d.dropSocket

/-- A history. -/
def Driver.run (L : Lossy) (D : Decompressors) (d : Driver A) : List (Act A) → R (Driver A)
  | [] => .ok d
  | a :: as => do
    let d ← d.act L D a
    Driver.run L D d as

/-! ## Socket addresses -/

/-- `std::net::SocketAddr`. -/
inductive SockAddr where
  | v4 (ip : UInt32) (port : UInt16)
  | v6 (ip : BitVec 128) (port : UInt16) (flowinfo scope : UInt32)
  deriving Repr, DecidableEq

/-- `endpoint.ip().is_unspecified()`. -/
def SockAddr.unspecified : SockAddr → Bool
  | .v4 ip _ => ip = 0
  | .v6 ip _ _ _ => ip = 0

/-- sub/socket.rs:51-56,66-71: an unspecified IP is replaced by 127.0.0.1 (`set_ip` with an IPv4 address makes
the whole an IPv4 address). -/
def SockAddr.dialable : SockAddr → SockAddr
  | .v4 ip p => if ip = 0 then .v4 0x7F000001 p else .v4 ip p
  | .v6 ip p f s => if ip = 0 then .v4 0x7F000001 p else .v6 ip p f s

/-- `connect(endpoint)`, sub/socket.rs:47-59. `res`: what `lookup_host` gives (`none`: an error). -/
def Driver.connectTo (d : Driver SockAddr) (res : Option (List SockAddr)) :
    Option (Except SubErr Unit) × Driver SockAddr :=
  match res with
  | none => (some (.error .io), d)
  | some [] => (some (.error .noValidEndpoints), d)
  | some (a :: _) => d.connectAsync a.dialable

/-- `try_connect(endpoint)`, sub/socket.rs:62-74. `res`: what the endpoint parses to. -/
def Driver.tryConnectTo (d : Driver SockAddr) (res : Option SockAddr) : Except SubErr Unit × Driver SockAddr :=
  match res with
  | none => (.error .noValidEndpoints, d)
  | some a => d.tryConnect a.dialable

/-- `disconnect(endpoint)`, sub/socket.rs:77-82. -/
def Driver.disconnectFrom (d : Driver SockAddr) (res : Option (List SockAddr)) :
    Option (Except SubErr Unit) × Driver SockAddr :=
  match res with
  | none => (some (.error .io), d)
  | some [] => (some (.error .noValidEndpoints), d)
  | some (a :: _) => d.disconnectAsync a

/-- `try_disconnect(endpoint)`, sub/socket.rs:85-90. -/
def Driver.tryDisconnectFrom (d : Driver SockAddr) (res : Option SockAddr) : Except SubErr Unit × Driver SockAddr :=
  match res with
  | none => (.error .noValidEndpoints, d)
  | some a => d.tryDisconnect a

end MsgRs.Sub
