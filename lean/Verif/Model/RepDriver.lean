import Verif.Model.Handshake
import Verif.Model.PubDriver
import Verif.Model.Compression
/-!
# msg-socket/src/rep — the reply socket

`RepDriver::poll` and `PeerState::poll_next` are loops; the model has one action per loop iteration of a
peer, per other branch of the driver, and per call of the application. Every schedule of the code is a list of
such actions (the code tries the branches in a fixed order and the peers from a random index on; the model
allows any order, so it has all the code's schedules and more).
-/
namespace MsgRs.Rep
open MsgRs

/-- The oneshot channel of a request (`Request::response` / `PendingRequest::response`): the application
still holds the sender, has sent a response, or has dropped the sender. -/
inductive Slot where
  | waiting
  | responded (b : Bytes)
  | dropped
  deriving Repr, DecidableEq

/-- `PeerState`, rep/driver.rs:31-39. A request is named by a handle, fresh for every request frame.
`pend` and `queue` are the `FuturesUnordered` of `PendingRequest`: the futures in it (handle, message id), and its
queue of futures to poll (those just pushed and those whose waker was called). Ghost: `uid` names the
connection, `input0` all its answers to reads, `input` those still to come, `polls` the number of reads so far,
`issued` the requests
read (with their handles), `answers` the responses put on the egress queue (with the handle of their
request), `sent` the messages handed to the connection. -/
structure Peer (A : Type) where
  uid : Nat
  addr : A
  rd : Reader ReqRep.State
  wr : Writer
  egress : List ReqRep.Message := []
  shouldFlush : Bool := false
  pend : List (Nat × UInt32) := []
  queue : List Nat := []
  input0 : List ReadAns
  input : List ReadAns
  polls : Nat := 0
  issued : List (Nat × ReqRep.Message) := []
  answers : List (Nat × ReqRep.Message) := []
  sent : List ReqRep.Message := []

/-- rep/driver.rs:115-123 and 237-245. -/
def Peer.new (uid : Nat) (addr : A) (input : List ReadAns) : Peer A :=
  { uid, addr, rd := Reader.new ReqRep.codec, wr := {}, input0 := input, input }

/-- Answers of the connection to writes during one iteration. -/
structure PEnv where
  flushAns : List WriteAns
  readyAns : List WriteAns

/-- What one iteration did: `sent` and `queued` `continue`, the others return (`pending`: `Poll::Pending`). -/
inductive POut where
  | sent (m : ReqRep.Message)
  | queued
  | request (h : Nat) (m : ReqRep.Message)
  | error
  | closed
  | pending
  deriving Repr, DecidableEq

/-- `FuturesUnordered::poll_next` over `PendingRequest::poll` (rep/driver.rs:353-369): futures are taken from
the queue and polled until one is ready. -/
def popQueue (slots : Nat → Slot) (pend : List (Nat × UInt32)) :
    List Nat → Option (Nat × Option (UInt32 × Bytes)) × List (Nat × UInt32) × List Nat
  | [] => (none, pend, [])
  | h :: q =>
    match slots h, pend.lookup h with
    | .responded b, some id => (some (h, some (id, b)), pend.filter (·.1 ≠ h), q)
    | .dropped, some _ => (some (h, none), pend.filter (·.1 ≠ h), q)
    | _, _ => popQueue slots pend q

/-- rep/driver.rs:262-266 -/
def Peer.flushStep (p : Peer A) (e : PEnv) : Peer A :=
  if p.shouldFlush then
    match p.wr.flush e.flushAns with
    | (.ok, wr) => { p with wr, shouldFlush := false }
    | (_, wr) => { p with wr }
  else p

/-- rep/driver.rs:323-346: read from the connection. -/
def Peer.readStep (next : Nat) (p : Peer A) : R (Peer A × POut) := do
  let (o, rd, input) ← p.rd.pollNext ReqRep.codec p.input
  let p := { p with rd, input, polls := p.polls + 1 }
  match o with
  | .item m =>
    return ({ p with pend := p.pend ++ [(next, m.header.id)], queue := p.queue ++ [next],
                     issued := p.issued ++ [(next, m)] }, .request next m)
  | .err _ => return (p, .error)
  | .ended => return (p, .closed)
  | .pending => return (p, .pending)

/-- rep/driver.rs:292-321: completed requests. A dropped request (`Ready(Some(None))`) does not match the
pattern and falls through to reading. -/
def Peer.completeStep (comp : Option Compressor) (slots : Nat → Slot) (next : Nat) (p : Peer A) :
    R (Peer A × POut) :=
  match popQueue slots p.pend p.queue with
  | (some (h, some (id, b)), pend, queue) =>
    match replyPrepare comp id b with
    | some m => .ok ({ p with pend, queue, egress := p.egress ++ [m], answers := p.answers ++ [(h, m)] }, .queued)
    | none => .ok ({ p with pend, queue }, .queued)
  | (_, pend, queue) => Peer.readStep next { p with pend, queue }

/-- One iteration of the loop of `PeerState::poll_next`, rep/driver.rs:260-349. `is_ready()` on line 269 also
accepts an error; `start_send` never fails. -/
def Peer.iter (comp : Option Compressor) (slots : Nat → Slot) (next : Nat) (p : Peer A) (e : PEnv) :
    R (Peer A × POut) :=
  let p := p.flushStep e
  match p.wr.ready e.readyAns, p.egress with
  | (.pending, wr), _ => Peer.completeStep comp slots next { p with wr }
  | (_, wr), [] => Peer.completeStep comp slots next { p with wr }
  | (_, wr), m :: ms =>
    .ok ({ p with wr := wr.send (ReqRep.encode m), egress := ms, shouldFlush := true, sent := p.sent ++ [m] },
      .sent m)

/-- `PeerState::poll_next`, rep/driver.rs:257-351: iterations until one returns. `none`: still looping when
the given environments are used up. -/
def Peer.poll (comp : Option Compressor) (slots : Nat → Slot) (next : Nat) (p : Peer A) :
    List PEnv → R (Option (Peer A × POut))
  | [] => .ok none
  | e :: es => do
    let (p, o) ← p.iter comp slots next e
    match o with
    | .sent _ | .queued => Peer.poll comp slots next p es
    | o => return some (p, o)

/-- `Request`, rep/mod.rs:61-71, as the application sees it (the compression type is private and left
out). -/
structure Request (A : Type) where
  handle : Nat
  source : A
  msg : Bytes
  deriving Repr, DecidableEq

/-- What became of a request frame (ghost). -/
inductive Fate where
  | delivered (payload : Bytes)
  | undecodable
  | full
  deriving Repr, DecidableEq

/-- `RepDriver` (rep/driver.rs:41-63) together with the front-end: `inbox` is the channel to the socket
(capacity `cap`), `held` the requests the application has received and neither answered nor dropped,
`slots` the oneshot channels. Ghost: `log` (connection, handle, frame, fate), `taken` (requests received by
the application so far), `gone` (connections that were closed or replaced). -/
structure Driver (A : Type) where
  max : Option Nat
  authn : Option (Bytes → Bool)
  comp : Option Compressor
  cap : Nat
  active : Nat := 0
  connTasks : List (Conn A) := []
  authTasks : List (Conn A) := []
  peers : List (Peer A) := []
  inbox : List (Request A) := []
  held : List (Request A) := []
  slots : Nat → Slot := fun _ => .waiting
  next : Nat := 0
  bytesRx : Nat := 0
  bytesTx : Nat := 0
  taken : List (Request A) := []
  log : List (Nat × Nat × ReqRep.Message × Fate) := []
  gone : List (Peer A) := []

/-- rep/socket.rs:104-143; `DEFAULT_BUFFER_SIZE` is 1024 (msg-socket/src/lib.rs:26-27). -/
def Driver.new (max : Option Nat) (authn : Option (Bytes → Bool)) (comp : Option Compressor) : Driver A :=
  { max, authn, comp, cap := 1024 }

/-- The oneshot of `h` is completed: its future, if it is in this peer's `FuturesUnordered` and not already
queued, is queued (`Waker::wake` of a `FuturesUnordered` task). -/
def Peer.wake (h : Nat) (p : Peer A) : Peer A :=
  if h ∈ p.pend.map (·.1) ∧ h ∉ p.queue then { p with queue := p.queue ++ [h] } else p

/-- Complete the oneshot of a request. -/
def Driver.complete (d : Driver A) (h : Nat) (s : Slot) : Driver A :=
  { d with slots := fun h' => if h' = h then s else d.slots h', peers := d.peers.map (Peer.wake h) }

/-- rep/driver.rs:78-94: a request frame arrived. `try_send` fails when the channel is full; the request is
then dropped. -/
def Driver.onRequest (D : Decompressors) (d : Driver A) (p : Peer A) (h : Nat) (m : ReqRep.Message) : Driver A :=
  match tryDecompress D m.header.ctype m.payload with
  | none => { d.complete h .dropped with log := d.log ++ [(p.uid, h, m, .undecodable)] }
  | some payload =>
    let d := { d with bytesRx := d.bytesRx + m.payload.length }
    if d.inbox.length < d.cap then
      { d with inbox := d.inbox ++ [⟨h, p.addr, payload⟩], log := d.log ++ [(p.uid, h, m, .delivered payload)] }
    else { d.complete h .dropped with log := d.log ++ [(p.uid, h, m, .full)] }

/-- One iteration of peer `k`'s loop and, if it returns something, what the driver does with it
(rep/driver.rs:76-105). When a peer's stream ends the driver is told once (`StreamNotifyClose`) and the
connection is dropped. -/
def Driver.stepPeer (D : Decompressors) (d : Driver A) (k : Nat) (e : PEnv) : R (Driver A) :=
  match d.peers[k]? with
  | none => .ok d
  | some p => do
    let (p, o) ← p.iter d.comp d.slots d.next e
    let d' := { d with peers := d.peers.set k p }
    match o with
    | .request h m => return Driver.onRequest D { d' with next := d.next + 1 } p h m
    | .closed => return { d' with peers := d.peers.eraseIdx k, gone := d.gone ++ [p], active := decr d.active }
    | .sent m => return { d' with bytesTx := d.bytesTx + m.size }
    | .queued | .error | .pending => return d'

/-- `StreamMap::insert` of a new peer (rep/driver.rs:113-124, 235-246): an entry with the same address is
replaced, its connection dropped. -/
def Driver.insertPeer [DecidableEq A] (d : Driver A) (p : Peer A) : Driver A :=
  { d with
    peers := d.peers.filter (·.addr ≠ p.addr) ++ [p]
    gone := d.gone ++ d.peers.filter (·.addr = p.addr) }

/-- rep/driver.rs:107-133: an authentication task is reported. A panicked task is removed without further
action. -/
def Driver.stepJoin [DecidableEq A] (d : Driver A) (i : Nat) : Driver A :=
  match d.authn, d.authTasks[i]? with
  | some f, some c =>
    let d' := { d with authTasks := d.authTasks.eraseIdx i }
    match hsServer f c.hs, c.addr with
    | .accepted _ _ rest _, some a => d'.insertPeer (Peer.new c.uid a rest)
    | .failed _, _ => { d' with active := decr d'.active }
    | .panicked, _ => d'
    | _, _ => d
  | _, _ => d

/-- rep/driver.rs:135-153 with `on_incoming` (190-250): an accept future is ready. -/
def Driver.stepConn [DecidableEq A] (d : Driver A) (i : Nat) (ok : Bool) : Driver A :=
  match d.connTasks[i]? with
  | none => d
  | some c =>
    let d' := { d with connTasks := d.connTasks.eraseIdx i }
    if ok then
      match c.addr with
      | none => { d' with active := decr d'.active }
      | some a =>
        match d'.authn with
        | some _ => { d' with authTasks := d'.authTasks ++ [c] }
        | none => d'.insertPeer (Peer.new c.uid a c.hs.reads)
    else { d' with active := decr d'.active }

/-- rep/driver.rs:157-176: the listener reports a connection. -/
def Driver.stepAccept (d : Driver A) (c : Conn A) : Driver A :=
  match d.max with
  | some m =>
    if m ≤ d.active then d
    else { d with active := d.active + 1, connTasks := d.connTasks ++ [c] }
  | none => { d with active := d.active + 1, connTasks := d.connTasks ++ [c] }

/-- Things that happen to a reply socket. -/
inductive Act (A : Type) where
  | peer (k : Nat) (e : PEnv)
  | join (i : Nat)
  | ready (i : Nat) (ok : Bool)
  | accept (c : Conn A)
  /-- The application receives a request (`RepSocket::poll_next`, rep/socket.rs:161-167). -/
  | recv
  /-- `Request::respond` on the `i`-th request held (rep/mod.rs:85-87). -/
  | respond (i : Nat) (b : Bytes)
  /-- The application drops the `i`-th request held. -/
  | drop (i : Nat)

/-- One action. -/
def Driver.act [DecidableEq A] (D : Decompressors) (d : Driver A) : Act A → R (Driver A)
  | .peer k e => d.stepPeer D k e
  | .join i => .ok (d.stepJoin i)
  | .ready i ok => .ok (d.stepConn i ok)
  | .accept c => .ok (d.stepAccept c)
  | .recv =>
    match d.inbox with
    | [] => .ok d
    | r :: rs => .ok { d with inbox := rs, held := d.held ++ [r], taken := d.taken ++ [r] }
  | .respond i b =>
    match d.held[i]? with
    | none => .ok d
    | some r => .ok ({ d with held := d.held.eraseIdx i }.complete r.handle (.responded b))
  | .drop i =>
    match d.held[i]? with
    | none => .ok d
    | some r => .ok ({ d with held := d.held.eraseIdx i }.complete r.handle .dropped)

/-- A history. -/
def Driver.run [DecidableEq A] (D : Decompressors) (d : Driver A) : List (Act A) → R (Driver A)
  | [] => .ok d
  | a :: as => do
    let d ← d.act D a
    Driver.run D d as

end MsgRs.Rep
