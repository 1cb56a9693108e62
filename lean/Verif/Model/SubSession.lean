import Verif.Model.Writer
import Verif.Model.Handshake
import Verif.Model.Compression
import Verif.Model.Trie
/-!
# msg-socket/src/sub/{session,stream,stats}.rs — one publisher session of a subscriber

Together with the `Channel` between the session and the driver (`channel(1024, 64)`, sub/driver.rs:303).
-/
namespace MsgRs.Sub
open MsgRs

/-- `SessionCommand`, sub/session.rs:22-25. -/
inductive Cmd where
  | subscribe (topic : Str)
  | unsubscribe (topic : Str)
  deriving Repr, DecidableEq

/-- The wire message of a command, sub/session.rs:63-73,95-100 (`unix_micros()` is `now`). Panics on topics
that do not fit. -/
def Cmd.msg (now : UInt64) : Cmd → R PubSub.Message
  | .subscribe t => PubSub.Message.newSub now (utf8 t)
  | .unsubscribe t => PubSub.Message.newUnsub now (utf8 t)

/-- `TopicMessage`, sub/stream.rs:52-58. -/
structure TopicMsg where
  timestamp : UInt64
  ctype : UInt8
  topic : Str
  payload : Bytes
  deriving Repr, DecidableEq

/-- sub/stream.rs:72-82 -/
def TopicMsg.ofWire (L : Lossy) (m : PubSub.Message) : TopicMsg :=
  { timestamp := m.header.timestamp, ctype := m.header.ctype, topic := L.dec m.header.topic, payload := m.payload }

/-- `SessionStats`, sub/stats.rs:49-57 (64-bit counters; here they do not wrap). -/
structure Stats where
  bytesRx : Nat := 0
  latency : Nat := 0
  latencyIdx : Nat := 0
  deriving Repr, DecidableEq

/-- `increment_rx` and `update_latency`, sub/stats.rs:59-75, as `on_incoming` calls them
(sub/session.rs:79-83; the latency saturates at 0). The sum is computed in 64 bits and wraps (the project's profiles have no overflow
checks: /repo/Cargo.toml:58-60, and `release` by default). The index wraps after 2^64 messages, here it does not. -/
def Stats.update (st : Stats) (now : UInt64) (m : TopicMsg) : Stats :=
  { bytesRx := st.bytesRx + m.payload.length
    latency := ((now.toNat - m.timestamp.toNat) + st.latencyIdx * st.latency) % 2 ^ 64 / (st.latencyIdx + 1)
    latencyIdx := st.latencyIdx + 1 }

/-- Capacities of the two directions of the channel, sub/driver.rs:303. -/
def toDriverCap : Nat := 1024
def cmdsCap : Nat := 64

/-- `PublisherSession` (sub/session.rs:29-41) with its `PublisherStream` (sub/stream.rs:17-20) and its channel.
`toDriver`, `cmds`: contents of the channel's two directions. `alive`: the driver still holds its end.
`over`: the session task has ended (returned or panicked) and dropped its end. `armed`: the driver's waker is
registered on the channel.
Ghost: `via` and `input0`, how the connection was established and its answers to reads; `polls` the number of
polls; `got` the messages read; `fwd` those accepted by the channel to the driver, `drops` the number of the
others; `samples` the latencies recorded; `offered` the commands the
driver tried to send, `queued` those the channel accepted, `handled` those the session received;
`sent` the messages handed to the connection; `lost` those whose `poll_send` failed; `rotated`: a `poll_send`
was `Pending` while other messages waited behind. -/
structure Session where
  rd : Reader PubSub.State
  wr : Writer
  flush : Bool := false
  egress : List PubSub.Message := []
  toDriver : List TopicMsg := []
  cmds : List Cmd := []
  alive : Bool := true
  over : Bool := false
  armed : Bool := false
  stats : Stats := {}
  via : HsEnv
  input0 : List ReadAns
  input : List ReadAns
  polls : Nat := 0
  got : List PubSub.Message := []
  fwd : List TopicMsg := []
  drops : Nat := 0
  samples : List Nat := []
  offered : List Cmd := []
  queued : List Cmd := []
  handled : List (UInt64 × Cmd) := []
  sent : List PubSub.Message := []
  lost : List PubSub.Message := []
  rotated : Bool := false

/-- The session built in `on_connection`, sub/driver.rs:301-311 (`Framed::with_capacity` sets the backpressure
boundary of the writer to the capacity). -/
def Session.new (boundary : Nat) (via : HsEnv) (input : List ReadAns) : Session :=
  { rd := Reader.new PubSub.codec, wr := { boundary }, via, input0 := input, input }

/-- Answers of the environment during one iteration of the session's loop: writes during `poll_flush`; for each
attempt to send, writes during `poll_ready`; the clock. -/
structure SEnv where
  flushAns : List WriteAns := []
  sendAns : List (List WriteAns) := []
  now : UInt64 := 0

/-- sub/stream.rs:66-70; `is_ready()` also accepts an error. -/
def Session.flushStep (s : Session) (e : SEnv) : Session :=
  if s.flush then
    match s.wr.flush e.flushAns with
    | (.pending, wr) => { s with wr }
    | (_, wr) => { s with wr, flush := false }
  else s

/-- `on_incoming`, sub/session.rs:77-93, and `Channel::try_send` (msg-common/src/channel.rs:65-71): the message
is dropped when the channel is full or the driver's end is gone. A send wakes the driver if its waker is
registered (and takes the waker). -/
def Session.onIncoming (L : Lossy) (s : Session) (m : PubSub.Message) (now : UInt64) : Session :=
  let t := TopicMsg.ofWire L m
  let s := { s with stats := s.stats.update now t, got := s.got ++ [m], samples := s.samples ++ [now.toNat - t.timestamp.toNat] }
  if s.alive = true ∧ s.toDriver.length < toDriverCap then
    { s with toDriver := s.toDriver ++ [t], fwd := s.fwd ++ [t], armed := false }
  else { s with drops := s.drops + 1 }

/-- The `while let` over the egress queue, sub/session.rs:126-136, with `poll_send` (sub/stream.rs:25-43). The
`Bool` is `progress`. A message that cannot be sent yet goes to the *back* of the queue. -/
def Session.sendLoop (s : Session) (progress : Bool) :
    List PubSub.Message → List (List WriteAns) → Session × Bool
  | [], _ => ({ s with egress := [] }, progress)
  | m :: ms, as =>
    match s.wr.ready (as.headD []) with
    | (.pending, wr) => ({ s with wr, egress := ms ++ [m], rotated := s.rotated || !ms.isEmpty }, progress)
    | (.err, wr) => Session.sendLoop { s with wr, lost := s.lost ++ [m] } true ms as.tail
    | (.ok, wr) =>
      Session.sendLoop { s with wr := wr.send (PubSub.encode m), flush := true, sent := s.sent ++ [m] } true ms as.tail

/-- What an iteration did. -/
inductive SOut where
  | again
  | pending
  | ended
  deriving Repr, DecidableEq

/-- The command part of an iteration, sub/session.rs:142-153. A command whose topic does not fit panics, which
ends the session task. -/
def Session.cmdStep (s : Session) (e : SEnv) : Session × SOut :=
  match s.cmds with
  | c :: cs =>
    match c.msg e.now with
    | .panic => ({ s with cmds := cs }, .ended)
    | .ok m => ({ s with cmds := cs, handled := s.handled ++ [(e.now, c)], egress := s.egress ++ [m] }, .again)
  | [] => if s.alive then (s, .pending) else (s, .ended)

/-- One iteration of the loop of `PublisherSession::poll`, sub/session.rs:108-157, with
`PublisherStream::poll_next` (sub/stream.rs:63-85): at the end of the stream it returns `Pending`, so the
branch of sub/session.rs:119-122 is never taken. -/
def Session.iter (L : Lossy) (s : Session) (e : SEnv) : R (Session × SOut) := do
  let s := s.flushStep e
  let (o, rd, input) ← s.rd.pollNext PubSub.codec s.input
  let s := { s with rd, input, polls := s.polls + 1 }
  match o with
  | .item m => return (s.onIncoming L m e.now, .again)
  | .err _ => return (s, .again)
  | _ =>
    let (s, progress) := s.sendLoop false s.egress e.sendAns
    if progress then return (s, .again) else return s.cmdStep e

/-- The session task runs one iteration; when it ends (or panics: the codec never does) its end of the channel
is dropped, which wakes the driver. -/
def Session.step (L : Lossy) (s : Session) (e : SEnv) : Session :=
  if s.over then s
  else
    match s.iter L e with
    | .panic => { s with over := true, armed := false }
    | .ok (s, .ended) => { s with over := true, armed := false }
    | .ok (s, _) => s

/-- The driver's `channel.try_send(command)` (sub/driver.rs:135,169,314-318). -/
inductive CmdRes where
  | ok
  | full
  | closed
  deriving Repr, DecidableEq

def Session.offer (s : Session) (c : Cmd) : CmdRes × Session :=
  if s.over then (.closed, { s with offered := s.offered ++ [c] })
  else if s.cmds.length < cmdsCap then
    (.ok, { s with cmds := s.cmds ++ [c], queued := s.queued ++ [c], offered := s.offered ++ [c] })
  else (.full, { s with offered := s.offered ++ [c] })

/-- The driver's `channel.poll_recv` (sub/driver.rs:343): a message, the end, or `Pending` with the waker
registered. -/
def Session.driverRecv (s : Session) : Option (Option TopicMsg) × Session :=
  match s.toDriver with
  | m :: ms => (some (some m), { s with toDriver := ms })
  | [] => if s.over then (some none, s) else (none, { s with armed := true })

end MsgRs.Sub
