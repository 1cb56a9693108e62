import Verif.Model.Writer
import Verif.Model.Compression
import Verif.Model.Trie
/-!
# msg-socket/src/pub/session.rs — one subscriber session of a publisher
-/
namespace MsgRs.Pub
open MsgRs

/-- `ControlMsg`, pub/session.rs:103-110. -/
inductive Control where
  | subscribe (topic : Str)
  | unsubscribe (topic : Str)
  | close
  deriving Repr, DecidableEq

/-- `msg_to_control`, pub/session.rs:115-133. (`payload_size()` is the size field of the header.) -/
def msgToControl (L : Lossy) (m : PubSub.Message) : Control :=
  if m.header.size = 0 then
    if PubSub.subPrefix.isPrefixOf m.header.topic then
      .subscribe (L.dec (m.header.topic.drop PubSub.subPrefix.length))
    else if PubSub.unsubPrefix.isPrefixOf m.header.topic then
      .unsubscribe (L.dec (m.header.topic.drop PubSub.unsubPrefix.length))
    else .close
  else .close

/-- `SubscriberSession`, pub/session.rs:20-39. `input` is ghost: the answers the connection will give to
reads. `bytesTx` is what this session has added to the shared statistics counter. The session id, used
only in log output, is left out. -/
structure Session where
  seq : UInt32 := 0
  pending : Option PubSub.Message := none
  filter : Trie.Node := Trie.Node.new
  shouldFlush : Bool := false
  rd : Reader PubSub.State
  wr : Writer
  input : List ReadAns
  bytesTx : Nat := 0

/-- The session value built in pub/driver.rs:61-74 and 186-199. -/
def Session.new (boundary : Nat) (input : List ReadAns) : Session :=
  { rd := Reader.new PubSub.codec, wr := { boundary }, input }

/-- What polling the broadcast stream gives (pub/session.rs:179-195). -/
inductive FeedAns where
  | pending
  | msg (m : PubMsg)
  | lagged (missed : Nat)
  | closed
  deriving Repr, DecidableEq

/-- Answers of the environment during one iteration of the poll loop: `tick` — the flush interval is
absent or has elapsed; answers to writes during `poll_flush`, `poll_ready` and `poll_close`; the broadcast
channel;
the clock read by `into_wire`. -/
structure Env where
  tick : Bool
  flushAns : List WriteAns
  readyAns : List WriteAns
  closeAns : List WriteAns
  feed : FeedAns
  now : UInt64

/-- What one iteration did. `blocked` and `idle` return `Poll::Pending`, `ended` returns `Ready(())`,
everything else continues the loop. -/
inductive Ev where
  | sent (m : PubSub.Message)
  | blocked
  | took (m : PubMsg) (now : UInt64)
  | lagged (missed : Nat)
  | incoming (m : PubSub.Message)
  | idle
  | ended
  deriving Repr, DecidableEq

/-- `on_outgoing`, pub/session.rs:44-56. `into_wire` panics on topics longer than 65535 bytes. -/
def Session.onOutgoing (s : Session) (m : PubMsg) (now : UInt64) : R Session :=
  if Trie.contains s.filter m.topic then do
    let w ← m.intoWire now s.seq
    return { s with pending := some w, seq := s.seq + 1 }
  else .ok s

/-- `on_incoming`, pub/session.rs:59-75. -/
def Session.onIncoming (L : Lossy) (s : Session) (m : PubSub.Message) : Session :=
  match msgToControl L m with
  | .subscribe t => { s with filter := Trie.insert s.filter t }
  | .unsubscribe t => { s with filter := Trie.remove s.filter t }
  | .close => s

/-- First step of the loop, pub/session.rs:146-150 with `should_flush` (78-93). -/
def Session.flushStep (s : Session) (e : Env) : Session :=
  if s.shouldFlush && e.tick then
    match s.wr.flush e.flushAns with
    | (.ok, wr) => { s with wr, shouldFlush := false }
    | (_, wr) => { s with wr }
  else s

/-- `poll_close_unpin`, whose result is ignored (pub/session.rs:191,207): one attempt to flush. Shutting the
connection down afterwards is not modelled. -/
def Session.close (s : Session) (e : Env) : Session := { s with wr := (s.wr.flush e.closeAns).2 }

/-- One iteration of the loop in `poll`, pub/session.rs:142-218. Note `is_ready()` on line 153 also
accepts `Ready(Err(_))`. The codec's `start_send` never fails, so lines 167-172 are unreachable. -/
def Session.iter (L : Lossy) (s : Session) (e : Env) : R (Session × Ev) :=
  let s := s.flushStep e
  match s.wr.ready e.readyAns with
  | (.pending, wr) => .ok ({ s with wr }, .blocked)
  | (_, wr) =>
    let s := { s with wr }
    match s.pending with
    | some m =>
      .ok ({ s with pending := none, wr := s.wr.send (PubSub.encode m), shouldFlush := true,
                    bytesTx := s.bytesTx + m.size }, .sent m)
    | none =>
      match e.feed with
      | .msg m => do
        let s ← s.onOutgoing m e.now
        return (s, .took m e.now)
      | .lagged k => .ok (s, .lagged k)
      | .closed => .ok (s.close e, .ended)
      | .pending => do
        let (o, rd, input) ← s.rd.pollNext PubSub.codec s.input
        let s := { s with rd, input }
        match o with
        | .item m => return (s.onIncoming L m, .incoming m)
        | .err _ => return (s.close e, .ended)
        | .ended => return (s, .ended)
        | .pending => return (s, .idle)

/-- A history of a session: one environment per loop iteration, across any number of polls, until the
session ends. (A poll that returned `Pending` is followed by a later poll, whose first iteration is the
next element.) -/
def Session.run (L : Lossy) (s : Session) : List Env → R (Session × List Ev)
  | [] => .ok (s, [])
  | e :: es => do
    let (s, ev) ← s.iter L e
    if ev = .ended then return (s, [.ended])
    else do
      let (s, evs) ← Session.run L s es
      return (s, ev :: evs)

end MsgRs.Pub
