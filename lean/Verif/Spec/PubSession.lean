import Verif.Model.PubSession
import Verif.Spec.Topics
/-!
# What a publisher session is supposed to put on its connection
-/
namespace MsgRs.Spec
open MsgRs Pub

/-- The subscription operation a received message stands for, if any: a message without payload whose
topic is `MSG.SUB.` or `MSG.UNSUB.` followed by the topic. -/
def controlOp (L : Lossy) (m : PubSub.Message) : Option Op :=
  if m.header.size ≠ 0 then none
  else if PubSub.subPrefix <+: m.header.topic then some (.sub (L.dec (m.header.topic.drop 8)))
  else if PubSub.unsubPrefix <+: m.header.topic then some (.unsub (L.dec (m.header.topic.drop 10)))
  else none

/-- The subscription operations received during a history. -/
def opsOf (L : Lossy) (evs : List Ev) : List Op :=
  evs.filterMap fun
    | .incoming m => controlOp L m
    | _ => none

/-- The frame for the `k`-th message sent to a subscriber. -/
def frame (k : Nat) (m : PubMsg) (now : UInt64) : PubSub.Message :=
  { header := { ctype := m.ctype.toByte, topicSize := UInt16.ofNat (utf8 m.topic).length,
                topic := utf8 m.topic, timestamp := now, seq := UInt32.ofNat k,
                size := UInt32.ofNat m.payload.length },
    payload := m.payload }

/-- Replay a history: each message taken from the feed while its topic passes the current subscriptions is
due, numbered consecutively from `k`. `ops` are the operations received before. -/
def due (L : Lossy) (ops : List Op) (k : Nat) : List Ev → List PubSub.Message
  | [] => []
  | .took m now :: evs =>
    if Trie.contains (filterAfter ops) m.topic then frame k m now :: due L ops (k + 1) evs
    else due L ops k evs
  | .incoming m :: evs => due L (ops ++ (controlOp L m).toList) k evs
  | _ :: evs => due L ops k evs

/-- The messages a history handed to the connection. -/
def sentOf (evs : List Ev) : List PubSub.Message :=
  evs.filterMap fun
    | .sent m => some m
    | _ => none

/-- The messages a history took from the feed. -/
def tookOf (evs : List Ev) : List PubMsg :=
  evs.filterMap fun
    | .took m _ => some m
    | _ => none

/-- The control messages and other frames a history received. -/
def incomingOf (evs : List Ev) : List PubSub.Message :=
  evs.filterMap fun
    | .incoming m => some m
    | _ => none

/-- How often a history asked the connection for input and went on. -/
def pollsOf (evs : List Ev) : Nat :=
  evs.countP fun
    | .incoming _ => true
    | .idle => true
    | _ => false

/-- The control frame for an operation, built at clock reading `now`: what a subscriber sends
(sub/session.rs:65-76). -/
def controlFrame (now : UInt64) : Op → R PubSub.Message
  | .sub t => PubSub.Message.newSub now (utf8 t)
  | .unsub t => PubSub.Message.newUnsub now (utf8 t)

end MsgRs.Spec
