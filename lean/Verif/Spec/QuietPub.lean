import Verif.Spec.Asleep
import Verif.Spec.ReqRep
import Verif.Spec.EndToEnd
import Verif.Spec.Topics
import Verif.Model.PubServer
import Verif.Model.SubSession
/-!
# Vocabulary: a publisher and a subscriber with nothing left to do
-/
namespace MsgRs.Spec
open MsgRs

/-- A publisher's session with nothing left to do, when `published` messages have been published: it has taken all of them, handed all that were due to its connection,
which has taken all bytes, and there is nothing to get from what the connection has given. -/
structure SessionIdle (published : Nat) (t : Pub.Task) : Prop where
  taken : t.next = published
  handed : t.sess.pending = none
  flushed : t.sess.wr.buf = []
  dry : Dry PubSub.codec t.sess.rd

/-- A subscriber's connection with nothing left to do: all commands were handled and their frames handed to the connection, which has taken all bytes; there is nothing
to get from what the connection has given, and the background task has taken everything from it. -/
structure LinkIdle (s : Sub.Session) : Prop where
  running : s.over = false
  handled : s.cmds = []
  handed : s.egress = []
  flushed : s.wr.buf = []
  dry : Dry PubSub.codec s.rd
  taken : s.toDriver = []

/-- Nothing is under way between the two ends: each has been given every byte the other wrote. -/
def Exchanged {A : Type} (x : Pub.Ses A) (s : Sub.Session) : Prop :=
  readSoFar s.input0 s.input = x.task.sess.wr.wire ∧ readSoFar x.input x.task.sess.input = s.wr.wire

/-- What matters to one subscriber: it changes its subscriptions, or something is published. -/
inductive Happened where
  | op (o : Op)
  | call (c : PubCall)
  deriving DecidableEq

/-- The changes of subscriptions in a history. -/
def opsIn (l : List Happened) : List Op :=
  l.filterMap fun
    | .op o => some o
    | .call _ => none

/-- The publish calls in a history. -/
def callsIn (l : List Happened) : List PubCall :=
  l.filterMap fun
    | .op _ => none
    | .call c => some c

/-- What the subscriber should receive: each message (topic and payload) published while its topic was wanted, where `want` says which topics are wanted after some
changes of subscriptions. -/
def wanted (want : List Op → Str → Bool) (ops : List Op) : List Happened → List (Str × Bytes)
  | [] => []
  | .op o :: l => wanted want (ops ++ [o]) l
  | .call c :: l => if want ops c.topic then (c.topic, c.payload) :: wanted want ops l else wanted want ops l

end MsgRs.Spec
