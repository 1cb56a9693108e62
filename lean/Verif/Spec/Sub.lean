import Verif.Model.SubDriver
import Verif.Spec.Topics
/-!
# Vocabulary for statements about the subscriber socket
-/
namespace MsgRs.Sub
open MsgRs

variable {A : Type} [DecidableEq A]

/-- What the user gets for a message that session `u` forwarded, if it was delivered: the address of the session,
the topic, the decompressed payload. -/
def inMsgOf (D : Decompressors) (addrs : List A) : Nat × TopicMsg × Fate → Option (InMsg A)
  | (u, t, .delivered) =>
    match addrs[u]?, tryDecompress D t.ctype t.payload with
    | some a, some p => some { source := a, topic := t.topic, payload := p, conn := u }
    | _, _ => none
  | _ => none

/-- The messages the driver took from session `u`, in order. -/
def takenFrom (fates : List (Nat × TopicMsg × Fate)) (u : Nat) : List TopicMsg :=
  (fates.filter (fun x => decide (x.1 = u))).map (·.2.1)

/-- The publisher at `a` has an established connection, served by session `u`. -/
def Driver.Active (d : Driver A) (a : A) (u : Nat) : Prop := lookup a d.pubs = some (.active u)

/-- The states a socket can get into. -/
def Reach (L : Lossy) (D : Decompressors) (d : Driver A) : Prop :=
  ∃ opts now d0 acts, Driver.new opts now = .ok d0 ∧ Driver.run L D d0 acts = .ok d

/-- The operation a session command stands for. -/
def Cmd.op : Cmd → Spec.Op
  | .subscribe t => .sub t
  | .unsubscribe t => .unsub t

/-- The subscription operation among the user's commands. -/
def Command.op : Command A → Option Spec.Op
  | .subscribe t => some (.sub t)
  | .unsubscribe t => some (.unsub t)
  | _ => none

/-- What the user should see of a message read from a publisher: its topic and its decompressed payload;
nothing if that fails. -/
def shown (L : Lossy) (D : Decompressors) (m : PubSub.Message) : Option (Str × Bytes) :=
  match tryDecompress D m.header.ctype m.payload with
  | some p => some (L.dec m.header.topic, p)
  | none => none

/-- The messages in a list that came over connection `u`. -/
def ofConn (u : Nat) (l : List (InMsg A)) : List (InMsg A) := l.filter (fun m => decide (m.conn = u))

end MsgRs.Sub
