import Verif.Spec.Asleep
import Verif.Spec.ReqRep
/-!
# Vocabulary: nothing left to do

What is true of a task right after a poll that returned `Pending` and found the connection willing to take everything (`C90_request_driver`,
`C90_reply_connection_partial`), until something new happens to it.
-/
namespace MsgRs.Spec
open MsgRs

/-- A request socket's driver with nothing left to do: it has taken all requests, handed them all to its connection `c`, which has taken
all bytes, and there is nothing to get from what the connection has given. -/
structure ClientIdle (s : Req.State) (c : Req.Chan) : Prop where
  conn : s.conn = .active c
  running : s.ended = false
  taken : s.queue = []
  handed : s.egress = []
  flushed : c.wr.buf = []
  dry : Dry ReqRep.codec c.rd

/-- A reply socket's connection `p` with nothing left to do: no request in its set has been answered or dropped, all responses were handed to it, it
has taken all bytes, and there is nothing to get from what it has given. -/
structure PeerIdle {A : Type} (d : Rep.Driver A) (p : Rep.Peer A) : Prop where
  served : p ∈ d.peers
  answered : ∀ x id, (x, id) ∈ p.pend → d.slots x = .waiting
  handed : p.egress = []
  flushed : p.wr.buf = []
  dry : Dry ReqRep.codec p.rd

/-- Nothing is under way between the two ends of a connection: each has been given every byte the other wrote. -/
def Delivered {A : Type} (c : Req.Chan) (p : Rep.Peer A) : Prop :=
  readSoFar p.input0 p.input = c.wr.wire ∧ readSoFar c.input0 c.input = p.wr.wire

end MsgRs.Spec
