import Verif.Model.ReqSocket
import Verif.Spec.Rep
import Verif.Spec.Stream
/-!
# Vocabulary for statements about a request socket and a reply socket together
-/
namespace MsgRs.Spec
open MsgRs

/-- Two ends of a connection, as seen at some moment: each end has read a prefix of what the other end has
written. -/
def Linked {A : Type} (c : Req.Chan) (p : Rep.Peer A) : Prop :=
  readSoFar c.input0 c.input <+: p.wr.wire ∧ readSoFar p.input0 p.input <+: c.wr.wire

/-- The network between a request socket and a reply socket, at some moment: a connection of the request socket
from which anything was read is one of the reply socket's (and neither end has read what the other has not yet
written). -/
def Network {A : Type} (s : Req.State) (d : Rep.Driver A) : Prop :=
  ∀ c ∈ s.chans, readSoFar c.input0 c.input = [] ∨ ∃ p ∈ d.conns, Linked c p

/-- The joint histories of a request socket and a reply socket: things happen to the one and to the other in any
order, and after each the `Network` is as it should be. `acts` is what has happened to the reply socket. -/
inductive Together {A : Type} [DecidableEq A] (D : Decompressors) (s0 : Req.State) (d0 : Rep.Driver A) :
    Req.State → List (Rep.Act A) → Rep.Driver A → Prop where
  | start : Network s0 d0 → Together D s0 d0 s0 [] d0
  | client {s s' acts d} (a : Req.Act) : Together D s0 d0 s acts d → s.act D a = .ok s' → Network s' d →
      Together D s0 d0 s' acts d
  | server {s acts d d'} (a : Rep.Act A) : Together D s0 d0 s acts d → d.act D a = .ok d' → Network s d' →
      Together D s0 d0 s (acts ++ [a]) d'

/-- The same, with the request socket as its users see it: they connect, make calls, poll and give up calls and drop
the socket at any time. -/
inductive CallersTogether {A : Type} [DecidableEq A] (D : Decompressors) (s0 : Req.Socket) (d0 : Rep.Driver A) :
    Req.Socket → List (Rep.Act A) → Rep.Driver A → Prop where
  | start : CallersTogether D s0 d0 s0 [] d0
  | client {s s' acts d} (a : Req.SAct) : CallersTogether D s0 d0 s acts d → s.act D a = .ok s' →
      (∀ drv, s'.drv = some drv → Network drv d) → CallersTogether D s0 d0 s' acts d
  | server {s acts d d'} (a : Rep.Act A) : CallersTogether D s0 d0 s acts d → d.act D a = .ok d' →
      (∀ drv, s.drv = some drv → Network drv d') → CallersTogether D s0 d0 s (acts ++ [a]) d'

end MsgRs.Spec
