import Verif.Spec.ReqRep
/-!
# Vocabulary: many request sockets and one reply socket
-/
namespace MsgRs.Spec
open MsgRs

/-- The network between any number of request sockets (`s i`, for `i` in `I`) and a reply socket, at some moment: the connection number `j` of the reply socket is the other end of the connection number `k` of the
request socket `i`, where `link j = some (i, k)` (`none`: of somebody else). Bytes arrive in order and nobody reads what was not written. -/
structure CrowdNet {A I : Type} (link : Nat → Option (I × Nat)) (s : I → Req.State) (d : Rep.Driver A) : Prop where
  there : ∀ (j : Nat) (i : I) (k : Nat) (p : Rep.Peer A), d.conns[j]? = some p → link j = some (i, k) →
    ∃ c, (s i).chans[k]? = some c ∧ readSoFar p.input0 p.input <+: c.wr.wire
  back : ∀ (i : I) (k : Nat) (c : Req.Chan), (s i).chans[k]? = some c → readSoFar c.input0 c.input = [] ∨
    ∃ j p, d.conns[j]? = some p ∧ link j = some (i, k) ∧ readSoFar c.input0 c.input <+: p.wr.wire

/-- The `a`-th thing that happened to a reply socket was that the application passed `b` to `respond` for the request `r`. -/
def Responded {A : Type} [DecidableEq A] (D : Decompressors) (d0 : Rep.Driver A) (acts : List (Rep.Act A)) (a : Nat) (r : Rep.Request A) (b : Bytes) : Prop :=
  ∃ i d1, acts[a]? = some (.respond i b) ∧ d0.run D (acts.take a) = .ok d1 ∧ d1.held[i]? = some r

end MsgRs.Spec
