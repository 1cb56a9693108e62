import Verif.Spec.ReqRep
/-!
# Vocabulary: where a request that was handed to a connection is now
-/
namespace MsgRs.Spec
open MsgRs

/-- The request with this payload was the `k`-th (from 0) that the client handed to its end `c` of a connection whose other end is `p`. `acts` is
what has happened to the reply socket, which is now `d`. Where the request, or the response to it, is: -/
inductive Whereabouts {A : Type} [DecidableEq A] (D : Decompressors) (d0 : Rep.Driver A) (acts : List (Rep.Act A)) (d : Rep.Driver A) (c : Req.Chan)
    (p : Rep.Peer A) (payload : Bytes) (k : Nat) : Prop where
  /-- it is under way: the server has read no more than `k` requests from this connection -/
  | toServer : p.issued.length ≤ k → Whereabouts D d0 acts d c p payload k
  /-- it waits for the application, or the application holds it -/
  | atServer (r : Rep.Request A) : r ∈ d.inbox ++ d.held → r.source = p.addr → r.msg = payload → Whereabouts D d0 acts d c p payload k
  /-- the application dropped it -/
  | dropped (pre post : List (Rep.Act A)) (i : Nat) (d1 : Rep.Driver A) (r : Rep.Request A) : acts = pre ++ .drop i :: post →
      d0.run D pre = .ok d1 → d1.held[i]? = some r → r.source = p.addr → r.msg = payload → Whereabouts D d0 acts d c p payload k
  /-- it was turned away: 1024 requests were waiting for the application when it was read from this connection -/
  | turnedAway (pre post : List (Rep.Act A)) (j : Nat) (e : Rep.PEnv) (d1 : Rep.Driver A) (q : Rep.Peer A) : acts = pre ++ .peer j e :: post →
      d0.run D pre = .ok d1 → d1.peers[j]? = some q → q.uid = p.uid → 1024 ≤ d1.inbox.length → Whereabouts D d0 acts d c p payload k
  /-- the application responded to it, and the response waits for the connection to take it (`p.pend`), or it is the `j`-th of the connection's responses, of which the client has
  read no more than `j` -/
  | toClient (pre post : List (Rep.Act A)) (i : Nat) (b : Bytes) (d1 : Rep.Driver A) (r : Rep.Request A) : acts = pre ++ .respond i b :: post →
      d0.run D pre = .ok d1 → d1.held[i]? = some r → r.source = p.addr → r.msg = payload →
      (r.handle ∈ p.pend.map (·.1) ∨ ∃ j m, p.answers[j]? = some (r.handle, m) ∧ c.got.length ≤ j) → Whereabouts D d0 acts d c p payload k

end MsgRs.Spec
