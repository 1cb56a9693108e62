import Verif.Model.AcceptPoll
/-!
# What can be ready when a server's driver is polled
-/
namespace MsgRs

/-- What is ready belongs to the driver: connections have different names, finished tasks are tasks of the driver and have
finished, accept futures are the driver's. -/
structure Fits (authn : Option (Bytes → Bool)) (ct at' : List (Conn A)) (r : Avail A) : Prop where
  ids : ((ct ++ at' ++ r.accepts).map (·.uid)).Nodup
  joins : r.joins.Nodup
  join : ∀ u ∈ r.joins, ∃ f, authn = some f ∧ ∃ c ∈ at', c.uid = u ∧ ∀ w, hsServer f c.hs ≠ .waiting w
  conns : (r.conns.map (·.1)).Nodup
  conn : ∀ x ∈ r.conns, ∃ c ∈ ct, c.uid = x.1

/-- None of the finished handshakes panicked. -/
def Calm (authn : Option (Bytes → Bool)) (at' : List (Conn A)) (r : Avail A) : Prop :=
  ∀ f, authn = some f → ∀ c ∈ at', c.uid ∈ r.joins → hsServer f c.hs ≠ .panicked

end MsgRs
