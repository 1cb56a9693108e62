import Verif.Model.PubTimed
/-!
# Assumptions about the connection of a subscriber session
-/
namespace MsgRs.Pub
open MsgRs

/-- The connection takes everything whenever the session could flush it during the history `acts`. -/
def Timed.Taking (L : Lossy) : Timed → List TAct → Prop
  | _, [] => True
  | t, .advance dt :: as => Timed.Taking L { t with now := t.now + dt } as
  | t, .iter e :: as => (t.s.wr.flush e.flushAns).1 = .ok ∧
    if t.ended then Timed.Taking L t as else ∀ t' ev, t.iter L e = .ok (t', ev) → Timed.Taking L t' as

end MsgRs.Pub
