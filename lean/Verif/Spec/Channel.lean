import Verif.Model.Channel
/-!
# What the users of a channel see
-/
namespace MsgRs.Spec
open MsgRs Chan

/-- The message whose sending the left end was told succeeded. -/
def accepted : Ev S T → Option S
  | .left (.trySend a) .ok _ => some a
  | .left (.pollSend a) .ok _ => some a
  | .left (.startSend a) .ok _ => some a
  | _ => none

/-- The message the right end received. -/
def arrived : Ev S T → Option S
  | .right _ _ (.item a) => some a
  | _ => none

/-- The channel seen from the other end. -/
def mirror (p : Pair S T) : Pair T S := { lr := p.rl, rl := p.lr }
/-- The same for calls. -/
def mirrorAct : Act S T → Act T S
  | .left c => .right c
  | .right c => .left c
/-- The same for reports. -/
def mirrorEv : Ev S T → Ev T S
  | .left c a b => .right c a b
  | .right c a b => .left c a b

/-- What the reports say about the direction left to right: of the left end's calls the sending half, of the right
end's calls the receiving half. -/
def aboutLR : Ev S T → Out S
  | .left _ tx _ => tx
  | .right _ _ rx => rx

/-- The right end never drops its receiver. -/
def keepsRx : Act S T → Bool
  | .right .drop => false
  | _ => true

/-- The left end closes or drops its sender. -/
def endsSender : Act S T → Bool
  | .left .close => true
  | .left .drop => true
  | _ => false

/-- Does the left end hold a permit after this call, if before it did (`held`)? A `poll_ready` that succeeded gives one; sending
uses it up; it goes with the end. -/
def permitAfter (held : Bool) : Ev S T → Bool
  | .left .pollReady .ok _ => true
  | .left (.startSend _) .ok _ => false
  | .left (.pollSend _) .ok _ => false
  | .left .drop _ _ => false
  | _ => held

/-- Does the left end hold a permit after these calls? -/
def holdsPermit (es : List (Ev S T)) : Bool := es.foldl permitAfter false

end MsgRs.Spec
