import Verif.Spec.QuietPub
import Verif.Spec.Sub
/-!
# Vocabulary: what became of every published message
-/
namespace MsgRs.Spec
open MsgRs

/-- What matters to one subscriber when there is not always room: it changes its subscriptions, something published comes to its turn, or something published was
missed because the subscriber was too far behind. -/
inductive Fated where
  | op (o : Op)
  | turn (c : PubCall)
  | missed (c : PubCall)
  deriving DecidableEq

/-- All publish calls in such a history, those missed included. -/
def everyCall (l : List Fated) : List PubCall :=
  l.filterMap fun
    | .op _ => none
    | .turn c => some c
    | .missed c => some c

/-- The missed ones. -/
def missedCalls (l : List Fated) : List PubCall :=
  l.filterMap fun
    | .missed c => some c
    | _ => none

/-- The history without what was missed. -/
def notMissed (l : List Fated) : List Happened :=
  l.filterMap fun
    | .op o => some (.op o)
    | .turn c => some (.call c)
    | .missed _ => none

/-- How many messages of connection `u` the subscriber's background task turned away because the buffer for the user was full. -/
def turnedAway {A : Type} (d : Sub.Driver A) (u : Nat) : Nat :=
  (d.fates.filter fun x => decide (x.1 = u) && decide (x.2.2 = .full)).length

end MsgRs.Spec
