import Verif.Model.PubSocket
import Verif.Spec.PubSession
/-!
# Vocabulary for histories of a bound publisher
-/
namespace MsgRs.Spec
open MsgRs Pub

/-- Everything published in a history, in order. -/
def published (acts : List Act) : List PubMsg :=
  acts.filterMap fun
    | .publish m => some m
    | _ => none

/-- Does the action concern session `i` (or all sessions)? -/
def concerns (i : Nat) : Act → Bool
  | .publish _ => true
  | .drop => true
  | .connect j _ _ => j = i
  | .step j _ => j = i

/-- Number of messages a session was told it missed. -/
def missedOf (evs : List Ev) : Nat :=
  (evs.map fun
    | .lagged k => k
    | _ => 0).sum

/-- Walk through the published messages from position `p` as a history did: a message taken must be the one
at the current position, being told of `k` missed messages skips exactly `k`. `none`: the history does not
fit. -/
def replay (log : List PubMsg) : Nat → List Ev → Option Nat
  | p, [] => some p
  | p, .took m _ :: evs => if log[p]? = some m then replay log (p + 1) evs else none
  | p, .lagged k :: evs => replay log (p + k) evs
  | p, _ :: evs => replay log p evs

end MsgRs.Spec
