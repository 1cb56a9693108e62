import Verif.Spec.PubServer
import Verif.Model.SubDriver
import Verif.Props.Reconnect
/-!
# Vocabulary: many publishers and one subscriber
-/
namespace MsgRs.Spec
open MsgRs

/-- What happens in a network of publisher sockets (one for each `i` in `I`) and one subscriber socket: something at one of them. -/
inductive ManyAct (I A : Type) where
  | pub (i : I) (a : Pub.SrvAct A)
  | sub (a : Sub.Act A)

/-- What the publisher `i` and the subscriber do. -/
def pubViewAct {I A : Type} [DecidableEq I] (i : I) : ManyAct I A → Option (NetAct A)
  | .pub j a => if j = i then some (.pub a) else none
  | .sub a => some (.sub a)

/-- The part of a history that the publisher `i` and the subscriber have in it. -/
def pubView {I A : Type} [DecidableEq I] (i : I) (H : List (ManyAct I A)) : List (NetAct A) := H.filterMap (pubViewAct i)

def ManyAct.bySub {I A : Type} : ManyAct I A → Option (Sub.Act A)
  | .pub _ _ => none
  | .sub a => some a

/-- The subscriber's part of a history. -/
def bySub {I A : Type} (H : List (ManyAct I A)) : List (Sub.Act A) := H.filterMap ManyAct.bySub

end MsgRs.Spec
