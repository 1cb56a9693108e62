import Verif.Model.PubServer
import Verif.Spec.EndToEnd
/-!
# Vocabulary for histories of a publisher socket
-/
namespace MsgRs.Spec
open MsgRs Pub

/-- The calls to `publish` and `try_publish` in a history, up to the drop of the socket. -/
def pubCalls {A : Type} : List (SrvAct A) → List PubCall
  | [] => []
  | .drop :: _ => []
  | .publish topic payload :: acts => ⟨false, topic, payload⟩ :: pubCalls acts
  | .tryPublish topic payload :: acts => ⟨true, topic, payload⟩ :: pubCalls acts
  | .bind _ _ :: acts => pubCalls acts
  | .driver _ :: acts => pubCalls acts
  | .session _ _ :: acts => pubCalls acts

/-- The calls of `publish` and `try_publish` made after `pre`, in the history `pre ++ post`. -/
def callsAfter {A : Type} (pre post : List (SrvAct A)) : List PubCall := (pubCalls (pre ++ post)).drop (pubCalls pre).length

/-- It is the driver's turn with environment `e`, after the history `pre` of the publisher `s`, that starts session `i`. -/
def startedBy {A : Type} (L : Lossy) (s : Server A) (pre : List (SrvAct A)) (e : DEnv A) (i : Nat) : Prop :=
  (s.run L pre).ses.length = i ∧ i < (s.run L (pre ++ [.driver e])).ses.length

/-- The connections the listener reported. -/
def listenerReports {A : Type} : List (SrvAct A) → List (Conn A)
  | [] => []
  | .driver e :: acts => e.accept.toList ++ listenerReports acts
  | _ :: acts => listenerReports acts

end MsgRs.Spec
