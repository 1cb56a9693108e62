import Verif.Model.RepDriver
/-!
# What the reply socket's background task does on its own
-/
namespace MsgRs.Spec.Rep
open MsgRs.Rep
variable {A : Type}

/-- A step of the driver itself (as opposed to one of the application or of the listener). -/
def own : Act A → Bool
  | .peer .. | .join _ | .ready .. => true
  | .accept _ | .recv | .respond .. | .drop _ => false

/-- The step gets something done, so the driver goes round its loop once more: a connection yields something, or a
task is reported. -/
def productive [DecidableEq A] (d : Driver A) : Act A → Bool
  | .peer k e =>
    match d.peers[k]?.map (fun p : Peer A => p.iter d.comp d.slots d.next e) with
    | none | some (.ok (_, .pending)) => false
    | some _ => true
  | .join i => (d.stepJoin i).authTasks.length < d.authTasks.length
  | .ready i ok => (d.stepConn i ok).connTasks.length < d.connTasks.length
  | _ => false

/-- The number of steps of a history that get something done. -/
def work [DecidableEq A] (D : Decompressors) (d : Driver A) : List (Act A) → Nat
  | [] => 0
  | a :: as =>
    (if productive d a then 1 else 0) +
      match d.act D a with
      | .panic => 0
      | .ok d => work D d as

end MsgRs.Spec.Rep
