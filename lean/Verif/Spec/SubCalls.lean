import Verif.Model.SubDriver
/-!
# Specification for C105: what the calls of a subscriber's user return, and what they ask for
-/
namespace MsgRs.Spec
open MsgRs MsgRs.Sub
variable {A : Type} [DecidableEq A]

/-- What a call asks the subscriber to do; receiving asks for nothing. -/
def asks : Call A → Option (Command A)
  | .subscribe t | .trySubscribe t => some (.subscribe t)
  | .unsubscribe t | .tryUnsubscribe t => some (.unsubscribe t)
  | .connect a | .tryConnect a => some (.connect a)
  | .disconnect a | .tryDisconnect a => some (.disconnect a)
  | .recv => none

/-- The call is one of the methods that wait for room. -/
def waits : Call A → Bool
  | .subscribe _ | .unsubscribe _ | .connect _ | .disconnect _ => true
  | _ => false

/-- The call names a topic that starts with `MSG`. -/
def namesReserved : Call A → Prop
  | .subscribe t | .trySubscribe t | .unsubscribe t | .tryUnsubscribe t => ['M', 'S', 'G'] <+: t
  | _ => False

/-- What the call returns to the user (`none`: it is still waiting). -/
def returns (d : Driver A) : Call A → Option (Except SubErr Unit)
  | .subscribe t => (d.subscribeAsync t).1
  | .trySubscribe t => some (d.trySubscribe t).1
  | .unsubscribe t => (d.unsubscribeAsync t).1
  | .tryUnsubscribe t => some (d.tryUnsubscribe t).1
  | .connect a => (d.connectAsync a).1
  | .tryConnect a => some (d.tryConnect a).1
  | .disconnect a => (d.disconnectAsync a).1
  | .tryDisconnect a => some (d.tryDisconnect a).1
  | .recv => none

/-- The call returned `Ok(())`. -/
def returnedOk (d : Driver A) (c : Call A) : Bool :=
  match returns d c with
  | some (.ok ()) => true
  | _ => false

/-- What one action of a history asked for and was promised. Dropping the socket asks for a shutdown, if there is room. -/
def promised (d : Driver A) : Act A → List (Command A)
  | .call c => if d.closed = false ∧ returnedOk d c = true then (asks c).toList else []
  | .dropSocket => if d.closed = false ∧ d.cmdq.length < 1024 then [.shutdown] else []
  | _ => []

/-- What the user of a subscriber was promised in a history that starts in `d`: the commands of the calls that returned
`Ok(())`, in the order of the calls. -/
def promises (L : Lossy) (D : Decompressors) (d : Driver A) : List (Act A) → List (Command A)
  | [] => []
  | x :: xs => promised d x ++
    match d.act L D x with
    | .ok d' => promises L D d' xs
    | .panic => []

end MsgRs.Spec
