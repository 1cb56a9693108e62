import Verif.Model.Transport
/-! # Words for the statements about accepting connections -/
namespace MsgRs.Spec
open MsgRs Transport

/-- What the listener reported in a history, in order. -/
def arrivals : List (Act α) → List (Fut α Err)
  | [] => []
  | .arrive f :: as => f :: arrivals as
  | .run :: as => arrivals as

/-- Is the accept future ready when it is polled for the first time? -/
def immediate (f : Fut α Err) : Bool := f.waits == 0

/-- A task that just called `accept().await` on a bound transport with nothing reported yet. -/
def waiting (α : Type) : Waiter α := { bound := true }

end MsgRs.Spec
