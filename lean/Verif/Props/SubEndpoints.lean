import Verif.Props.Sub
/-!
# C48: which address a call is about
-/
namespace MsgRs.Spec
open MsgRs Sub

/-- The port of a socket address. -/
def portOf : SockAddr → UInt16
  | .v4 _ p => p
  | .v6 _ p _ _ => p

/-- `127.0.0.1` (`7F.00.00.01` in hexadecimal), with a port. -/
def loopback (p : UInt16) : SockAddr := 
  .v4 0x7F000001 p

end MsgRs.Spec

namespace MsgRs.Props
open MsgRs Sub

/-- C48, which address a call is about: `connect` and `try_connect` of an endpoint with an unspecified IP ask for a connection to the same port of `127.0.0.1`, and so that is the endpoint to disconnect from: after
`disconnect` of it has been handled it is not known any more. An endpoint that is no address, or a name without one, is refused, and nothing else happens. Missing: that `disconnect` of the
unspecified endpoint undoes `connect` of it, which is false (`C48_unspecified_refuted`). -/
theorem C48_dials_loopback_partial (d : Driver SockAddr) (a : SockAddr) (as : List SockAddr) (ha : a.unspecified = true) :
    d.tryConnectTo (some a) = d.tryConnect (Spec.loopback (Spec.portOf a)) ∧
    d.connectTo (some (a :: as)) = d.connectAsync (Spec.loopback (Spec.portOf a)) ∧
    d.tryDisconnectFrom (some (Spec.loopback (Spec.portOf a))) = d.tryDisconnect (Spec.loopback (Spec.portOf a)) ∧
    d.disconnectFrom (some (Spec.loopback (Spec.portOf a) :: as)) = d.disconnectAsync (Spec.loopback (Spec.portOf a)) ∧
    lookup (Spec.loopback (Spec.portOf a)) (d.onCommand (.disconnect (Spec.loopback (Spec.portOf a)))).pubs = none ∧
    d.tryConnectTo none = (.error .noValidEndpoints, d) ∧ d.tryDisconnectFrom none = (.error .noValidEndpoints, d) ∧
    d.connectTo (some []) = (some (.error .noValidEndpoints), d) ∧ d.disconnectFrom (some []) = (some (.error .noValidEndpoints), d) ∧
    d.connectTo none = (some (.error .io), d) ∧ d.disconnectFrom none = (some (.error .io), d) := by
  have hd : a.dialable = Spec.loopback (Spec.portOf a) := by
    cases a with
    | v4 ip p => simp only [SockAddr.unspecified, decide_eq_true_eq] at ha; simp [SockAddr.dialable, ha, Spec.loopback, Spec.portOf]
    | v6 ip p f s => simp only [SockAddr.unspecified, decide_eq_true_eq] at ha; simp [SockAddr.dialable, ha, Spec.loopback, Spec.portOf]
  have hl : (Spec.loopback (Spec.portOf a)).unspecified = false := by
    simp [Spec.loopback, SockAddr.unspecified]
  obtain ⟨-, h2, -, h4, h5⟩ := C48_specified_partial d (Spec.loopback (Spec.portOf a)) as hl
  exact ⟨by simp [Driver.tryConnectTo, hd], by simp [Driver.connectTo, hd], h4, h2, h5, rfl, rfl, rfl, rfl, rfl, rfl⟩

/-- `[::]:4000` is dialled as `127.0.0.1:4000`. -/
example : (SockAddr.v6 0 4000 0 0).unspecified = true ∧ Spec.loopback (Spec.portOf (.v6 0 4000 0 0)) = .v4 0x7F000001 4000 := by decide

end MsgRs.Props
