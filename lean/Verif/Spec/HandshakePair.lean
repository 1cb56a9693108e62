import Verif.Model.Handshake
import Verif.Proofs.Handshake
import Verif.Spec.Stream
/-!
# Two ends of one connection during the handshake

The client runs `hsClient`, the server `hsServer`, each in its own environment; what ties the two environments
together is that a connection delivers only bytes that were written at the other end.
-/
namespace MsgRs.Spec
open MsgRs

/-- The bytes an end wrote during the handshake. (A task that panicked had written nothing: it panics while reading
the token, before anything is written.) -/
def hsWire : HsOut → Bytes
  | .waiting w => w
  | .failed w => w
  | .accepted _ w _ _ => w
  | .panicked => []

/-- This end considers the handshake done. -/
def hsDone : HsOut → Prop
  | .accepted .. => True
  | _ => False

/-- An end reads only what the other end wrote: what it wrote during its handshake and — only if its handshake
succeeded — anything it wrote afterwards (`more`). -/
def ReadsFrom (reads : List ReadAns) (other : HsOut) : Prop :=
  ∃ more, (more ≠ [] → hsDone other) ∧ dataOf reads <+: hsWire other ++ more

/-- Both ends of one connection. -/
structure HsPair (token : Bytes) (authn : Bytes → Bool) (ec es : HsEnv) : Prop where
  toServer : ReadsFrom es.reads (hsClient token ec)
  toClient : ReadsFrom ec.reads (hsServer authn es)

/-- The connection takes everything the handshake writes: `send` and `flush` (and `close`, in case of a Reject) end
well. -/
structure Writable (frame : Bytes) (e : HsEnv) : Prop where
  send : (({} : Writer).sendAwait frame e.sendAns).1 = .ok
  flush : (({} : Writer).flushAwait e.flushAns).1 = .ok
  close : (({} : Writer).flushAwait e.closeAns).1 ≠ .pending

/-- The buffered lengths at which the server-side decoder panics on a token of length `len` (C08). -/
def dangerous (len p : Nat) : Prop := p = 4 ∨ (5 ≤ p ∧ len ≤ p ∧ p < len + 5)

end MsgRs.Spec
