import Verif.Model.Framed
import Verif.Model.Writer
/-!
# Vocabulary for tasks that return `Pending`
-/
namespace MsgRs.Spec
open MsgRs

/-- Nothing more can be got from the connection unless it delivers something new: polling it again, with nothing new, gives `Pending` and changes nothing. -/
def Dry {σ ε μ : Type} (c : Codec σ ε μ) (r : Reader σ) : Prop := r.pollNext c [] = .ok (.pending, r, [])

/-- The connection was read until it answered `Pending` (of the answers `given` it had to give, `rest` are for later), or it had no more to give. -/
def Asked (given rest : List ReadAns) : Prop := (∃ pre, given = pre ++ .pending :: rest) ∨ rest = []

/-- The connection was offered the buffered bytes (`as` are its answers) and did not take them all: `after` is the writer since then. -/
def Refused (as : List WriteAns) (after : Writer) : Prop := ∃ w : Writer, w.boundary ≤ w.buf.length ∧ w.flush as = (.pending, after)

end MsgRs.Spec
