import Verif.Spec.Sub
/-!
# When a subscriber socket starts connection attempts
-/
namespace MsgRs.Spec
open MsgRs MsgRs.Sub
variable {A : Type} [DecidableEq A]

/-- The times at which a connection attempt to `a` is started in a history: an attempt is under way that was not
before. -/
def starts (L : Lossy) (D : Decompressors) (a : A) (d : Driver A) : List (Act A) → List Nat
  | [] => []
  | x :: xs =>
    match d.act L D x with
    | .panic => []
    | .ok d' => (if a ∉ d.tasks ∧ a ∈ d'.tasks then [d'.now] else []) ++ starts L D a d' xs

end MsgRs.Spec
