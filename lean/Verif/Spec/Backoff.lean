import Verif.Model.Backoff
/-!
# Vocabulary for statements about the backoff
-/
namespace MsgRs

/-- Poll a backoff at the given times, until it ends: the results with their times. -/
def Backoff.polls (b : Backoff) : List Nat → R (List (Nat × BOut))
  | [] => .ok []
  | t :: ts => do
    let (o, b) ← b.poll t
    match o with
    | .ended => return [(t, .ended)]
    | o => do
      let l ← Backoff.polls b ts
      return (t, o) :: l

/-- The polls at which the timer had expired: when, and the delay until it expires again. -/
def firedOf (outs : List (Nat × BOut)) : List (Nat × Nat) :=
  outs.filterMap fun x => match x.2 with
    | .item d => some (x.1, d)
    | .ended => some (x.1, 0)
    | .pending => none

/-- The delays yielded. -/
def delaysOf (outs : List (Nat × BOut)) : List Nat :=
  outs.filterMap fun x => match x.2 with
    | .item d => some d
    | _ => none

end MsgRs
