import Verif.Model.Bytes
/-!
# A poll function made of loop iterations
-/
namespace MsgRs.Spec
variable {σ ε ω : Type}

/-- Runs iterations of a poll loop, each with its environment, until one does not go on looping. `none`: the loop is
still running when the environments are used up. -/
def poll (iter : σ → ε → R (σ × ω)) (again : ω → Prop) [DecidablePred again] (s : σ) : List ε → R (σ × Option ω)
  | [] => .ok (s, none)
  | e :: es => do
    let (s, o) ← iter s e
    if again o then poll iter again s es else return (s, some o)

/-- With these environments the poll returns, after finitely many iterations. -/
def Returns (iter : σ → ε → R (σ × ω)) (again : ω → Prop) [DecidablePred again] (s : σ) (es : Nat → ε) : Prop :=
  ∃ n t o, poll iter again s ((List.range n).map es) = .ok (t, some o)

end MsgRs.Spec
