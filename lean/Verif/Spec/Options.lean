import Verif.Model.Options
/-!
# What a chain of builder calls means

`setTo arg default calls`: the value of an option after a chain of builder calls, if `arg` picks out the argument of the calls that set
this option: that of the last such call, or the default if there is none.
-/
namespace MsgRs.Spec

/-- The argument of the last call that sets the option, or its default. -/
def setTo {σ α : Type} (arg : σ → Option α) (default : α) (calls : List σ) : α :=
  ((calls.filterMap arg).getLast?).getD default

end MsgRs.Spec
