import Verif.Model.Framed
/-!
# Vocabulary for statements about byte streams
-/
namespace MsgRs
variable {ε μ : Type}

/-- The bytes delivered by a list of read answers. -/
def dataOf : List ReadAns → Bytes
  | [] => []
  | .data bs :: as => bs ++ dataOf as
  | _ :: as => dataOf as

/-- The bytes read so far from a connection that gives the answers `input0` to reads, of which `input` are still
to come. -/
def Spec.readSoFar (input0 input : List ReadAns) : Bytes := dataOf (input0.take (input0.length - input.length))

/-- Answers of a connection that stays open: arbitrary non-empty reads and pendings. -/
def OpenAns (as : List ReadAns) : Prop := ∀ a ∈ as, a ≠ .err ∧ a ≠ .data []

/-- The messages among the results of a connection. -/
def itemsOf : List (FOut ε μ) → List μ
  | [] => []
  | .item m :: l => m :: itemsOf l
  | _ :: l => itemsOf l

end MsgRs
