import Verif.Model.Compression
/-!
# What "sent compressed" and "sent as it is" mean on the wire
-/
namespace MsgRs.Spec
open MsgRs

/-- On the wire: the bytes the application gave, tagged "not compressed". -/
def SentPlain (given : Bytes) (tag : UInt8) (payload : Bytes) : Prop := tag = 0 ∧ payload = given

/-- On the wire: the output of the compressor for the bytes the application gave, with the tag of its algorithm. -/
def SentCompressed (c : Compressor) (given : Bytes) (tag : UInt8) (payload : Bytes) : Prop :=
  tag = c.ctype.toByte ∧ c.compress given = some payload

end MsgRs.Spec
