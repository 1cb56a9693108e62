import Verif.Model.Compression
/-!
# Vocabulary for statements about a publisher and a subscriber together
-/
namespace MsgRs.Spec
open MsgRs

/-- A call of `publish` (or `try_publish`) by the publishing application. -/
structure PubCall where
  viaTry : Bool
  topic : Str
  payload : Bytes
  deriving Repr, DecidableEq

/-- What the call hands to the sessions: the `publishPrepare`/`tryPublishPrepare` of `Socket.publish`/`Socket.tryPublish`.
`none`: the call fails. -/
def PubCall.prepare (minCompress : Nat) (comp : Option Compressor) (c : PubCall) : Option PubMsg :=
  if c.viaTry then tryPublishPrepare comp c.topic c.payload else publishPrepare minCompress comp c.topic c.payload

end MsgRs.Spec
