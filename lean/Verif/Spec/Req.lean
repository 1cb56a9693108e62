import Verif.Model.ReqDriver
/-!
# Assumptions about the connections of a request socket
-/
namespace MsgRs.Req
open MsgRs

/-- The connection takes everything whenever the driver flushes it during the history `acts`. -/
def Taking (D : Decompressors) : State → List Act → Prop
  | _, [] => True
  | s, a :: as => (∀ e c, a = .iter e → s.conn = .active c → (c.wr.flush e.flushAns).1 = .ok) ∧
    ∀ t, s.act D a = .ok t → Taking D t as

end MsgRs.Req
