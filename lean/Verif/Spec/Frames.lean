import Verif.Model.Framed
/-!
# The wire formats, written down independently of the codecs
-/
namespace MsgRs.Spec
open MsgRs

/-- `n` as 2, 4, 8 bytes, most significant first. -/
def be16 (n : Nat) : Bytes := [UInt8.ofNat (n / 256), UInt8.ofNat n]
@[inherit_doc be16] def be32 (n : Nat) : Bytes := be16 (n / 65536) ++ be16 n
@[inherit_doc be16] def be64 (n : Nat) : Bytes := be32 (n / 4294967296) ++ be32 n

/-- A request or reply on the wire: wire id 2, compression type, id, payload length, payload. -/
def rrFrame (m : ReqRep.Message) : Bytes :=
  [2, m.header.ctype] ++ be32 m.header.id.toNat ++ be32 m.payload.length ++ m.payload

/-- A published message on the wire: wire id 3, compression type, topic length, topic, timestamp, sequence number,
payload length, payload. -/
def psFrame (m : PubSub.Message) : Bytes :=
  [3, m.header.ctype] ++ be16 m.header.topic.length ++ m.header.topic ++ be64 m.header.timestamp.toNat ++
    be32 m.header.seq.toNat ++ be32 m.payload.length ++ m.payload

/-- Messages that fit their length fields, which hold the lengths. -/
def rrOk (m : ReqRep.Message) : Prop := m.header.size.toNat = m.payload.length
@[inherit_doc rrOk] def psOk (m : PubSub.Message) : Prop :=
  m.header.topicSize.toNat = m.header.topic.length ∧ m.header.size.toNat = m.payload.length

/-- `tail` is the beginning of a frame that is not complete yet. -/
def Unfinished (frame : μ → Bytes) (ok : μ → Prop) (tail : Bytes) : Prop :=
  ∃ m y, ok m ∧ y ≠ [] ∧ tail ++ y = frame m

/-- `tail` is a frame of which exactly the payload is missing. -/
def PayloadMissing (frame : μ → Bytes) (ok : μ → Prop) (payload : μ → Bytes) (tail : Bytes) : Prop :=
  ∃ m, ok m ∧ payload m ≠ [] ∧ tail ++ payload m = frame m

end MsgRs.Spec
