import Verif.Spec.PubServer
/-!
# Vocabulary for bounds on what a socket holds in memory
-/
namespace MsgRs.Spec
open MsgRs Pub

/-- No read reports more than `C` bytes at once. -/
def chunksUpTo (C : Nat) (as : List ReadAns) : Prop := ∀ bs, .data bs ∈ as → bs.length ≤ C

/-- No write fails: the connection takes some bytes or makes the writer wait. -/
def writesFine (as : List WriteAns) : Prop := ∀ a ∈ as, a ≠ .err ∧ a ≠ .ok 0

/-- The bytes a publication takes on the wire: a fixed header of 20 bytes, topic, payload. -/
def wireLen (m : PubMsg) : Nat := 20 + (utf8 m.topic).length + m.payload.length

/-- The bytes a session holds that its client has not taken: written to no connection yet, or waiting to be encoded. -/
def heldFor (s : Pub.Session) : Nat :=
  s.wr.buf.length + match s.pending with
    | some m => (PubSub.encode m).length
    | none => 0

/-- The messages in the slots of a publisher's channel. -/
def channelHeld (b : Bcast PubMsg) : List PubMsg := b.slots.filterMap (·.val)

/-- What a reader is after some polls on a connection that gives the answers `as`, none of which reported an error or the end. -/
inductive Polled (c : Codec σ ε μ) (as : List ReadAns) : Reader σ → List ReadAns → Prop where
  | new : Polled c as (Reader.new c) as
  | poll : Polled c as r rest → r.pollNext c rest = .ok (o, r', rest') → (o = .pending ∨ ∃ m, o = .item m) → Polled c as r' rest'

end MsgRs.Spec
