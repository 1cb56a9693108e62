import Verif.Spec.PubSession
/-!
# What a publisher session should send, by the subscriptions alone

Nothing here mentions the trie: `active ops` is the set of subscribed patterns after the operations `ops`.
-/
namespace MsgRs.Spec
open MsgRs MsgRs.Pub

/-- A pattern without `>` passes a topic: it matches it, and no active pattern leaves the pattern's path by spelling out a
token of the topic where the pattern has `*`. -/
def PassedBy (ops : List Op) (topic p : Str) : Prop :=
  active ops p = true ∧ Matches p topic ∧ ['>'] ∉ splitDots p ∧
  ∀ q, active ops q = true → ∀ i t,
    (splitDots q).take i = (splitDots p).take i → (splitDots topic)[i]? = some t →
    (splitDots q)[i]? = some t → (splitDots p)[i]? = some t

/-- Replay a history: a message taken from the feed is due if its topic passes (given the operations received before), and the
due ones are numbered consecutively. -/
def dueBy (L : Lossy) (pass : List Op → Str → Bool) (ops : List Op) (k : Nat) : List Ev → List PubSub.Message
  | [] => []
  | .took m now :: evs =>
    if pass ops m.topic then frame k m now :: dueBy L pass ops (k + 1) evs else dueBy L pass ops k evs
  | .incoming m :: evs => dueBy L pass (ops ++ (controlOp L m).toList) k evs
  | _ :: evs => dueBy L pass ops k evs

end MsgRs.Spec
