import Verif.Model.Trie
/-!
# Specification of subscriptions, independent of the trie

A subscription history is a list of operations; the active subscriptions are a set of patterns;
matching is the NATS relation documented in trie.rs:20-22,33-37.
-/
namespace MsgRs.Spec
open MsgRs

/-- What a subscriber asks for. -/
inductive Op where
  | sub (pattern : Str)
  | unsub (pattern : Str)
  deriving Repr, DecidableEq

/-- Is `p` subscribed after the history (oldest operation first)? The last operation about `p`
decides. -/
def active (ops : List Op) (p : Str) : Bool :=
  ops.foldl (fun b op =>
    match op with
    | .sub q => if q = p then true else b
    | .unsub q => if q = p then false else b) false

/-- Token lists: `*` matches exactly one token, a final `>` one or more tokens, any other token
itself. -/
inductive TokMatches : List Str → List Str → Prop where
  | nil : TokMatches [] []
  | lit {t ps ts} : TokMatches ps ts → TokMatches (t :: ps) (t :: ts)
  | star {t ps ts} : TokMatches ps ts → TokMatches (['*'] :: ps) (t :: ts)
  | gt {t ts} : TokMatches [['>']] (t :: ts)

/-- A pattern matches a topic if its dot-separated tokens do. -/
def Matches (pattern topic : Str) : Prop := TokMatches (splitDots pattern) (splitDots topic)

/-- No wildcard token. -/
def Literal (p : Str) : Prop := ['*'] ∉ splitDots p ∧ ['>'] ∉ splitDots p

/-- `>` only as the last token. -/
def WellFormed (p : Str) : Prop := ['>'] ∉ (splitDots p).dropLast

/-- The pattern an operation is about. -/
def Op.pattern : Op → Str
  | .sub p => p
  | .unsub p => p

/-- The filter after a history, as a session computes it (session.rs:59-74). -/
def filterAfter (ops : List Op) : Trie.Node :=
  ops.foldl (fun n op =>
    match op with
    | .sub p => Trie.insert n p
    | .unsub p => Trie.remove n p) Trie.Node.new

end MsgRs.Spec
