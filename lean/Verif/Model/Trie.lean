/-!
# msg-socket/src/pub/trie.rs — the subscription filter of a publisher session

`String`s are sequences of Unicode scalar values (`List Char`). The `FxHashMap` of children is an
association list: `get`, `entry().or_insert`, `remove_entry`, `is_empty` are the only operations used and
none depends on the iteration order.
-/
namespace MsgRs

/-- A topic or pattern as a Rust `&str`. -/
abbrev Str := List Char

/-- `topic.split('.')` (trie.rs:40,53,79): `"a..b"` gives `["a", "", "b"]`, `""` gives `[""]`. -/
def splitDots : Str → List Str
  | [] => [[]]
  | c :: cs =>
    if c = '.' then [] :: splitDots cs
    else
      match splitDots cs with
      | [] => [[c]]   -- unreachable: `splitDots` is never empty
      | tok :: toks => (c :: tok) :: toks

namespace Trie

/-- `Node`, trie.rs:6-10. -/
inductive Node where
  | mk (children : List (Str × Node)) (catchAll : Bool) (topicEnd : Bool)

/-- `Node::new`, trie.rs:13-15. -/
def Node.new : Node := .mk [] false false

/-- Field access. -/
def Node.children : Node → List (Str × Node) | .mk c _ _ => c
/-- Field access. -/
def Node.catchAll : Node → Bool | .mk _ a _ => a
/-- Field access. -/
def Node.topicEnd : Node → Bool | .mk _ _ e => e

/-- `children.get(token)` (trie.rs:80). -/
def getChild (k : Str) : List (Str × Node) → Option Node
  | [] => none
  | (k', v) :: l => if k' = k then some v else getChild k l

/-- Writing through `children.entry(token)` (trie.rs:41,66): replaces or adds. -/
def setChild (k : Str) (v : Node) : List (Str × Node) → List (Str × Node)
  | [] => [(k, v)]
  | (k', v') :: l => if k' = k then (k, v) :: l else (k', v') :: setChild k v l

/-- `entry.remove_entry()` (trie.rs:68). -/
def eraseChild (k : Str) (l : List (Str × Node)) : List (Str × Node) :=
  l.filter (fun e => e.1 ≠ k)

/-- The token `">"`. -/
def GT : Str := ['>']
/-- The token `"*"`. -/
def STAR : Str := ['*']

/-- The loop of `PrefixTrie::insert` (trie.rs:39-48) from `node` on the remaining tokens. -/
def insertAt (node : Node) : List Str → Node
  | [] => .mk node.children node.catchAll true
  | token :: rest =>
    let child := (getChild token node.children).getD Node.new
    let child' :=
      if token = GT then .mk child.children true true   -- mark, break, `topic_end = true`
      else insertAt child rest
    .mk (setChild token child' node.children) node.catchAll node.topicEnd

/-- `inner_remove`, trie.rs:56-74. The boolean tells the caller to drop the entry. -/
def removeAt (current : Node) : List Str → Node × Bool
  | [] =>
    if current.topicEnd then
      (.mk current.children current.catchAll false, current.children.isEmpty)
    else (current, false)
  | token :: rest =>
    match getChild token current.children with
    | some child =>
      let (child', drop) := removeAt child rest
      if drop then
        let ch := eraseChild token current.children
        (.mk ch current.catchAll current.topicEnd, ch.isEmpty && !current.topicEnd)
      else (.mk (setChild token child' current.children) current.catchAll current.topicEnd, false)
    | none => (current, false)

/-- The loop of `PrefixTrie::contains` (trie.rs:78-88) from `current` on the remaining tokens. -/
def containsAt (current : Node) : List Str → Bool
  | [] => current.topicEnd || current.catchAll
  | token :: rest =>
    match getChild token current.children with
    | some node => containsAt node rest
    | none =>
      match getChild STAR current.children with
      | some node => containsAt node rest
      | none => current.catchAll

/-- `PrefixTrie::insert`, trie.rs:38-49. -/
def insert (root : Node) (topic : Str) : Node := insertAt root (splitDots topic)
/-- `PrefixTrie::remove`, trie.rs:52-54. -/
def remove (root : Node) (topic : Str) : Node := (removeAt root (splitDots topic)).1
/-- `PrefixTrie::contains`, trie.rs:77-89. -/
def contains (root : Node) (topic : Str) : Bool := containsAt root (splitDots topic)

end Trie
end MsgRs
