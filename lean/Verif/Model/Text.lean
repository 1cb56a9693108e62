import Verif.Model.Trie
import Verif.Model.Bytes
/-!
# Strings on the wire: UTF-8

Topics are Rust `String`s. `Bytes::from(topic)` (pub/mod.rs:152, sub/session.rs:66,72) is their UTF-8
encoding; `String::from_utf8_lossy` (pub/session.rs:119-122, sub/stream.rs:79) turns bytes into a string.
-/
namespace MsgRs

/-- `Bytes::from(String)`: the UTF-8 encoding (pub/mod.rs:152, sub/session.rs:66,72). -/
def utf8 (s : Str) : Bytes := s.flatMap String.utf8EncodeChar

/-- `String::from_utf8_lossy` (Rust standard library; pub/session.rs:119,122, sub/stream.rs:79). What it
does to invalid input is left open; on the encoding of a string it gives the string back. -/
structure Lossy where
  dec : Bytes → Str
  dec_utf8 : ∀ s, dec (utf8 s) = s

/-- One such function, so that statements about every `Lossy` are about something: it replaces invalid
input as a whole by U+FFFD. -/
def Lossy.strict : Lossy where
  dec b := match b.toByteArray.utf8Decode? with
    | some a => a.toList
    | none => ['\uFFFD']
  dec_utf8 s := by
    have : (utf8 s).toByteArray = s.utf8Encode := rfl
    simp [this, List.utf8Decode?_utf8Encode]

end MsgRs
