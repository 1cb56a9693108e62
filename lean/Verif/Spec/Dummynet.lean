import Verif.Model.Trie
/-!
# How `dnctl pipe … config …` is read

Independent of the code: words, numbers in decimal, settings as pairs of a name and a value.
-/
namespace MsgRs.Spec
open MsgRs

/-- A decimal number at the start of a word, and what follows it. -/
def number (s : Str) : Option (Nat × Str) :=
  if s.takeWhile Char.isDigit = [] then none
  else some (Nat.ofDigitChars 10 (s.takeWhile Char.isDigit) 0, s.dropWhile Char.isDigit)

/-- The settings of a pipe: bandwidth in Kbit/s, delay in ms, loss rate. -/
structure PipeSettings where
  bw : Option Nat := none
  delay : Option Nat := none
  plr : Option Str := none
  deriving Repr, DecidableEq

/-- Settings from the words that follow `config`. -/
def readSettings (s : PipeSettings) : List Str → Option PipeSettings
  | [] => some s
  | [_] => none
  | k :: v :: rest =>
    if k = "bw".toList then
      match number v with
      | some (n, u) => if u = "Kbit/s".toList then readSettings { s with bw := some n } rest else none
      | none => none
    else if k = "delay".toList then
      match number v with
      | some (n, []) => readSettings { s with delay := some n } rest
      | _ => none
    else if k = "plr".toList then readSettings { s with plr := some v } rest
    else none

/-- `sudo dnctl pipe <id> config <settings>`: which pipe gets which settings. -/
def readPipe : List Str → Option (Nat × PipeSettings)
  | a :: b :: c :: i :: d :: rest =>
    if a = "sudo".toList ∧ b = "dnctl".toList ∧ c = "pipe".toList ∧ d = "config".toList then
      match number i, readSettings {} rest with
      | some (n, []), some s => some (n, s)
      | _, _ => none
    else none
  | _ => none

end MsgRs.Spec
