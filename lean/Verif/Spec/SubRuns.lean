import Verif.Spec.Sub
import Verif.Model.Text
/-!
# Concrete histories of a subscriber socket, for examples and counterexamples
-/
namespace MsgRs.Props
open MsgRs MsgRs.Sub

/-- Decompressors that fail on everything. -/
def noDec : Decompressors := ⟨fun _ => none, fun _ => none, fun _ => none, fun _ => none⟩

/-- A published message on topic `a` with the given compression type and one byte of payload. -/
def msgA (ctype x : UInt8) : Bytes := PubSub.encode ⟨⟨ctype, 1, [97], 0, 0, 1⟩, [x]⟩

/-- A property of the state after a history from the start. -/
def after (opts : Options) (acts : List (Act Nat)) (p : Driver Nat → Bool) : Bool :=
  match (Driver.new opts 0 : R (Driver Nat)) with
  | .panic => false
  | .ok d =>
    match d.run Lossy.strict noDec acts with
    | .panic => false
    | .ok d => p d

theorem after_reach {opts : Options} {acts : List (Act Nat)} {p : Driver Nat → Bool} (h : after opts acts p = true) :
    ∃ d : Driver Nat, Reach Lossy.strict noDec d ∧ p d = true := by
  unfold after at h
  cases h0 : (Driver.new opts 0 : R (Driver Nat)) with
  | panic => rw [h0] at h; cases h
  | ok d0 =>
    rw [h0] at h
    simp only at h
    cases h1 : d0.run Lossy.strict noDec acts with
    | panic => rw [h1] at h; cases h
    | ok d => rw [h1] at h; exact ⟨d, ⟨opts, 0, d0, acts, h0, h1⟩, h⟩

/-- The first connection attempt succeeds; the connection answers reads as given. -/
def conn (reads : List ReadAns) : Option (Nat × TaskOut) := some (0, .connected ⟨reads, [], [], []⟩)

/-- An iteration in which the connection takes everything. -/
def eager : SEnv := { sendAns := List.replicate 8 [.ok 100000, .ok 1], flushAns := [.ok 100000, .ok 1] }

/-- An iteration in which the connection takes nothing. -/
def stuck : SEnv := {}

end MsgRs.Props
