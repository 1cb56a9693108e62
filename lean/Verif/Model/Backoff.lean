import Verif.Model.Bytes
/-!
# msg-socket/src/connection/backoff.rs and tokio's `Interval`

Times and durations are natural numbers of nanoseconds. A poll of a timer is ready as soon as the clock has
reached its deadline (the real timer wheel may fire up to a millisecond late; a late timer is a later poll).
-/
namespace MsgRs

/-- The largest `std::time::Duration`: `u64::MAX` seconds and 999 999 999 ns. -/
def Duration.max : Nat := (2 ^ 64 - 1) * 1000000000 + 999999999

/-- `ExponentialBackoff`, backoff.rs:12-23. `deadline` is the `Sleep`. -/
structure Backoff where
  count : Nat := 0
  max : Nat
  cur : Nat
  deadline : Option Nat := none
  deriving Repr, DecidableEq

/-- `ExponentialBackoff::new`, backoff.rs:26-28. -/
def Backoff.new (initial max : Nat) : Backoff := { max, cur := initial }

/-- Result of polling it. -/
inductive BOut where
  | pending
  | item (d : Nat)
  | ended
  deriving Repr, DecidableEq

/-- `poll_next` with the timeout set, backoff.rs:48-69. `*=` on a `Duration` panics on overflow. -/
def Backoff.fire (b : Backoff) (now deadline : Nat) : R (BOut × Backoff) :=
  if deadline ≤ now then
    if Duration.max < b.cur * 2 then .panic
    else
      let b := { b with cur := b.cur * 2, count := b.count + 1 }
      if b.max ≤ b.count then .ok (.ended, b)
      else .ok (.item b.cur, { b with deadline := some (now + b.cur) })
  else .ok (.pending, b)

/-- `ExponentialBackoff::poll_next`, backoff.rs:41-75: without timeout, the initial one is set and polled. -/
def Backoff.poll (b : Backoff) (now : Nat) : R (BOut × Backoff) :=
  match b.deadline with
  | some t => b.fire now t
  | none => { b with deadline := some (now + b.cur) }.fire now (now + b.cur)

/-- `tokio::time::Interval` with the default `MissedTickBehavior::Burst`. -/
structure Interval where
  next : Nat
  period : Nat
  deriving Repr, DecidableEq

/-- `tokio::time::interval`: the first tick is immediate; a zero period panics. -/
def Interval.new (now period : Nat) : R Interval :=
  if period = 0 then .panic else .ok { next := now, period }

/-- `Interval::poll_tick`. -/
def Interval.tick (i : Interval) (now : Nat) : Bool × Interval :=
  if i.next ≤ now then (true, { i with next := i.next + i.period }) else (false, i)

/-- `Interval::reset`. -/
def Interval.reset (i : Interval) (now : Nat) : Interval := { i with next := now + i.period }

end MsgRs
