import Verif.Model.PubSession
import Verif.Model.Backoff
/-!
# msg-socket/src/pub/session.rs — a subscriber session with its flush interval and a clock

`Session.iter` (Model/PubSession) takes from its environment whether the flush interval has elapsed. Here
that answer is computed from the interval and the clock, as `should_flush` does.
-/
namespace MsgRs.Pub
open MsgRs

/-- `SubscriberSession` (pub/session.rs:20-39) with `flush_interval`, and the current time. -/
structure Timed where
  s : Session
  iv : Option Interval
  now : Nat
  ended : Bool := false

/-- The session value built in pub/driver.rs:61-74 and 186-199: `options.flush_interval.map(interval)`, which
panics for a zero period. -/
def Timed.new (boundary : Nat) (input : List ReadAns) (period : Option Nat) (now : Nat) : R Timed :=
  match period with
  | none => .ok { s := Session.new boundary input, iv := none, now }
  | some p => do
    let iv ← Interval.new now p
    return { s := Session.new boundary input, iv := some iv, now }

/-- `should_flush`, pub/session.rs:78-93: whether to flush, and the interval afterwards. -/
def Timed.shouldFlush (t : Timed) : Bool × Option Interval :=
  if t.s.shouldFlush then
    match t.iv with
    | some iv =>
      let (r, iv) := iv.tick t.now
      (r, some iv)
    | none => (true, none)
  else (false, t.iv.map (·.reset t.now))

/-- One iteration of the loop in `poll`, pub/session.rs:142-218. -/
def Timed.iter (L : Lossy) (t : Timed) (e : Env) : R (Timed × Ev) := do
  let (r, iv) := t.shouldFlush
  let (s, ev) ← t.s.iter L { e with tick := r }
  return ({ t with s, iv, ended := ev = .ended }, ev)

/-- Things that happen to a session: an iteration of its loop, or time passes. -/
inductive TAct where
  | iter (e : Env)
  | advance (dt : Nat)

/-- A history; a session that has ended is not polled again. -/
def Timed.run (L : Lossy) (t : Timed) : List TAct → R (Timed × List Ev)
  | [] => .ok (t, [])
  | .advance dt :: as => Timed.run L { t with now := t.now + dt } as
  | .iter e :: as =>
    if t.ended then Timed.run L t as
    else do
      let (t, ev) ← t.iter L e
      let (t, evs) ← Timed.run L t as
      return (t, ev :: evs)

end MsgRs.Pub
