import Verif.Model.PubServer
import Verif.Model.PubTimed
import Verif.Model.ReqDriver
import Verif.Model.SubDriver
/-!
# Where the value of an option makes a background task panic

The flush interval of a publisher reaches `tokio::time::interval` in its driver (pub/driver.rs:73, 198), which panics for a zero period; that of a publisher
or a request socket reaches `Interval::reset` (pub/session.rs:89, req/driver.rs:232), which adds it to the current instant and panics if the sum
does not exist. The read buffer size of a subscriber reaches `BytesMut::with_capacity` (sub/driver.rs:301) in its driver. The models of the driver and of the sessions leave this out; here it is put back.
-/
namespace MsgRs

/-- `Instant + Duration` panics when the seconds no longer fit into an `i64` (std, Unix): the first instant, in nanoseconds, that does not exist. -/
def Instant.limit : Nat := 2 ^ 63 * 1000000000

/-- `Interval::reset` (tokio 1.35): `Instant::now() + period` panics. -/
def Interval.overflows (i : Interval) (now : Nat) : Bool := decide (Instant.limit ≤ now + i.period)

namespace Req

/-- `should_flush`, req/driver.rs:220-237, panics: nothing to flush, and the interval cannot be reset. -/
def State.flushPanics (s : State) : Bool := !s.shouldFlush && (s.flushIv.any (·.overflows s.now))

/-- `State.act`, with the panic of `should_flush` (the first thing in an iteration, req/driver.rs:262). -/
def State.actC (D : Decompressors) (s : State) (a : Act) : R State :=
  match a with
  | .iter e => if !s.ended && s.flushPanics then .panic else s.act D (.iter e)
  | a => s.act D a

/-- A history. -/
def State.runC (D : Decompressors) (s : State) : List Act → R State
  | [] => .ok s
  | a :: as => do
    let s ← s.actC D a
    State.runC D s as

end Req

namespace Sub

/-- `Driver.act`, with the panic of `Framed::with_capacity` (sub/driver.rs:301) for a buffer of more than `isize::MAX` bytes when the driver
makes a session. (That the memory for a smaller one cannot be had is not modelled.) -/
def Driver.actC [DecidableEq A] (L : Lossy) (D : Decompressors) (d : Driver A) (a : Act A) : R (Driver A) := do
  let d' ← d.act L D a
  if 2 ^ 63 ≤ d.opts.readBuffer ∧ d.sessions.length < d'.sessions.length then .panic else .ok d'

/-- A history. -/
def Driver.runC [DecidableEq A] (L : Lossy) (D : Decompressors) (d : Driver A) : List (Act A) → R (Driver A)
  | [] => .ok d
  | a :: as => do
    let d ← d.actC L D a
    Driver.runC L D d as

end Sub

namespace Pub

/-- `should_flush`, pub/session.rs:78-93, panics: nothing to flush, and the interval cannot be reset. -/
def Timed.flushPanics (t : Timed) : Bool := !t.s.shouldFlush && (t.iv.any (·.overflows t.now))

/-- `Timed.run`, with the panic of `should_flush` (the first thing in an iteration, pub/session.rs:146). -/
def Timed.runC (L : Lossy) (t : Timed) : List TAct → R (Timed × List Ev)
  | [] => .ok (t, [])
  | .advance dt :: as => Timed.runC L { t with now := t.now + dt } as
  | .iter e :: as =>
    if t.ended then Timed.runC L t as
    else if t.flushPanics then .panic
    else do
      let (t, ev) ← t.iter L e
      let (t, evs) ← Timed.runC L t as
      return (t, ev :: evs)

/-- A publisher (`Server`) with its flush interval; whether its driver has panicked. -/
structure Host (A : Type) where
  srv : Server A
  period : Option Nat
  dead : Bool := false

/-- The driver panics while it makes a session (pub/driver.rs:61-74, 186-199): the task goes with the listener, the accepts and the
authentications under way (its `JoinSet` aborts them) and the connection the session was for. The session did not exist yet, so its `Drop` does not run and the
counter of active clients stays. Session tasks live on. -/
def Host.die (h : Host A) (d : Driver A) (e : DEnv A) : Host A :=
  { h with
    dead := true
    srv := { h.srv with drv := some { d.iter e with sessions := d.sessions, connTasks := [], authTasks := [] } } }

/-- One action: as of `Server`, but a driver that would start a session with a zero flush interval panics (`interval(0)`, pub/driver.rs:73, 198), and one
that has panicked does nothing. -/
def Host.act (L : Lossy) (h : Host A) (a : SrvAct A) : Host A :=
  match a with
  | .driver e =>
    if h.dead then h
    else
      match h.srv.drv with
      | some d =>
        if h.period = some 0 ∧ d.sessions.length < (d.iter e).sessions.length then h.die d e
        else { h with srv := h.srv.act L (.driver e) }
      | none => h
  | a => { h with srv := h.srv.act L a }

/-- A history. -/
def Host.run (L : Lossy) (h : Host A) (acts : List (SrvAct A)) : Host A := acts.foldl (Host.act L) h

/-- A new one, pub/socket.rs:79-101. -/
def Host.new (max : Option Nat) (authn : Option (Bytes → Bool)) (boundary minCompress bufferSize : Nat) (comp : Option Compressor)
    (period : Option Nat) : Host A :=
  { srv := Server.new max authn boundary minCompress bufferSize comp, period }

end Pub
end MsgRs
