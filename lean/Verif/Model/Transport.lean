import Verif.Model.Bytes
/-!
# msg-transport — accepting connections

`poll_accept` of the three transports and the `Acceptor` future (msg-transport/src/lib.rs:80-108). The operating
system's listener and quinn's endpoint are the environment: they have a queue of what they are going to report.
-/
namespace MsgRs.Transport
open MsgRs

/-- The result of accepting, `Result<Io, Error>`. -/
abbrev Res (α ε : Type) := Except ε α

/-- An accept future (`Transport::Accept`), by what it answers to its polls: it is pending `waits` times, then
ready. -/
structure Fut (α ε : Type) where
  waits : Nat
  res : Res α ε
  deriving Repr

/-- One poll of a future: the result, or the future that is left. -/
def Fut.poll (f : Fut α ε) : Option (Res α ε) × Fut α ε :=
  match f.waits with
  | 0 => (some f.res, f)
  | n + 1 => (none, { f with waits := n })

/-- Errors of accepting: not bound, an error of the listener, an error of the new connection, a closed endpoint. -/
inductive Err where
  | notConnected
  | listener
  | connection
  | closedEndpoint
  deriving Repr, DecidableEq

/-! ## TCP -/

/-- What `TcpListener::poll_accept` reports: a connection (name, peer address) and whether `set_nodelay` on it will
succeed; or an error. -/
inductive TcpIn (A : Type) where
  | conn (uid : Nat) (peer : A) (nodelay : Bool)
  | err
  deriving Repr, DecidableEq

/-- A stream handed out: its name and what `peer_addr()` reports. -/
structure Stream (A : Type) where
  uid : Nat
  peer : A
  deriving Repr, DecidableEq

/-- The accept future made from a report, tcp/mod.rs:73-84. -/
def TcpIn.fut : TcpIn A → Fut (Stream A) Err
  | .conn uid peer nodelay => { waits := 0, res := if nodelay then .ok ⟨uid, peer⟩ else .error .connection }
  | .err => { waits := 0, res := .error .listener }

/-! ## IPC -/

/-- What `UnixListener::poll_accept` reports: a connection or an error. -/
inductive IpcIn where
  | conn (uid : Nat)
  | err
  deriving Repr, DecidableEq

/-- ipc/mod.rs:137-145: the peer address is the path the listener is bound to. -/
def IpcIn.fut (path : A) : IpcIn → Fut (Stream A) Err
  | .conn uid => { waits := 0, res := .ok ⟨uid, path⟩ }
  | .err => { waits := 0, res := .error .listener }

/-! ## QUIC -/

/-- What quinn's endpoint reports (through the channel of quic/mod.rs:190-205): an incoming connection, the number of
polls its handshake and its first stream take, and whether they succeed; or that the endpoint is closed. -/
inductive QuicIn (A : Type) where
  | conn (uid : Nat) (peer : A) (waits : Nat) (ok : Bool)
  | closed
  deriving Repr, DecidableEq

/-- quic/mod.rs:152-176 -/
def QuicIn.fut : QuicIn A → Fut (Stream A) Err
  | .conn uid peer waits ok => { waits, res := if ok then .ok ⟨uid, peer⟩ else .error .connection }
  | .closed => { waits := 0, res := .error .closedEndpoint }

/-! ## Waiting for a connection -/

/-- A transport on which a task waits with `accept().await`. `queue`: the accept futures the listener is going to hand
out (reports that arrived and were not taken); `bound`: there is a listener; `armed`: the task's waker is registered
with the listener; `woken`: the task is scheduled; `out`: the result, once there is one. Ghost: `arrived` all
reports so far, `lost` the futures that were dropped before they were ready. -/
structure Waiter (α : Type) where
  bound : Bool
  unbound : Err := .notConnected
  queue : List (Fut α Err) := []
  armed : Bool := false
  woken : Bool := true
  out : Option (Res α Err) := none
  arrived : List (Fut α Err) := []
  lost : List (Fut α Err) := []

/-- `poll_accept`: tcp/mod.rs:66-85, ipc/mod.rs:129-149, quic/mod.rs:145-209: without listener an error that is ready
at once; otherwise the next report, or `Pending` (`none`) with the waker registered. -/
def Waiter.pollAccept (w : Waiter α) : Option (Fut α Err) × Waiter α :=
  if w.bound then
    match w.queue with
    | f :: q => (some f, { w with queue := q })
    | [] => (none, { w with armed := true })
  else (some { waits := 0, res := .error w.unbound }, w)

/-- `Acceptor::poll`, msg-transport/src/lib.rs:98-107: an accept future that is not ready at once is dropped. -/
def Waiter.poll (w : Waiter α) : Waiter α :=
  match w.pollAccept with
  | (none, w) => { w with woken := false }
  | (some f, w) =>
    match f.poll with
    | (some r, _) => { w with out := some r, woken := false }
    | (none, f) => { w with lost := w.lost ++ [f], woken := false }

/-- Things that happen: a report arrives at the listener (and wakes a registered task); the task runs, if it is
scheduled and still waiting. A future that was dropped wakes nobody. -/
inductive Act (α : Type) where
  | arrive (f : Fut α Err)
  | run

/-- One action. -/
def Waiter.act (w : Waiter α) : Act α → Waiter α
  | .arrive f =>
    { w with queue := w.queue ++ [f], arrived := w.arrived ++ [f], woken := w.woken || w.armed, armed := false }
  | .run => if w.woken && w.out.isNone then w.poll else w

/-- A history. -/
def Waiter.hist (w : Waiter α) (acts : List (Act α)) : Waiter α := acts.foldl Waiter.act w

/-! ## QUIC: window sizes -/

/-- Multiplication of `u32`s: an overflow panics if the build has overflow checks (`checks`) and wraps otherwise. -/
def mulU32 (checks : Bool) (a b : UInt32) : R UInt32 :=
  if a.toNat * b.toNat < 2 ^ 32 then .ok (a * b)
  else if checks then .panic else .ok (a * b)

/-- The windows computed in `ConfigBuilder::build`, quic/config.rs:80-101: both are `8 * (bandwidth / 1000 * rtt)`. -/
def window (checks : Bool) (bandwidth rtt : UInt32) : R UInt32 := do
  let rwnd ← mulU32 checks (bandwidth / 1000) rtt
  mulU32 checks 8 rwnd

end MsgRs.Transport
