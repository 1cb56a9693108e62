import Verif.Model.Handshake
import Verif.Model.PubSocket
/-!
# msg-socket/src/pub/driver.rs — accepting and authenticating subscribers

The loop of `PubDriver::poll`, one iteration per environment. The session tasks it spawns are those of
`Model/PubSession`; here only their number and their input matter.
-/
namespace MsgRs

/-- An incoming connection, as everything it is going to do: whether `accept` succeeds, its peer address
(`none`: `peer_addr` fails), and its answers to reads and writes during the handshake. Without
authenticator, the reads go to the session directly. -/
structure Conn (A : Type) where
  uid : Nat
  addr : Option A
  hs : HsEnv
  deriving Repr, DecidableEq

/-- `decrement_active_clients` (pub/stats.rs:24-27, rep/stats.rs:33-36): `fetch_sub` on an `AtomicUsize`
wraps around. -/
def decr (n : Nat) : Nat := if n = 0 then 2 ^ 64 - 1 else n - 1

namespace Pub

/-- `PubDriver`, pub/driver.rs:22-41, and the session tasks alive (connection, reads left to the session). -/
structure Driver (A : Type) where
  max : Option Nat
  authn : Option (Bytes → Bool)
  active : Nat := 0
  connTasks : List (Conn A) := []
  authTasks : List (Conn A) := []
  sessions : List (Conn A × List ReadAns) := []

/-- What the environment does during one iteration of the loop: the authentication task (by index) that
`poll_join_next` reports, the accept future (by index, with its result) that is ready, the connection the
listener reports. -/
structure DEnv (A : Type) where
  join : Option Nat
  ready : Option (Nat × Bool)
  accept : Option (Conn A)

/-- `on_incoming`, pub/driver.rs:142-208. `false`: `peer_addr` failed. -/
def Driver.onIncoming (d : Driver A) (c : Conn A) : Driver A × Bool :=
  match c.addr with
  | none => (d, false)
  | some _ =>
    match d.authn with
    | some _ => ({ d with authTasks := d.authTasks ++ [c] }, true)
    | none => ({ d with sessions := d.sessions ++ [(c, c.hs.reads)] }, true)

/-- pub/driver.rs:55-87. The flag says whether the branch was taken (`continue`): a task that panicked is
removed by the `JoinSet` but the pattern `Ready(Some(Ok(_)))` does not match, so the loop goes on below. A
task that is not finished cannot be reported. -/
def Driver.stepJoin (d : Driver A) (e : DEnv A) : Driver A × Bool :=
  match e.join, d.authn with
  | some i, some f =>
    match d.authTasks[i]? with
    | none => (d, false)
    | some c =>
      let d' := { d with authTasks := d.authTasks.eraseIdx i }
      match hsServer f c.hs with
      | .waiting _ => (d, false)
      | .accepted _ _ rest _ => ({ d' with sessions := d'.sessions ++ [(c, rest)] }, true)
      | .failed _ => ({ d' with active := decr d'.active }, true)
      | .panicked => (d', false)
  | _, _ => (d, false)

/-- pub/driver.rs:91-110. -/
def Driver.stepConn (d : Driver A) (e : DEnv A) : Driver A × Bool :=
  match e.ready with
  | none => (d, false)
  | some (i, ok) =>
    match d.connTasks[i]? with
    | none => (d, false)
    | some c =>
      let d' := { d with connTasks := d.connTasks.eraseIdx i }
      if ok then
        match d'.onIncoming c with
        | (d'', true) => (d'', true)
        | (d'', false) => ({ d'' with active := decr d''.active }, true)
      else ({ d' with active := decr d'.active }, true)

/-- pub/driver.rs:113-128. -/
def Driver.stepAccept (d : Driver A) (e : DEnv A) : Driver A × Bool :=
  match e.accept with
  | none => (d, false)
  | some c =>
    match d.max with
    | some m =>
      if m ≤ d.active then (d, true)
      else ({ d with active := d.active + 1, connTasks := d.connTasks ++ [c] }, true)
    | none => ({ d with active := d.active + 1, connTasks := d.connTasks ++ [c] }, true)

/-- One iteration of the loop, pub/driver.rs:52-131. -/
def Driver.iter (d : Driver A) (e : DEnv A) : Driver A :=
  match d.stepJoin e with
  | (d, true) => d
  | (d, false) =>
    match d.stepConn e with
    | (d, true) => d
    | (d, false) => (d.stepAccept e).1

/-- What happens to the driver: an iteration of its loop, or a session task ends and is dropped
(`Drop for SubscriberSession`, pub/session.rs:97-101; also when the task panics). -/
inductive DAct (A : Type) where
  | iter (e : DEnv A)
  | sessionEnd (i : Nat)

/-- One action. -/
def Driver.act (d : Driver A) : DAct A → Driver A
  | .iter e => d.iter e
  | .sessionEnd i =>
    match d.sessions[i]? with
    | none => d
    | some _ => { d with sessions := d.sessions.eraseIdx i, active := decr d.active }

/-- A history. -/
def Driver.run (d : Driver A) (acts : List (DAct A)) : Driver A := acts.foldl Driver.act d

end Pub
end MsgRs
