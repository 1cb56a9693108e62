import Verif.Model.RepDriver
/-!
# One poll of a server's driver: rep/driver.rs:72-180, pub/driver.rs:49-132

`Model/PubDriver` and `Model/RepDriver` have one action per branch of the loop, in any order. Here the loop is followed in its own order, with
what is ready: a task woken by finished handshakes, accept futures or the listener polls until it returns `Pending`.
-/
namespace MsgRs

/-- What is ready when the driver is polled: finished authentication tasks (by connection, in the order the `JoinSet` was notified), accept futures with
their results, connections the listener reports. Whatever becomes ready during the poll wakes the driver again, so that it is not part of this poll. -/
structure Avail (A : Type) where
  joins : List Nat
  conns : List (Nat × Bool)
  accepts : List (Conn A)

/-- Number of things that are ready. -/
def Avail.size (r : Avail A) : Nat := r.joins.length + r.conns.length + r.accepts.length

namespace Pub

/-- What the three branches of the next iteration are given. -/
def Driver.offer (d : Driver A) (r : Avail A) : DEnv A :=
  { join := r.joins.head?.bind fun u => d.authTasks.findIdx? (·.uid = u)
    ready := r.conns.head?.bind fun x => (d.connTasks.findIdx? (·.uid = x.1)).map (·, x.2)
    accept := r.accepts.head? }

/-- One iteration of the loop, pub/driver.rs:52-131; the flag says whether it continues. `poll_join_next` takes the task out of the set
also when it panicked, in which case the pattern does not match and the loop falls through. -/
def Driver.pollIter (d : Driver A) (r : Avail A) : Driver A × Avail A × Bool :=
  let e := d.offer r
  match d.stepJoin e with
  | (d, true) => (d, { r with joins := r.joins.tail }, true)
  | (d, false) =>
    let r := { r with joins := r.joins.tail }
    match d.stepConn e with
    | (d, true) => (d, { r with conns := r.conns.tail }, true)
    | (d, false) =>
      match d.stepAccept e with
      | (d, true) => (d, { r with accepts := r.accepts.tail }, true)
      | (d, false) => (d, r, false)

/-- `PubDriver::poll`, pub/driver.rs:49-132: iterations until one returns. `none`: still looping after `n`. -/
def Driver.poll (d : Driver A) (r : Avail A) : Nat → Option (Driver A × Avail A)
  | 0 => none
  | n + 1 =>
    match d.pollIter r with
    | (d, r, true) => Driver.poll d r n
    | (d, r, false) => some (d, r)

end Pub

namespace Rep

/-- Everything the peers do before `peer_states.poll_next` returns `Pending` (rep/driver.rs:76-105). -/
def Driver.peers' (D : Decompressors) (d : Driver A) : List (Nat × PEnv) → R (Driver A)
  | [] => .ok d
  | (k, e) :: xs => do
    let d ← d.stepPeer D k e
    Driver.peers' D d xs

/-- The join branch, rep/driver.rs:107-133: whether it was taken. -/
def Driver.pollJoin [DecidableEq A] (d : Driver A) (r : Avail A) : Driver A × Bool :=
  match r.joins.head?.bind fun u => d.authTasks.findIdx? (·.uid = u) with
  | none => (d, false)
  | some i =>
    match d.authn, d.authTasks[i]? with
    | some f, some c =>
      match hsServer f c.hs with
      | .waiting _ => (d, false)
      | .panicked => (d.stepJoin i, false)
      | _ => (d.stepJoin i, true)
    | _, _ => (d, false)

/-- One iteration of the loop, rep/driver.rs:75-179, after the peers; the flag says whether it continues. -/
def Driver.pollIter [DecidableEq A] (d : Driver A) (r : Avail A) : Driver A × Avail A × Bool :=
  match d.pollJoin r with
  | (d, true) => (d, { r with joins := r.joins.tail }, true)
  | (d, false) =>
    let r := { r with joins := r.joins.tail }
    match r.conns.head?.bind fun x => (d.connTasks.findIdx? (·.uid = x.1)).map (·, x.2) with
    | some (i, ok) => (d.stepConn i ok, { r with conns := r.conns.tail }, true)
    | none =>
      match r.accepts with
      | c :: cs => (d.stepAccept c, { r with accepts := cs }, true)
      | [] => (d, r, false)

/-- `RepDriver::poll`, rep/driver.rs:72-180: iterations until one returns; `ps` is what the peers do in each. `none`: still
looping when they are used up. -/
def Driver.poll [DecidableEq A] (D : Decompressors) (d : Driver A) (r : Avail A) : List (List (Nat × PEnv)) → R (Option (Driver A × Avail A))
  | [] => .ok none
  | xs :: ps => do
    let d ← d.peers' D xs
    match d.pollIter r with
    | (d, r, true) => Driver.poll D d r ps
    | (d, r, false) => return some (d, r)

end Rep
end MsgRs
