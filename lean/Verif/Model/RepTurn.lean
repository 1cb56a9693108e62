import Verif.Model.AcceptPoll
/-!
# One turn of the loop of a reply socket's background task

`Model/RepDriver` says what each branch of `RepDriver::poll` does, `Model/AcceptPoll` how the branches that deal with new clients follow each other. Here the
first branch is put before them: the loop looks at new clients only when no connected client has anything for it (rep/driver.rs:75-179).
-/
namespace MsgRs.Rep

/-- `PeerState::poll_next` (rep/driver.rs:257-351) of the `k`-th connection and what the driver does with the outcome (rep/driver.rs:76-105): iterations until one returns. The flag:
whether something was returned (a request, an error, the end of the stream), `false` for `Pending`. `none`: still looping when the environments are used up. -/
def Driver.pollPeer (D : Decompressors) (d : Driver A) (k : Nat) : List PEnv → R (Option (Driver A × Bool))
  | [] => .ok none
  | e :: es =>
    match d.peers[k]? with
    | none => .ok (some (d, false))
    | some p => do
      let (_, o) ← p.iter d.comp d.slots d.next e
      let d ← d.stepPeer D k e
      match o with
      | .sent _ | .queued => Driver.pollPeer D d k es
      | .pending => return some (d, false)
      | _ => return some (d, true)

/-- `StreamMap::poll_next` on the connections, as called in rep/driver.rs:76: they are polled one after the other (tokio-stream starts at a random one; `order` is any
order) until one returns something. The flag: whether one did. -/
def Driver.pollPeers (D : Decompressors) (d : Driver A) : List (Nat × List PEnv) → R (Option (Driver A × Bool))
  | [] => .ok (some (d, false))
  | (k, es) :: order => do
    match ← d.pollPeer D k es with
    | none => return none
    | some (d, true) => return some (d, true)
    | some (d, false) => Driver.pollPeers D d order

/-- One iteration of the loop of `RepDriver::poll`, rep/driver.rs:75-179. If a connected client had something, that was all (`continue`, line 104); otherwise finished
handshakes, established connections and connection requests are looked at, in this order. The flag: whether the loop goes on. -/
def Driver.turn [DecidableEq A] (D : Decompressors) (d : Driver A) (order : List (Nat × List PEnv)) (r : Avail A) : R (Option (Driver A × Avail A × Bool)) := do
  match ← d.pollPeers D order with
  | none => return none
  | some (d, true) => return some (d, r, true)
  | some (d, false) => return some (d.pollIter r)

/-- Several iterations, with nothing new becoming ready for the branches at the end. -/
def Driver.turns [DecidableEq A] (D : Decompressors) (d : Driver A) (r : Avail A) : List (List (Nat × List PEnv)) → R (Option (Driver A × Avail A))
  | [] => .ok (some (d, r))
  | order :: os => do
    match ← d.turn D order r with
    | none => return none
    | some (d, r, true) => Driver.turns D d r os
    | some (d, r, false) => return some (d, r)

end MsgRs.Rep
