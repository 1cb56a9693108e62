import Verif.Model.PubSession
import Verif.Model.Broadcast
/-!
# msg-socket/src/pub/socket.rs, and a publisher with its sessions
-/
namespace MsgRs.Pub
open MsgRs

/-- The errors of `PubError` (pub/mod.rs:27-42) that publishing and binding can produce. -/
inductive PubErr where
  | io
  | socketClosed
  | noValidEndpoints
  deriving Repr, DecidableEq

/-- The loop of `try_bind` over the addresses (pub/socket.rs:112-120, same text in rep/socket.rs:109-117)
followed by `transport.local_addr()`. `bind a = some l` means `transport.bind(a)` succeeds and the
listener reports local address `l`; a failed `bind` leaves the transport as it was (tcp/mod.rs:49-55).
`cur` is `transport.local_addr()` before the loop. -/
def bindLoop (bind : A → Option A) (cur : Option A) : List A → Option A
  | [] => cur
  | a :: as =>
    match bind a with
    | some l => some l
    | none => bindLoop bind cur as

/-- `PubSocket`, pub/socket.rs:20-39 (authenticator and statistics are with the driver).
`transport = none`: the transport was moved to the driver. -/
structure Socket (A : Type) where
  minCompress : Nat
  bufferSize : Nat
  comp : Option Compressor
  transport : Option (Option A)
  chan : Option (Bcast PubMsg)
  localAddr : Option A

/-- `PubSocket::with_options` with a fresh transport, pub/socket.rs:79-89. -/
def Socket.new (minCompress bufferSize : Nat) (comp : Option Compressor) : Socket A :=
  { minCompress, bufferSize, comp, transport := some none, chan := none, localAddr := none }

/-- `try_bind`, pub/socket.rs:106-145. Panics: `broadcast::channel` with a capacity of 0 or of more than `usize::MAX >> 1` (here with 64 bits; that the
memory for it cannot be had is not modelled) and `expect` on a moved transport.
On `NoValidEndpoints` the transport has been taken and is dropped. -/
def Socket.tryBind (s : Socket A) (bind : A → Option A) (addrs : List A) :
    R (Except PubErr Unit × Socket A) :=
  if s.bufferSize = 0 ∨ 2 ^ 63 ≤ s.bufferSize then .panic
  else
    match s.transport with
    | none => .panic
    | some cur =>
      match bindLoop bind cur addrs with
      | none => .ok (.error .noValidEndpoints, { s with transport := none })
      | some l => .ok (.ok (), { s with transport := none, chan := some (Bcast.new s.bufferSize),
                                        localAddr := some l })

/-- `publish` after the message was prepared, pub/socket.rs:163-167 and 185-189: the closed error if
unbound, otherwise `Ok` whatever `send` returns. -/
def Socket.broadcast (s : Socket A) (m : PubMsg) : Except PubErr Unit × Socket A :=
  match s.chan with
  | none => (.error .socketClosed, s)
  | some b => (.ok (), { s with chan := some (b.send m) })

/-- `PubSocket::publish`, pub/socket.rs:148-168. -/
def Socket.publish (s : Socket A) (topic : Str) (payload : Bytes) : Except PubErr Unit × Socket A :=
  match publishPrepare s.minCompress s.comp topic payload with
  | none => (.error .io, s)
  | some m => s.broadcast m

/-- `PubSocket::try_publish`, pub/socket.rs:172-190. -/
def Socket.tryPublish (s : Socket A) (topic : Str) (payload : Bytes) : Except PubErr Unit × Socket A :=
  match tryPublishPrepare s.comp topic payload with
  | none => (.error .io, s)
  | some m => s.broadcast m

/-! ## The bound publisher: channel and sessions -/

/-- A spawned session task: its receiver position, its state, what it did (ghost), and whether the task is
over (ended or panicked). -/
structure Task where
  next : Nat
  sess : Session
  evs : List Ev := []
  over : Bool := false

/-- A bound publisher: the broadcast channel and the session tasks, by session number. -/
structure Sys where
  chan : Bcast PubMsg
  tasks : Nat → Option Task

/-- Things that happen to a bound publisher. -/
inductive Act where
  /-- `publish`/`try_publish` hands a prepared message to the channel. -/
  | publish (m : PubMsg)
  /-- The driver spawns session `i` for a connection (pub/driver.rs:61-78, 186-202). -/
  | connect (i : Nat) (boundary : Nat) (input : List ReadAns)
  /-- The task of session `i` runs one iteration of its poll loop (the `feed` of the environment is
  replaced by what the channel answers). -/
  | step (i : Nat) (e : Env)
  /-- Every clone of the socket is dropped. -/
  | drop

/-- A publisher just bound. -/
def Sys.new (bufferSize : Nat) : Sys := { chan := Bcast.new bufferSize, tasks := fun _ => none }

/-- What the channel answers to a receiver at `next` (`BroadcastStream`, pub/session.rs:26). -/
def feedOf (b : Bcast PubMsg) (next : Nat) : FeedAns :=
  match (b.recv next).1 with
  | .empty => .pending
  | .closed => .closed
  | .item m => .msg m
  | .lagged k => .lagged k
  | .corrupt => .closed

/-- One iteration of a session task against the channel. The receiver position moves only if the iteration
got as far as polling the channel. When the iteration panics (a topic longer than 65535 bytes) the task is gone; its
state is kept as it was before the iteration, that is without the writes this last iteration may have made, which move
bytes from `wr.buf` to `wr.wire` only. -/
def Task.step (L : Lossy) (b : Bcast PubMsg) (t : Task) (e : Env) : Task :=
  if t.over then t
  else
    match t.sess.iter L { e with feed := feedOf b t.next } with
    | .panic => { t with over := true }
    | .ok (s, ev) =>
      { next := match ev with
          | .took _ _ => (b.recv t.next).2
          | .lagged _ => (b.recv t.next).2
          | _ => t.next
        sess := s, evs := t.evs ++ [ev], over := ev = .ended }

/-- One action. -/
def Sys.act (L : Lossy) (s : Sys) : Act → Sys
  | .publish m => { s with chan := s.chan.send m }
  | .connect i boundary input =>
    match s.tasks i with
    | some _ => s
    | none =>
      { s with tasks := fun j =>
          if j = i then some { next := s.chan.resubscribe, sess := Session.new boundary input }
          else s.tasks j }
  | .step i e =>
    { s with tasks := fun j => if j = i then (s.tasks i).map (fun t => t.step L s.chan e) else s.tasks j }
  | .drop => { s with chan := s.chan.close }

/-- A history. -/
def Sys.run (L : Lossy) (s : Sys) (acts : List Act) : Sys := acts.foldl (Sys.act L) s

end MsgRs.Pub
