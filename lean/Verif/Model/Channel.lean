import Verif.Model.Bytes
/-!
# msg-common/src/channel.rs — the bounded bi-directional channel

Two `tokio::sync::mpsc` channels, each sender wrapped in a `tokio_util::sync::PollSender`. Both are dependencies that
are not in /repo; modelled by their documented behaviour: a FIFO with `cap` places, a place being taken by a message
in it or by a permit; a place that becomes free goes to a waiting `PollSender` first. Wakers are not modelled.
-/
namespace MsgRs.Chan
open MsgRs

/-- State of a `PollSender`: idle, waiting for a place (which may have been granted since), holding a permit, closed. -/
inductive Tx where
  | idle
  | acquiring (granted : Bool)
  | ready
  | closed
  deriving Repr, DecidableEq

/-- One direction. `sender`: the `PollSender` still has its sender (`get_ref()`); `rx`: the receiver exists. -/
structure Dir (α : Type) where
  cap : Nat
  queue : List α := []
  tx : Tx := .idle
  sender : Bool := true
  rx : Bool := true
  deriving Repr, DecidableEq

/-- Places a `PollSender` takes. -/
def Tx.places : Tx → Nat
  | .ready => 1
  | .acquiring true => 1
  | _ => 0

/-- Places taken. -/
def Dir.used (d : Dir α) : Nat := d.queue.length + d.tx.places

/-- What one operation reports. -/
inductive Out (α : Type) where
  /-- Done: the message was accepted, the permit is there, or the operation has no result. -/
  | ok
  | pending
  | full
  | closed
  | empty
  | item (a : α)
  /-- `None` / `Disconnected`: nothing left and no sender. -/
  | ended
  deriving Repr, DecidableEq

/-- `Channel::try_send`, channel.rs:65-71, and `mpsc::Sender::try_send`. -/
def Dir.trySend (d : Dir α) (a : α) : Out α × Dir α :=
  if d.sender then
    if d.rx then
      if d.used < d.cap then (.ok, { d with queue := d.queue ++ [a] }) else (.full, d)
    else (.closed, d)
  else (.closed, d)

/-- `Sink::poll_ready`, channel.rs:140-142, and `PollSender::poll_reserve`. -/
def Dir.pollReady (d : Dir α) : Out α × Dir α :=
  match d.tx with
  | .closed => (.closed, d)
  | .ready => (.ok, d)
  | .idle =>
    if d.rx then
      if d.used < d.cap then (.ok, { d with tx := .ready }) else (.pending, { d with tx := .acquiring false })
    else (.closed, { d with tx := .closed })
  | .acquiring g =>
    if d.rx then if g then (.ok, { d with tx := .ready }) else (.pending, d)
    else (.closed, { d with tx := .closed })

/-- `Sink::start_send`, channel.rs:144-146, and `PollSender::send_item`: without permit it panics, unless the sender
is closed. A message sent after the receiver is gone is dropped. -/
def Dir.startSend (d : Dir α) (a : α) : R (Out α × Dir α) :=
  match d.tx with
  | .ready =>
    .ok (.ok, { d with tx := if d.sender then .idle else .closed, queue := if d.rx then d.queue ++ [a] else d.queue })
  | .closed => .ok (.closed, d)
  | _ => .panic

/-- One poll of `Channel::send`, channel.rs:55-57 (`SinkExt::send`: `poll_ready`, then `start_send`; flushing is
immediate). -/
def Dir.pollSend (d : Dir α) (a : α) : R (Out α × Dir α) :=
  match d.pollReady with
  | (.ok, d) => d.startSend a
  | (o, d) => .ok (o, d)

/-- `Sink::poll_close`, channel.rs:152-154, and `PollSender::close`: a permit can still be used. -/
def Dir.close (d : Dir α) : Dir α :=
  { d with sender := false, tx := match d.tx with
      | .ready => .ready
      | _ => .closed }

/-- A place that is free goes to the waiting sender. -/
def Dir.grant (d : Dir α) : Dir α :=
  match d.tx with
  | .acquiring false => if d.used < d.cap then { d with tx := .acquiring true } else d
  | _ => d

/-- Whether a message can still come: `mpsc` ends when no sender and no permit is left. -/
def Dir.live (d : Dir α) : Bool := d.sender || d.tx = .ready

/-- `poll_recv`, `recv`, `poll_next`, channel.rs:85-87,124-135: `pending` when nothing is there. -/
def Dir.pollRecv (d : Dir α) : Out α × Dir α :=
  match d.queue with
  | a :: q => (.item a, { d with queue := q }.grant)
  | [] => if d.live then (.pending, d) else (.ended, d)

/-- `try_recv`, channel.rs:99-101. -/
def Dir.tryRecv (d : Dir α) : Out α × Dir α :=
  match d.queue with
  | a :: q => (.item a, { d with queue := q }.grant)
  | [] => if d.live then (.empty, d) else (.ended, d)

/-- The sender's end is dropped, with any permit. -/
def Dir.dropTx (d : Dir α) : Dir α := { d with sender := false, tx := .closed }

/-- The receiver is dropped, and what is in the channel with it. -/
def Dir.dropRx (d : Dir α) : Dir α := { d with rx := false, queue := [] }

/-- The two ends returned by `channel(tx_buffer, rx_buffer)`, channel.rs:31-43: the left end sends on `lr` and
receives on `rl`, the right one the other way round. -/
structure Pair (S T : Type) where
  lr : Dir S
  rl : Dir T
  deriving Repr, DecidableEq

/-- `channel`, channel.rs:31-43; `mpsc::channel(0)` panics. -/
def channel (S T : Type) (txBuffer rxBuffer : Nat) : R (Pair S T) :=
  if txBuffer = 0 ∨ rxBuffer = 0 then .panic
  else .ok { lr := { cap := txBuffer }, rl := { cap := rxBuffer } }

/-- A call on one end. -/
inductive Call (S : Type) where
  | trySend (a : S)
  | pollSend (a : S)
  | pollReady
  | startSend (a : S)
  | close
  | tryRecv
  | pollRecv
  /-- The end is dropped: its sender and its receiver. -/
  | drop
  deriving Repr, DecidableEq

/-- A call by an end that sends on `o` and receives on `i`: what it reports about sending, about receiving, and the
two directions afterwards. -/
def Call.run (c : Call S) (o : Dir S) (i : Dir T) : R (Out S × Out T × Dir S × Dir T) :=
  match c with
  | .trySend a => .ok ((o.trySend a).1, .ok, (o.trySend a).2, i)
  | .pollSend a => do
    let (r, o) ← o.pollSend a
    return (r, .ok, o, i)
  | .pollReady => .ok (o.pollReady.1, .ok, o.pollReady.2, i)
  | .startSend a => do
    let (r, o) ← o.startSend a
    return (r, .ok, o, i)
  | .close => .ok (.ok, .ok, o.close, i)
  | .tryRecv => .ok (.ok, i.tryRecv.1, o, i.tryRecv.2)
  | .pollRecv => .ok (.ok, i.pollRecv.1, o, i.pollRecv.2)
  | .drop => .ok (.ok, .ok, o.dropTx, i.dropRx)

/-- Which end acts, and what it calls. -/
inductive Act (S T : Type) where
  | left (c : Call S)
  | right (c : Call T)
  deriving Repr, DecidableEq

/-- A call with what it reported about the direction it sends on and the one it receives on. -/
inductive Ev (S T : Type) where
  | left (c : Call S) (tx : Out S) (rx : Out T)
  | right (c : Call T) (tx : Out T) (rx : Out S)
  deriving Repr, DecidableEq

/-- One call. -/
def Pair.act (p : Pair S T) : Act S T → R (Pair S T × Ev S T)
  | .left c => do
    let (a, b, o, i) ← c.run p.lr p.rl
    return ({ lr := o, rl := i }, .left c a b)
  | .right c => do
    let (a, b, o, i) ← c.run p.rl p.lr
    return ({ lr := i, rl := o }, .right c a b)

/-- A history. -/
def Pair.run (p : Pair S T) : List (Act S T) → R (Pair S T × List (Ev S T))
  | [] => .ok (p, [])
  | a :: as => do
    let (p, e) ← p.act a
    let (p, es) ← p.run as
    return (p, e :: es)

end MsgRs.Chan
