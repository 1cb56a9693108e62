/-!
# `tokio::sync::broadcast` (dependency, 1.x)

The channel created in pub/socket.rs:107-108; every session reads it through its own receiver obtained with
`resubscribe()` (pub/driver.rs:67,192). Models `tokio/src/sync/broadcast.rs`: a ring of slots, positions
counted by `tail.pos` (positions are `u64` in tokio; wrap-around after 2^64 messages is not modelled).
-/
namespace MsgRs

/-- A slot: `pos + capacity` of the value it holds (so that the initial value `i - capacity` of tokio is
the natural number `i`), and the value. -/
structure Slot (α : Type) where
  mark : Nat
  val : Option α
  deriving Repr, DecidableEq

/-- `Shared`: the ring, the tail position, and whether every sender is gone. -/
structure Bcast (α : Type) where
  slots : List (Slot α)
  tail : Nat
  closed : Bool := false
  deriving Repr, DecidableEq

/-- `usize::next_power_of_two`, as used by `broadcast::channel`. -/
def nextPow2 (n : Nat) : Nat := if n ≤ 1 then 1 else 2 ^ (Nat.log2 (n - 1) + 1)

/-- `broadcast::channel(n)` for `n > 0`: the capacity is rounded up to a power of two
(`broadcast::channel(0)` panics). -/
def Bcast.new (n : Nat) : Bcast α :=
  { slots := (List.range (nextPow2 n)).map fun i => { mark := i, val := none }, tail := 0 }

/-- `Sender::send` while a receiver exists (the driver keeps one, pub/driver.rs:39). -/
def Bcast.send (b : Bcast α) (v : α) : Bcast α :=
  let cap := b.slots.length
  { b with slots := b.slots.set (b.tail % cap) { mark := b.tail + cap, val := some v },
           tail := b.tail + 1 }

/-- Dropping the last `Sender`. -/
def Bcast.close (b : Bcast α) : Bcast α := { b with closed := true }

/-- Result of `Receiver::recv_ref`, as the stream sees it. -/
inductive RecvRes (α : Type) where
  | empty
  | closed
  | item (v : α)
  | lagged (missed : Nat)
  /-- Unreachable (a slot without value): kept as an explicit outcome. -/
  | corrupt
  deriving Repr, DecidableEq

/-- `Receiver::recv_ref` for a receiver at position `next`; returns the result and the new position. -/
def Bcast.recv (b : Bcast α) (next : Nat) : RecvRes α × Nat :=
  let cap := b.slots.length
  match b.slots[next % cap]? with
  | none => (.corrupt, next)
  | some slot =>
    let take : RecvRes α × Nat :=
      match slot.val with
      | some v => (.item v, next + 1)
      | none => (.corrupt, next)
    if slot.mark ≠ next + cap then
      if slot.mark = next then (if b.closed then .closed else .empty, next)
      else
        let next' := b.tail - cap
        let missed := next' - next
        if missed = 0 then take else (.lagged missed, next')
    else take

/-- `Receiver::resubscribe`: a new receiver at the tail. -/
def Bcast.resubscribe (b : Bcast α) : Nat := b.tail

end MsgRs
