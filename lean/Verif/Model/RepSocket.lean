import Verif.Model.RepDriver
import Verif.Model.PubSocket
/-!
# msg-socket/src/rep/socket.rs — the front-end of the reply socket

`Rep.Driver` is a bound socket with its application. Here the socket is made, bound (or not), polled for requests and dropped.
-/
namespace MsgRs.Rep
open MsgRs

/-- `RepSocket`, rep/socket.rs:26-44. `transport`: `none` once it was moved, otherwise what `local_addr()` of the
transport says. `drv`: the driver, once spawned; then `from_driver` is `Some`. `dropped`: the socket was dropped (the driver
lives on: nothing tells it). -/
structure Socket (A : Type) where
  max : Option Nat
  authn : Option (Bytes → Bool)
  comp : Option Compressor
  transport : Option (Option A) := some none
  localAddr : Option A := none
  drv : Option (Driver A) := none
  dropped : Bool := false

/-- `RepSocket::with_options`, `with_auth`, `with_compressor`, rep/socket.rs:72-101, with a transport not yet bound. -/
def Socket.new (max : Option Nat) (authn : Option (Bytes → Bool)) (comp : Option Compressor) : Socket A := { max, authn, comp }

/-- `try_bind`, rep/socket.rs:104-143 (the loop over the addresses is `Pub.bindLoop`, same text): `true` for `Ok`, `false` for `NoValidEndpoints`.
The transport is taken first; it is dropped with the error. `StreamMap::with_capacity(max_clients.unwrap_or(64))` (rep/socket.rs:129) panics when the
capacity in bytes exceeds `isize::MAX`: certainly for `2 ^ 63` entries and more, which is what is modelled; since an entry takes more than one byte it happens for
smaller numbers too, and so does running out of memory. -/
def Socket.tryBind (s : Socket A) (bind : A → Option A) (addrs : List A) : R (Bool × Socket A) :=
  match s.transport with
  | none => .panic
  | some cur =>
    match Pub.bindLoop bind cur addrs with
    | none => .ok (false, { s with transport := none })
    | some l =>
      if 2 ^ 63 ≤ s.max.getD 64 then .panic
      else .ok (true, { s with transport := none, localAddr := some l, drv := some (Driver.new s.max s.authn s.comp) })

/-- `Stream::poll_next`, rep/socket.rs:161-167: the next request, `none` for `Pending`. The driver never ends, so the channel is
never closed. -/
def Socket.pollNext (s : Socket A) : R (Option (Request A) × Socket A) :=
  match s.drv with
  | none => .panic
  | some d =>
    match d.inbox with
    | [] => .ok (none, s)
    | r :: rs => .ok (some r, { s with drv := some { d with inbox := rs, held := d.held ++ [r], taken := d.taken ++ [r] } })

/-- The receiving end of the channel is dropped (with `from_driver`, rep/socket.rs:33): the requests in it are dropped, and from now on `try_send`
(rep/driver.rs:93) fails, which is what it does when there is no room. (Ghost: `taken` then means: left the channel.) -/
def Driver.closeInbox (d : Driver A) : Driver A :=
  d.inbox.foldl (fun d r => d.complete r.handle .dropped) { d with inbox := [], taken := d.taken ++ d.inbox, cap := 0 }

/-- `Request::respond`, rep/mod.rs:85-87, on the `i`-th request held: `Ok` iff the receiving end of its oneshot still
exists, that is, a connection has it in its pending requests. -/
def Driver.respondOk (d : Driver A) (i : Nat) : Option Bool :=
  d.held[i]?.map fun r => d.peers.any fun p => r.handle ∈ p.pend.map (·.1)

/-- Things that happen to a reply socket and its background task. -/
inductive SAct (A : Type) where
  | bind (bind : A → Option A) (addrs : List A)
  | next
  | driver (a : Act A)
  | drop

/-- One action (`recv` is `next`). A panic of the caller in `poll_next` leaves the socket as it is; one in `try_bind` comes after the transport
has been taken. -/
def Socket.act [DecidableEq A] (D : Decompressors) (s : Socket A) : SAct A → R (Socket A)
  | .bind bind addrs =>
    if s.dropped then .ok s
    else
      match s.tryBind bind addrs with
      | .panic => .ok { s with transport := none }
      | .ok (_, s) => .ok s
  | .next =>
    if s.dropped then .ok s
    else
      match s.pollNext with
      | .panic => .ok s
      | .ok (_, s) => .ok s
  | .driver .recv => .ok s
  | .driver a =>
    match s.drv with
    | none => .ok s
    | some d => do
      let d ← d.act D a
      return { s with drv := some d }
  | .drop => if s.dropped then .ok s else .ok { s with dropped := true, drv := s.drv.map Driver.closeInbox }

/-- A history. -/
def Socket.run [DecidableEq A] (D : Decompressors) (s : Socket A) : List (SAct A) → R (Socket A)
  | [] => .ok s
  | a :: as => do
    let s ← s.act D a
    Socket.run D s as

end MsgRs.Rep
