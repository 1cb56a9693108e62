import Verif.Model.RepSocket
import Verif.Model.PubServer
import Verif.Model.ReqSocket
/-!
# The futures of `bind` and `connect`

`Socket.tryBind` of Model/PubSocket and Model/RepSocket is a call of `bind` from its beginning to its end. Here the call is a future: it is polled, may be suspended at
its two kinds of await points (`lookup_host(addr).await`, `transport.bind(addr).await`), and its owner may stop polling it and drop it.
-/
namespace MsgRs

/-- What a poll of `lookup_host(addr)` gives (pub/socket.rs:50, rep/socket.rs:52, req/socket.rs:42). A path is not looked up (pub/socket.rs:64, rep/socket.rs:63, req/socket.rs:56): the answer is
then always that path. -/
inductive LookupAns (A : Type) where
  | pending
  | failed
  | addrs (l : List A)

/-- What a poll of `transport.bind(addr)` gives (msg-transport/src/lib.rs:58-59); `bound l`: it succeeded, and `local_addr()` is `l` now. -/
inductive BindAns (A : Type) where
  | pending
  | failed
  | bound (l : A)

/-- What happens during one poll of a call of `bind`: the answer of the lookup if it is polled, the answers of the transport in order. (An answer that is missing counts as `pending`.) -/
structure BindEnv (A : Type) where
  lookup : LookupAns A
  binds : List (BindAns A) := []

/-- A call of `bind` between two polls: in the lookup, or in the loop over the addresses (pub/socket.rs:112-120, rep/socket.rs:109-117), where the transport — its `local_addr()` is `cur` — belongs to the future and
`rest` begins with the address being bound. -/
inductive BindFut (A : Type) where
  | looking
  | binding (cur : Option A) (rest : List A)

/-- Where a poll leaves the loop over the addresses: over, with `transport.local_addr()`; or suspended. -/
inductive LoopEnd (A : Type) where
  | over (la : Option A)
  | suspended (rest : List A)

/-- The loop over the addresses, from where it stands, pub/socket.rs:112-120, rep/socket.rs:109-117. -/
def bindPoll (cur : Option A) : List A → List (BindAns A) → LoopEnd A
  | [], _ => .over cur
  | a :: as, [] => .suspended (a :: as)
  | a :: as, .pending :: _ => .suspended (a :: as)
  | _ :: _, .bound l :: _ => .over (some l)
  | _ :: as, .failed :: bs => bindPoll cur as bs

/-- How far a call has come: it has returned, or it is suspended. -/
inductive Progress (A : Type) (ρ : Type) where
  | returned (r : ρ)
  | suspended (f : BindFut A)

namespace Pub

/-- `try_bind` from the loop over the addresses on, pub/socket.rs:112-144. -/
def Socket.resumeBind (s : Socket A) (cur : Option A) (rest : List A) (bs : List (BindAns A)) : Progress A (Except PubErr Unit) × Socket A :=
  match bindPoll cur rest bs with
  | .suspended rest' => (.suspended (.binding cur rest'), s)
  | .over none => (.returned (.error .noValidEndpoints), s)
  | .over (some l) => (.returned (.ok ()), { s with chan := some (Bcast.new s.bufferSize), localAddr := some l })

/-- One poll of a call of `bind`, pub/socket.rs:49-52, 106-145. -/
def Socket.pollBind (s : Socket A) (f : BindFut A) (e : BindEnv A) : R (Progress A (Except PubErr Unit) × Socket A) :=
  match f with
  | .looking =>
    match e.lookup with
    | .pending => .ok (.suspended .looking, s)
    | .failed => .ok (.returned (.error .io), s)
    | .addrs l =>
      if s.bufferSize = 0 ∨ 2 ^ 63 ≤ s.bufferSize then .panic
      else
        match s.transport with
        | none => .panic
        | some cur => .ok ({ s with transport := none }.resumeBind cur l e.binds)
  | .binding cur rest => .ok (s.resumeBind cur rest e.binds)

/-- A call of `bind` polled several times, until it returns or its owner stops (pub/socket.rs:49-52, 106-145). -/
def Socket.pollsBind (s : Socket A) (f : BindFut A) : List (BindEnv A) → R (Progress A (Except PubErr Unit) × Socket A)
  | [] => .ok (.suspended f, s)
  | e :: es => do
    match ← s.pollBind f e with
    | (.returned r, s) => return (.returned r, s)
    | (.suspended f, s) => s.pollsBind f es

end Pub

namespace Rep

/-- `try_bind` from the loop over the addresses on, rep/socket.rs:109-143 (with the panic of `StreamMap::with_capacity` as in `Socket.tryBind`). -/
def Socket.resumeBind (s : Socket A) (cur : Option A) (rest : List A) (bs : List (BindAns A)) : R (Progress A Bool × Socket A) :=
  match bindPoll cur rest bs with
  | .suspended rest' => .ok (.suspended (.binding cur rest'), s)
  | .over none => .ok (.returned false, s)
  | .over (some l) =>
    if 2 ^ 63 ≤ s.max.getD 64 then .panic
    else .ok (.returned true, { s with localAddr := some l, drv := some (Driver.new s.max s.authn s.comp) })

/-- One poll of a call of `bind`, rep/socket.rs:51-54, 104-143. (`false`: an error, of the lookup or `NoValidEndpoints`.) -/
def Socket.pollBind (s : Socket A) (f : BindFut A) (e : BindEnv A) : R (Progress A Bool × Socket A) :=
  match f with
  | .looking =>
    match e.lookup with
    | .pending => .ok (.suspended .looking, s)
    | .failed => .ok (.returned false, s)
    | .addrs l =>
      match s.transport with
      | none => .panic
      | some cur => { s with transport := none }.resumeBind cur l e.binds
  | .binding cur rest => s.resumeBind cur rest e.binds

/-- A call of `bind` polled several times, until it returns or its owner stops (rep/socket.rs:51-54, 104-143). -/
def Socket.pollsBind (s : Socket A) (f : BindFut A) : List (BindEnv A) → R (Progress A Bool × Socket A)
  | [] => .ok (.suspended f, s)
  | e :: es => do
    match ← s.pollBind f e with
    | (.returned r, s) => return (.returned r, s)
    | (.suspended f, s) => s.pollsBind f es

end Rep

namespace Req

/-- What a call of `connect` returns (req/mod.rs:23-37 has more). -/
inductive ConnectRes where
  | ok
  | io
  | noValidEndpoints
  | panicked
  deriving Repr, DecidableEq

/-- One poll of a call of `connect`, req/socket.rs:41-46, 106-151: after the lookup there is no await point. `none`: suspended. -/
def Socket.pollConnect (s : Socket) (e : LookupAns A) : Option ConnectRes × Socket :=
  match e with
  | .pending => (none, s)
  | .failed => (some .io, s)
  | .addrs [] => (some .noValidEndpoints, s)
  | .addrs (_ :: _) => (some (if s.tryConnect.1 then .ok else .panicked), s.tryConnect.2)

/-- A call of `connect` polled several times, until it returns or its owner stops (req/socket.rs:41-46). -/
def Socket.pollsConnect (s : Socket) : List (LookupAns A) → Option ConnectRes × Socket
  | [] => (none, s)
  | e :: es =>
    match s.pollConnect e with
    | (some r, s) => (some r, s)
    | (none, s) => s.pollsConnect es

end Req
end MsgRs
