import Verif.Model.ReqDriver
/-!
# msg-socket/src/req/socket.rs — the front-end of the request socket

`Req.State` (the driver) takes a call of `request()` as one event: the command is in the channel. Here a call is made,
waits for room in the channel, enters it, waits for its result, and may be given up (its future dropped) at any point.
-/
namespace MsgRs.Req
open MsgRs

/-- How far a call of `request()` has come, req/socket.rs:89-102: waiting for room in the command channel
(`send(..).await`), in the channel or received by the driver (as the driver's call number `k`), or refused with
`SocketClosed` by the front-end itself (not connected, or the driver is gone). -/
inductive Stage where
  | waiting
  | entered (k : Nat)
  | refused
  deriving Repr, DecidableEq

/-- A call of `request()`: its payload, when it was made (ghost), how far it has come, and whether its future was dropped. -/
structure Caller where
  payload : Bytes
  time : Nat
  stage : Stage := .waiting
  cancelled : Bool := false
  deriving Repr, DecidableEq

/-- `ReqSocket`, req/socket.rs:19-34, with its driver and the calls made so far. `transport`: `self.transport` is `Some`. `drv`: the
driver, once spawned; then `to_driver` is `Some`. -/
structure Socket where
  opts : Options
  comp : Option Compressor
  now : Nat := 0
  transport : Bool := true
  drv : Option State := none
  dropped : Bool := false
  callers : List Caller := []

/-- `ReqSocket::with_options` and `with_compressor`, req/socket.rs:68-83. -/
def Socket.new (opts : Options) (comp : Option Compressor) (now : Nat) : Socket := { opts, comp, now }

/-- The capacity of the command channel, req/socket.rs:108 with msg-socket/src/lib.rs:26-27. -/
def chanCap : Nat := 1024

/-- `try_connect`, req/socket.rs:106-151: `false` if it panics. The transport is taken first, so it is lost if one of the
intervals then panics. -/
def Socket.tryConnect (s : Socket) : Bool × Socket :=
  if s.transport then
    match State.new s.opts s.comp s.now with
    | .panic => (false, { s with transport := false })
    | .ok d => (true, { s with transport := false, drv := some d })
  else (false, s)

/-- `request` up to its first await point, req/socket.rs:89-97. -/
def Socket.request (s : Socket) (payload : Bytes) : Socket :=
  match s.drv with
  | none => { s with callers := s.callers ++ [{ payload, time := s.now, stage := .refused }] }
  | some _ => { s with callers := s.callers ++ [{ payload, time := s.now }] }

/-- The future of call `i` is polled while it waits for room in the channel, req/socket.rs:96-99: a closed channel (the driver is gone) refuses it,
and if there is room its command enters. The driver's `request` event is that entering. (The order in which waiting calls get
room is left open.) -/
def Socket.pollCall (D : Decompressors) (s : Socket) (i : Nat) : R Socket :=
  match s.callers[i]?, s.drv with
  | some c, some d =>
    if c.stage = .waiting ∧ c.cancelled = false ∧ s.dropped = false then
      if d.ended then .ok { s with callers := s.callers.set i { c with stage := .refused } }
      else if d.queue.length < chanCap then do
        let d' ← d.act D (.request c.payload)
        return { s with drv := some d', callers := s.callers.set i { c with stage := .entered d.calls.length } }
      else .ok s
    else .ok s
  | _, _ => .ok s

/-- The future of call `i` is dropped. Whoever waits for room leaves the line; otherwise only the receiving end of the
oneshot is dropped, and the driver ignores that (`let _ = sender.send(..)`, req/driver.rs:150-155, 214). -/
def Socket.cancel (s : Socket) (i : Nat) : Socket :=
  match s.callers[i]? with
  | some c => { s with callers := s.callers.set i { c with cancelled := true } }
  | none => s

/-- Things that happen to a request socket. Dropping the socket is possible in Rust only when no call is in progress; the model
allows it always. -/
inductive SAct where
  | connect
  | request (payload : Bytes)
  | poll (i : Nat)
  | cancel (i : Nat)
  | driver (e : Env)
  | advance (dt : Nat)
  | drop

/-- Something happens to the driver, if there is one. -/
def Socket.onDriver (D : Decompressors) (s : Socket) (a : Act) : R Socket :=
  match s.drv with
  | none => .ok s
  | some d => do
    let d' ← d.act D a
    return { s with drv := some d' }

/-- One action. (That a `connect` panicked only its caller sees: `tryConnect`.) -/
def Socket.act (D : Decompressors) (s : Socket) : SAct → R Socket
  | .connect => .ok (if s.dropped then s else s.tryConnect.2)
  | .request payload => .ok (if s.dropped then s else s.request payload)
  | .poll i => s.pollCall D i
  | .cancel i => .ok (s.cancel i)
  | .driver e => s.onDriver D (.iter e)
  | .advance dt => do
    let s ← s.onDriver D (.advance dt)
    return { s with now := s.now + dt }
  | .drop => do
    let s ← s.onDriver D .dropSocket
    return { s with dropped := true }

/-- A history. -/
def Socket.run (D : Decompressors) (s : Socket) : List SAct → R Socket
  | [] => .ok s
  | a :: as => do
    let s ← s.act D a
    Socket.run D s as

/-- What call `i` has returned so far, req/socket.rs:89-102 (nothing if its future was dropped). -/
def Socket.result (s : Socket) (i : Nat) : Option Res :=
  match s.callers[i]? with
  | none => none
  | some c =>
    if c.cancelled then none
    else
      match c.stage with
      | .waiting => none
      | .refused => some .closed
      | .entered k => (s.drv.bind fun d => d.done.lookup k).map (·.1)

end MsgRs.Req
