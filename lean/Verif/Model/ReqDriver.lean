import Verif.Model.Handshake
import Verif.Model.Backoff
import Verif.Model.Compression
import Verif.Model.Writer
/-!
# msg-socket/src/req — the request socket

The loop of `ReqDriver::poll` (req/driver.rs:257-390), one iteration per environment, together with the
front-end's `request`. Times are in nanoseconds and only move between iterations.
-/
namespace MsgRs.Req
open MsgRs

/-- `ReqOptions`, req/mod.rs:45-67, 126-139. -/
structure Options where
  token : Option Bytes := none
  timeout : Nat := 5000000000
  blockingConnect : Bool := true
  backoffDuration : Nat := 200000000
  flushInterval : Option Nat := none
  boundary : Nat := 8192
  retryAttempts : Option Nat := none
  minCompress : Nat := 8192

/-- What `request()` can return, req/socket.rs:89-102 with req/driver.rs:147-155,214: the response, a
decompression error, a timeout, or that the driver is gone (its end of the oneshot or of the command channel
was dropped). -/
inductive Res where
  | ok (b : Bytes)
  | decompression
  | timeout
  | closed
  deriving Repr, DecidableEq

/-- A call of `request()` (ghost record): payload and time of the call. Calls are numbered. -/
structure Call where
  payload : Bytes
  time : Nat
  deriving Repr, DecidableEq

/-- `PendingRequest` with its key in the map, req/driver.rs:72-77. -/
structure Pending where
  id : UInt32
  call : Nat
  start : Nat
  deriving Repr, DecidableEq

/-- An established connection (`Framed`, req/driver.rs:279-281). Ghost: `input0` all its answers to reads,
`polls` the number of reads, `sent` the messages handed to it (with the number of their call), `got` the
messages read from it, `via` how it was established. -/
structure Chan where
  rd : Reader ReqRep.State
  wr : Writer
  input0 : List ReadAns
  input : List ReadAns
  polls : Nat := 0
  sent : List (Nat × ReqRep.Message) := []
  got : List ReqRep.Message := []
  via : HsEnv

/-- A fresh connection, req/driver.rs:279-280. -/
def Chan.new (boundary : Nat) (via : HsEnv) (input : List ReadAns) : Chan :=
  { rd := Reader.new ReqRep.codec, wr := { boundary }, input0 := input, input, via }

/-- `ConnectionState`, connection/state.rs:9-21. -/
inductive CState where
  | inactive (b : Backoff)
  | active (c : Chan)

/-- `ReqDriver`, req/driver.rs:38-69, with the front-end's side of the command channel. `queue` are the calls
whose command is in the channel and not yet received. A call is one event here: its command enters the channel. Waiting for
room in the channel (capacity 1024), calls that are given up and the order among those who wait are in `Model/ReqSocket`.
The keys of the map are `pending`'s ids. Ghost: `calls` all calls so far, `taken` the wire messages made from
received commands (with their call), `done` the completed calls with result and time, `past` the
connections lost so far, `samples` the responses that were counted (call, message, round-trip time in µs),
`tries` the times at which a connection attempt was started. -/
structure State where
  opts : Options
  comp : Option Compressor
  now : Nat := 0
  idCounter : UInt32 := 0
  queue : List (Nat × Bytes) := []
  closed : Bool := false
  conn : CState
  connTask : Bool := false
  egress : List (Nat × ReqRep.Message) := []
  pending : List Pending := []
  checkIv : Interval
  flushIv : Option Interval
  shouldFlush : Bool := false
  ended : Bool := false
  bytesTx : Nat := 0
  bytesRx : Nat := 0
  rtt : Nat := 0
  rttIdx : Nat := 0
  calls : List Call := []
  taken : List (Nat × ReqRep.Message) := []
  done : List (Nat × Res × Nat) := []
  past : List Chan := []
  samples : List (Nat × ReqRep.Message × Nat) := []
  tries : List Nat := []

/-- The backoff the socket and `reset_connection` use, req/socket.rs:114-117, req/driver.rs:242-247. -/
def backoff0 : Backoff := Backoff.new 20000000 16

/-- `ReqSocket::try_connect`, req/socket.rs:106-151. Both `interval`s panic on a zero period; the timeout check
period is `timeout / 10`. -/
def State.new (opts : Options) (comp : Option Compressor) (now : Nat) : R State := do
  let checkIv ← Interval.new now (opts.timeout / 10)
  match opts.flushInterval with
  | none => return { opts, comp, now, conn := .inactive backoff0, checkIv, flushIv := none }
  | some p =>
    let iv ← Interval.new now p
    return { opts, comp, now, conn := .inactive backoff0, checkIv, flushIv := some iv }

/-- Environment of one iteration: answers to writes, and what the connection task (if there is one) reports:
nothing, a failed connect, or an established connection with its behaviour during the handshake and after. -/
structure Env where
  flushAns : List WriteAns := []
  readyAns : List WriteAns := []
  closeAns : List WriteAns := []
  task : Option (Option HsEnv) := none

/-- What an iteration did: go on looping, return `Pending`, or return `Ready` (the driver is gone). -/
inductive Out where
  | again
  | pending
  | ended
  deriving Repr, DecidableEq

/-- The driver is dropped: all senders of pending and unreceived calls are dropped. -/
def State.terminate (s : State) : State :=
  { s with
    ended := true
    done := s.done ++ (s.pending.map fun p => (p.call, Res.closed, s.now)) ++
      (s.queue.map fun c => (c.1, Res.closed, s.now))
    pending := []
    queue := []
    connTask := false }

/-- `should_flush`, req/driver.rs:220-237. -/
def State.wantFlush (s : State) : Bool × State :=
  if s.shouldFlush then
    match s.flushIv with
    | some iv =>
      let (r, iv) := iv.tick s.now
      (r, { s with flushIv := some iv })
    | none => (true, s)
  else (false, { s with flushIv := s.flushIv.map (·.reset s.now) })

/-- req/driver.rs:262-268 -/
def State.flushStep (s : State) (e : Env) : State :=
  match s.wantFlush with
  | (true, s) =>
    match s.conn with
    | .active c =>
      match c.wr.flush e.flushAns with
      | (.ok, wr) => { s with conn := .active { c with wr }, shouldFlush := false }
      | (_, wr) => { s with conn := .active { c with wr } }
    | .inactive _ => s
  | (false, s) => s

/-- The connection task, req/driver.rs:87-135: with a token the connection is usable only after the handshake;
`none`: not finished. The inner option: the reads left for the request codec, or the failure. The task is
polled by the driver itself, so a panic in it is one of the driver. -/
def taskResult (token : Option Bytes) : Option (Option HsEnv) → R (Option (Option (HsEnv × List ReadAns)))
  | none => .ok none
  | some none => .ok (some none)
  | some (some hs) =>
    match token with
    | none => .ok (some (some (hs, hs.reads)))
    | some tok =>
      match hsClient tok hs with
      | .waiting _ => .ok none
      | .accepted _ _ rest _ => .ok (some (some (hs, rest)))
      | .failed _ => .ok (some none)
      | .panicked => .panic

/-- req/driver.rs:271-285 -/
def State.taskStep (s : State) (e : Env) : R State :=
  if s.connTask then do
    match ← taskResult s.opts.token e.task with
    | none => return s
    | some none => return { s with connTask := false }
    | some (some (via, input)) =>
      return { s with
        connTask := false
        conn := .active (Chan.new s.opts.boundary via input)
        past := match s.conn with
          | .active c => s.past ++ [c]
          | .inactive _ => s.past }
  else .ok s

/-- `SocketStats::update_rtt`, req/stats.rs:21-28. The sum is computed in 64 bits and wraps (as does the round-trip time, cast to `usize` in req/driver.rs:140). The
index wraps after 2^64 responses, here it does not. -/
def State.updateRtt (s : State) (rtt : Nat) : State :=
  { s with rtt := (rtt + s.rttIdx * s.rtt) % 2 ^ 64 / (s.rttIdx + 1), rttIdx := s.rttIdx + 1 }

/-- `on_message`, req/driver.rs:138-162. -/
def State.onMessage (D : Decompressors) (s : State) (m : ReqRep.Message) : State :=
  match s.pending.find? (·.id = m.header.id) with
  | none => s
  | some p =>
    let s := { s with pending := s.pending.filter (·.id ≠ m.header.id) }
    match tryDecompress D m.header.ctype m.payload with
    | none => { s with done := s.done ++ [(p.call, Res.decompression, s.now)] }
    | some b =>
      let s := { s with done := s.done ++ [(p.call, Res.ok b, s.now)] }
      let s := s.updateRtt ((s.now - p.start) / 1000)
      { s with bytesRx := s.bytesRx + m.size, samples := s.samples ++ [(p.call, m, (s.now - p.start) / 1000)] }

/-- `on_command`, req/driver.rs:165-193. `insert` drops the sender of an entry with the same id. -/
def State.onCommand (s : State) (k : Nat) (payload : Bytes) : State :=
  let m := (requestPrepare s.opts.minCompress s.comp payload).intoWire s.idCounter
  { s with
    idCounter := s.idCounter + 1
    egress := s.egress ++ [(k, m)]
    taken := s.taken ++ [(k, m)]
    done := s.done ++ ((s.pending.filter (·.id = s.idCounter)).map fun p => (p.call, Res.closed, s.now))
    pending := s.pending.filter (·.id ≠ s.idCounter) ++ [⟨s.idCounter, k, s.now⟩] }

/-- `check_timeouts`, req/driver.rs:197-217. The order in which the map is iterated is immaterial. -/
def State.checkTimeouts (s : State) : State :=
  let late (p : Pending) : Bool := s.now - p.start > s.opts.timeout
  { s with
    done := s.done ++ ((s.pending.filter late).map fun p => (p.call, Res.timeout, s.now))
    pending := s.pending.filter (!late ·) }

/-- req/driver.rs:365-367: at most `fuel` ticks (every tick moves the deadline by at least 1 ns, so `now + 1`
suffices). -/
def State.tickLoop : Nat → State → State
  | 0, s => s
  | n + 1, s =>
    match s.checkIv.tick s.now with
    | (true, iv) => State.tickLoop n { s with checkIv := iv }.checkTimeouts
    | (false, iv) => { s with checkIv := iv }

/-- req/driver.rs:365-388: timeouts, then commands. `c`: the active connection. -/
def State.lateStep (s : State) (e : Env) (c : Chan) : State × Out :=
  let s := { s with conn := .active c }.tickLoop (s.now + 1)
  match s.queue with
  | (k, payload) :: q => ({ s with queue := q }.onCommand k payload, .again)
  | [] =>
    if s.closed then
      match c.wr.flush e.closeAns with
      | (.pending, wr) => ({ s with conn := .active { c with wr } }, .pending)
      | (_, wr) => ({ s with conn := .active { c with wr } }.terminate, .ended)
    else (s, .pending)

/-- req/driver.rs:341-363: outgoing messages. `is_ready()` also accepts an error; `start_send` never fails. -/
def State.writeStep (s : State) (e : Env) (c : Chan) : State × Out :=
  match c.wr.ready e.readyAns, s.egress with
  | (.pending, wr), _ => s.lateStep e { c with wr }
  | (_, wr), [] => s.lateStep e { c with wr }
  | (_, wr), (k, m) :: ms =>
    ({ s with
        conn := .active { c with wr := wr.send (ReqRep.encode m), sent := c.sent ++ [(k, m)] }
        egress := ms
        bytesTx := s.bytesTx + m.size
        shouldFlush := true }, .again)

/-- req/driver.rs:290-297: unless an attempt is under way, one is started (`try_connect`, req/driver.rs:86-135; the task is the
environment's, see `Env.task`). -/
def State.retry (s : State) : State :=
  if s.connTask then s else { s with connTask := true, tries := s.tries ++ [s.now] }

/-- One iteration of the loop of `ReqDriver::poll`, req/driver.rs:260-389. -/
def State.iter (D : Decompressors) (s : State) (e : Env) : R (State × Out) := do
  let s ← (s.flushStep e).taskStep e
  match s.conn with
  | .inactive b =>
    let (o, b) ← b.poll s.now
    let s := { s with conn := .inactive b }
    match o with
    | .pending => return (s, .pending)
    | .item _ => return (s.retry, .pending)
    | .ended => return (s.terminate, .ended)
  | .active c =>
    let (o, rd, input) ← c.rd.pollNext ReqRep.codec c.input
    let c := { c with rd, input, polls := c.polls + 1 }
    match o with
    | .item m => return (State.onMessage D { s with conn := .active { c with got := c.got ++ [m] } } m, .again)
    | .err _ => return ({ s with conn := .inactive backoff0, past := s.past ++ [c] }, .again)
    | .ended => return ({ s with conn := .active c }.terminate, .ended)
    | .pending => return s.writeStep e c

/-- Things that happen to a request socket: an iteration of the driver's loop, the clock moves, `request()` is
called (req/socket.rs:89-102; the command channel of a finished driver is closed), the socket is dropped (all
command senders are gone). -/
inductive Act where
  | iter (e : Env)
  | advance (dt : Nat)
  | request (payload : Bytes)
  | dropSocket

/-- One action. -/
def State.act (D : Decompressors) (s : State) : Act → R State
  | .iter e => if s.ended then .ok s else do
      let (s, _) ← s.iter D e
      return s
  | .advance dt => .ok { s with now := s.now + dt }
  | .request payload =>
    if s.closed then .ok s
    else
      let k := s.calls.length
      let s : State := { s with calls := s.calls ++ [{ payload, time := s.now }] }
      if s.ended then .ok { s with done := s.done ++ [(k, Res.closed, s.now)] }
      else .ok { s with queue := s.queue ++ [(k, payload)] }
  | .dropSocket => .ok { s with closed := true }

/-- A history. -/
def State.run (D : Decompressors) (s : State) : List Act → R State
  | [] => .ok s
  | a :: as => do
    let s ← s.act D a
    State.run D s as

/-- All connections so far, oldest first. -/
def State.chans (s : State) : List Chan :=
  s.past ++ match s.conn with
    | .active c => [c]
    | .inactive _ => []

end MsgRs.Req
