import Verif.Model.PubDriver
/-!
# msg-socket/src/pub — a publisher socket with everything it starts

`Pub.Socket` (the front-end), `Pub.Driver` (admission) and `Pub.Task` (sessions) put together as in pub/socket.rs:106-145 and
pub/driver.rs: the driver is spawned by `bind`, a session by the driver.
-/
namespace MsgRs.Pub
open MsgRs

/-- A session task (pub/driver.rs:61-76, 186-201): its connection, what the connection had left to read when it was spawned, the task; ghost: how
many messages `publish` had accepted by then. -/
structure Ses (A : Type) where
  conn : Conn A
  input : List ReadAns
  since : Nat
  task : Task

/-- A publisher socket (pub/socket.rs:18-39) with its options (`max_clients`, `backpressure_boundary`) and authenticator, its driver once
spawned, all session tasks ever spawned. Ghost `log`: the messages `publish` or `try_publish` returned `Ok` for, as they were
handed to the channel. -/
structure Server (A : Type) where
  max : Option Nat
  authn : Option (Bytes → Bool)
  boundary : Nat
  sock : Socket A
  drv : Option (Driver A) := none
  ses : List (Ses A) := []
  log : List PubMsg := []
  dropped : Bool := false

/-- `PubSocket::with_options`, `with_auth`, `with_compressor`, pub/socket.rs:79-101. -/
def Server.new (max : Option Nat) (authn : Option (Bytes → Bool)) (boundary minCompress bufferSize : Nat) (comp : Option Compressor) :
    Server A :=
  { max, authn, boundary, sock := Socket.new minCompress bufferSize comp }

/-- The session tasks that are not over. -/
def running (l : List (Ses A)) : List (Ses A) := l.filter fun x => !x.task.over

/-- What can happen to it. -/
inductive SrvAct (A : Type) where
  | bind (bind : A → Option A) (addrs : List A)
  | publish (topic : Str) (payload : Bytes)
  | tryPublish (topic : Str) (payload : Bytes)
  /-- One iteration of the driver's loop. -/
  | driver (e : DEnv A)
  /-- One iteration of session task `i`. -/
  | session (i : Nat) (e : Env)
  /-- The socket is dropped: the last of its clones made after `bind`. (Clones made before `bind` are other publishers that share the statistics; not modelled.) -/
  | drop

/-- Result of a call to `publish`/`try_publish` with its ghost. -/
def Server.record (s : Server A) (m : Option PubMsg) : Except PubErr Unit × Socket A → Server A
  | (.ok _, sock) => { s with sock, log := s.log ++ m.toList }
  | (.error _, sock) => { s with sock }

/-- One action. A dropped socket cannot be used; a panic of `try_bind` is its caller's and leaves the socket as it is. The
driver (pub/driver.rs:61-76, 186-201) gives each session it spawns a fresh receiver; when a session's task is over it is dropped,
which is what `Driver.act (.sessionEnd _)` describes (pub/session.rs:97-101). -/
def Server.act (L : Lossy) (s : Server A) : SrvAct A → Server A
  | .bind bind addrs =>
    if s.dropped then s
    else
      match s.sock.tryBind bind addrs with
      | .panic => s
      | .ok (.ok _, sock) => { s with sock, drv := some { max := s.max, authn := s.authn } }
      | .ok (.error _, sock) => { s with sock }
  | .publish topic payload =>
    if s.dropped then s
    else s.record (publishPrepare s.sock.minCompress s.sock.comp topic payload) (s.sock.publish topic payload)
  | .tryPublish topic payload =>
    if s.dropped then s else s.record (tryPublishPrepare s.sock.comp topic payload) (s.sock.tryPublish topic payload)
  | .driver e =>
    match s.drv, s.sock.chan with
    | some d, some b =>
      { s with
        drv := some (d.iter e)
        ses := s.ses ++ ((d.iter e).sessions.drop d.sessions.length).map fun x =>
          { conn := x.1, input := x.2, since := s.log.length, task := { next := b.resubscribe, sess := Session.new s.boundary x.2 } } }
    | _, _ => s
  | .session i e =>
    match s.ses[i]?, s.sock.chan with
    | some x, some b =>
      { s with
        ses := s.ses.set i { x with task := x.task.step L b e }
        drv := if (x.task.step L b e).over && !x.task.over then s.drv.map (·.act (.sessionEnd (running (s.ses.take i)).length)) else s.drv }
    | _, _ => s
  | .drop => if s.dropped then s else { s with dropped := true, sock := { s.sock with chan := s.sock.chan.map Bcast.close } }

/-- `SocketStats::bytes_tx`, pub/stats.rs:15-18, 30-33, as `PubSocket::stats` (pub/socket.rs:192-195) shows it: every session adds to the same counter
(pub/session.rs:159-160). (The counter is a `usize` that wraps; here it does not.) -/
def Server.bytesTx (s : Server A) : Nat := (s.ses.map (·.task.sess.bytesTx)).sum

/-- A history. -/
def Server.run (L : Lossy) (s : Server A) (acts : List (SrvAct A)) : Server A := acts.foldl (Server.act L) s

end MsgRs.Pub
