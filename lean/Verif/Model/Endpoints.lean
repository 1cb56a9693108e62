import Verif.Model.Transport
/-!
# msg-transport — binding, dialling and accepting on one transport value

The three transports over a history of calls: `bind`, `connect`, `poll_accept`. The operating system's listeners and
quinn's endpoints are the environment: whether a call to them succeeds and what arrives at them are inputs.
-/
namespace MsgRs.Transport
open MsgRs

/-! ## TCP and IPC: one listener -/

/-- `Tcp` (tcp/mod.rs:18-22): the address of the listener, if there is one (`local_addr`, tcp/mod.rs:45-47), and what
the operating system holds for it. -/
structure Tcp (A : Type) where
  addr : Option A := none
  queue : List (TcpIn A) := []
  deriving Repr, DecidableEq

/-- `bind`, tcp/mod.rs:49-55. `res`: the address of the new listener, or an error (`none`). The old listener is
dropped, with the connections it had not handed out. -/
def Tcp.bind (t : Tcp A) (res : Option A) : Bool × Tcp A :=
  match res with
  | none => (false, t)
  | some a => (true, { addr := some a, queue := [] })

/-- `poll_accept`, tcp/mod.rs:66-85: `none` is `Pending`. -/
def Tcp.pollAccept (t : Tcp A) : Option (Fut (Stream A) Err) × Tcp A :=
  match t.addr with
  | none => (some { waits := 0, res := .error .notConnected }, t)
  | some _ =>
    match t.queue with
    | [] => (none, t)
    | r :: q => (some r.fut, { t with queue := q })

/-- What is at a path of the file system: a socket, a symbolic link whose target does not exist (`Path::exists` follows
links), a directory, or something else. -/
inductive FileKind where
  | socket
  | regular
  | directory
  | dangling
  deriving Repr, DecidableEq

/-- `Ipc` (ipc/mod.rs:36-41; listener and path are always set together), what the operating system holds for the listener,
and the file system. -/
structure Ipc (P : Type) where
  fs : P → Option FileKind
  path : Option P := none
  queue : List IpcIn := []

/-- `UnixListener::bind` and the two assignments, ipc/mod.rs:119-122; `can`: creating the socket succeeds. -/
def Ipc.create [DecidableEq P] (t : Ipc P) (a : P) (can : Bool) : Bool × Ipc P :=
  if can then (true, { fs := fun p => if p = a then some .socket else t.fs p, path := some a, queue := [] })
  else (false, t)

/-- `bind`, ipc/mod.rs:108-123: whatever file is at the path is removed (`remove_file` fails on directories, and if `rm` is
false); a path occupied by a dangling link does not `exist`, but nothing can be created there. -/
def Ipc.bind [DecidableEq P] (t : Ipc P) (a : P) (rm can : Bool) : Bool × Ipc P :=
  match t.fs a with
  | some .directory => (false, t)
  | some .dangling => (false, t)
  | some _ =>
    if rm then { t with fs := fun p => if p = a then none else t.fs p }.create a can
    else (false, t)
  | none => t.create a can

/-- `poll_accept`, ipc/mod.rs:129-149. -/
def Ipc.pollAccept (t : Ipc P) : Option (Fut (Stream P) Err) × Ipc P :=
  match t.path with
  | none => (some { waits := 0, res := .error .notConnected }, t)
  | some a =>
    match t.queue with
    | [] => (none, t)
    | r :: q => (some (r.fut a), { t with queue := q })

/-- Calls on a TCP transport, and arrivals at its listener. -/
inductive TcpCall (A : Type) where
  | bind (res : Option A)
  | arrive (r : TcpIn A)
  | pollAccept

/-- Calls on an IPC transport, and arrivals at its listener. -/
inductive IpcCall (P : Type) where
  | bind (a : P) (rm can : Bool)
  | arrive (r : IpcIn)
  | pollAccept

/-- What can be seen of a call: a bind succeeded (at this address) or failed, something arrived, `poll_accept` returned
this future or `Pending`. -/
inductive BindEv (A ρ : Type) where
  | bound (a : A)
  | bindFailed
  | arrived (r : ρ)
  | took (f : Fut (Stream A) Err)
  | pending

/-- One call on a TCP transport; at a transport without listener nothing arrives. -/
def Tcp.call (t : Tcp A) : TcpCall A → Option (BindEv A (TcpIn A)) × Tcp A
  | .bind res =>
    match t.bind res, res with
    | (true, t), some a => (some (.bound a), t)
    | (_, t), _ => (some .bindFailed, t)
  | .arrive r => if t.addr.isSome then (some (.arrived r), { t with queue := t.queue ++ [r] }) else (none, t)
  | .pollAccept =>
    match t.pollAccept with
    | (some f, t) => (some (.took f), t)
    | (none, t) => (some .pending, t)

/-- One call on an IPC transport. -/
def Ipc.call [DecidableEq P] (t : Ipc P) : IpcCall P → Option (BindEv P IpcIn) × Ipc P
  | .bind a rm can =>
    match t.bind a rm can with
    | (true, t) => (some (.bound a), t)
    | (false, t) => (some .bindFailed, t)
  | .arrive r => if t.path.isSome then (some (.arrived r), { t with queue := t.queue ++ [r] }) else (none, t)
  | .pollAccept =>
    match t.pollAccept with
    | (some f, t) => (some (.took f), t)
    | (none, t) => (some .pending, t)

/-- Histories. -/
def Tcp.hist (t : Tcp A) : List (TcpCall A) → List (BindEv A (TcpIn A)) × Tcp A
  | [] => ([], t)
  | c :: cs => ((t.call c).1.toList ++ ((t.call c).2.hist cs).1, ((t.call c).2.hist cs).2)

def Ipc.hist [DecidableEq P] (t : Ipc P) : List (IpcCall P) → List (BindEv P IpcIn) × Ipc P
  | [] => ([], t)
  | c :: cs => ((t.call c).1.toList ++ ((t.call c).2.hist cs).1, ((t.call c).2.hist cs).2)

/-! ## QUIC -/

/-- `Quic`, quic/mod.rs:50-56: the endpoint, and the endpoint whose connections the accept task forwards (the task keeps a
clone, quic/mod.rs:195-205). Endpoints are named by the order in which they were opened; `made` has the address of each and
whether it has a server configuration. `queues`: what arrived at each and was not taken (the channel of quic/mod.rs:190
holds 32, quinn the rest; one queue here). -/
structure Quic (A : Type) where
  made : List (A × Bool) := []
  endpoint : Option Nat := none
  incoming : Option Nat := none
  queues : Nat → List (QuicIn A) := fun _ => []

/-- `local_addr`, quic/mod.rs:94-96. -/
def Quic.localAddr (q : Quic A) : Option A :=
  match q.endpoint with
  | none => none
  | some e => (q.made[e]?).map (·.1)

/-- `bind`, quic/mod.rs:99-105. `res`: the address of the new endpoint, or an error. -/
def Quic.bind (q : Quic A) (res : Option A) : Bool × Quic A :=
  match res with
  | none => (false, q)
  | some a => (true, { q with made := q.made ++ [(a, true)], endpoint := some q.made.length })

/-- The synchronous part of `connect`, quic/mod.rs:109-122: the endpoint to dial from; without one, one without server
configuration is opened (`res`: its address, or an error) and kept. -/
def Quic.connect (q : Quic A) (res : Option A) : Option Nat × Quic A :=
  match q.endpoint with
  | some e => (some e, q)
  | none =>
    match res with
    | none => (none, q)
    | some a => (some q.made.length, { q with made := q.made ++ [(a, false)], endpoint := some q.made.length })

/-- `poll_accept`, quic/mod.rs:145-209: the accept task is started once, on the endpoint of that moment. -/
def Quic.pollAccept (q : Quic A) : Option (Fut (Stream A) Err) × Quic A :=
  let q := if q.incoming.isSome then q else { q with incoming := q.endpoint }
  match q.incoming with
  | none => (some { waits := 0, res := .error .closedEndpoint }, q)
  | some e =>
    match q.queues e with
    | [] => (none, q)
    | r :: rs => (some r.fut, { q with queues := fun i => if i = e then rs else q.queues i })

/-- Calls on a QUIC transport, and arrivals at endpoint `e`. -/
inductive QuicCall (A : Type) where
  | bind (res : Option A)
  | connect (target : A) (res : Option A)
  | arrive (e : Nat) (r : QuicIn A)
  | pollAccept

/-- What can be seen of a call: a bind succeeded (with endpoint `e`) or failed; a connection to `target` is dialled from the
endpoint `e` with address `src`, or not for want of an endpoint; something arrived at an endpoint; `poll_accept` found no endpoint, returned a future, or
`Pending`. -/
inductive QuicEv (A : Type) where
  | bound (e : Nat) (a : A)
  | bindFailed
  | dialed (e : Nat) (src : Option A) (target : A)
  | dialFailed
  | arrived (e : Nat) (r : QuicIn A)
  | unbound
  | took (f : Fut (Stream A) Err)
  | pending

/-- One call. An endpoint without server configuration accepts nothing. -/
def Quic.call (q : Quic A) : QuicCall A → Option (QuicEv A) × Quic A
  | .bind res =>
    match q.bind res, res with
    | (true, q), some a => (some (.bound (q.made.length - 1) a), q)
    | (_, q), _ => (some .bindFailed, q)
  | .connect target res =>
    match q.connect res with
    | (some e, q) => (some (.dialed e ((q.made[e]?).map (·.1)) target), q)
    | (none, q) => (some .dialFailed, q)
  | .arrive e r =>
    match q.made[e]? with
    | some (_, true) => (some (.arrived e r), { q with queues := fun i => if i = e then q.queues i ++ [r] else q.queues i })
    | _ => (none, q)
  | .pollAccept =>
    match q.pollAccept with
    | (some f, q) => (some (if q.incoming.isSome then .took f else .unbound), q)
    | (none, q) => (some .pending, q)

/-- A history. -/
def Quic.hist (q : Quic A) : List (QuicCall A) → List (QuicEv A) × Quic A
  | [] => ([], q)
  | c :: cs => ((q.call c).1.toList ++ ((q.call c).2.hist cs).1, ((q.call c).2.hist cs).2)

end MsgRs.Transport
