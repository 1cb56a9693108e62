import Verif.Model.Writer
/-!
# The authentication handshake as the sockets perform it

Server side: rep/driver.rs:200-233 and pub/driver.rs:152-184 (same text). Client side: req/driver.rs:102-129
and sub/driver.rs:241-285. A handshake is an async task; it is modelled by what it has done when the given
answers of the connection are used up.
-/
namespace MsgRs

/-- `conn.next().await` keeping track of the answers that are left: like `Reader.pollNext`, but a `Pending`
answer is followed by another poll. An exhausted list means the task is still waiting. -/
def Reader.await (c : Codec σ ε μ) (r : Reader σ) :
    List ReadAns → R (FOut ε μ × Reader σ × List ReadAns)
  | [] => do
    let (o, r) ← r.frame c
    match o with
    | some o => return (o, r, [])
    | none => return (.pending, r, [])
  | a :: as => do
    let (o, r) ← r.frame c
    match o with
    | some o => return (o, r, a :: as)
    | none =>
      match a with
      | .pending => Reader.await c r as
      | .err => return (.err c.ioErr, { r with errored := true }, as)
      | .data [] =>
        if r.eof then return (.ended, r, as)
        else Reader.await c { r with eof := true, readable := true } as
      | .data (b :: bs) =>
        Reader.await c { r with buf := r.buf ++ (b :: bs), eof := false, readable := true } as

/-- `conn.send(m).await` (`SinkExt::send`: wait until ready, `start_send`, flush): the frame goes into the
buffer, then the buffer is flushed; `Pending` answers are followed by another poll. The buffer is empty
before (each handshake sends one frame), so `poll_ready` does not wait. -/
def Writer.sendAwait (w : Writer) (frame : Bytes) (as : List WriteAns) : WOut × Writer :=
  (w.send frame).flush (as.filter (· ≠ .pending))

/-- `conn.flush().await`. -/
def Writer.flushAwait (w : Writer) (as : List WriteAns) : WOut × Writer :=
  w.flush (as.filter (· ≠ .pending))

/-- What the connection answers during a handshake: reads; writes during `send`, `flush` and `close`. -/
structure HsEnv where
  reads : List ReadAns
  sendAns : List WriteAns
  flushAns : List WriteAns
  closeAns : List WriteAns
  deriving Repr, DecidableEq

/-- Where a handshake task is. `wire`: the bytes the connection accepted from it. `accepted`: the id token
and the reads that are left for the connection's next user; `into_inner` drops the read buffer
(`lost`, ghost). -/
inductive HsOut where
  | waiting (wire : Bytes)
  | accepted (id : Bytes) (wire : Bytes) (rest : List ReadAns) (lost : Bytes)
  | failed (wire : Bytes)
  | panicked
  deriving Repr, DecidableEq

/-- Send a reject, flush, close, fail: rep/driver.rs:214-217,222-225, pub/driver.rs:165-168,173-176. -/
def hsReject (e : HsEnv) : HsOut :=
  let w : Writer := {}
  match w.sendAwait (Auth.encode .ack .reject).2 e.sendAns with
  | (.pending, w) => .waiting w.wire
  | (.err, w) => .failed w.wire
  | (.ok, w) =>
    match w.flushAwait e.flushAns with
    | (.pending, w) => .waiting w.wire
    | (.err, w) => .failed w.wire
    | (.ok, w) =>
      match w.flushAwait e.closeAns with
      | (.pending, w) => .waiting w.wire
      | (_, w) => .failed w.wire

/-- The server's authentication task, rep/driver.rs:199-233 = pub/driver.rs:151-184. -/
def hsServer (authn : Bytes → Bool) (e : HsEnv) : HsOut :=
  match (Reader.new Auth.serverCodec).await Auth.serverCodec e.reads with
  | .panic => .panicked
  | .ok (.pending, _, _) => .waiting []
  | .ok (.ended, _, _) => .failed []
  | .ok (.err _, _, _) => .failed []
  | .ok (.item (.auth id), rd, rest) =>
    if authn id then
      let w : Writer := {}
      match w.sendAwait (Auth.encode rd.st .ack).2 e.sendAns with
      | (.pending, w) => .waiting w.wire
      | (.err, w) => .failed w.wire
      | (.ok, w) =>
        match w.flushAwait e.flushAns with
        | (.pending, w) => .waiting w.wire
        | (.err, w) => .failed w.wire
        | (.ok, w) => .accepted id w.wire rest rd.buf
    else hsReject e
  | .ok (.item _, _, _) => hsReject e

/-- The client's side with a token, req/driver.rs:102-129, sub/driver.rs:241-285: send the token, flush, wait
for the answer; only an Ack makes the connection usable. -/
def hsClient (token : Bytes) (e : HsEnv) : HsOut :=
  let w : Writer := {}
  let (st, frame) := Auth.encode Auth.clientCodec.init (.auth token)
  match w.sendAwait frame e.sendAns with
  | (.pending, w) => .waiting w.wire
  | (.err, w) => .failed w.wire
  | (.ok, w) =>
    match w.flushAwait e.flushAns with
    | (.pending, w) => .waiting w.wire
    | (.err, w) => .failed w.wire
    | (.ok, w) =>
      match ({ st } : Reader Auth.State).await Auth.clientCodec e.reads with
      | .panic => .panicked
      | .ok (.pending, _, _) => .waiting w.wire
      | .ok (.item .ack, rd, rest) => .accepted token w.wire rest rd.buf
      | .ok (_, _, _) => .failed w.wire

end MsgRs
