import Verif.Model.Framed
/-!
# `tokio_util::codec::Framed` (dependency, 0.7): the writer half

`framed_impl.rs`: `poll_ready`, `start_send`, `poll_flush`. `wire` is ghost: the bytes the connection has
accepted so far.
-/
namespace MsgRs

/-- One answer of the underlying `poll_write` (or, for an empty buffer, `poll_flush`). `ok n`: up to `n`
bytes were taken; `ok 0` is a zero-byte write, which `Framed` turns into an error. -/
inductive WriteAns where
  | pending
  | ok (n : Nat)
  | err
  deriving Repr, DecidableEq

/-- `WriteFrame` of `framed_impl.rs`. -/
structure Writer where
  buf : Bytes := []
  wire : Bytes := []
  boundary : Nat := 8192
  deriving Repr, DecidableEq

/-- Result of `poll_flush` / `poll_ready`. -/
inductive WOut where
  | pending
  | ok
  | err
  deriving Repr, DecidableEq

/-- `Framed::poll_flush` (`framed_impl.rs`): write until the buffer is empty, then flush the connection. An
exhausted list of answers means `Pending`. -/
def Writer.flush (w : Writer) : List WriteAns → WOut × Writer
  | [] => (.pending, w)
  | .pending :: _ => (.pending, w)
  | .err :: _ => (.err, w)
  | .ok n :: as =>
    if w.buf.isEmpty then (.ok, w)
    else if n = 0 then (.err, w)
    else Writer.flush { w with buf := w.buf.drop n, wire := w.wire ++ w.buf.take n } as

/-- `Framed::poll_ready` (`framed_impl.rs`): flushes only when the buffer reached the backpressure boundary. -/
def Writer.ready (w : Writer) (as : List WriteAns) : WOut × Writer :=
  if w.boundary ≤ w.buf.length then w.flush as else (.ok, w)

/-- `Framed::start_send` (`framed_impl.rs`): encode into the buffer. The three codecs never return an error
(msg-wire/src: auth.rs:117-145, reqrep.rs:171-185, pubsub.rs:258-276). -/
def Writer.send (w : Writer) (frame : Bytes) : Writer := { w with buf := w.buf ++ frame }

end MsgRs
