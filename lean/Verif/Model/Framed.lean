import Verif.Model.Bytes
import Verif.Model.ReqRep
import Verif.Model.PubSub
import Verif.Model.Auth
/-!
# `tokio_util::codec::Framed` (dependency, 0.7): the reader half

This is the object the sockets talk to (`Framed::new(io, codec)` in req/driver.rs:103,279,
rep/driver.rs:117,200,239, pub/driver.rs:61,152,186, sub/driver.rs:242,301). The dependency is not in /repo; this
models its documented state machine (`framed_impl.rs`, `poll_next`), one loop iteration per answer
of the underlying `poll_read`.
-/
namespace MsgRs

/-- A decoder as seen by `Framed`: initial state, `decode`, and the error an IO failure maps to. -/
structure Codec (σ ε μ : Type) where
  init : σ
  decode : σ → Bytes → R (Dec ε μ × σ × Bytes)
  ioErr : ε

/-- msg-wire/src/reqrep.rs:100-110,112-185 -/
def ReqRep.codec : Codec ReqRep.State ReqRep.Err ReqRep.Message :=
  { init := .header, decode := ReqRep.decode, ioErr := .io }

/-- msg-wire/src/pubsub.rs:165-175,177-276 -/
def PubSub.codec : Codec PubSub.State PubSub.Err PubSub.Message :=
  { init := .header, decode := PubSub.decode, ioErr := .io }

/-- auth.rs:33-35: the codec a server uses. -/
def Auth.serverCodec : Codec Auth.State Auth.Err Auth.Message :=
  { init := Auth.newServer, decode := Auth.decode, ioErr := .io }

/-- auth.rs:26-28: the codec a client uses. -/
def Auth.clientCodec : Codec Auth.State Auth.Err Auth.Message :=
  { init := Auth.newClient, decode := Auth.decode, ioErr := .io }

/-- One answer of the underlying `poll_read`. `data []` is a zero-byte read, i.e. end of file. -/
inductive ReadAns where
  | pending
  | data (bs : Bytes)
  | err
  deriving Repr, DecidableEq

/-- `ReadFrame` of `framed_impl.rs` together with the codec state. -/
structure Reader (σ : Type) where
  st : σ
  buf : Bytes := []
  eof : Bool := false
  readable : Bool := false
  errored : Bool := false
  deriving Repr, DecidableEq

/-- What `Framed::poll_next` returns. -/
inductive FOut (ε μ : Type) where
  | pending
  | ended
  | item (m : μ)
  | err (e : ε)
  deriving Repr, DecidableEq

/-- `Framed::new(io, codec)`. -/
def Reader.new (c : Codec σ ε μ) : Reader σ := { st := c.init }

/-- First half of one iteration of the `poll_next` loop: everything before `poll_read`.
`none` means the iteration goes on to read. -/
def Reader.frame (c : Codec σ ε μ) (r : Reader σ) : R (Option (FOut ε μ) × Reader σ) :=
  if r.errored then .ok (some .ended, { r with readable := false, errored := false })
  else if r.readable then do
    let (d, st, buf) ← c.decode r.st r.buf
    let r' : Reader σ := { r with st, buf }
    if r.eof then
      -- `decode_eof`
      match d with
      | .item m => return (some (.item m), r')
      | .err e => return (some (.err e), { r' with errored := true })
      | .more =>
        if buf.isEmpty then return (some .ended, { r' with readable := false })
        else return (some (.err c.ioErr), { r' with errored := true })
    else
      match d with
      | .item m => return (some (.item m), r')
      | .err e => return (some (.err e), { r' with errored := true })
      | .more => return (none, { r' with readable := false })
  else .ok (none, r)

/-- `Framed::poll_next`; the list holds the answers `poll_read` will give, an exhausted list means
`Pending`. Returns the result, the new reader and the unused answers. -/
def Reader.pollNext (c : Codec σ ε μ) (r : Reader σ) :
    List ReadAns → R (FOut ε μ × Reader σ × List ReadAns)
  | [] => do
    let (o, r) ← r.frame c
    match o with
    | some o => return (o, r, [])
    | none => return (.pending, r, [])
  | a :: as => do
    let (o, r) ← r.frame c
    match o with
    | some o => return (o, r, a :: as)
    | none =>
      match a with
      | .pending => return (.pending, r, as)
      | .err => return (.err c.ioErr, { r with errored := true }, as)
      | .data [] =>
        if r.eof then return (.ended, r, as)
        else Reader.pollNext c { r with eof := true, readable := true } as
      | .data (b :: bs) =>
        Reader.pollNext c { r with buf := r.buf ++ (b :: bs), eof := false, readable := true } as

/-- `conn.next().await` (req/driver.rs:112, rep/driver.rs:206, pub/driver.rs:157, sub/driver.rs:257):
polled again after every `Pending`, so pending answers are skipped; the result `pending` means the
future is still waiting when the answers run out. (`next_resume` in Proofs/FramedAny justifies the
skipping: re-polling after `Pending` continues exactly where the first poll stopped.) -/
def Reader.next (c : Codec σ ε μ) (r : Reader σ) (as : List ReadAns) :
    R (FOut ε μ × Reader σ × List ReadAns) :=
  r.pollNext c (as.filter (· ≠ .pending))

/-- The consumer side: poll the connection `n` times and record every non-pending result, stopping
at the first error or end of stream (all consumers in msg-socket give the connection up then:
req/driver.rs:316-338, rep/driver.rs:323-347, pub/session.rs:198-215). -/
def Reader.observe (c : Codec σ ε μ) : Nat → Reader σ → List ReadAns → R (List (FOut ε μ))
  | 0, _, _ => .ok []
  | n + 1, r, as => do
    let (o, r', as') ← r.pollNext c as
    match o with
    | .pending => Reader.observe c n r' as'
    | .item m => do
      let l ← Reader.observe c n r' as'
      return .item m :: l
    | .err e => return [.err e]
    | .ended => return [.ended]

end MsgRs
