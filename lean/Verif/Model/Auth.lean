import Verif.Model.Bytes
/-!
# msg-wire/src/auth.rs — authentication handshake codec
-/
namespace MsgRs.Auth
open MsgRs

/-- msg-wire/src/auth.rs:6 -/
def WIRE_ID : UInt8 := 0x01

/-- msg-wire/src/auth.rs:8-16 -/
inductive Err where
  | io
  | wireId (b : UInt8)
  | rejected
  deriving Repr, DecidableEq

/-- msg-wire/src/auth.rs:38-44 -/
inductive State where
  | authReceive
  | ack
  deriving Repr, DecidableEq

/-- msg-wire/src/auth.rs:46-54 -/
inductive Message where
  | auth (id : Bytes)
  | ack
  | reject
  deriving Repr, DecidableEq

/-- `Codec::new_client`, msg-wire/src/auth.rs:26-28. -/
def newClient : State := .ack
/-- `Codec::new_server`, msg-wire/src/auth.rs:33-35. -/
def newServer : State := .authReceive

/-- The `AuthReceive` arm of `Codec::decode`, msg-wire/src/auth.rs:63-90. The length checks are the ones in the
code: `len < 4` before reading index 4, and `len < id_size` before splitting after 5 bytes were
consumed. -/
def decodeServer (src : Bytes) : R (Dec Err Message × State × Bytes) :=
  if src.isEmpty then .ok (.more, .authReceive, src)
  else do
    let wireId ← rget src 0
    if wireId ≠ WIRE_ID then return (.err (.wireId wireId), .authReceive, src)
    else if src.length < 4 then return (.more, .authReceive, src)
    else
      let b1 ← rget src 1
      let b2 ← rget src 2
      let b3 ← rget src 3
      let b4 ← rget src 4
      let idSize := UInt32.ofNat (beNat [b1, b2, b3, b4])
      if src.length < idSize.toNat then return (.more, .authReceive, src)
      else
        let src ← advance src 1
        let src ← advance src 4
        let (id, src) ← splitTo src idSize.toNat
        return (.item (.auth id), .ack, src)

/-- The `Ack` arm of `Codec::decode`, msg-wire/src/auth.rs:92-112. -/
def decodeClient (src : Bytes) : R (Dec Err Message × State × Bytes) :=
  if src.length < 2 then .ok (.more, .ack, src)
  else do
    let wireId ← rget src 0
    if wireId ≠ WIRE_ID then return (.err (.wireId wireId), .ack, src)
    else
      let src ← advance src 1
      let (ack, src) ← getU8 src
      if ack = 0 then return (.err .rejected, .ack, src)
      else return (.item .ack, .ack, src)

/-- `Codec::decode`, msg-wire/src/auth.rs:60-114. -/
def decode : State → Bytes → R (Dec Err Message × State × Bytes)
  | .authReceive, src => decodeServer src
  | .ack, src => decodeClient src

/-- `Codec::encode`, msg-wire/src/auth.rs:120-144: new codec state and the appended bytes. -/
def encode (s : State) : Message → State × Bytes
  | .auth id => (.ack, [WIRE_ID] ++ putU32 (UInt32.ofNat id.length) ++ id)
  | .ack => (s, [WIRE_ID, 1])
  | .reject => (s, [WIRE_ID, 0])

end MsgRs.Auth
