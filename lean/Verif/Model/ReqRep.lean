import Verif.Model.Bytes
/-!
# msg-wire/src/reqrep.rs — request/reply wire format
-/
namespace MsgRs.ReqRep
open MsgRs

/-- msg-wire/src/reqrep.rs:6 -/
def WIRE_ID : UInt8 := 0x02

/-- msg-wire/src/reqrep.rs:8-16 (`Decompression` is never produced by the codec and is left out; IO errors are
produced by the framed transport). -/
inductive Err where
  | io
  | wireId (b : UInt8)
  deriving Repr, DecidableEq

/-- msg-wire/src/reqrep.rs:63-71 -/
structure Header where
  ctype : UInt8
  id : UInt32
  size : UInt32
  deriving Repr, DecidableEq

/-- msg-wire/src/reqrep.rs:18-24 -/
structure Message where
  header : Header
  payload : Bytes
  deriving Repr, DecidableEq

/-- `Message::new`, msg-wire/src/reqrep.rs:28-30: `payload.len() as u32` truncates. -/
def Message.new (id : UInt32) (ctype : UInt8) (payload : Bytes) : Message :=
  { header := { ctype, id, size := UInt32.ofNat payload.length }, payload }

/-- `Header::len`, msg-wire/src/reqrep.rs:76-80. -/
def Header.len (_ : Header) : Nat := 4 + 4 + 1

/-- `Message::size`, msg-wire/src/reqrep.rs:43-45. -/
def Message.size (m : Message) : Nat := m.header.len + m.header.size.toNat

/-- msg-wire/src/reqrep.rs:93-98 -/
inductive State where
  | header
  | payload (h : Header)
  deriving Repr, DecidableEq

/-- The `State::Payload` arm of `Codec::decode`, msg-wire/src/reqrep.rs:155-165. -/
def decodePayload (h : Header) (src : Bytes) : R (Dec Err Message × State × Bytes) :=
  if src.length < h.size.toNat then .ok (.more, .payload h, src)
  else do
    let (payload, src) ← splitTo src h.size.toNat
    return (.item { header := h, payload }, .header, src)

/-- The `State::Header` arm of `Codec::decode`, msg-wire/src/reqrep.rs:119-154, followed (as the loop does) by
the payload arm when a complete header was read. -/
def decodeHeader (src : Bytes) : R (Dec Err Message × State × Bytes) :=
  if src.isEmpty then .ok (.more, .header, src)
  else do
    let wireId ← rget src 0
    if wireId ≠ WIRE_ID then return (.err (.wireId wireId), .header, src)
    else if src.length < 1 + 1 then return (.more, .header, src)
    else
      let ctype ← rget src 1
      if src.length < 2 + 8 then return (.more, .header, src)
      else
        let src ← advance src 2
        let (id, src) ← getU32 src
        let (size, src) ← getU32 src
        decodePayload { ctype, id, size } src

/-- `Codec::decode`, msg-wire/src/reqrep.rs:116-168. The Rust `loop` runs at most twice: header then payload. -/
def decode : State → Bytes → R (Dec Err Message × State × Bytes)
  | .header, src => decodeHeader src
  | .payload h, src => decodePayload h src

/-- `Codec::encode`, msg-wire/src/reqrep.rs:174-184 (bytes appended to `dst`; never fails). -/
def encode (m : Message) : Bytes :=
  [WIRE_ID, m.header.ctype] ++ putU32 m.header.id ++ putU32 m.header.size ++ m.payload

end MsgRs.ReqRep
