import Verif.Model.Bytes
/-!
# msg-wire/src/pubsub.rs — publish/subscribe wire format
-/
namespace MsgRs.PubSub
open MsgRs

/-- msg-wire/src/pubsub.rs:10 -/
def WIRE_ID : UInt8 := 0x03

/-- msg-wire/src/pubsub.rs:12-18 -/
inductive Err where
  | io
  | wireId (b : UInt8)
  deriving Repr, DecidableEq

/-- msg-wire/src/pubsub.rs:125-139 -/
structure Header where
  ctype : UInt8
  topicSize : UInt16
  topic : Bytes
  timestamp : UInt64
  seq : UInt32
  size : UInt32
  deriving Repr, DecidableEq

/-- msg-wire/src/pubsub.rs:20-25 -/
structure Message where
  header : Header
  payload : Bytes
  deriving Repr, DecidableEq

/-- `Message::new`, msg-wire/src/pubsub.rs:47-59. The clock reading `unix_micros()` is the argument `now`.
Panics when the topic is longer than 65535 bytes; `payload.len() as u32` truncates. -/
def Message.new (now : UInt64) (seq : UInt32) (topic payload : Bytes) (ctype : UInt8) :
    R Message :=
  if topic.length ≤ 65535 then
    .ok { header := { ctype, topicSize := UInt16.ofNat topic.length, topic, timestamp := now,
                      seq, size := UInt32.ofNat payload.length }, payload }
  else .panic

/-- The bytes of `"MSG.SUB."`, msg-wire/src/pubsub.rs:65. -/
def subPrefix : Bytes := [0x4D, 0x53, 0x47, 0x2E, 0x53, 0x55, 0x42, 0x2E]
/-- The bytes of `"MSG.UNSUB."`, msg-wire/src/pubsub.rs:74. -/
def unsubPrefix : Bytes := [0x4D, 0x53, 0x47, 0x2E, 0x55, 0x4E, 0x53, 0x55, 0x42, 0x2E]

/-- `Message::new_sub`, msg-wire/src/pubsub.rs:64-68. -/
def Message.newSub (now : UInt64) (topic : Bytes) : R Message :=
  Message.new now 0 (subPrefix ++ topic) [] 0

/-- `Message::new_unsub`, msg-wire/src/pubsub.rs:73-77. -/
def Message.newUnsub (now : UInt64) (topic : Bytes) : R Message :=
  Message.new now 0 (unsubPrefix ++ topic) [] 0

/-- `Header::len`, msg-wire/src/pubsub.rs:144-151. -/
def Header.len (h : Header) : Nat := 8 + 4 + 4 + 2 + 1 + h.topicSize.toNat

/-- `Message::size`, msg-wire/src/pubsub.rs:95-97. -/
def Message.size (m : Message) : Nat := m.header.len + m.header.size.toNat

/-- msg-wire/src/pubsub.rs:158-163. (`Payload(Option<Header>)`: the option is `Some` whenever the state is
observed between calls, because `take()` is directly followed by the reset to `Header`.) -/
inductive State where
  | header
  | payload (h : Header)
  deriving Repr, DecidableEq

/-- The `State::Payload` arm of `Codec::decode`, msg-wire/src/pubsub.rs:240-252. -/
def decodePayload (h : Header) (src : Bytes) : R (Dec Err Message × State × Bytes) :=
  if src.length < h.size.toNat then .ok (.more, .payload h, src)
  else do
    let (payload, src) ← splitTo src h.size.toNat
    return (.item { header := h, payload }, .header, src)

/-- The `State::Header` arm of `Codec::decode`, msg-wire/src/pubsub.rs:184-239, followed by the payload arm. -/
def decodeHeader (src : Bytes) : R (Dec Err Message × State × Bytes) :=
  if src.isEmpty then .ok (.more, .header, src)
  else do
    let wireId ← rget src 0
    if wireId ≠ WIRE_ID then return (.err (.wireId wireId), .header, src)
    else if src.length < 1 + 1 then return (.more, .header, src)
    else
      let ctype ← rget src 1
      if src.length < 2 + 2 then return (.more, .header, src)
      else
        let t0 ← rget src 2
        let t1 ← rget src 3
        let topicSize := UInt16.ofNat (beNat [t0, t1])
        if src.length < 4 + topicSize.toNat + 8 + 8 then return (.more, .header, src)
        else
          let src ← advance src 4
          let (topic, src) ← splitTo src topicSize.toNat
          let (timestamp, src) ← getU64 src
          let (seq, src) ← getU32 src
          let (size, src) ← getU32 src
          decodePayload { ctype, topicSize, topic, timestamp, seq, size } src

/-- `Codec::decode`, msg-wire/src/pubsub.rs:181-255. The Rust `loop` runs at most twice. -/
def decode : State → Bytes → R (Dec Err Message × State × Bytes)
  | .header, src => decodeHeader src
  | .payload h, src => decodePayload h src

/-- `Codec::encode`, msg-wire/src/pubsub.rs:261-275. -/
def encode (m : Message) : Bytes :=
  [WIRE_ID, m.header.ctype] ++ putU16 m.header.topicSize ++ m.header.topic
    ++ putU64 m.header.timestamp ++ putU32 m.header.seq ++ putU32 m.header.size ++ m.payload

end MsgRs.PubSub
