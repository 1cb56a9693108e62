import Verif.Model.Bytes
import Verif.Model.ReqRep
import Verif.Model.PubSub
import Verif.Model.Text
/-!
# msg-wire/src/compression/mod.rs and the places that compress

The four algorithms (gzip, zstd, snappy, lz4) are parameters; `none` is an `io::Error`.
-/
namespace MsgRs

/-- `CompressionType`, compression/mod.rs:19-25. -/
inductive CType where
  | none | gzip | zstd | snappy | lz4
  deriving Repr, DecidableEq

/-- `compression_type as u8`, compression/mod.rs:18-25. -/
def CType.toByte : CType → UInt8
  | .none => 0
  | .gzip => 1
  | .zstd => 2
  | .snappy => 3
  | .lz4 => 4

/-- `CompressionType::try_from(u8)`, compression/mod.rs:27-40. -/
def CType.ofByte (b : UInt8) : Option CType :=
  if b = 0 then some .none
  else if b = 1 then some .gzip
  else if b = 2 then some .zstd
  else if b = 3 then some .snappy
  else if b = 4 then some .lz4
  else Option.none

/-- `trait Compressor`, compression/mod.rs:44-50: any implementation. -/
structure Compressor where
  ctype : CType
  compress : Bytes → Option Bytes

/-- The four `Decompressor`s, compression/{gzip,zstd,snappy,lz4}.rs. -/
structure Decompressors where
  gzip : Bytes → Option Bytes
  zstd : Bytes → Option Bytes
  snappy : Bytes → Option Bytes
  lz4 : Bytes → Option Bytes

/-- `try_decompress_payload`, compression/mod.rs:66-80. -/
def tryDecompress (D : Decompressors) (tag : UInt8) (data : Bytes) : Option Bytes :=
  match CType.ofByte tag with
  | some .none => some data
  | some .gzip => D.gzip data
  | some .zstd => D.zstd data
  | some .snappy => D.snappy data
  | some .lz4 => D.lz4 data
  | Option.none => Option.none

/-! ## Publisher -/

/-- `PubMessage`, pub/mod.rs:112-119. -/
structure PubMsg where
  ctype : CType
  topic : Str
  payload : Bytes
  deriving Repr, DecidableEq

/-- `PubMessage::new`, pub/mod.rs:123-131. -/
def PubMsg.new (topic : Str) (payload : Bytes) : PubMsg := { ctype := .none, topic, payload }

/-- `PubMessage::compress`, pub/mod.rs:159-164. `none` is the error; the message is then dropped by the
caller's `?`. -/
def PubMsg.compress (m : PubMsg) (c : Compressor) : Option PubMsg :=
  match c.compress m.payload with
  | some p => some { m with payload := p, ctype := c.ctype }
  | none => none

/-- `PubMessage::into_wire`, pub/mod.rs:149-156. -/
def PubMsg.intoWire (m : PubMsg) (now : UInt64) (seq : UInt32) : R PubSub.Message :=
  PubSub.Message.new now seq (utf8 m.topic) m.payload m.ctype.toByte

/-- The compression step of `PubSocket::publish`, pub/socket.rs:149-160. -/
def publishPrepare (minSize : Nat) (comp : Option Compressor) (topic : Str) (payload : Bytes) :
    Option PubMsg :=
  let msg := PubMsg.new topic payload
  if payload.length > minSize then
    match comp with
    | some c => msg.compress c
    | none => some msg
  else some msg

/-- The compression step of `PubSocket::try_publish`, pub/socket.rs:172-183. -/
def tryPublishPrepare (comp : Option Compressor) (topic : Str) (payload : Bytes) : Option PubMsg :=
  let msg := PubMsg.new topic payload
  match comp with
  | some c => msg.compress c
  | none => some msg

/-! ## Request -/

/-- `ReqMessage`, req/mod.rs:143-146. -/
structure ReqMsg where
  ctype : CType
  payload : Bytes
  deriving Repr, DecidableEq

/-- `ReqMessage::new`, req/mod.rs:149-156. -/
def ReqMsg.new (payload : Bytes) : ReqMsg := { ctype := .none, payload }

/-- `ReqMessage::compress`, req/mod.rs:174-179; on failure (`?`) the message is unchanged. -/
def ReqMsg.compress (m : ReqMsg) (c : Compressor) : ReqMsg × Bool :=
  match c.compress m.payload with
  | some p => ({ payload := p, ctype := c.ctype }, true)
  | none => (m, false)

/-- `ReqMessage::into_wire`, req/mod.rs:169-171. -/
def ReqMsg.intoWire (m : ReqMsg) (id : UInt32) : ReqRep.Message :=
  ReqRep.Message.new id m.ctype.toByte m.payload

/-- The compression step of `ReqDriver::on_command`, req/driver.rs:170-184: a failure is logged and the
message goes out as it is. -/
def requestPrepare (minSize : Nat) (comp : Option Compressor) (payload : Bytes) : ReqMsg :=
  let msg := ReqMsg.new payload
  if payload.length > minSize then
    match comp with
    | some c => (msg.compress c).1
    | none => msg
  else msg

/-! ## Reply -/

/-- `PeerState::poll_next`, rep/driver.rs:291-320: what a completed request becomes; `none` when the
compressor fails (`continue`, nothing is queued). The option `min_compress_size` is not consulted. -/
def replyPrepare (comp : Option Compressor) (id : UInt32) (payload : Bytes) : Option ReqRep.Message :=
  match comp with
  | some c =>
    match c.compress payload with
    | some p => some (ReqRep.Message.new id c.ctype.toByte p)
    | none => none
  | none => some (ReqRep.Message.new id 0 payload)

end MsgRs
