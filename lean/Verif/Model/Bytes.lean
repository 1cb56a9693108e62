/-!
# Bytes, Rust panics and the `bytes` crate operations used by the codecs

`bytes::Bytes` / `BytesMut` are modelled as `List UInt8` (front of the buffer first); capacity,
sharing and reference counts are not modelled (`reserve`, `freeze` are the identity).
-/
namespace MsgRs

/-- Contents of a `bytes::Bytes`/`BytesMut` (msg-wire/src/reqrep.rs:1, msg-wire/src/pubsub.rs:3, msg-wire/src/auth.rs:1). -/
abbrev Bytes := List UInt8

/-- Result of Rust code that may panic. A Rust panic is an explicit value, never a default. -/
inductive R (α : Type u) where
  | ok (a : α)
  | panic
  deriving Repr, DecidableEq

namespace R
/-- Sequencing: a panic aborts the rest. -/
@[inline] def bind (x : R α) (f : α → R β) : R β :=
  match x with
  | ok a => f a
  | panic => panic

instance : Monad R where
  pure := R.ok
  bind := R.bind

@[simp] theorem bind_ok (a : α) (f : α → R β) : (R.ok a >>= f) = f a := rfl
@[simp] theorem bind_panic (f : α → R β) : ((R.panic : R α) >>= f) = R.panic := rfl
@[simp] theorem pure_eq (a : α) : (pure a : R α) = R.ok a := rfl
end R

/-- Slice indexing `src[i]` (auth.rs:70,79,98; reqrep.rs:127,138; pubsub.rs:193,204,213): panics out
of bounds. -/
def rget (src : Bytes) (i : Nat) : R UInt8 :=
  match src[i]? with
  | some b => .ok b
  | none => .panic

/-- `Buf::advance` (auth.rs:84-85,103; reqrep.rs:147; pubsub.rs:224): panics when `n > len`. -/
def advance (src : Bytes) (n : Nat) : R Bytes :=
  if n ≤ src.length then .ok (src.drop n) else .panic

/-- `BytesMut::split_to` (auth.rs:87; reqrep.rs:160; pubsub.rs:226,247): panics when `n > len`. -/
def splitTo (src : Bytes) (n : Nat) : R (Bytes × Bytes) :=
  if n ≤ src.length then .ok (src.take n, src.drop n) else .panic

/-- Big-endian value of a byte string (`from_be_bytes`). -/
def beNat (bs : Bytes) : Nat := bs.foldl (fun acc b => acc * 256 + b.toNat) 0

/-- `Buf::get_u8` (auth.rs:105): panics if the buffer is empty. -/
def getU8 (src : Bytes) : R (UInt8 × Bytes) := do
  let (h, t) ← splitTo src 1
  return (UInt8.ofNat (beNat h), t)

/-- `Buf::get_u32` (reqrep.rs:151, pubsub.rs:234-235): panics if fewer than 4 bytes remain. -/
def getU32 (src : Bytes) : R (UInt32 × Bytes) := do
  let (h, t) ← splitTo src 4
  return (UInt32.ofNat (beNat h), t)

/-- `Buf::get_u64` (pubsub.rs:233): panics if fewer than 8 bytes remain. -/
def getU64 (src : Bytes) : R (UInt64 × Bytes) := do
  let (h, t) ← splitTo src 8
  return (UInt64.ofNat (beNat h), t)

/-- `k` low-order bytes of `n`, most significant first. -/
def beBytes : Nat → Nat → Bytes
  | 0, _ => []
  | k + 1, n => beBytes k (n / 256) ++ [UInt8.ofNat n]

/-- `BufMut::put_u16` (pubsub.rs:267), big-endian. -/
def putU16 (x : UInt16) : Bytes := beBytes 2 x.toNat
/-- `BufMut::put_u32` (auth.rs:127, reqrep.rs:179-180, pubsub.rs:270-271), big-endian. -/
def putU32 (x : UInt32) : Bytes := beBytes 4 x.toNat
/-- `BufMut::put_u64` (pubsub.rs:269), big-endian. -/
def putU64 (x : UInt64) : Bytes := beBytes 8 x.toNat

/-- What one call of a `tokio_util::codec::Decoder::decode` reports. -/
inductive Dec (ε μ : Type) where
  /-- `Ok(None)`: more bytes are needed. -/
  | more
  /-- `Ok(Some(m))`. -/
  | item (m : μ)
  /-- `Err(e)`. -/
  | err (e : ε)
  deriving Repr, DecidableEq

end MsgRs
