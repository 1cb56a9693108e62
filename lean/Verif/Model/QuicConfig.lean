import Verif.Model.Transport
/-!
# The QUIC configuration

msg-transport/src/quic/config.rs. Durations are in nanoseconds. `quinn::TransportConfig` is a record of what the code passes to its setters (that the library keeps to it is trusted; its own
defaults for what the code does not set are left out). The certificate (quic/tls.rs:33-39) is left out: the client accepts any (quic/tls.rs:6-30).
-/
namespace MsgRs.Transport

/-- What is passed to the setters of `quinn::TransportConfig`, quic/config.rs:86-101, 141-156. -/
structure QuicTransport (C : Type) where
  keepAlive : Option Nat
  /-- In milliseconds. -/
  idleMs : Option Nat
  datagramReceive : Option Nat
  datagramSend : Nat
  uniStreams : Nat
  initialMtu : UInt16
  minMtu : UInt16
  allowSpin : Bool
  streamWindow : UInt32
  cc : C
  /-- In milliseconds. -/
  initialRtt : UInt32
  sendWindow : UInt32
  deriving DecidableEq

/-- `Config`, quic/config.rs:9-14: the transport configurations of the client and the server side, and whether the server asks clients to prove their address. -/
structure QuicConfig (C : Type) where
  client : QuicTransport C
  server : QuicTransport C
  useRetry : Bool
  deriving DecidableEq

/-- `ConfigBuilder`, quic/config.rs:16-24, with the values of `new()`, quic/config.rs:32-41 (`MiB` is 1048576, msg-common/src/lib.rs:31-33). -/
structure QuicBuilder (C : Type) where
  cc : C
  mtu : UInt16 := 1460
  bandwidth : UInt32 := 50 * 1048576
  rtt : UInt32 := 100
  idle : Nat := 300 * 1000000000
  keepAlive : Nat := 15 * 1000000000

/-- A builder call, quic/config.rs:43-77. -/
inductive QuicSetter (C : Type) where
  | initialMtu (n : UInt16)
  | maxStreamBandwidth (n : UInt32)
  | expectedRtt (n : UInt32)
  | maxIdleTimeout (d : Nat)
  | keepAliveInterval (d : Nat)
  | congestionController (c : C)

/-- What the call does to the builder, quic/config.rs:43-77. -/
def QuicBuilder.set {C : Type} (b : QuicBuilder C) : QuicSetter C → QuicBuilder C
  | .initialMtu n => { b with mtu := n }
  | .maxStreamBandwidth n => { b with bandwidth := n }
  | .expectedRtt n => { b with rtt := n }
  | .maxIdleTimeout d => { b with idle := d }
  | .keepAliveInterval d => { b with keepAlive := d }
  | .congestionController c => { b with cc := c }

/-- `IdleTimeout::try_from(..).expect(..)`, quic/config.rs:88-90: the milliseconds must be below 2^62 (quinn's `VarInt`). -/
def idleTimeout (d : Nat) : R Nat := if d / 1000000 < 2 ^ 62 then .ok (d / 1000000) else .panic

/-- `ConfigBuilder::build`, quic/config.rs:79-118. (Which of two panics comes first is not modelled.) -/
def QuicBuilder.build {C : Type} (checks : Bool) (b : QuicBuilder C) : R (QuicConfig C) := do
  let streamWindow ← window checks b.bandwidth b.rtt
  let sendWindow ← window checks b.bandwidth b.rtt
  let idle ← idleTimeout b.idle
  let transport : QuicTransport C :=
    { keepAlive := some b.keepAlive, idleMs := some idle, datagramReceive := none, datagramSend := 0, uniStreams := 0, initialMtu := b.mtu, minMtu := b.mtu,
      allowSpin := false, streamWindow, cc := b.cc, initialRtt := b.rtt, sendWindow }
  return { client := transport, server := transport, useRetry := true }

/-- A chain of builder calls from `ConfigBuilder::new()` (`cc` is `C::default()`), then `build`. -/
def QuicBuilder.chain {C : Type} (checks : Bool) (cc : C) (calls : List (QuicSetter C)) : R (QuicConfig C) :=
  (calls.foldl QuicBuilder.set { cc }).build checks

/-- `Config::default()`, quic/config.rs:120-170; the congestion controller is cubic with the given initial window in bytes. The products are of constants and are computed
(and checked for overflow) at compile time. -/
def QuicConfig.default : QuicConfig UInt64 :=
  let rwnd : UInt32 := 1048576 * 1000 / 1000 * 100
  let transport : QuicTransport UInt64 :=
    { keepAlive := some (10 * 1000000000), idleMs := some 300000, datagramReceive := none, datagramSend := 0, uniStreams := 0, initialMtu := 1460, minMtu := 1460,
      allowSpin := false, streamWindow := 8 * rwnd, cc := 1048576, initialRtt := 100, sendWindow := 8 * rwnd }
  { client := transport, server := transport, useRetry := true }

end MsgRs.Transport
