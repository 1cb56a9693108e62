import Verif.Model.ReqSocket
import Verif.Model.RepSocket
import Verif.Model.PubServer
import Verif.Model.PubTimed
import Verif.Model.SubDriver
/-!
# The option builders of the four sockets

`ReqOptions`, `PubOptions`, `SubOptions` and `RepOptions` (msg-socket/src/{req,pub,sub,rep}/mod.rs) are built from
`default()` by a chain of method calls, each taking and returning the options. A chain is a list of calls. Durations are in nanoseconds.
-/
namespace MsgRs
variable {A : Type}

namespace Req

/-- A builder call on `ReqOptions`, req/mod.rs:69-124. -/
inductive Setter where
  | authToken (t : Bytes)
  | timeout (d : Nat)
  | blockingConnect
  | backoffDuration (d : Nat)
  | flushInterval (d : Nat)
  | backpressureBoundary (n : Nat)
  | retryAttempts (n : Nat)
  | minCompressSize (n : Nat)
  deriving Repr, DecidableEq

/-- What the call does to the options, req/mod.rs:69-124. -/
def Options.set (o : Options) : Setter → Options
  | .authToken t => { o with token := some t }
  | .timeout d => { o with timeout := d }
  | .blockingConnect => { o with blockingConnect := true }
  | .backoffDuration d => { o with backoffDuration := d }
  | .flushInterval d => { o with flushInterval := some d }
  | .backpressureBoundary n => { o with boundary := n }
  | .retryAttempts n => { o with retryAttempts := some n }
  | .minCompressSize n => { o with minCompress := n }

/-- `ReqOptions::default()`, req/mod.rs:126-139, followed by a chain of builder calls. -/
def Options.build (calls : List Setter) : Options := calls.foldl Options.set {}

end Req

namespace Pub

/-- `PubOptions`, pub/mod.rs:45-59, with the values of `default()`, pub/mod.rs:61-71, and msg-socket/src/lib.rs:26-27. -/
structure Options where
  maxClients : Option Nat := none
  sessionBuffer : Nat := 1024
  flushInterval : Option Nat := some 50000
  boundary : Nat := 8192
  minCompress : Nat := 8192
  deriving Repr, DecidableEq

/-- A builder call on `PubOptions`, pub/mod.rs:73-107. -/
inductive Setter where
  | maxClients (n : Nat)
  | sessionBufferSize (n : Nat)
  | backpressureBoundary (n : Nat)
  | flushInterval (d : Nat)
  | minCompressSize (n : Nat)
  deriving Repr, DecidableEq

/-- What the call does to the options, pub/mod.rs:73-107. -/
def Options.set (o : Options) : Setter → Options
  | .maxClients n => { o with maxClients := some n }
  | .sessionBufferSize n => { o with sessionBuffer := n }
  | .backpressureBoundary n => { o with boundary := n }
  | .flushInterval d => { o with flushInterval := some d }
  | .minCompressSize n => { o with minCompress := n }

/-- `PubOptions::default()` followed by a chain of builder calls. -/
def Options.build (calls : List Setter) : Options := calls.foldl Options.set {}

/-- `PubSocket::with_options`, pub/socket.rs:79-89: where each option goes. `flush_interval` is used when a session is built
(pub/driver.rs:61-74, 186-199), by `Options.session`. -/
def Options.socket (o : Options) (authn : Option (Bytes → Bool)) (comp : Option Compressor) : Server A :=
  Server.new o.maxClients authn o.boundary o.minCompress o.sessionBuffer comp

/-- The session of a connection, pub/driver.rs:61-74, 186-199. -/
def Options.session (o : Options) (input : List ReadAns) (now : Nat) : R Timed :=
  Timed.new o.boundary input o.flushInterval now

end Pub

namespace Sub

/-- A builder call on `SubOptions`, sub/mod.rs:69-96. -/
inductive Setter where
  | authToken (t : Bytes)
  | ingressBufferSize (n : Nat)
  | readBufferSize (n : Nat)
  | initialBackoff (d : Nat)
  deriving Repr, DecidableEq

/-- What the call does to the options, sub/mod.rs:69-96. -/
def Options.set (o : Options) : Setter → Options
  | .authToken t => { o with token := some t }
  | .ingressBufferSize n => { o with ingress := n }
  | .readBufferSize n => { o with readBuffer := n }
  | .initialBackoff d => { o with initialBackoff := d }

/-- `SubOptions::default()`, sub/mod.rs:98-107, followed by a chain of builder calls. -/
def Options.build (calls : List Setter) : Options := calls.foldl Options.set {}

end Sub

namespace Rep

/-- `RepOptions`, rep/mod.rs:28-32, with the values of `default()`, rep/mod.rs:34-38. -/
structure Options where
  maxClients : Option Nat := none
  minCompress : Nat := 8192
  deriving Repr, DecidableEq

/-- A builder call on `RepOptions`, rep/mod.rs:40-53. -/
inductive Setter where
  | maxClients (n : Nat)
  | minCompressSize (n : Nat)
  deriving Repr, DecidableEq

/-- What the call does to the options, rep/mod.rs:40-53. -/
def Options.set (o : Options) : Setter → Options
  | .maxClients n => { o with maxClients := some n }
  | .minCompressSize n => { o with minCompress := n }

/-- `RepOptions::default()` followed by a chain of builder calls. -/
def Options.build (calls : List Setter) : Options := calls.foldl Options.set {}

/-- `RepSocket::with_options`, rep/socket.rs:78-88: no code reads `min_compress_size`. -/
def Options.socket (o : Options) (authn : Option (Bytes → Bool)) (comp : Option Compressor) : Socket A :=
  Socket.new o.maxClients authn comp

end Rep
end MsgRs
