import Verif.Model.Endpoints
/-! # Words for the statements about binding, dialling and accepting (C63, C64, C95, C96) -/
namespace MsgRs.Spec
open MsgRs Transport

/-- What the user gets for a report of a TCP listener: at once, the connection with the address of its peer (an error if it
could not be configured), or the error. -/
def tcpFuture : TcpIn A → Fut (Stream A) Err
  | .conn uid peer true => { waits := 0, res := .ok { uid, peer } }
  | .conn _ _ false => { waits := 0, res := .error .connection }
  | .err => { waits := 0, res := .error .listener }

/-- … of an IPC listener at `path`: the connection, with the path as its peer. -/
def ipcFuture (path : P) : IpcIn → Fut (Stream P) Err
  | .conn uid => { waits := 0, res := .ok { uid, peer := path } }
  | .err => { waits := 0, res := .error .listener }

/-- … of a QUIC endpoint: after the handshake (`waits` polls) the connection with the address of its peer, or an error. -/
def quicFuture : QuicIn A → Fut (Stream A) Err
  | .conn uid peer waits true => { waits, res := .ok { uid, peer } }
  | .conn _ _ waits false => { waits, res := .error .connection }
  | .closed => { waits := 0, res := .error .closedEndpoint }

/-- The address of the last successful bind. -/
def lastBound (evs : List (BindEv A ρ)) : Option A :=
  evs.foldl (fun o e => match e with
    | .bound a => some a
    | _ => o) none

/-- What arrived at the listener since the last successful bind, in order. -/
def arrivedSince (evs : List (BindEv A ρ)) : List ρ :=
  evs.foldl (fun l e => match e with
    | .bound _ => []
    | .arrived r => l ++ [r]
    | _ => l) []

/-- The accept futures handed out since the last successful bind, in order. -/
def tookSince (evs : List (BindEv A ρ)) : List (Fut (Stream A) Err) :=
  evs.foldl (fun l e => match e with
    | .bound _ => []
    | .took f => l ++ [f]
    | _ => l) []

/-- What a server may do next: without listener `accept` fails at once; with one it hands out the first connection that
arrived at it and was not handed out, made into a stream by `fut`; it waits only when there is none. -/
def ServeStep (fut : A → ρ → Fut (Stream A) Err) (before : List (BindEv A ρ)) : BindEv A ρ → Prop
  | .took f =>
    match lastBound before with
    | none => f = { waits := 0, res := .error .notConnected }
    | some a => ∃ r, (arrivedSince before)[(tookSince before).length]? = some r ∧ f = fut a r
  | .pending => lastBound before ≠ none ∧ (tookSince before).length = (arrivedSince before).length
  | .arrived _ => lastBound before ≠ none
  | _ => True

/-- Every event of a history is one a server may do next. -/
def Serves (fut : A → ρ → Fut (Stream A) Err) (evs : List (BindEv A ρ)) : Prop :=
  ∀ before e after, evs = before ++ e :: after → ServeStep fut before e

/-! ## QUIC -/

/-- The endpoint a QUIC transport should have: the last one bound, or else the first one dialled from. -/
def here (evs : List (QuicEv A)) : Option (Nat × A) :=
  evs.foldl (fun o e => match e with
    | .bound e a => some (e, a)
    | .dialed e (some a) _ => if o.isNone then some (e, a) else o
    | _ => o) none

/-- What arrived at endpoint `e`, in order. -/
def arrivedAt (e : Nat) : List (QuicEv A) → List (QuicIn A)
  | [] => []
  | .arrived i r :: evs => if i = e then r :: arrivedAt e evs else arrivedAt e evs
  | _ :: evs => arrivedAt e evs

/-- The accept futures handed out, in order. -/
def handedOut : List (QuicEv A) → List (Fut (Stream A) Err)
  | [] => []
  | .took f :: evs => f :: handedOut evs
  | _ :: evs => handedOut evs

/-- Was this a `poll_accept` that found an endpoint? -/
def isAccept : QuicEv A → Bool
  | .took _ => true
  | .pending => true
  | _ => false

/-- What happened before the first `poll_accept` that found an endpoint … -/
def beforeAccept (evs : List (QuicEv A)) : List (QuicEv A) := evs.takeWhile (fun x => !isAccept x)

/-- … and from that call on. -/
def sinceAccept (evs : List (QuicEv A)) : List (QuicEv A) := evs.dropWhile (fun x => !isAccept x)

/-- Was this a bind that succeeded? -/
def isBound : QuicEv A → Bool
  | .bound _ _ => true
  | _ => false

end MsgRs.Spec
