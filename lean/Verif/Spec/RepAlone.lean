import Verif.Spec.Rep
/-!
# What concerns one client of a reply socket

`view` picks out of a history of a reply socket what concerns one connection: the polls of this connection (with the way the connection took the writes
during each), and what the application did with this connection's requests, which are named by their position on the connection. Everything else is left out: other
clients, their requests, the order in which requests of different clients were received, the numbering of requests by the socket, accepting and authenticating.
-/
namespace MsgRs.Rep
open MsgRs

deriving instance DecidableEq for PEnv

/-- One thing that concerns a client that is being served. -/
inductive ClientEv where
  /-- Its connection was polled; `refused`: the request read was refused because the application had too many waiting. -/
  | polled (e : PEnv) (refused : Bool)
  /-- The application answered its `j`-th request. -/
  | answered (j : Nat) (b : Bytes)
  /-- The application dropped its `j`-th request. -/
  | dropped (j : Nat)
  deriving DecidableEq

/-- The connection `u`, if it is being served. -/
def Driver.find (d : Driver A) (u : Nat) : Option (Peer A) := d.peers.find? (·.uid = u)

/-- What the action `a`, done in the state `d` with the result `d'`, means for the connection `u`. -/
def clientEv (u : Nat) (d d' : Driver A) (a : Act A) : List ClientEv :=
  match d.find u with
  | none => []
  | some p =>
    match a with
    | .peer k e =>
      if d.peers[k]?.map (·.uid) = some u then
        [.polled e ((d'.log.drop d.log.length).any fun x => x.2.2.2 = .full)]
      else []
    | .respond i b =>
      match d.held[i]? with
      | some r => if r.handle ∈ p.issued.map (·.1) then [.answered ((p.issued.map (·.1)).idxOf r.handle) b] else []
      | none => []
    | .drop i =>
      match d.held[i]? with
      | some r => if r.handle ∈ p.issued.map (·.1) then [.dropped ((p.issued.map (·.1)).idxOf r.handle)] else []
      | none => []
    | _ => []

/-- What the history `acts`, starting in the state `d`, means for the connection `u`. -/
def view [DecidableEq A] (D : Decompressors) (u : Nat) (d : Driver A) : List (Act A) → List ClientEv
  | [] => []
  | a :: as =>
    match d.act D a with
    | .panic => []
    | .ok d' => clientEv u d d' a ++ view D u d' as

/-- The names of the connections the listener reported. -/
def arrivals : List (Act A) → List Nat
  | [] => []
  | .accept c :: as => c.uid :: arrivals as
  | _ :: as => arrivals as

/-- What became of the requests of the connection `u`: the frames read and their fates, in order. -/
def Driver.fates (d : Driver A) (u : Nat) : List (ReqRep.Message × Fate) :=
  (d.log.filter (·.1 = u)).map (·.2.2)

end MsgRs.Rep
