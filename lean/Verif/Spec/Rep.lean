import Verif.Model.RepDriver
/-!
# Vocabulary for statements about the reply socket
-/
namespace MsgRs.Rep
open MsgRs

/-- The requests put into the application's inbox, in order: handle and payload. -/
def deliveredOf (log : List (Nat × Nat × ReqRep.Message × Fate)) : List (Nat × Bytes) :=
  log.filterMap fun x => match x.2.2.2 with
    | .delivered payload => some (x.2.1, payload)
    | _ => none

/-- Every connection the driver has served so far. -/
def Driver.conns (d : Driver A) : List (Peer A) := d.peers ++ d.gone

/-- Connections being accepted, authenticated or served. -/
def Driver.count (d : Driver A) : Nat := d.connTasks.length + d.authTasks.length + d.peers.length

/-- The addresses of these connections. -/
def Driver.addrs (d : Driver A) : List A :=
  d.connTasks.filterMap (·.addr) ++ (d.authTasks.filterMap (·.addr) ++ d.peers.map (·.addr))

end MsgRs.Rep
