import Verif.Model.SubDriver
/-!
# msg-socket/src/sub/stats.rs — the statistics of a subscriber socket
-/
namespace MsgRs.Sub
open MsgRs

variable {A : Type} [DecidableEq A]

/-- `SocketStats::session_stats.get`, sub/stats.rs:39,45: the counters registered for an address. The map holds
`Arc`s shared with the sessions (sub/session.rs:59-61, sub/driver.rs:308-323): here, the number of the session. -/
def Driver.statsOf (d : Driver A) (a : A) : Option Stats :=
  match lookup a d.stats with
  | none => none
  | some u => (d.sessions[u]?).map (·.stats)

/-- `SocketStats::bytes_rx`, sub/stats.rs:37-40. -/
def Driver.bytesRx (d : Driver A) (a : A) : Option Nat := (d.statsOf a).map (·.bytesRx)

/-- `SocketStats::avg_latency`, sub/stats.rs:42-46. -/
def Driver.avgLatency (d : Driver A) (a : A) : Option Nat := (d.statsOf a).map (·.latency)

end MsgRs.Sub
