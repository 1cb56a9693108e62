import Verif.Model.Bytes
/-!
# msg-sim — the network simulator (msg-sim/src/lib.rs, msg-sim/src/dummynet.rs)

Addresses are names. `sim_id` is a natural number (the code's `usize` would wrap after 2^64 starts). The packet
filter, dummynet pipes and the loopback interface of macOS are modelled as far as the commands of dummynet.rs change
them; on Linux starting and dropping a simulation do nothing.
-/
namespace MsgRs.Sim
open MsgRs

/-- `SimulationConfig`, lib.rs:16-25, without the list of protocols, which no command uses (`PacketFilter::protocols`
is only stored). `latency` in whole milliseconds, `bw` in Kbps; `plr` is a float that is only copied to a command. -/
structure Config where
  latency : Option Nat := none
  bw : Option Nat := none
  plr : Option Nat := none
  deriving Repr, DecidableEq

/-- The parts of the system the commands change. `main`: the `dummynet-anchor`s in the loaded main ruleset;
`anchors`: the rule loaded in each anchor (endpoint, pipe); `pipes`: the pipes that exist; `enabled`: is the packet
filter on; `aliases`: addresses of the loopback interface; `mtu`: its MTU. -/
structure Sys (A : Type) where
  main : List Nat := []
  anchors : Nat → Option (A × Nat) := fun _ => none
  pipes : Nat → Option Config := fun _ => none
  enabled : Bool := false
  aliases : A → Bool := fun _ => false
  mtu : Nat := 16384

/-- The commands, each with the lines of dummynet.rs that run it; anchors (`msg-sim-<id>`) are named by the id. -/
inductive Cmd (A : Type) where
  /-- `dnctl pipe <id> config …`, 49-78 -/
  | pipe (id : Nat) (c : Config)
  /-- `dnctl pipe delete <id>`, 80-94 -/
  | pipeDelete (id : Nat)
  /-- `ifconfig lo alias <addr>`, 190-194 -/
  | alias (a : A)
  /-- `ifconfig lo -alias <addr>`, 170-174 -/
  | unalias (a : A)
  /-- `ifconfig lo mtu <n>`, 178-181, 196-199 -/
  | mtu (n : Nat)
  /-- `(cat /etc/pf.conf; echo 'dummynet-anchor …') | pfctl -f -`, 207-229: replaces the main ruleset -/
  | load (anchor : Nat)
  /-- `echo 'dummynet in from any to <addr> pipe <id>' | pfctl -a <anchor> -f -`, 234-259 -/
  | rule (anchor : Nat) (a : A) (pipe : Nat)
  /-- `pfctl -E`, 152-154 -/
  | enable
  /-- `pfctl -f /etc/pf.conf`, 161-163: the main ruleset without any of our anchors -/
  | reload
  /-- `pfctl -d`, 165-167 -/
  | disable

/-- What a command that succeeds does. -/
def Sys.exec [DecidableEq A] (s : Sys A) : Cmd A → Sys A
  | .pipe i c => { s with pipes := fun j => if j = i then some c else s.pipes j }
  | .pipeDelete i => { s with pipes := fun j => if j = i then none else s.pipes j }
  | .alias a => { s with aliases := fun b => if b = a then true else s.aliases b }
  | .unalias a => { s with aliases := fun b => if b = a then false else s.aliases b }
  | .mtu n => { s with mtu := n }
  | .load i => { s with main := [i] }
  | .rule i a p => { s with anchors := fun j => if j = i then some (a, p) else s.anchors j }
  | .enable => { s with enabled := true }
  | .reload => { s with main := [] }
  | .disable => { s with enabled := false }

/-- Runs commands until one fails (its status is checked, dummynet.rs:275-284; a failing command changes nothing).
`ok`: which commands succeed. The exit status of the `rule` command is not checked (252-255). -/
def Sys.runAll [DecidableEq A] (ok : Cmd A → Bool) (s : Sys A) : List (Cmd A) → Bool × Sys A
  | [] => (true, s)
  | c :: cs =>
    if ok c then (s.exec c).runAll ok cs
    else match c with
      | .rule .. => s.runAll ok cs
      | _ => (false, s)

/-- `PacketFilter::enable`, dummynet.rs:142-157 -/
def enableCmds (id : Nat) (a : A) (c : Config) : List (Cmd A) :=
  [.pipe id c, .alias a, .mtu 1500, .load id, .rule id a id, .enable]

/-- `PacketFilter::destroy`, dummynet.rs:160-187 -/
def destroyCmds (id : Nat) (a : A) : List (Cmd A) :=
  [.reload, .disable, .unalias a, .mtu 16384, .pipeDelete id]

/-- The operating system the simulator was compiled for. -/
inductive Os where
  | linux
  | macos
  deriving Repr, DecidableEq

/-- An active `Simulation`, lib.rs:62-71. -/
structure Simulation where
  id : Nat
  config : Config
  deriving Repr, DecidableEq

/-- `Simulator`, lib.rs:27-33, and the system. -/
structure Simulator (A : Type) where
  active : List (A × Simulation) := []
  simId : Nat := 1
  sys : Sys A := {}

/-- `Simulation::start`, lib.rs:84-120. -/
def startSys [DecidableEq A] (os : Os) (ok : Cmd A → Bool) (s : Sys A) (id : Nat) (a : A) (c : Config) : Bool × Sys A :=
  match os with
  | .linux => (true, s)
  | .macos => s.runAll ok (enableCmds id a c)

/-- `Simulation::drop`, lib.rs:123-133: on macOS a failing command panics. -/
def dropSys [DecidableEq A] (os : Os) (ok : Cmd A → Bool) (s : Sys A) (a : A) (m : Simulation) : R (Sys A) :=
  match os with
  | .linux => .ok s
  | .macos =>
    match s.runAll ok (destroyCmds m.id a) with
    | (true, s) => .ok s
    | (false, _) => .panic

/-- Dropping the simulation that a map operation returned, if any. -/
def dropOld [DecidableEq A] (os : Os) (ok : Cmd A → Bool) (s : Sys A) (a : A) : Option Simulation → R (Sys A)
  | none => .ok s
  | some m => dropSys os ok s a m

/-- `start`, lib.rs:40-52: the result is the id, or `none` for an error; inserting into the map drops a simulation that
was active on the same endpoint, after the new one was started. -/
def Simulator.start [DecidableEq A] (os : Os) (ok : Cmd A → Bool) (s : Simulator A) (a : A) (c : Config) :
    R (Option Nat × Simulator A) :=
  match startSys os ok s.sys s.simId a c with
  | (false, sys) => .ok (none, { s with sys })
  | (true, sys) => do
    let sys ← dropOld os ok sys a (s.active.lookup a)
    .ok (some s.simId,
      { active := (a, ⟨s.simId, c⟩) :: s.active.filter (fun e => e.1 ≠ a), simId := s.simId + 1, sys })

/-- `stop`, lib.rs:55-58 -/
def Simulator.stop [DecidableEq A] (os : Os) (ok : Cmd A → Bool) (s : Simulator A) (a : A) : R (Simulator A) := do
  let sys ← dropOld os ok s.sys a (s.active.lookup a)
  .ok { s with active := s.active.filter (fun e => e.1 ≠ a), sys }

/-- A call of the user, with the commands that succeed during it. -/
inductive Call (A : Type) where
  | start (a : A) (c : Config) (ok : Cmd A → Bool)
  | stop (a : A) (ok : Cmd A → Bool)

/-- One call: the id it returned (`start` that succeeded), and the new state. -/
def Simulator.call [DecidableEq A] (os : Os) (s : Simulator A) : Call A → R (Option Nat × Simulator A)
  | .start a c ok => s.start os ok a c
  | .stop a ok => do
    let s ← s.stop os ok a
    .ok (none, s)

/-- A history: the ids returned by the starts that succeeded, in order. -/
def Simulator.hist [DecidableEq A] (os : Os) (s : Simulator A) : List (Call A) → R (List Nat × Simulator A)
  | [] => .ok ([], s)
  | c :: cs => do
    let (i, s) ← s.call os c
    let (is, s) ← s.hist os cs
    .ok (i.toList ++ is, s)

end MsgRs.Sim
