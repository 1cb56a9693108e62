import Verif.Model.Sim
import Verif.Model.Trie
/-!
# msg-sim/src/dummynet.rs and `Simulation::start` — the command lines

Each command is the list of its words, with what is piped into it. `Model/Sim` says what the commands do; here are the
words. Formatting a number (`to_string`, `{}`) is `Nat.toDigits 10`; a loss rate is represented by the text `f64` formats to.
-/
namespace MsgRs.Sim
open MsgRs

/-- A word. -/
def w (s : String) : Str := s.toList

/-- Decimal text of a number (`to_string`). -/
def num (n : Nat) : Str := Nat.toDigits 10 n

/-- `Pipe`, dummynet.rs:10-19 -/
structure Pipe where
  id : Nat
  bandwidth : Option Nat := none
  delay : Option Nat := none
  plr : Option Str := none
  deriving Repr, DecidableEq

/-- `Pipe::new`, dummynet.rs:23-25 -/
def Pipe.new (id : Nat) : Pipe := { id }

/-- `Pipe::bandwidth`, dummynet.rs:28-31 -/
def Pipe.setBandwidth (p : Pipe) (n : Nat) : Pipe := { p with bandwidth := some n }

/-- `Pipe::delay`, dummynet.rs:34-37 -/
def Pipe.setDelay (p : Pipe) (n : Nat) : Pipe := { p with delay := some n }

/-- `Pipe::plr`, dummynet.rs:40-43 -/
def Pipe.setPlr (p : Pipe) (x : Str) : Pipe := { p with plr := some x }

/-- `build_cmd`, dummynet.rs:49-69 -/
def Pipe.buildCmd (p : Pipe) : List Str :=
  let cmd := [w "sudo", w "dnctl", w "pipe", num p.id, w "config"]
  let cmd := match p.bandwidth with
    | some b => cmd ++ [w "bw", num b ++ w "Kbit/s"]
    | none => cmd
  let cmd := match p.delay with
    | some d => cmd ++ [w "delay", num d]
    | none => cmd
  match p.plr with
  | some x => cmd ++ [w "plr", x]
  | none => cmd

/-- `destroy_cmd`, dummynet.rs:80-85 -/
def Pipe.destroyCmd (p : Pipe) : List Str := [w "sudo", w "dnctl", w "pipe", w "delete", num p.id]

/-- `Protocol`, protocol.rs:1-7 -/
inductive Protocol where
  | tcp
  | udp
  | icmp
  deriving Repr, DecidableEq

/-- `Protocol::from(&str)`, protocol.rs:9-18 -/
def Protocol.ofStr (s : Str) : R Protocol :=
  if s = w "tcp" then .ok .tcp
  else if s = w "udp" then .ok .udp
  else if s = w "icmp" then .ok .icmp
  else .panic

/-- `PacketFilter`, dummynet.rs:98-109 -/
structure PacketFilter where
  pipe : Pipe
  anchor : Str
  protocols : List Protocol
  endpoint : Option Str
  loopback : Str
  deriving Repr, DecidableEq

/-- `PacketFilter::new`, dummynet.rs:113-121; `loopback` is what `get_loopback_name` (265-270) found. -/
def PacketFilter.new (pipe : Pipe) (loopback : Str) : PacketFilter :=
  { pipe, anchor := w "msg-sim", protocols := [.tcp, .udp, .icmp], endpoint := none, loopback }

/-- A command that is run: its words, and what it reads on its standard input (`none`: nothing). `conf` stands for the
content of /etc/pf.conf. -/
structure Run where
  words : List Str
  stdin : Option (List Str) := none
  deriving Repr, DecidableEq

/-- `load_pf_config`, dummynet.rs:207-229: /etc/pf.conf and the two anchor lines. -/
def PacketFilter.loadRun (f : PacketFilter) (conf : Str) : Run :=
  { words := [w "sudo", w "pfctl", w "-f", w "-"],
    stdin := some [conf, w "dummynet-anchor \"" ++ f.anchor ++ w "\"", w "anchor \"" ++ f.anchor ++ w "\""] }

/-- `apply_dummynet_rule`, dummynet.rs:234-259 -/
def PacketFilter.ruleRun (f : PacketFilter) (endpoint : Str) : Run :=
  { words := [w "sudo", w "pfctl", w "-a", f.anchor, w "-f", w "-"],
    stdin := some [w "dummynet in from any to " ++ endpoint ++ w " pipe " ++ num f.pipe.id] }

/-- `enable`, dummynet.rs:142-157 with `create_loopback_alias` (189-202), when every command succeeds. Without an endpoint it
panics (`unwrap`, line 191) after having built the pipe. -/
def PacketFilter.enable (f : PacketFilter) (conf : Str) : List Run × Bool :=
  match f.endpoint with
  | none => ([⟨f.pipe.buildCmd, none⟩], false)
  | some a =>
    ([⟨f.pipe.buildCmd, none⟩, ⟨[w "sudo", w "ifconfig", f.loopback, w "alias", a], none⟩,
      ⟨[w "sudo", w "ifconfig", f.loopback, w "mtu", w "1500"], none⟩, f.loadRun conf, f.ruleRun a,
      ⟨[w "sudo", w "pfctl", w "-E"], none⟩], true)

/-- `destroy`, dummynet.rs:160-187, when every command succeeds. -/
def PacketFilter.destroy (f : PacketFilter) : List Run × Bool :=
  let first : List Run := [⟨[w "sudo", w "pfctl", w "-f", w "/etc/pf.conf"], none⟩, ⟨[w "sudo", w "pfctl", w "-d"], none⟩]
  match f.endpoint with
  | none => (first, false)
  | some a =>
    (first ++ [⟨[w "sudo", w "ifconfig", f.loopback, w "-alias", a], none⟩,
      ⟨[w "sudo", w "ifconfig", f.loopback, w "mtu", w "16384"], none⟩, ⟨f.pipe.destroyCmd, none⟩], true)

/-- `SimulationConfig`, lib.rs:16-25; `latency` in nanoseconds (a `Duration`). -/
structure UserConfig where
  latency : Option Nat := none
  bw : Option Nat := none
  plr : Option Str := none
  protocols : List Protocol := []
  deriving Repr, DecidableEq

/-- `Duration::as_millis` (dependency: std): whole milliseconds. -/
def asMillis (nanos : Nat) : Nat := nanos / 1000000

/-- The pipe of a simulation, lib.rs:91-104 -/
def UserConfig.pipe (c : UserConfig) (id : Nat) : Pipe :=
  let p := Pipe.new id
  let p := match c.latency with
    | some l => p.setDelay (asMillis l)
    | none => p
  let p := match c.bw with
    | some b => p.setBandwidth b
    | none => p
  match c.plr with
  | some x => p.setPlr x
  | none => p

/-- The packet filter of a simulation, lib.rs:106-111 -/
def UserConfig.filter (c : UserConfig) (id : Nat) (endpoint loopback : Str) : PacketFilter :=
  let f := { PacketFilter.new (c.pipe id) loopback with anchor := w "msg-sim-" ++ num id, endpoint := some endpoint }
  if c.protocols.isEmpty then f else { f with protocols := c.protocols }

end MsgRs.Sim
