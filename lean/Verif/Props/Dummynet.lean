import Verif.Model.Dummynet
import Verif.Spec.Dummynet
/-!
# The simulator's command lines
-/
namespace MsgRs.Props
open MsgRs Sim Spec

theorem takeWhile_num (n : Nat) (u : Str) (hu : ∀ c, u.head? = some c → c.isDigit = false) :
    (num n ++ u).takeWhile Char.isDigit = num n ∧ (num n ++ u).dropWhile Char.isDigit = u := by
  have h : ∀ c ∈ num n, c.isDigit = true := fun c hc => Nat.isDigit_of_mem_toDigits (by decide) (by decide) hc
  have h1 : u.takeWhile Char.isDigit = [] := by
    cases u with
    | nil => rfl
    | cons c u => simp [hu c rfl]
  have h2 : u.dropWhile Char.isDigit = u := by
    cases u with
    | nil => rfl
    | cons c u => simp [hu c rfl]
  constructor
  · rw [List.takeWhile_append_of_pos h, h1, List.append_nil]
  · rw [List.dropWhile_append_of_pos h, h2]

theorem number_num (n : Nat) (u : Str) (hu : ∀ c, u.head? = some c → c.isDigit = false) : number (num n ++ u) = some (n, u) := by
  obtain ⟨h1, h2⟩ := takeWhile_num n u hu
  unfold number
  rw [h1, h2, if_neg (show num n ≠ [] from Nat.toDigits_ne_nil)]
  simp only [num, Nat.ofDigitChars_ten_toDigits]

theorem number_num' (n : Nat) : number (num n) = some (n, []) := by
  have := number_num n [] (by simp)
  rwa [List.append_nil] at this

theorem number_bw (n : Nat) : number (num n ++ w "Kbit/s") = some (n, "Kbit/s".toList) :=
  number_num n _ (by intro c hc; simp [w] at hc; subst hc; decide)

theorem read_bw (s : PipeSettings) (n : Nat) (rest : List Str) :
    readSettings s (w "bw" :: (num n ++ w "Kbit/s") :: rest) = readSettings { s with bw := some n } rest := by
  rw [readSettings, if_pos (show w "bw" = "bw".toList from rfl), number_bw]
  dsimp only
  rw [if_pos rfl]

theorem read_delay (s : PipeSettings) (n : Nat) (rest : List Str) :
    readSettings s (w "delay" :: num n :: rest) = readSettings { s with delay := some n } rest := by
  rw [readSettings, if_neg (show ¬ w "delay" = "bw".toList by decide), if_pos (show w "delay" = "delay".toList from rfl), number_num']

theorem read_plr (s : PipeSettings) (x : Str) (rest : List Str) :
    readSettings s (w "plr" :: x :: rest) = readSettings { s with plr := some x } rest := by
  rw [readSettings, if_neg (show ¬ w "plr" = "bw".toList by decide), if_neg (show ¬ w "plr" = "delay".toList by decide),
    if_pos (show w "plr" = "plr".toList from rfl)]

/-- C85: the command that creates a pipe sets, on the pipe with that id, exactly the settings the pipe was given. -/
theorem C85_pipe_command (p : Pipe) :
    readPipe p.buildCmd = some (p.id, { bw := p.bandwidth, delay := p.delay, plr := p.plr }) := by
  have key : ∀ rest t, readSettings {} rest = some t →
      readPipe ([w "sudo", w "dnctl", w "pipe", num p.id, w "config"] ++ rest) = some (p.id, t) := by
    intro rest t h
    rw [List.cons_append, List.cons_append, List.cons_append, List.cons_append, List.cons_append, List.nil_append, readPipe,
      if_pos ⟨rfl, rfl, rfl, rfl⟩, number_num', h]
  obtain ⟨id, bw, de, pl⟩ := p
  have nil : ∀ t, readSettings t [] = some t := fun _ => rfl
  cases bw <;> cases de <;> cases pl <;> dsimp only [Pipe.buildCmd] <;> (try rw [List.append_assoc]) <;> (try rw [List.append_assoc]) <;>
    first
    | (apply key; simp only [List.cons_append, List.nil_append, read_bw, read_delay, read_plr, nil]; done)
    | (rw [← List.append_nil [_, _, _, _, _]]; apply key; rfl)

/-- A call of one of the setters. -/
inductive PipeCall where
  | bandwidth (n : Nat)
  | delay (n : Nat)
  | plr (x : Str)

/-- The setters. -/
def PipeCall.apply (p : Pipe) : PipeCall → Pipe
  | .bandwidth n => p.setBandwidth n
  | .delay n => p.setDelay n
  | .plr x => p.setPlr x

/-- C85: whatever setters are called, in whatever order and however often, the command has the pipe's id and for each setting the value given
last; settings never given are left alone. -/
theorem C85_last_setting (id : Nat) (calls : List PipeCall) :
    readPipe (calls.foldl PipeCall.apply (Pipe.new id)).buildCmd = some (id,
      { bw := (calls.filterMap fun | .bandwidth n => some n | _ => none).getLast?,
        delay := (calls.filterMap fun | .delay n => some n | _ => none).getLast?,
        plr := (calls.filterMap fun | .plr x => some x | _ => none).getLast? }) := by
  rw [C85_pipe_command]
  have : ∀ (p : Pipe), calls.foldl PipeCall.apply p =
      { id := p.id, bandwidth := ((calls.filterMap fun | .bandwidth n => some n | _ => none).getLast?).or p.bandwidth,
        delay := ((calls.filterMap fun | .delay n => some n | _ => none).getLast?).or p.delay,
        plr := ((calls.filterMap fun | .plr x => some x | _ => none).getLast?).or p.plr } := by
    induction calls with
    | nil => intro p; rfl
    | cons c calls ih =>
      intro p
      rw [List.foldl_cons, ih]
      cases c <;> simp [PipeCall.apply, Pipe.setBandwidth, Pipe.setDelay, Pipe.setPlr, List.getLast?_cons] <;>
        (split <;> rfl) <;> skip
  rw [this]
  simp [Pipe.new]

/-- C85 (partial): starting a simulation first runs the command that gives pipe `id` the bandwidth and loss rate asked for and as delay the latency in
milliseconds, rounded down: exact for whole milliseconds. Missing: fractions of a millisecond (`C85_latency_refuted`), the protocols
(`C85_protocols_refuted`). -/
theorem C85_start_settings_partial (c : UserConfig) (id : Nat) (endpoint loopback conf : Str) :
    ∃ rest, (c.filter id endpoint loopback).enable conf = (⟨(c.pipe id).buildCmd, none⟩ :: rest, true) ∧
      ∃ s, readPipe (c.pipe id).buildCmd = some (id, s) ∧ s.bw = c.bw ∧ s.plr = c.plr ∧
        (c.latency = none → s.delay = none) ∧
        (∀ l, c.latency = some l → ∃ d, s.delay = some d ∧ d * 1000000 ≤ l ∧ l < (d + 1) * 1000000) ∧
        (∀ ms, c.latency = some (ms * 1000000) → s.delay = some ms) := by
  have hp : c.pipe id = { id, bandwidth := c.bw, delay := c.latency.map asMillis, plr := c.plr } := by
    obtain ⟨l, b, x, ps⟩ := c
    cases l <;> cases b <;> cases x <;> rfl
  have hf : (c.filter id endpoint loopback).pipe = c.pipe id ∧ (c.filter id endpoint loopback).endpoint = some endpoint := by
    unfold UserConfig.filter
    dsimp only
    split <;> exact ⟨rfl, rfl⟩
  refine ⟨_, by simp only [PacketFilter.enable, hf.2]; rw [hf.1], { bw := (c.pipe id).bandwidth, delay := (c.pipe id).delay, plr := (c.pipe id).plr }, (C85_pipe_command (c.pipe id)).trans (by rw [hp]), ?_⟩
  rw [hp]
  refine ⟨rfl, rfl, fun h => by simp [h], fun l h => ⟨asMillis l, by simp [h], ?_, ?_⟩, fun ms h => ?_⟩
  · exact Nat.div_mul_le_self l 1000000
  · have := Nat.div_add_mod l 1000000
    have := Nat.mod_lt l (y := 1000000) (by decide)
    unfold asMillis
    omega
  · simp only [h, Option.map_some, asMillis]
    rw [Nat.mul_div_cancel _ (by decide)]

example : (UserConfig.pipe { latency := some 250000000, bw := some 10, plr := some (w "0.1") } 3).buildCmd =
    ["sudo", "dnctl", "pipe", "3", "config", "bw", "10Kbit/s", "delay", "250", "plr", "0.1"].map w := by decide +kernel

/-- C85 (refuted as stated): a latency of half a millisecond is configured as none at all. -/
theorem C85_latency_refuted (id : Nat) :
    readPipe (UserConfig.pipe { latency := some 500000 } id).buildCmd = some (id, { delay := some 0 }) :=
  C85_pipe_command _

/-- C85 (refuted as stated): the protocols asked for make no difference to any command that is run. -/
theorem C85_protocols_refuted (c : UserConfig) (ps qs : List Protocol) (id : Nat) (endpoint loopback conf : Str) :
    ({ c with protocols := ps }.filter id endpoint loopback).enable conf = ({ c with protocols := qs }.filter id endpoint loopback).enable conf ∧
    ({ c with protocols := ps }.filter id endpoint loopback).destroy = ({ c with protocols := qs }.filter id endpoint loopback).destroy := by
  have hp : ∀ ps, UserConfig.pipe { c with protocols := ps } id = c.pipe id := fun _ => rfl
  have hf : ∀ ps : List Protocol, ∃ x, UserConfig.filter { c with protocols := ps } id endpoint loopback =
      { pipe := c.pipe id, anchor := w "msg-sim-" ++ num id, protocols := x, endpoint := some endpoint, loopback } := by
    intro ps
    unfold UserConfig.filter
    dsimp only
    rw [hp]
    split <;> exact ⟨_, rfl⟩
  obtain ⟨x, hx⟩ := hf ps
  obtain ⟨y, hy⟩ := hf qs
  rw [hx, hy]
  exact ⟨rfl, rfl⟩

/-! ## The commands are those of `Model/Sim` -/

/-- The words of a command of `Model/Sim`; `txt` is the text of a loss rate. -/
def render (conf loopback : Str) (txt : Nat → Str) : Cmd Str → Run
  | .pipe i c => ⟨(Pipe.mk i c.bw c.latency (c.plr.map txt)).buildCmd, none⟩
  | .pipeDelete i => ⟨["sudo", "dnctl", "pipe", "delete"].map w ++ [num i], none⟩
  | .alias a => ⟨[w "sudo", w "ifconfig", loopback, w "alias", a], none⟩
  | .unalias a => ⟨[w "sudo", w "ifconfig", loopback, w "-alias", a], none⟩
  | .mtu n => ⟨[w "sudo", w "ifconfig", loopback, w "mtu", num n], none⟩
  | .load i => ⟨["sudo", "pfctl", "-f", "-"].map w, some [conf, w "dummynet-anchor \"msg-sim-" ++ num i ++ w "\"", w "anchor \"msg-sim-" ++ num i ++ w "\""]⟩
  | .rule i a p => ⟨["sudo", "pfctl", "-a"].map w ++ [w "msg-sim-" ++ num i] ++ ["-f", "-"].map w, some [w "dummynet in from any to " ++ a ++ w " pipe " ++ num p]⟩
  | .enable => ⟨["sudo", "pfctl", "-E"].map w, none⟩
  | .reload => ⟨["sudo", "pfctl", "-f", "/etc/pf.conf"].map w, none⟩
  | .disable => ⟨["sudo", "pfctl", "-d"].map w, none⟩

/-- C85: the commands run for a simulation are the ones whose effect the other simulator properties (C59, C65) are about, with its id, endpoint and
settings in them. -/
theorem C85_commands (c : UserConfig) (id : Nat) (endpoint loopback conf : Str) (txt : Nat → Str) (cfg : Config)
    (h1 : cfg.latency = c.latency.map asMillis) (h2 : cfg.bw = c.bw) (h3 : cfg.plr.map txt = c.plr) :
    (c.filter id endpoint loopback).enable conf = ((enableCmds id endpoint cfg).map (render conf loopback txt), true) ∧
    (c.filter id endpoint loopback).destroy = ((destroyCmds id endpoint).map (render conf loopback txt), true) := by
  have hp : c.pipe id = { id, bandwidth := c.bw, delay := c.latency.map asMillis, plr := c.plr } := by
    obtain ⟨l, b, x, ps⟩ := c
    cases l <;> cases b <;> cases x <;> rfl
  have hf : ∃ x, c.filter id endpoint loopback =
      { pipe := c.pipe id, anchor := w "msg-sim-" ++ num id, protocols := x, endpoint := some endpoint, loopback } := by
    unfold UserConfig.filter
    dsimp only
    split <;> exact ⟨_, rfl⟩
  obtain ⟨x, hx⟩ := hf
  have n1 : num 1500 = w "1500" := by decide +kernel
  have n2 : num 16384 = w "16384" := by decide +kernel
  have a1 : w "dummynet-anchor \"msg-sim-" = w "dummynet-anchor \"" ++ w "msg-sim-" := by decide +kernel
  have a2 : w "anchor \"msg-sim-" = w "anchor \"" ++ w "msg-sim-" := by decide +kernel
  rw [hx]
  constructor
  · simp only [PacketFilter.enable, enableCmds, List.map_cons, List.map_nil, render, h1, h2, h3, hp, n1, PacketFilter.loadRun, PacketFilter.ruleRun, a1, a2,
      List.append_assoc, List.cons_append, List.nil_append]
  · simp only [PacketFilter.destroy, destroyCmds, List.map_cons, List.map_nil, render, n2, hp, Pipe.destroyCmd, List.cons_append, List.nil_append]

example : ((UserConfig.filter { latency := some 5000000, bw := some 8 } 2 (w "127.0.0.3") (w "lo0")).enable (w "…")).1.length = 6 := rfl

/-- C85: the three protocols are read from their lower-case names, and from nothing else (anything else panics). -/
theorem C85_protocol_names (s : Str) (p : Protocol) :
    (Protocol.ofStr s = .ok p ↔ s = (match p with
      | .tcp => ['t', 'c', 'p']
      | .udp => ['u', 'd', 'p']
      | .icmp => ['i', 'c', 'm', 'p'])) ∧
    (Protocol.ofStr s = .panic ↔ s ≠ ['t', 'c', 'p'] ∧ s ≠ ['u', 'd', 'p'] ∧ s ≠ ['i', 'c', 'm', 'p']) := by
  have h1 : w "tcp" = ['t', 'c', 'p'] := by decide
  have h2 : w "udp" = ['u', 'd', 'p'] := by decide
  have h3 : w "icmp" = ['i', 'c', 'm', 'p'] := by decide
  unfold Protocol.ofStr
  rw [h1, h2, h3]
  by_cases c1 : s = ['t', 'c', 'p']
  · subst c1; cases p <;> simp
  · rw [if_neg c1]
    by_cases c2 : s = ['u', 'd', 'p']
    · subst c2; cases p <;> simp
    · rw [if_neg c2]
      by_cases c3 : s = ['i', 'c', 'm', 'p']
      · subst c3; cases p <;> simp
      · rw [if_neg c3]; cases p <;> simp [c1, c2, c3]

end MsgRs.Props
