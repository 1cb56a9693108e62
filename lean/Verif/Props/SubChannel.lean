import Verif.Props.Channel
import Verif.Proofs.SubInv
/-!
# The subscriber's sessions talk to the driver through the bidirectional channel

`Sub.Session` holds the contents of its channel directly. Here: every operation of the session task and of the driver on it is the operation of
the channel (`Model/Channel.lean`, msg-common/src/channel.rs), so what C60 says of the channel holds of the way the subscriber uses it.
-/
namespace MsgRs.Props
open MsgRs Sub
variable {A : Type} [DecidableEq A]

/-- The channel of a session (sub/driver.rs:303): the session has the left end, the driver the right one. What is in a direction whose receiver
is gone was dropped with it. -/
def channelOf (s : Session) : Chan.Pair TopicMsg Cmd where
  lr := { cap := 1024, queue := if s.alive then s.toDriver else [], tx := if s.over then .closed else .idle, sender := !s.over, rx := s.alive }
  rl := { cap := 64, queue := if s.over then [] else s.cmds, tx := if s.alive then .idle else .closed, sender := s.alive, rx := !s.over }

/-- What `try_send` of a command reports. -/
def sendRes : CmdRes → Chan.Out Cmd
  | .ok => .ok
  | .full => .full
  | .closed => .closed

/-- What `poll_recv` of the driver reports. -/
def recvRes : Option (Option TopicMsg) → Chan.Out TopicMsg
  | some (some m) => .item m
  | some none => .ended
  | none => .pending

/-- C60, used by the subscriber: a new session has a new channel of 1024 messages and 64 commands; an incoming message is offered to it with `try_send` (by a session
that runs); the driver offers a command with `try_send` and polls for messages with `poll_recv` (as long as it holds its end, which it does for every active
publisher); the session polls for commands with `poll_recv`; when its task ends, its end is dropped; when the driver hangs up, the driver's end is dropped. Nothing else
touches the channel's contents. -/
theorem C60_subscriber_channel (L : Lossy) (s : Session) :
    (∀ boundary via input, Chan.channel TopicMsg Cmd 1024 64 = .ok (channelOf (Session.new boundary via input))) ∧
    (s.over = false → ∀ m now, channelOf (s.onIncoming L m now) =
      { channelOf s with lr := ((channelOf s).lr.trySend (TopicMsg.ofWire L m)).2 }) ∧
    (s.alive = true → ∀ c, sendRes (s.offer c).1 = ((channelOf s).rl.trySend c).1 ∧
      channelOf (s.offer c).2 = { channelOf s with rl := ((channelOf s).rl.trySend c).2 }) ∧
    (s.alive = true → recvRes s.driverRecv.1 = (channelOf s).lr.pollRecv.1 ∧
      channelOf s.driverRecv.2 = { channelOf s with lr := (channelOf s).lr.pollRecv.2 }) ∧
    (s.over = false → ∀ e, channelOf (s.cmdStep e).1 = { channelOf s with rl := (channelOf s).rl.pollRecv.2 } ∧
      ((s.cmdStep e).2 = .pending ↔ (channelOf s).rl.pollRecv.1 = .pending) ∧
      ((s.cmdStep e).2 = .again → ∃ c m, (channelOf s).rl.pollRecv.1 = .item c ∧ c.msg e.now = .ok m ∧ (s.cmdStep e).1.egress = s.egress ++ [m]) ∧
      ((s.cmdStep e).2 = .ended ↔ (channelOf s).rl.pollRecv.1 = .ended ∨ ∃ c, (channelOf s).rl.pollRecv.1 = .item c ∧ c.msg e.now = .panic)) ∧
    (channelOf { s with over := true, armed := false } = { lr := (channelOf s).lr.dropTx, rl := (channelOf s).rl.dropRx }) ∧
    (channelOf { s with alive := false, armed := false } = { lr := (channelOf s).lr.dropRx, rl := (channelOf s).rl.dropTx }) := by
  refine ⟨fun b v i => ?_, fun ho m now => ?_, fun ha c => ?_, fun ha => ?_, fun ho e => ?_, ?_, ?_⟩
  · simp [Chan.channel, channelOf, Session.new]
  · simp only [Session.onIncoming]
    by_cases ha : s.alive = true
    · by_cases hr : s.toDriver.length < toDriverCap
      · rw [if_pos ⟨ha, hr⟩]
        have hr' : s.toDriver.length < 1024 := hr
        simp [channelOf, Chan.Dir.trySend, Chan.Dir.used, Chan.Tx.places, ho, ha, hr']
      · rw [if_neg (fun h => hr h.2)]
        have hr' : ¬ s.toDriver.length < 1024 := hr
        simp [channelOf, Chan.Dir.trySend, Chan.Dir.used, Chan.Tx.places, ho, ha, hr']
    · rw [if_neg (fun h => ha h.1)]
      simp [channelOf, Chan.Dir.trySend, ho, ha]
  · simp only [Session.offer]
    by_cases ho : s.over = true
    · rw [if_pos ho]
      simp [channelOf, Chan.Dir.trySend, ho, ha, sendRes]
    · rw [if_neg ho]
      by_cases hr : s.cmds.length < cmdsCap
      · rw [if_pos hr]
        have hr' : s.cmds.length < 64 := hr
        simp [channelOf, Chan.Dir.trySend, Chan.Dir.used, Chan.Tx.places, ho, ha, hr', sendRes]
      · rw [if_neg hr]
        have hr' : ¬ s.cmds.length < 64 := hr
        simp [channelOf, Chan.Dir.trySend, Chan.Dir.used, Chan.Tx.places, ho, ha, hr', sendRes]
  · unfold Session.driverRecv
    cases ht : s.toDriver with
    | nil =>
      by_cases ho : s.over = true
      · simp [channelOf, Chan.Dir.pollRecv, Chan.Dir.live, ho, ha, ht, recvRes]
      · simp [channelOf, Chan.Dir.pollRecv, Chan.Dir.live, ho, ha, ht, recvRes]
    | cons m ms =>
      by_cases ho : s.over = true
      · simp [channelOf, Chan.Dir.pollRecv, Chan.Dir.grant, ho, ha, ht, recvRes]
      · simp [channelOf, Chan.Dir.pollRecv, Chan.Dir.grant, ho, ha, ht, recvRes]
  · unfold Session.cmdStep
    cases hc : s.cmds with
    | nil =>
      by_cases ha : s.alive = true
      · simp [channelOf, Chan.Dir.pollRecv, Chan.Dir.live, ho, ha, hc]
      · simp [channelOf, Chan.Dir.pollRecv, Chan.Dir.live, ho, ha, hc]
    | cons c cs =>
      cases hm : c.msg e.now with
      | panic =>
        by_cases ha : s.alive = true
        · simp [channelOf, Chan.Dir.pollRecv, Chan.Dir.grant, ho, ha, hc, hm]
        · simp [channelOf, Chan.Dir.pollRecv, Chan.Dir.grant, ho, ha, hc, hm]
      | ok m =>
        by_cases ha : s.alive = true
        · simp [channelOf, Chan.Dir.pollRecv, Chan.Dir.grant, ho, ha, hc, hm]
        · simp [channelOf, Chan.Dir.pollRecv, Chan.Dir.grant, ho, ha, hc, hm]
  · simp [channelOf, Chan.Dir.dropTx, Chan.Dir.dropRx]
  · simp [channelOf, Chan.Dir.dropTx, Chan.Dir.dropRx]

/-- C60, used by the subscriber: the driver holds its end of the channel of every publisher it regards as active, so the conditions above hold whenever it offers a
command or looks for messages. -/
theorem C60_driver_holds_end (L : Lossy) (D : Decompressors) (d : Driver A) (h : Reach L D d) (a : A) (u : Nat) (ha : d.Active a u) :
    ∃ s, d.sessions[u]? = some s ∧ s.alive = true ∧ (channelOf s).rl.sender = true ∧ (channelOf s).lr.rx = true := by
  obtain ⟨-, s, h1, h2⟩ := h.inv.act a u ha
  exact ⟨s, h1, h2, by simp [channelOf, h2], by simp [channelOf, h2]⟩

/-- A session with a full channel of commands: the next command is refused, as the channel says. -/
example : let s : Session := { Session.new 8192 ⟨[], [], [], []⟩ [] with cmds := List.replicate 64 (.subscribe ['a']) }
    (s.offer (.subscribe ['b'])).1 = .full ∧ ((channelOf s).rl.trySend (.subscribe ['b'])).1 = .full := by
  refine ⟨rfl, rfl⟩

end MsgRs.Props
