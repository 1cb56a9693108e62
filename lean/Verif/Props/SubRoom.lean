import Verif.Proofs.SubRoom
import Verif.Spec.SubRuns
/-!
# C94: a subscriber loses a message only for lack of room
-/
namespace MsgRs.Props
open MsgRs MsgRs.Sub

variable {A : Type} [DecidableEq A]

/-- C94: over any history of a subscriber socket, as long as the socket is not dropped and the connection to a publisher is
in use: if at no moment 1024 messages of the connection were waiting to be taken by the background task, and at no moment
the buffer of messages for the user was full (`ingress_buffer_size`), then every message read from the connection whose payload
can be decompressed has been delivered to the user, in the order read, except the last ones that still wait
for the background task. -/
theorem C94_lost_only_for_room (L : Lossy) (D : Decompressors) (opts : Options) (now : Nat) (d0 d : Driver A)
    (h0 : Driver.new opts now = .ok d0) (acts : List (Act A)) (hr : d0.run L D acts = .ok d) (hc : d.closed = false)
    (a : A) (u : Nat) (s : Session) (ha : d.Active a u) (hs : d.sessions[u]? = some s)
    (hroom : ∀ pre suf e, acts = pre ++ suf → d0.run L D pre = .ok e →
      e.inbox.length < opts.ingress ∧ ∀ t : Session, e.sessions[u]? = some t → t.toDriver.length < 1024) :
    ∃ read waiting, s.got = read ++ waiting ∧ waiting.length = s.toDriver.length ∧
      ((ofConn u (d.received ++ d.inbox)).map fun m => (m.topic, m.payload)) = read.filterMap (shown L D) := by
  have hreach : Reach L D d := ⟨opts, now, d0, acts, h0, hr⟩
  have hal : s.alive = true := by
    obtain ⟨-, t, h1, h2⟩ := hreach.inv.act a u ha
    rw [hs] at h1; cases h1; exact h2
  have hd0 : d0.opts = opts ∧ d0.sessions = [] ∧ d0.fates = [] := by
    unfold Driver.new at h0
    split at h0
    · cases h0
    · cases h0; exact ⟨rfl, rfl, rfl⟩
  have hno : NoLoss u d := by
    refine NoLoss.run acts hr ⟨by rw [hd0.2.2]; simp, by rw [hd0.2.1]; simp⟩ hc (fun t ht => ?_) (fun pre suf f hp hf => ?_)
    · rw [hs] at ht; cases ht; exact hal
    · obtain ⟨g1, g2⟩ := hroom pre suf f hp hf
      rw [(run_steps pre d0 f hf).grow.2.2.2.2, hd0.1]
      exact ⟨g1, g2⟩
  have hi := hreach.inv.sess u s hs
  have hfwd : s.fwd = s.got.map (TopicMsg.ofWire L) := by
    refine hi.fwd.eq_of_length ?_
    have := hi.drops
    rw [hno.drops s hs] at this
    simpa using this
  have htk := hreach.inv.fate u s hs
  rw [hfwd] at htk
  have hlt : u < d.addrs.length := by rw [hreach.inv.len]; exact (List.getElem?_eq_some_iff.1 hs).1
  have hdel := delivered_eq (D := D) d.addrs u d.addrs[u] (List.getElem?_eq_getElem hlt) d.fates (by
    intro x hx hxu
    obtain ⟨g1, g2⟩ := hno.fates x hx hxu
    cases hf : x.2.2 with
    | delivered => exact .inl rfl
    | undecodable => exact .inr rfl
    | full => exact absurd hf g1
    | gone => exact absurd hf g2) hreach.undecodable
  obtain ⟨rest, hin, hrest⟩ := hreach.inv.inbox
  rw [hrest hc, List.append_nil] at hin
  rw [hin] at hdel
  refine ⟨s.got.take (takenFrom d.fates u).length, s.got.drop (takenFrom d.fates u).length, (List.take_append_drop _ _).symm, ?_, ?_⟩
  · have := congrArg List.length htk
    simp only [List.length_map, List.length_append] at this
    rw [List.length_drop]
    omega
  · rw [hdel]
    have : takenFrom d.fates u = (s.got.take (takenFrom d.fates u).length).map (TopicMsg.ofWire L) := by
      rw [List.map_take, htk]
      simp
    generalize s.got.take (takenFrom d.fates u).length = x at this
    rw [this, List.filterMap_map]
    rfl

/-- C94, which one is lost: an iteration of the task of a connection reads at most one message. It is put behind those waiting
for the background task if fewer than 1024 wait; otherwise it, the newest, is lost, the waiting ones stay as they are, and the
task goes on. -/
theorem C94_newest_lost (L : Lossy) (D : Decompressors) (d e : Driver A) (h : Reach L D d) (a : A) (u : Nat) (s : Session)
    (ha : d.Active a u) (hs : d.sessions[u]? = some s) (env : SEnv) (hr : d.act L D (.session u env) = .ok e) :
    ∃ t : Session, e.sessions[u]? = some t ∧
      ((t.got = s.got ∧ t.toDriver = s.toDriver) ∨
       ∃ m, t.got = s.got ++ [m] ∧ t.over = s.over ∧
        (s.toDriver.length < 1024 → t.toDriver = s.toDriver ++ [TopicMsg.ofWire L m]) ∧
        (s.toDriver.length = 1024 → t.toDriver = s.toDriver) ∧ s.toDriver.length ≤ 1024) := by
  simp only [Driver.act, hs] at hr
  cases hr
  refine ⟨s.step L env, by simp [(List.getElem?_eq_some_iff.1 hs).1], ?_⟩
  have hal : s.alive = true := by
    obtain ⟨-, t, h1, h2⟩ := h.inv.act a u ha
    rw [hs] at h1; cases h1; exact h2
  rcases step_queue (L := L) s env with hx | ⟨m, h1, h2, h3⟩
  · exact .inl hx
  · right
    refine ⟨m, h1, h2, fun hl => ?_, fun hl => ?_, (h.inv.sess u s hs).caps.2⟩
    · rw [h3, if_pos ⟨hal, hl⟩]
    · rw [h3, if_neg]
      rintro ⟨-, hx⟩
      simp only [toDriverCap] at hx
      omega

/-- Whether along a history from the start there is always room, for session `u`. -/
def roomy (opts : Options) (u : Nat) : Driver Nat → List (Act Nat) → Bool
  | d, acts =>
    decide (d.inbox.length < opts.ingress) && (match d.sessions[u]? with | some t => decide (t.toDriver.length < 1024) | none => true) &&
    match acts with
    | [] => true
    | a :: as =>
      match d.act Lossy.strict noDec a with
      | .ok e => roomy opts u e as
      | .panic => true

theorem roomy_spec {opts : Options} {u : Nat} (acts : List (Act Nat)) (d : Driver Nat) (h : roomy opts u d acts = true) :
    ∀ pre suf e, acts = pre ++ suf → d.run Lossy.strict noDec pre = .ok e →
      e.inbox.length < opts.ingress ∧ ∀ t : Session, e.sessions[u]? = some t → t.toDriver.length < 1024 := by
  induction acts generalizing d with
  | nil =>
    intro pre suf e hp he
    have : pre = [] := by cases pre with | nil => rfl | cons _ _ => cases hp
    subst this
    simp only [Driver.run] at he; cases he
    unfold roomy at h
    simp only [Bool.and_eq_true, decide_eq_true_eq, and_true] at h
    refine ⟨h.1, fun t ht => ?_⟩
    have := h.2; rw [ht] at this; simpa using this
  | cons a as ih =>
    intro pre suf e hp he
    unfold roomy at h
    simp only [Bool.and_eq_true, decide_eq_true_eq] at h
    cases pre with
    | nil =>
      simp only [Driver.run] at he; cases he
      refine ⟨h.1.1, fun t ht => ?_⟩
      have := h.1.2; rw [ht] at this; simpa using this
    | cons x xs =>
      simp only [List.cons_append, List.cons.injEq] at hp
      obtain ⟨rfl, hp⟩ := hp
      simp only [Driver.run] at he
      cases h1 : d.act Lossy.strict noDec a with
      | panic => rw [h1] at he; cases he
      | ok d1 =>
        rw [h1] at he
        have h2 := h.2
        rw [h1] at h2
        exact ih d1 h2 xs suf e hp he

/-- A subscriber with room for three messages reads three (the second cannot be decompressed) and its driver takes two. -/
def keepingUp : List (Act Nat) :=
  [.call (.connect 5), .iter ⟨[], [], none⟩, .iter ⟨[], [], conn [.data (msgA 0 7 ++ msgA 3 8), .data (msgA 0 9)]⟩,
   .session 0 {}, .session 0 {}, .iter ⟨[5], [], none⟩, .iter ⟨[5], [], none⟩, .call .recv, .session 0 {}]

example : ∃ (d : Driver Nat) (s : Session), (Driver.new { ingress := 3 } 0 : R (Driver Nat)) = .ok { opts := { ingress := 3 } } ∧
    (Driver.run Lossy.strict noDec { opts := { ingress := 3 } } keepingUp) = .ok d ∧ d.closed = false ∧ d.Active 5 0 ∧
    d.sessions[0]? = some s ∧ (∀ pre suf e, keepingUp = pre ++ suf → (Driver.run Lossy.strict noDec { opts := { ingress := 3 } } pre) = .ok e →
      e.inbox.length < 3 ∧ ∀ t : Session, e.sessions[0]? = some t → t.toDriver.length < 1024) ∧
    s.got.length = 3 ∧ s.toDriver.length = 1 ∧ (d.received ++ d.inbox).map (·.payload) = [[7]] := by
  have hroom := roomy_spec (opts := { ingress := 3 }) (u := 0) keepingUp { opts := { ingress := 3 } } (by decide +kernel)
  have hrun : (match Driver.run Lossy.strict noDec ({ opts := { ingress := 3 } } : Driver Nat) keepingUp with
    | .ok d => match d.sessions[0]? with
      | some s => !d.closed && decide (lookup 5 d.pubs = some (.active 0)) && decide (s.got.length = 3) && decide (s.toDriver.length = 1) &&
        decide ((d.received ++ d.inbox).map (·.payload) = [[7]])
      | none => false
    | .panic => false) = true := by decide +kernel
  cases hx : Driver.run Lossy.strict noDec ({ opts := { ingress := 3 } } : Driver Nat) keepingUp with
  | panic => rw [hx] at hrun; cases hrun
  | ok d =>
    rw [hx] at hrun
    simp only at hrun
    cases hs : d.sessions[0]? with
    | none => rw [hs] at hrun; cases hrun
    | some s =>
      rw [hs] at hrun
      simp only [Bool.and_eq_true, Bool.not_eq_true', decide_eq_true_eq] at hrun
      obtain ⟨⟨⟨⟨h1, h2⟩, h3⟩, h4⟩, h5⟩ := hrun
      exact ⟨d, s, rfl, rfl, h1, h2, hs, hroom, h3, h4, h5⟩

/-- A session that read `k` messages, of which the background task took none, and `n` more arrive. -/
structure Filled (k n : Nat) (s : Session) : Prop where
  over : s.over = false
  alive : s.alive = true
  flush : s.flush = false
  rd : ∃ b, s.rd = { st := PubSub.codec.init, readable := b }
  input : s.input = List.replicate n (.data (msgA 0 7))
  got : s.got.length = k
  waits : s.toDriver.length = k

theorem reads_one (b : Bool) (l : List ReadAns) :
    Reader.pollNext PubSub.codec { st := PubSub.codec.init, readable := b } (.data (msgA 0 7) :: l) =
      .ok (.item ⟨⟨0, 1, [97], 0, 0, 1⟩, [7]⟩, { st := PubSub.codec.init, readable := true }, l) := by
  cases b <;> cases l <;> rfl

theorem Filled.step {k n : Nat} {s : Session} (h : Filled k (n + 1) s) (hk : k < 1024) : Filled (k + 1) n (s.step Lossy.strict {}) := by
  obtain ⟨b, hb⟩ := h.rd
  have hf : s.flushStep {} = s := by simp [Session.flushStep, h.flush]
  have hi : s.iter Lossy.strict {} = .ok (Session.onIncoming Lossy.strict { s with rd := { st := PubSub.codec.init, readable := true }, input := List.replicate n (.data (msgA 0 7)), polls := s.polls + 1 } ⟨⟨0, 1, [97], 0, 0, 1⟩, [7]⟩ 0, .again) := by
    unfold Session.iter
    simp only [hf, hb, h.input, List.replicate_succ, reads_one, R.bind_ok, R.pure_eq]
  have hs : s.step Lossy.strict {} = Session.onIncoming Lossy.strict { s with rd := { st := PubSub.codec.init, readable := true }, input := List.replicate n (.data (msgA 0 7)), polls := s.polls + 1 } ⟨⟨0, 1, [97], 0, 0, 1⟩, [7]⟩ 0 := by
    unfold Session.step
    simp only [h.over, Bool.false_eq_true, if_false, hi]
  rw [hs]
  unfold Session.onIncoming
  simp only [h.alive, h.waits, toDriverCap, hk, and_self, if_true]
  exact ⟨h.over, rfl, h.flush, ⟨true, rfl⟩, rfl, by simp [h.got], by simp [h.waits]⟩

/-- 1025 messages arrive while the background task takes none: there is a reachable state with 1024 of them waiting, and one to come. -/
theorem channel_fills (k : Nat) (hk : k ≤ 1024) : ∃ (d : Driver Nat) (s : Session), Reach Lossy.strict noDec d ∧ d.Active 5 0 ∧
    d.sessions[0]? = some s ∧ Filled k (1025 - k) s := by
  induction k with
  | zero =>
    refine ⟨_, _, ⟨{}, 0, _, [.call (.connect 5), .iter ⟨[], [], none⟩, .iter ⟨[], [], conn (List.replicate 1025 (.data (msgA 0 7)))⟩], rfl, rfl⟩, ?_, rfl, ?_⟩
    · rfl
    · exact ⟨rfl, rfl, rfl, ⟨false, rfl⟩, rfl, rfl, rfl⟩
  | succ k ih =>
    obtain ⟨d, s, h1, h2, h3, h4⟩ := ih (by omega)
    have hn : 1025 - k = (1025 - (k + 1)) + 1 := by omega
    rw [hn] at h4
    refine ⟨{ d with sessions := d.sessions.set 0 (s.step Lossy.strict {}), woken := d.woken || (s.armed && !(s.step Lossy.strict {}).armed) }, _,
      h1.run (acts := [.session 0 {}]) (by simp only [Driver.run, Driver.act, h3, R.bind_ok]), h2, ?_, h4.step (by omega)⟩
    simp [(List.getElem?_eq_some_iff.1 h3).1]

example : ∃ (d : Driver Nat) (s : Session), Reach Lossy.strict noDec d ∧ d.Active 5 0 ∧ d.sessions[0]? = some s ∧ s.toDriver.length = 1024 ∧
    (s.step Lossy.strict {}).got.length = 1025 := by
  obtain ⟨d, s, h1, h2, h3, h4⟩ := channel_fills 1024 (by omega)
  refine ⟨d, s, h1, h2, h3, h4.waits, ?_⟩
  obtain ⟨b, hb⟩ := h4.rd
  have hf : s.flushStep {} = s := by simp [Session.flushStep, h4.flush]
  have hin : s.input = [.data (msgA 0 7)] := h4.input
  unfold Session.step Session.iter
  simp only [h4.over, Bool.false_eq_true, if_false, hf, hb, hin, reads_one, R.bind_ok, R.pure_eq, Session.onIncoming]
  split <;> simp [h4.got]

end MsgRs.Props
