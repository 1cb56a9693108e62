import Verif.Proofs.SubDeliver
import Verif.Props.Admission
import Verif.Spec.SubRuns
/-!
# Properties C21, C31, C46–C55: the subscriber socket

A history is a list of `Sub.Act`: iterations of the driver's loop, of the loop of a session (a connection to a
publisher), the clock moving, method calls, and dropping the socket. `Reach L D d`: `d` is the state after some
history. `d.sessions` are all connections ever made, by number, and `d.addrs` their addresses; `d.Active a u`: the
publisher at `a` is connected, by connection `u`; `d.tasks`: the connection attempts in progress; `d.processed`:
the commands of the user the driver handled; `d.received`: the messages the user took, `d.inbox` those waiting
for it. Of a connection, `input0` is what it answers to reads, `got` the messages read from it, `offered` the
subscription commands the driver tried to hand to it, `queued` those its channel took, `sent` the frames put in
its write buffer and `wr.wire` the bytes written.
-/
namespace MsgRs.Props
open MsgRs MsgRs.Sub
variable {A : Type} [DecidableEq A]

/-! ## C21 -/

/-- C21: a topic starting with `MSG` is refused by all four methods; nothing else happens but that the driver
task is started (which a first use of the socket does). -/
theorem C21_reserved_refused (d : Driver A) (t : Str) (h : ['M', 'S', 'G'] <+: t) :
    d.subscribeAsync t = (some (.error .reservedTopic), { d with started := true }) ∧
    d.trySubscribe t = (.error .reservedTopic, { d with started := true }) ∧
    d.unsubscribeAsync t = (some (.error .reservedTopic), { d with started := true }) ∧
    d.tryUnsubscribe t = (.error .reservedTopic, { d with started := true }) := by
  have hr : reserved t = true := List.isPrefixOf_iff_prefix.2 h
  simp [Driver.subscribeAsync, Driver.trySubscribe, Driver.unsubscribeAsync, Driver.tryUnsubscribe, hr, Driver.ensureActive]

/-- C21: what the reservation is for: the topic of every control frame is the text `MSG.SUB.` or `MSG.UNSUB.` followed by the topic, so it is one
that `subscribe` refuses: no subscription can be confused with the control messages. -/
theorem C21_control_is_reserved (d : Driver A) (now : UInt64) (t : Str) (m : PubSub.Message)
    (h : PubSub.Message.newSub now (utf8 t) = .ok m ∨ PubSub.Message.newUnsub now (utf8 t) = .ok m) :
    ∃ c : Str, m.header.topic = utf8 c ∧ (c = "MSG.SUB.".toList ++ t ∨ c = "MSG.UNSUB.".toList ++ t) ∧
      (d.subscribeAsync c).1 = some (.error .reservedTopic) ∧ (d.trySubscribe c).1 = .error .reservedTopic := by
  have happ : ∀ a b : Str, utf8 (a ++ b) = utf8 a ++ utf8 b := fun a b => by simp [utf8]
  have h1 : utf8 "MSG.SUB.".toList = PubSub.subPrefix := by decide
  have h2 : utf8 "MSG.UNSUB.".toList = PubSub.unsubPrefix := by decide
  have key : ∀ c : Str, ['M', 'S', 'G'] <+: c →
      (d.subscribeAsync c).1 = some (.error .reservedTopic) ∧ (d.trySubscribe c).1 = .error .reservedTopic := by
    intro c hc
    obtain ⟨k1, k2, _⟩ := C21_reserved_refused d c hc
    rw [k1, k2]
    exact ⟨rfl, rfl⟩
  rcases h with h | h
  · refine ⟨"MSG.SUB.".toList ++ t, ?_, Or.inl rfl, key _ ⟨".SUB.".toList ++ t, rfl⟩⟩
    unfold PubSub.Message.newSub PubSub.Message.new at h
    split at h
    · cases h; rw [happ, h1]
    · cases h
  · refine ⟨"MSG.UNSUB.".toList ++ t, ?_, Or.inr rfl, key _ ⟨".UNSUB.".toList ++ t, rfl⟩⟩
    unfold PubSub.Message.newUnsub PubSub.Message.new at h
    split at h
    · cases h; rw [happ, h2]
    · cases h

example : ∃ m, PubSub.Message.newSub 7 (utf8 ['f', 'o', 'o']) = .ok m := ⟨_, rfl⟩

/-- C21: any other topic is not refused as reserved, and unless the command channel is full (or has no room yet)
the command is passed on to the driver. -/
theorem C21_others_accepted (d : Driver A) (t : Str) (h : ¬ ['M', 'S', 'G'] <+: t) :
    (d.subscribeAsync t).1 ≠ some (.error .reservedTopic) ∧ (d.trySubscribe t).1 ≠ .error .reservedTopic ∧
    (d.unsubscribeAsync t).1 ≠ some (.error .reservedTopic) ∧ (d.tryUnsubscribe t).1 ≠ .error .reservedTopic ∧
    (d.cmdq.length < 1024 →
      d.subscribeAsync t = (some (.ok ()), { d with started := true, cmdq := d.cmdq ++ [.subscribe t], woken := true }) ∧
      d.trySubscribe t = (.ok (), { d with started := true, cmdq := d.cmdq ++ [.subscribe t], woken := true }) ∧
      d.unsubscribeAsync t = (some (.ok ()), { d with started := true, cmdq := d.cmdq ++ [.unsubscribe t], woken := true }) ∧
      d.tryUnsubscribe t = (.ok (), { d with started := true, cmdq := d.cmdq ++ [.unsubscribe t], woken := true })) := by
  have hr : reserved t = false := by
    cases hx : reserved t with
    | false => rfl
    | true => exact absurd (List.isPrefixOf_iff_prefix.1 hx) h
  by_cases hl : d.cmdq.length < 1024 <;>
    simp [Driver.subscribeAsync, Driver.trySubscribe, Driver.unsubscribeAsync, Driver.tryUnsubscribe, hr,
      Driver.ensureActive, Driver.send, Driver.trySend, cmdCap, hl]

theorem call_started (d : Driver A) (c : Call A) (hc : c ≠ .recv) : ¬ (d.call c).started = false := by
  have h1 : ∀ x, (d.ensureActive.send x).2.started = true := by intro x; unfold Driver.send; split <;> rfl
  have h2 : ∀ x, (d.ensureActive.trySend x).2.started = true := by intro x; unfold Driver.trySend; split <;> rfl
  have h3 : d.ensureActive.started = true := rfl
  intro hf
  cases c with
  | recv => exact hc rfl
  | subscribe t => simp only [Driver.call, Driver.subscribeAsync] at hf; split at hf <;> simp [h1, h3] at hf
  | trySubscribe t => simp only [Driver.call, Driver.trySubscribe] at hf; split at hf <;> simp [h2, h3] at hf
  | unsubscribe t => simp only [Driver.call, Driver.unsubscribeAsync] at hf; split at hf <;> simp [h1, h3] at hf
  | tryUnsubscribe t => simp only [Driver.call, Driver.tryUnsubscribe] at hf; split at hf <;> simp [h2, h3] at hf
  | connect a => simp [Driver.call, Driver.connectAsync, h1] at hf
  | tryConnect a => simp [Driver.call, Driver.tryConnect, h2] at hf
  | disconnect a => simp [Driver.call, Driver.disconnectAsync, h1] at hf
  | tryDisconnect a => simp [Driver.call, Driver.tryDisconnect, h2] at hf

/-- A driver that was not started has nothing to do. -/
theorem unstarted {L : Lossy} {D : Decompressors} {d : Driver A} (h : Reach L D d) (hs : d.started = false) :
    d.pubs = [] ∧ d.tasks = [] ∧ (d.closed = false → d.cmdq = []) := by
  obtain ⟨opts, now, d0, acts, h0, h1⟩ := h
  have init : d0.started = false → d0.pubs = [] ∧ d0.tasks = [] ∧ (d0.closed = false → d0.cmdq = []) := by
    unfold Driver.new at h0
    split at h0
    · cases h0
    · cases h0; exact fun _ => ⟨rfl, rfl, fun _ => rfl⟩
  clear h0
  induction acts generalizing d0 with
  | nil => simp only [Driver.run] at h1; cases h1; exact init hs
  | cons x acts ih =>
    simp only [Driver.run] at h1
    cases hx : d0.act L D x with
    | panic => rw [hx] at h1; cases h1
    | ok d1 =>
      rw [hx] at h1
      refine ih d1 h1 ?_
      intro hs1
      cases x with
      | iter e =>
        simp only [Driver.act] at hx
        split at hx
        · rename_i hst
          cases hi : d0.iter D e with
          | panic => rw [hi] at hx; cases hx
          | ok y =>
            obtain ⟨d2, o⟩ := y
            rw [hi] at hx
            simp only [R.bind_ok, R.pure_eq] at hx
            cases hx
            exfalso
            have := diter_steps (L := L) d0 d2 e o hi
            have hkeep : ∀ x y : Driver A, DSteps L D x y → x.started = true → y.started = true := by
              intro x y hxy hx1
              refine hxy.induct (P := fun z => z.started = true) ?_ hx1
              intro p q hpq hp
              cases hpq with
              | command c q hq => rw [(onCommand_same _ c).2.2.2.2.2.2.2.2]; exact hp
              | take a u s t ms payload hl hu ht hd =>
                unfold Driver.deliver
                simp only
                repeat' split
                all_goals exact hp
              | lost a u s hl hu ht ho => rw [reset_eq]; exact hp
              | retry a b hl => unfold Driver.connect; split <;> exact hp
              | joinOk i a order out via input ht hr => unfold Driver.onConnection; split <;> exact hp
              | start hc => rfl
              | _ => exact hp
            have := hkeep d0 d2 this hst
            simp only at hs1
            rw [this] at hs1; cases hs1
        · cases hx; exact init hs1
      | session u e =>
        simp only [Driver.act] at hx
        split at hx <;> cases hx <;> exact init hs1
      | advance dt => simp only [Driver.act] at hx; cases hx; exact init hs1
      | call c =>
        simp only [Driver.act] at hx
        split at hx
        · cases hx; exact init hs1
        · cases hx
          cases c with
          | recv =>
            simp only [Driver.call, Driver.recv] at hs1 ⊢
            split at hs1 <;> exact init hs1
          | _ =>
            have := call_started d0 _ (by simp) hs1
            cases this
      | dropSocket =>
        simp only [Driver.act] at hx
        split at hx
        · cases hx; exact init hs1
        · cases hx
          by_cases hl : d0.cmdq.length < cmdCap
          · simp only [Driver.dropSocket, Driver.trySend, hl, if_true] at hs1 ⊢
            exact ⟨(init hs1).1, (init hs1).2.1, fun h => by cases h⟩
          · simp only [Driver.dropSocket, Driver.trySend, hl, if_false] at hs1 ⊢
            exact ⟨(init hs1).1, (init hs1).2.1, fun h => by cases h⟩

/-- C21: the driver started by a refused call does nothing. -/
theorem C21_start_is_harmless (L : Lossy) (D : Decompressors) (d : Driver A) (h : Reach L D d)
    (hs : d.started = false) (hc : d.closed = false) (e : Env A) :
    { d with started := true }.iter D e = .ok ({ d with started := true }, .pending) := by
  obtain ⟨h1, h2, h3⟩ := unstarted h hs
  have hp : ∀ (l : List A) (d : Driver A), d.pubs = [] → d.pollPublishers D l = .ok (d, false) := by
    intro l d hd
    induction l with
    | nil => rfl
    | cons a l ih =>
      have : d.pollPub D a = .ok (d, false) := by simp only [Driver.pollPub, hd, lookup]
      simp only [Driver.pollPublishers, this, R.bind_ok, ih, R.pure_eq]
      rfl
  unfold Driver.iter
  rw [hp e.order { d with started := true } h1]
  simp only [R.bind_ok, R.pure_eq, h3 hc, Bool.false_eq_true, if_false, Driver.joinStep, h2]
  cases e.join with
  | none => rfl
  | some x => rfl

/-- The hypotheses: topics with and without the prefix. -/
example : ['M', 'S', 'G'] <+: "MSG.SUB.x".toList ∧ ¬ ['M', 'S', 'G'] <+: "MS.G".toList ∧
    ¬ ['M', 'S', 'G'] <+: "msg".toList := by decide

/-! ## C31 -/

/-- C31 for the subscriber socket: with a token, every connection that was ever used was established by a
handshake in which the client sent its authentication message and the first two bytes the publisher sent were an
Ack. -/
theorem C31_subscriber_socket (L : Lossy) (D : Decompressors) (d : Driver A) (h : Reach L D d) (tok : Bytes)
    (ht : d.opts.token = some tok) (s : Session) (hs : s ∈ d.sessions) :
    ∃ wire lost pre a, hsClient tok s.via = .accepted tok wire s.input0 lost ∧ wire = Spec.authBytes tok ∧
      s.via.reads = pre ++ s.input0 ∧ a ≠ 0 ∧ dataOf pre = 1 :: a :: lost := by
  obtain ⟨u, hu⟩ := List.getElem?_of_mem hs
  obtain ⟨out, ho⟩ := h.inv.via u s hu
  cases out with
  | panicked => cases ho
  | failed => cases ho
  | connected hs =>
    simp only [taskResult, ht] at ho
    have hcl := C31_client_needs_ack tok hs
    cases hh : hsClient tok hs with
    | waiting w => rw [hh] at ho; cases ho
    | failed w => rw [hh] at ho; cases ho
    | panicked => rw [hh] at ho; cases ho
    | accepted id wire rest lost =>
      rw [hh] at ho hcl
      simp only at ho
      injection ho with ho; injection ho with ho; injection ho with ho
      rw [Prod.mk.injEq] at ho
      obtain ⟨e1, e2⟩ := ho
      obtain ⟨rfl, h2, pre, a, h3, h4, h5⟩ := hcl
      subst e1; subst e2
      exact ⟨wire, lost, pre, a, hh, h2, h3, h4, h5⟩

/-- C62 for the subscriber socket: with a token, if the publisher sends nothing but its Ack before it receives
the first subscription, the data codec of every connection reads exactly what the publisher sent after the Ack. -/
theorem C62_subscriber_socket (L : Lossy) (D : Decompressors) (d : Driver A) (h : Reach L D d) (tok : Bytes)
    (ht : d.opts.token = some tok) (s : Session) (hs : s ∈ d.sessions)
    (hfollow : ∀ pre, s.via.reads = pre ++ s.input0 → dataOf pre <+: [1, 1]) :
    dataOf s.via.reads = [1, 1] ++ dataOf s.input0 := by
  obtain ⟨wire, lost, -, -, h1, -⟩ := C31_subscriber_socket L D d h tok ht s hs
  exact (C62_client_switch tok s.via tok wire s.input0 lost h1 hfollow).2

/-- C62, without token: the data codec reads everything the connection delivers. -/
theorem C62_subscriber_socket_no_auth (L : Lossy) (D : Decompressors) (d : Driver A) (h : Reach L D d)
    (ht : d.opts.token = none) (s : Session) (hs : s ∈ d.sessions) : s.input0 = s.via.reads := by
  obtain ⟨u, hu⟩ := List.getElem?_of_mem hs
  obtain ⟨out, ho⟩ := h.inv.via u s hu
  cases out with
  | panicked => cases ho
  | failed => cases ho
  | connected hs =>
    simp only [taskResult, ht] at ho
    injection ho with ho; injection ho with ho; injection ho with ho
    rw [Prod.mk.injEq] at ho
    rw [← ho.1, ← ho.2]

/-- Such a socket, with a connection: its publisher answered the handshake with an Ack. -/
example : after { token := some [7] }
    [.call (.connect 5), .iter ⟨[], [], none⟩,
     .iter ⟨[5], [], some (0, .connected ⟨[.pending, .data [1, 1], .data (msgA 0 7)], [.ok 100, .ok 1], [.ok 1], []⟩)⟩] (fun d =>
      decide (d.opts.token = some [7]) && decide (d.sessions.map (·.input0) = [[.data (msgA 0 7)]])) = true := by decide +kernel

/-- With any other answer, none. -/
example : after { token := some [7] }
    [.call (.connect 5), .iter ⟨[], [], none⟩,
     .iter ⟨[5], [], some (0, .connected ⟨[.pending, .data [1, 0], .data (msgA 0 7)], [.ok 100, .ok 1], [.ok 1], []⟩)⟩] (fun d =>
      decide (d.tasks = []) && decide (d.sessions.length = 0)) = true := by decide +kernel

/-! ## C50 -/

/-- C50: each message the user received (or is about to) carries the address of the connection it came over, and
for each connection, the messages that came over it are, in order and without duplicates, among those read from
it. -/
theorem C50_attributed_in_order (L : Lossy) (D : Decompressors) (d : Driver A) (h : Reach L D d) :
    (∀ m ∈ d.received ++ d.inbox, d.addrs[m.conn]? = some m.source) ∧
    ∀ (u : Nat) (s : Session), d.sessions[u]? = some s →
      ((ofConn u (d.received ++ d.inbox)).map fun m => (m.topic, m.payload)).Sublist (s.got.filterMap (shown L D)) := by
  obtain ⟨rest, hr, -⟩ := h.inv.inbox
  constructor
  · intro m hm
    have : m ∈ d.fates.filterMap (inMsgOf D d.addrs) := by rw [hr]; exact List.mem_append_left _ hm
    obtain ⟨x, -, hx⟩ := List.mem_filterMap.1 this
    exact (inMsgOf_conn hx).2.1
  · intro u s hu
    have h1 := delivered_sublist (D := D) d.addrs u d.fates
    rw [hr] at h1
    have h2 : ((ofConn u (d.received ++ d.inbox)).map fun m => (m.topic, m.payload)).Sublist
        ((ofConn u (d.received ++ d.inbox ++ rest)).map fun m => (m.topic, m.payload)) := by
      simp only [ofConn, List.filter_append, List.map_append]
      exact List.sublist_append_left _ _
    refine h2.trans (h1.trans ?_)
    have h3 : (takenFrom d.fates u).Sublist (s.got.map (TopicMsg.ofWire L)) := by
      refine List.Sublist.trans ?_ (h.inv.sess u s hu).fwd
      rw [h.inv.fate u s hu]
      exact List.sublist_append_left _ _
    have h4 := h3.filterMap (shownT D)
    rw [List.filterMap_map] at h4
    exact h4

/-- C50, what is dropped: as long as the socket is not dropped, a message taken from a connection is appended
to what the user will receive if the ingress buffer has room, and otherwise this newest message is the one that is dropped. -/
theorem C50_newest_dropped (L : Lossy) (D : Decompressors) (d : Driver A) (h : Reach L D d) (hc : d.closed = false)
    (a : A) (u : Nat) (s : Session) (ha : d.Active a u) (hs : d.sessions[u]? = some s) (t : TopicMsg)
    (ts : List TopicMsg) (ht : s.toDriver = t :: ts) (p : Bytes) (hp : tryDecompress D t.ctype t.payload = some p) :
    ∃ d', d.pollPub D a = .ok (d', true) ∧ d'.sessions[u]? = some { s with toDriver := ts } ∧
      d'.received = d.received ∧
      (d.inbox.length < d.opts.ingress → d'.inbox = d.inbox ++ [⟨a, t.topic, p, u⟩]) ∧
      (¬ d.inbox.length < d.opts.ingress → d.inbox.length = d.opts.ingress ∧ d'.inbox = d.inbox) := by
  have hcap := h.inv.cap
  have hset : (d.sessions.set u { s with toDriver := ts })[u]? = some { s with toDriver := ts } := by
    simp [(List.getElem?_eq_some_iff.1 hs).1]
  by_cases hl : d.inbox.length < d.opts.ingress
  · refine ⟨_, by simp only [Driver.pollPub, show lookup a d.pubs = some (.active u) from ha, hs, Session.driverRecv, ht, hp]; rfl, ?_, ?_, ?_, ?_⟩
    · simp only [Driver.deliver, hc, hl, if_true, Bool.false_eq_true, if_false]; exact hset
    · simp [Driver.deliver, hc, hl]
    · intro _; simp [Driver.deliver, hc, hl]
    · intro hx; exact absurd hl hx
  · refine ⟨_, by simp only [Driver.pollPub, show lookup a d.pubs = some (.active u) from ha, hs, Session.driverRecv, ht, hp]; rfl, ?_, ?_, ?_, ?_⟩
    · simp only [Driver.deliver, hc, hl, Bool.false_eq_true, if_false]; exact hset
    · simp [Driver.deliver, hc, hl]
    · intro hx; exact absurd hx hl
    · intro _; exact ⟨by omega, by simp [Driver.deliver, hc, hl]⟩

/-- C50: what was delivered stays so: along any history, until the socket is dropped, `received ++ inbox` is only
appended to, and the address of a connection does not change. -/
theorem C50_only_appended (L : Lossy) (D : Decompressors) (d e : Driver A) (acts : List (Act A))
    (hr : d.run L D acts = .ok e) (hc : e.closed = false) :
    d.received ++ d.inbox <+: e.received ++ e.inbox ∧ d.received <+: e.received ∧ d.addrs <+: e.addrs := by
  obtain ⟨h1, h2, h3, -⟩ := (run_steps acts d e hr).grow
  exact ⟨h3 hc, h2, h1⟩

/-- C50, nothing else is lost: if no message of the connection was dropped for lack of room (in the connection's
channel: `drops`; in the ingress buffer: fate `full`), every message read from it whose payload can be
decompressed was delivered, in order, once the driver has taken them all. -/
theorem C50_complete (L : Lossy) (D : Decompressors) (d : Driver A) (h : Reach L D d) (hc : d.closed = false)
    (u : Nat) (s : Session) (hs : d.sessions[u]? = some s) (hdrop : s.drops = 0) (htaken : s.toDriver = [])
    (hfull : ∀ x ∈ d.fates, x.1 = u → x.2.2 ≠ .full ∧ x.2.2 ≠ .gone) :
    ((ofConn u (d.received ++ d.inbox)).map fun m => (m.topic, m.payload)) = s.got.filterMap (shown L D) := by
  obtain ⟨rest, hr, hrest⟩ := h.inv.inbox
  rw [hrest hc, List.append_nil] at hr
  have hi := h.inv.sess u s hs
  have hfwd : s.fwd = s.got.map (TopicMsg.ofWire L) := by
    refine hi.fwd.eq_of_length ?_
    have := hi.drops
    rw [hdrop] at this
    simpa using this
  have htk : takenFrom d.fates u = s.got.map (TopicMsg.ofWire L) := by
    have := h.inv.fate u s hs
    rw [htaken, List.append_nil] at this
    rw [← this, hfwd]
  have hlt : u < d.addrs.length := by rw [h.inv.len]; exact (List.getElem?_eq_some_iff.1 hs).1
  have := delivered_eq (D := D) d.addrs u d.addrs[u] (List.getElem?_eq_getElem hlt) d.fates (by
    intro x hx hxu
    obtain ⟨g1, g2⟩ := hfull x hx hxu
    cases hf : x.2.2 with
    | delivered => exact .inl rfl
    | undecodable => exact .inr rfl
    | full => exact absurd hf g1
    | gone => exact absurd hf g2) h.undecodable
  rw [hr, htk, List.filterMap_map] at this
  exact this

/-- Two publishers; the messages of both arrive interleaved, each with its source. -/
def twoPubs : List (Act Nat) :=
  [.call (.connect 5), .call (.connect 6), .iter ⟨[], [], none⟩, .iter ⟨[], [], none⟩,
   .iter ⟨[], [], conn [.data (msgA 0 7 ++ msgA 0 8)]⟩, .iter ⟨[], [], conn [.data (msgA 0 9), .data (msgA 3 10)]⟩,
   .session 0 {}, .iter ⟨[5, 6], [], none⟩, .session 1 {}, .iter ⟨[6, 5], [], none⟩, .session 0 {}, .session 1 {}, .iter ⟨[5, 6], [], none⟩]

example : after {} twoPubs (fun d => decide (d.inbox.map (fun m => (m.source, m.payload, m.conn)) = [(5, [7], 0), (6, [9], 1), (5, [8], 0)]) &&
    decide (d.sessions.map (fun s => (s.got.length, s.drops, s.toDriver.length)) = [(2, 0, 0), (2, 0, 0)])) = true := by decide +kernel

/-- With an ingress buffer of two messages the newest is dropped. -/
example : after { ingress := 2 } twoPubs (fun d => decide (d.inbox.map (fun m => (m.source, m.payload)) = [(5, [7]), (6, [9])]) &&
    decide (d.fates.map (fun x => (x.1, x.2.2)) = [(0, .delivered), (1, .delivered), (0, .full), (1, .undecodable)])) = true := by decide +kernel

/-! ## C51 -/

/-- C51: at any time there is at most one connection attempt per endpoint, and none to a connected endpoint. -/
theorem C51_one_attempt (L : Lossy) (D : Decompressors) (d : Driver A) (h : Reach L D d) :
    d.tasks.Nodup ∧ ∀ a ∈ d.tasks, ∀ u, ¬ d.Active a u :=
  ⟨h.inv.tasks, fun a ha u hu => h.inv.free a u hu (h.inv.tasksKeys a ha)⟩

/-- C51: an attempt that returns is removed and frees its slot: a new attempt to the same endpoint can start. If
it succeeded the connection made is tagged with its endpoint. -/
theorem C51_finished_frees (L : Lossy) (D : Decompressors) (d : Driver A) (h : Reach L D d) (i : Nat) (a : A)
    (hi : d.tasks[i]? = some a) (e : Env A) (out : TaskOut) (he : e.join = some (i, out))
    (r : Option (HsEnv × List ReadAns)) (hr : taskResult d.opts.token out = .ok (some r)) :
    ∃ d', d.joinStep e = (d', .again) ∧ a ∉ d'.tasks ∧ a ∉ d'.keys ∧ a ∈ (d'.connect a).tasks ∧
      (∀ b, b ≠ a → (b ∈ d'.tasks ↔ b ∈ d.tasks)) ∧
      (r.isSome → d'.Active a d.sessions.length ∧ d'.addrs = d.addrs ++ [a]) := by
  have hconn : ∀ d' : Driver A, a ∉ d'.keys → a ∈ (d'.connect a).tasks := by
    intro d' hk
    simp [Driver.connect, hk]
  have hmem : ∀ b, b ≠ a → (b ∈ d.tasks.eraseIdx i ↔ b ∈ d.tasks) := by
    intro b hb
    refine ⟨List.mem_of_mem_eraseIdx, fun hm => ?_⟩
    obtain ⟨j, hj⟩ := List.getElem?_of_mem hm
    refine List.mem_eraseIdx_iff_getElem?.2 ⟨j, ?_, hj⟩
    rintro rfl
    rw [hi] at hj; cases hj; exact hb rfl
  cases r with
  | none =>
    refine ⟨{ d with tasks := d.tasks.eraseIdx i, keys := d.keys.filter (· ≠ a) },
      by simp only [Driver.joinStep, he, hi, hr], not_mem_eraseIdx h.inv.tasks hi, by simp, ?_, hmem, by simp⟩
    exact hconn _ (by simp)
  | some x =>
    obtain ⟨via, input⟩ := x
    obtain ⟨-, -, h3, h4, -⟩ := onConnection_same { d with tasks := d.tasks.eraseIdx i, keys := d.keys.filter (· ≠ a) } e.topicOrder a via input
    refine ⟨_, by simp only [Driver.joinStep, he, hi, hr]; rfl, ?_, ?_, ?_, ?_, ?_⟩
    · rw [h4]; exact not_mem_eraseIdx h.inv.tasks hi
    · rw [h3]; simp
    · exact hconn _ (by rw [h3]; simp)
    · rw [h4]; exact hmem
    · intro _
      have hna : ∀ u, lookup a d.pubs ≠ some (.active u) := fun u hu =>
        h.inv.free a u hu (h.inv.tasksKeys a (List.mem_of_getElem? hi))
      unfold Driver.onConnection Driver.Active
      simp only
      exact ⟨lookup_insert_self _ _ _, trivial⟩

/-- Two attempts in progress; the second returns (it failed), so a new one can start. -/
example : after {} [.call (.connect 5), .call (.connect 6), .iter ⟨[], [], none⟩, .iter ⟨[], [], none⟩]
      (fun d => decide (d.tasks = [5, 6]) && decide (d.keys = [5, 6])) = true ∧
    taskResult none .failed = .ok (some none) ∧
    after {} [.call (.connect 5), .call (.connect 6), .iter ⟨[], [], none⟩, .iter ⟨[], [], none⟩, .iter ⟨[], [], some (1, .failed)⟩]
      (fun d => decide (d.tasks = [5]) && decide (d.keys = [5])) = true := by decide +kernel

/-! ## C55 -/

/-- C55: a connect command for an endpoint that is known (connected, being connected to or waiting for a retry)
does nothing; so the second of two connects in a row does nothing. -/
theorem C55_connect_idempotent (d : Driver A) (a : A) :
    ((lookup a d.pubs).isSome → d.onCommand (.connect a) = d) ∧
    (d.onCommand (.connect a)).onCommand (.connect a) = d.onCommand (.connect a) := by
  have hk : ∀ d : Driver A, (lookup a d.pubs).isSome → d.onCommand (.connect a) = d := by
    intro d hd; simp only [Driver.onCommand, hd, if_true]
  refine ⟨hk d, hk _ ?_⟩
  cases hl : (lookup a d.pubs).isSome with
  | true => rw [hk d hl]; exact hl
  | false =>
    simp only [Driver.onCommand, hl, Bool.false_eq_true, if_false]
    rw [reset_eq]
    simp [lookup_insert_self]

/-- C55: at any time the driver listens to at most one connection per endpoint. -/
theorem C55_one_connection (L : Lossy) (D : Decompressors) (d : Driver A) (h : Reach L D d) (u v : Nat)
    (s t : Session) (hs : d.sessions[u]? = some s) (ht : d.sessions[v]? = some t)
    (has : s.alive = true) (hat : t.alive = true) (hsame : d.addrs[u]? = d.addrs[v]?) : u = v := by
  obtain ⟨a, ha⟩ := h.inv.alive u s hs has
  obtain ⟨b, hb⟩ := h.inv.alive v t ht hat
  rw [(h.inv.act a u ha).1, (h.inv.act b v hb).1] at hsame
  cases hsame
  rw [ha] at hb
  cases hb
  rfl

/-- Connecting twice: one attempt, one connection. -/
example : after {} [.call (.connect 5), .call (.connect 5), .iter ⟨[], [], none⟩, .iter ⟨[], [], none⟩,
      .iter ⟨[], [], conn []⟩, .call (.connect 5), .iter ⟨[5], [], none⟩, .iter ⟨[5], [], conn []⟩]
      (fun d => decide (d.pubs = [(5, .active 0)]) && decide (d.sessions.length = 1) && decide (d.cmdq = []) &&
        decide (d.processed = [.connect 5, .connect 5, .connect 5])) = true := by decide +kernel

/-! ## C48 -/

/-- C48 (partial): for an endpoint whose IP is specified, `connect` and `disconnect` send commands about the same
address, and once a disconnect command was handled the endpoint is not known any more. Missing: unspecified IPs (`C48_unspecified_refuted`). -/
theorem C48_specified_partial (d : Driver SockAddr) (a : SockAddr) (as : List SockAddr) (ha : a.unspecified = false) :
    d.connectTo (some (a :: as)) = d.connectAsync a ∧ d.disconnectFrom (some (a :: as)) = d.disconnectAsync a ∧
    d.tryConnectTo (some a) = d.tryConnect a ∧ d.tryDisconnectFrom (some a) = d.tryDisconnect a ∧
    lookup a (d.onCommand (.disconnect a)).pubs = none := by
  have hd : a.dialable = a := by
    cases a with
    | v4 ip p => simp only [SockAddr.unspecified, decide_eq_false_iff_not] at ha; simp [SockAddr.dialable, ha]
    | v6 ip p f s =>
      simp only [SockAddr.unspecified, decide_eq_false_iff_not] at ha
      simp only [SockAddr.dialable, if_neg ha]
  refine ⟨by simp [Driver.connectTo, hd], rfl, by simp [Driver.tryConnectTo, hd], rfl, ?_⟩
  simp only [Driver.onCommand]
  split
  · exact lookup_erase_self _ _
  · rename_i hn; simpa using hn

/-- C48 (refuted as stated): for every endpoint with an unspecified IP, `disconnect` names another address than
`connect` did, so the endpoint stays known: the driver goes on connecting to it. -/
theorem C48_unspecified_refuted (d : Driver SockAddr) (a : SockAddr) (ha : a.unspecified = true) :
    (d.connectTo (some [a])) = d.connectAsync a.dialable ∧ (d.disconnectFrom (some [a])) = d.disconnectAsync a ∧
    a.dialable ≠ a ∧
    (lookup a.dialable ((d.onCommand (.connect a.dialable)).onCommand (.disconnect a)).pubs).isSome := by
  have hne : a.dialable ≠ a := by
    cases a with
    | v4 ip p =>
      simp only [SockAddr.unspecified, decide_eq_true_eq] at ha
      subst ha
      simp only [SockAddr.dialable, if_true, ne_eq, SockAddr.v4.injEq, and_true]
      decide
    | v6 ip p f s =>
      simp only [SockAddr.unspecified, decide_eq_true_eq] at ha
      simp [SockAddr.dialable, ha]
  refine ⟨rfl, rfl, hne, ?_⟩
  have hk : (lookup a.dialable (d.onCommand (.connect a.dialable)).pubs).isSome := by
    cases hl : (lookup a.dialable d.pubs).isSome with
    | true => simp only [Driver.onCommand, hl, if_true]
    | false =>
      simp only [Driver.onCommand, hl, Bool.false_eq_true, if_false]
      rw [reset_eq]
      simp [lookup_insert_self]
  generalize d.onCommand (.connect a.dialable) = d1 at *
  simp only [Driver.onCommand]
  split
  · rw [hangUp_eq]
    simp only [lookup_erase_ne hne]
    exact hk
  · exact hk

/-- Such an endpoint: `0.0.0.0:4000`. -/
example : (SockAddr.v4 0 4000).unspecified = true ∧ (SockAddr.v4 0 4000).dialable = .v4 0x7F000001 4000 ∧
    (SockAddr.v4 0x0A000001 4000).unspecified = false := by decide

/-! ## C49 -/

/-- C49 (refuted as stated), in general: whatever the connection does (in particular if the peer closes it or
reading fails), as long as the user does not disconnect from the endpoint and uses no topic of more than 65525 bytes,
an established connection remains the one of its endpoint, and no attempt to reconnect is ever made. -/
theorem C49_never_reconnects_refuted (L : Lossy) (D : Decompressors) (d e : Driver A) (h : Reach L D d) (a : A) (u : Nat)
    (s : Session) (ha : d.Active a u) (hs : d.sessions[u]? = some s) (ho : s.over = false)
    (acts : List (Act A)) (hr : d.run L D acts = .ok e)
    (hdis : ∀ new, e.processed ++ e.cmdq = d.processed ++ new → .disconnect a ∉ new)
    (hshort : ∀ c ∈ e.processed ++ e.cmdq, c.short 65525) : e.Active a u ∧ a ∉ e.tasks := by
  have := live_steps h.inv h.topics (run_steps acts d e hr) ⟨ha, s, hs, ho⟩ hdis hshort
  refine ⟨this.1, fun hm => ?_⟩
  exact (C51_one_attempt L D e (h.run hr)).2 a hm u this.1

/-- The publisher closes the connection right away; days later the driver still waits for it. -/
example : after {} [.call (.connect 5), .iter ⟨[], [], none⟩, .iter ⟨[5], [], conn [.data []]⟩, .iter ⟨[5], [], none⟩,
      .session 0 {}, .session 0 {}, .iter ⟨[5], [], none⟩, .advance 1000000000000000, .iter ⟨[5], [], none⟩]
      (fun d => decide (d.pubs = [(5, .active 0)]) && decide (d.tasks = []) && decide (d.processed = [.connect 5]) &&
        decide (d.sessions.map (fun s => (s.over, s.rd.eof, s.input)) = [(false, true, [])])) = true := by decide +kernel

/-! ## C54 -/

/-- C54 (refuted as stated), in general: after the socket is dropped, every connection stays, whatever happens,
unless the user had disconnected from its endpoint before (the command may still be waiting). -/
theorem C54_drop_keeps_connections_refuted (L : Lossy) (D : Decompressors) (d e : Driver A) (h : Reach L D d)
    (hc : d.closed = true) (a : A) (u : Nat) (s : Session) (ha : d.Active a u) (hs : d.sessions[u]? = some s)
    (ho : s.over = false) (hq : .disconnect a ∉ d.cmdq) (hshort : ∀ c ∈ d.processed ++ d.cmdq, c.short 65525)
    (acts : List (Act A)) (hr : d.run L D acts = .ok e) :
    e.Active a u ∧ ∃ s', e.sessions[u]? = some s' ∧ s'.over = false := by
  have hst := run_steps acts d e hr
  have hlog := (hst.log.2.2 hc).1
  refine live_steps h.inv h.topics hst ⟨ha, s, hs, ho⟩ ?_ ?_
  · intro new hn
    rw [hlog] at hn
    have : new = d.cmdq := (List.append_cancel_left hn).symm
    subst this
    exact hq
  · rw [hlog]; exact hshort

/-- A dropped socket with a connection, the shutdown command handled. -/
example : after {} [.call (.connect 5), .iter ⟨[], [], none⟩, .iter ⟨[5], [], conn []⟩, .dropSocket, .iter ⟨[5], [], none⟩]
      (fun d => decide (d.closed = true) && decide (d.cmdq = []) && decide (d.pubs = [(5, .active 0)]) &&
        decide (d.processed = [.connect 5, .shutdown]) && decide (d.sessions.map (·.over) = [false])) = true := by decide +kernel

/-! ## C47 -/

/-- C47 (partial): when the driver has handled a disconnect command for `a` and no connection attempt to `a` is
registered, then until it handles another connect command for `a` it makes no attempt, has no connection, and
the user gets no message from `a` but those that were already delivered. Missing: the case of an attempt in progress, for which it
is false (`C47_pending_attempt_refuted`). -/
theorem C47_disconnected_partial (L : Lossy) (D : Decompressors) (d e : Driver A) (h : Reach L D d) (a : A)
    (hk : a ∉ d.keys) (acts : List (Act A)) (hr : (d.onCommand (.disconnect a)).run L D acts = .ok e)
    (hcon : ∀ new, e.processed ++ e.cmdq = d.processed ++ new → .connect a ∉ new) :
    a ∉ e.tasks ∧ (∀ u, ¬ e.Active a u) ∧
    (e.received ++ e.inbox).filter (fun m => decide (m.source = a)) <+:
      (d.received ++ d.inbox).filter (fun m => decide (m.source = a)) := by
  have hu : (d.onCommand (.disconnect a)).Unknown a := by
    simp only [Driver.onCommand]
    split
    · rw [hangUp_eq]; exact ⟨lookup_erase_self _ _, hk⟩
    · rename_i hn; exact ⟨by simpa using hn, hk⟩
  obtain ⟨h1, -, -, h4, h5, -⟩ := onCommand_same d (.disconnect a)
  have hi := h.inv.command (.disconnect a)
  have hst := run_steps acts _ e hr
  obtain ⟨⟨g1, g2⟩, g3⟩ := unknown_steps hi hst hu (by
    intro new hn
    rw [h1] at hn
    exact hcon new hn)
  rw [h4, h5] at g3
  refine ⟨fun hm => g2 ((hi.steps hst).tasksKeys a hm), fun u hu => ?_, g3⟩
  unfold Driver.Active at hu
  rw [g1] at hu
  cases hu

/-- Such a state: connected, no attempt registered; after the disconnect nothing more is delivered, though the
connection had a message. -/
example : after {} [.call (.connect 5), .iter ⟨[], [], none⟩, .iter ⟨[5], [], conn [.data (msgA 0 7), .data (msgA 0 8)]⟩,
      .session 0 {}, .iter ⟨[5], [], none⟩]
      (fun d => decide (d.keys = []) && decide (d.pubs = [(5, .active 0)]) && decide (d.inbox.map (·.payload) = [[7]])) = true ∧
    after {} [.call (.connect 5), .iter ⟨[], [], none⟩, .iter ⟨[5], [], conn [.data (msgA 0 7), .data (msgA 0 8)]⟩,
      .session 0 {}, .iter ⟨[5], [], none⟩, .call (.disconnect 5), .iter ⟨[5], [], none⟩, .session 0 {}, .session 0 {}, .iter ⟨[5], [], none⟩]
      (fun d => decide (d.pubs = []) && decide (d.inbox.map (·.payload) = [[7]]) && decide (d.sessions.map (·.over) = [true])) = true := by
  decide +kernel

end MsgRs.Props
