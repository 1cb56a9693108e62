import Verif.Props.SubCalls
/-!
# C106: calls and a busy connection
-/
namespace MsgRs.Props
open MsgRs Spec

/-! ## The request socket -/

/-- The background task of a request socket with a connection that will answer reads with `L`. One call was sent and waits for its answer, another was not received yet. -/
structure ReqBusy (L : List ReadAns) (q : List (Nat × Bytes)) (p : List Req.Pending) (s : Req.State) : Prop where
  up : s.ended = false ∧ s.connTask = false ∧ s.flushIv = none
  calls : s.queue = q ∧ s.pending = p ∧ s.done = [] ∧ s.egress = []
  conn : ∃ c, s.conn = .active c ∧ c.input = L ∧ ∃ b, c.rd = { st := .header, readable := b }

theorem reqBusy_step (D : Decompressors) {k : Nat} {q p} {s : Req.State} (h : ReqBusy (List.replicate (k + 1) (.data (reqBytes 7 []))) q p s) (hp : ∀ x ∈ p, x.id ≠ 7) (dt : Nat) :
    ∃ s' c c', s.run D [.advance dt, .iter {}] = .ok s' ∧ ReqBusy (List.replicate k (.data (reqBytes 7 []))) q p s' ∧ s'.now = s.now + dt ∧ s'.calls = s.calls ∧ s'.past = s.past ∧ s.conn = .active c ∧ s'.conn = .active c' ∧
      c'.got.length = c.got.length + 1 ∧ c'.sent = c.sent := by
  obtain ⟨⟨h1, h2, h3⟩, ⟨h5, h6, h7, h8⟩, c, c1, c2, b, c3⟩ := h
  let s1 : Req.State := { s with now := s.now + dt }
  have hfl : s1.flushStep {} = s1 := by
    unfold Req.State.flushStep Req.State.wantFlush
    have e1 : s1.flushIv = none := h3
    have e2 : s1.conn = .active c := c1
    have hw : c.wr.flush ({} : Req.Env).flushAns = (.pending, c.wr) := rfl
    by_cases hs : s1.shouldFlush = true
    · rw [if_pos hs, e1]
      simp only
      rw [e2]
      simp only [hw]
      rw [← e2]
    · rw [if_neg hs, e1]
      simp only [Option.map_none]
      rw [← e1]
  have htask : s1.taskStep {} = .ok s1 := by
    unfold Req.State.taskStep
    rw [if_neg (by show ¬ s.connTask = true; rw [h2]; simp)]
  have hr : c.rd.pollNext ReqRep.codec c.input = .ok (.item (ReqRep.Message.new 7 0 []), { st := .header, readable := true }, List.replicate k (.data (reqBytes 7 []))) := by
    rw [c2, c3, List.replicate_succ]
    cases b <;> cases (List.replicate k (ReadAns.data (reqBytes 7 []))) <;> rfl
  let c' : Req.Chan := { c with rd := { st := .header, readable := true }, input := List.replicate k (.data (reqBytes 7 [])), polls := c.polls + 1, got := c.got ++ [ReqRep.Message.new 7 0 []] }
  have hfind : p.find? (fun x => decide (x.id = (ReqRep.Message.new 7 0 []).header.id)) = none := by
    rw [List.find?_eq_none]
    intro x hx
    have := hp x hx
    show ¬ (decide (x.id = (7 : UInt32)) = true)
    rw [decide_eq_true_eq]
    exact this
  have a2 : s1.act D (.iter {}) = .ok { s1 with conn := .active c' } := by
    simp only [Req.State.act]
    rw [if_neg (by show ¬ s.ended = true; rw [h1]; simp)]
    unfold Req.State.iter
    rw [hfl, htask, R.bind_ok]
    have e2 : s1.conn = .active c := c1
    rw [e2]
    simp only
    rw [hr]
    simp only [R.bind_ok, R.pure_eq]
    unfold Req.State.onMessage
    have e3 : s1.pending = p := h6
    simp only [e3]
    rw [hfind]
  have hrun : s.run D [.advance dt, .iter {}] = .ok { s1 with conn := .active c' } := by
    show (s1.act D (.iter {})).bind _ = _
    rw [a2]
    rfl
  refine ⟨_, c, c', hrun, ⟨⟨h1, h2, h3⟩, ⟨h5, h6, h7, h8⟩, c', rfl, rfl, true, rfl⟩, rfl, rfl, rfl, c1, rfl, ?_, rfl⟩
  simp [c']

theorem reqBusy_many (D : Decompressors) (dt : Nat) {q p} (hp : ∀ x ∈ p, x.id ≠ 7) : ∀ (k : Nat) (s : Req.State) (c : Req.Chan), ReqBusy (List.replicate k (.data (reqBytes 7 []))) q p s → s.conn = .active c →
    ∃ acts s' c', s.run D acts = .ok s' ∧ ReqBusy [] q p s' ∧ s'.now = s.now + k * dt ∧ s'.calls = s.calls ∧ s'.past = s.past ∧ s'.conn = .active c' ∧
      c'.got.length = c.got.length + k ∧ c'.sent = c.sent := by
  intro k
  induction k with
  | zero => intro s c h hc; exact ⟨[], s, c, rfl, h, by omega, rfl, rfl, hc, rfl, rfl⟩
  | succ k ih =>
    intro s c h hc
    obtain ⟨s1, c1, c2, g1, g2, g3, g4, g5', g5, g6, g7, g8⟩ := reqBusy_step D h hp dt
    rw [hc] at g5
    cases g5
    obtain ⟨acts, s', c', k1, k2, k3, k4, k4', k5, k6, k7⟩ := ih s1 c2 g2 g6
    refine ⟨[.advance dt, .iter {}] ++ acts, s', c', by rw [Req.run_append, g1]; exact k1, k2, ?_, k4.trans g4, k4'.trans g5', k5, by omega, k7.trans g8⟩
    rw [k3, g3, Nat.succ_mul]
    omega

/-- C106 fails for a request socket: as long as the server goes on sending (answers nobody asked for, say), the background task neither takes new calls nor looks at the clock. For all `n` and `dt`
there is a history in which one call was sent and a second one made, then `n` messages of the server were handled and `n * dt` nanoseconds passed, and still neither was the second call taken
nor the first one answered or timed out. -/
theorem C106_refuted_requester (D : Decompressors) (n dt : Nat) : ∃ (s : Req.State) (c : Req.Chan), ReqReach D {} none s ∧ s.ended = false ∧ s.conn = .active c ∧ c.got.length = n + 1 ∧
    s.calls = [⟨[1], 20000000⟩, ⟨[2], 40000000⟩] ∧ s.now = 40000000 + n * dt ∧ s.done = [] ∧ s.pending = [⟨0, 0, 20000000⟩] ∧ s.queue = [(1, [2])] ∧ s.past.map (·.sent.map (·.1)) = [[0]] := by
  obtain ⟨s0, s, h0, h1, h2, h3, h4, h5, h6⟩ : ∃ s0 s, Req.State.new {} none 0 = .ok s0 ∧
      s0.run D [.iter {}, .advance 20000000, .iter {}, .request [1], .iter { task := some (some ⟨[.pending, .pending, .pending, .err], [], [], []⟩) }, .iter {},
        .iter { flushAns := [.ok 12, .ok 1] }, .iter {}, .iter {}, .advance 20000000, .iter {}, .request [2], .iter { task := some (some ⟨.data (reqBytes 7 []) :: List.replicate n (.data (reqBytes 7 [])), [], [], []⟩) }] = .ok s ∧
      ReqBusy (List.replicate n (.data (reqBytes 7 []))) [(1, [2])] [⟨0, 0, 20000000⟩] s ∧ s.now = 40000000 ∧ s.calls = [⟨[1], 20000000⟩, ⟨[2], 40000000⟩] ∧
      (∃ c, s.conn = .active c ∧ c.got.length = 1) ∧ s.past.map (·.sent.map (·.1)) = [[0]] := by
    generalize List.replicate n (ReadAns.data (reqBytes 7 [])) = L
    cases L <;> exact ⟨_, _, rfl, rfl, ⟨⟨rfl, rfl, rfl⟩, ⟨rfl, rfl, rfl, rfl⟩, _, rfl, rfl, _, rfl⟩, rfl, rfl, ⟨_, rfl, rfl⟩, rfl⟩
  obtain ⟨c, c1, c2⟩ := h5
  obtain ⟨acts, s', c', k1, k2, k3, k4, k4', k5, k6, k7⟩ := reqBusy_many D dt (by intro x hx; simp only [List.mem_singleton] at hx; subst hx; decide) n s c h2 c1
  exact ⟨s', c', ⟨0, s0, _ ++ acts, h0, by rw [Req.run_append, h1]; exact k1⟩, k2.up.1, k5, by rw [k6, c2]; omega, by rw [k4, h4], by rw [k3, h3], k2.calls.2.2.1, k2.calls.2.1, k2.calls.1,
    by rw [k4', h6]⟩

/-! ## The subscriber -/

/-- A subscriber with one publisher that will answer reads with `L`; the user's `q` waits for the background task and `cs` for the connection's task. -/
structure SubBusy (L : List ReadAns) (q : List (Sub.Command Nat)) (cs : List Sub.Cmd) (n : Nat) (d : Sub.Driver Nat) : Prop where
  up : d.started = true ∧ d.closed = false ∧ d.inbox = [] ∧ 0 < d.opts.ingress
  waiting : d.cmdq = q ∧ d.received.length = n ∧ d.pubs = [(5, .active 0)] ∧ d.processed = [.connect 5, .subscribe ['b']]
  sess : ∃ s b, d.sessions = [s] ∧ s.input = L ∧ s.rd = { st := .header, readable := b } ∧ s.over = false ∧ s.alive = true ∧ s.toDriver = [] ∧ s.cmds = cs ∧ s.sent = [] ∧ s.egress = [] ∧ s.handled = []

theorem subBusy_step (Lo : Lossy) (D : Decompressors) {k n : Nat} {q cs} {d : Sub.Driver Nat} (h : SubBusy (List.replicate (k + 1) (.data (msgA 0 1))) q cs n d) :
    ∃ d', d.run Lo D [.session 0 {}, .iter ⟨[5], [], none⟩, .call .recv] = .ok d' ∧ SubBusy (List.replicate k (.data (msgA 0 1))) q cs (n + 1) d' := by
  obtain ⟨⟨h1, h2, h3, h4⟩, ⟨h5, h6, h7, h8⟩, s, b, s1, s2, s3, s4, s5, s6, s7, s8, s9, s10⟩ := h
  let m : PubSub.Message := ⟨⟨0, 1, [97], 0, 0, 1⟩, [1]⟩
  have hr : s.rd.pollNext PubSub.codec s.input = .ok (.item m, { st := .header, readable := true }, List.replicate k (.data (msgA 0 1))) := by
    rw [s2, s3, List.replicate_succ]
    cases b <;> cases (List.replicate k (ReadAns.data (msgA 0 1))) <;> rfl
  have hfl : s.flushStep {} = s := by
    unfold Sub.Session.flushStep
    split
    · have hw : s.wr.flush ({} : Sub.SEnv).flushAns = (.pending, s.wr) := rfl
      rw [hw]
    · rfl
  let t : Sub.TopicMsg := Sub.TopicMsg.ofWire Lo m
  obtain ⟨s', e1, f1, f2, f3, f4, f5, f6, f7, f8, f9⟩ : ∃ s', s.step Lo {} = s' ∧ s'.input = List.replicate k (.data (msgA 0 1)) ∧ s'.rd = { st := .header, readable := true } ∧ s'.over = false ∧
      s'.alive = true ∧ s'.toDriver = [t] ∧ s'.cmds = cs ∧ s'.sent = [] ∧ s'.egress = [] ∧ s'.handled = [] := by
    refine ⟨_, rfl, ?_⟩
    have : s.iter Lo {} = .ok (({ s with rd := { st := .header, readable := true }, input := List.replicate k (.data (msgA 0 1)), polls := s.polls + 1 } : Sub.Session).onIncoming Lo m 0, .again) := by
      unfold Sub.Session.iter
      rw [hfl]
      simp only
      rw [hr]
      rfl
    unfold Sub.Session.step
    rw [if_neg (by rw [s4]; simp), this]
    simp only
    unfold Sub.Session.onIncoming
    simp only
    rw [if_pos ⟨s5, by rw [s6]; decide⟩]
    simp only [s6, s7, s8, s9, s10, s4, s5, List.nil_append, true_and, and_true]
    rfl
  have a1 : d.act Lo D (.session 0 {}) = .ok { d with sessions := [s'], woken := d.woken || (s.armed && !s'.armed) } := by
    simp only [Sub.Driver.act, s1, List.getElem?_cons_zero, e1, List.set]
  let d1 : Sub.Driver Nat := { d with sessions := [s'], woken := d.woken || (s.armed && !s'.armed) }
  have hdec : tryDecompress D t.ctype t.payload = some [1] := rfl
  let im : Sub.InMsg Nat := { source := 5, topic := t.topic, payload := [1], conn := 0 }
  let d2 : Sub.Driver Nat := { d1 with sessions := [{ s' with toDriver := [] }], inbox := [im], fates := d1.fates ++ [(0, t, .delivered)] }
  have hpoll : d1.pollPub D 5 = .ok (d2, true) := by
    unfold Sub.Driver.pollPub
    have e : Sub.lookup 5 d1.pubs = some (.active 0) := by show Sub.lookup 5 d.pubs = _; rw [h7]; rfl
    rw [e]
    simp only [d1, List.getElem?_cons_zero, Sub.Session.driverRecv, f5, hdec]
    unfold Sub.Driver.deliver
    simp only
    rw [if_neg (by rw [h2]; simp), if_pos (by rw [h3]; exact h4)]
    simp only [h3, List.nil_append, List.set, d2, d1, im]
  have a2 : d1.act Lo D (.iter ⟨[5], [], none⟩) = .ok { d2 with woken := true } := by
    simp only [Sub.Driver.act]
    rw [if_pos (by exact h1)]
    unfold Sub.Driver.iter Sub.Driver.pollPublishers
    simp only
    rw [hpoll]
    rfl
  have a3 : ({ d2 with woken := true } : Sub.Driver Nat).act Lo D (.call .recv) = .ok { d2 with woken := true, inbox := [], received := d.received ++ [im] } := by
    simp only [Sub.Driver.act]
    rw [if_neg (by show ¬ d.closed = true; rw [h2]; simp)]
    rfl
  refine ⟨{ d2 with woken := true, inbox := [], received := d.received ++ [im] }, ?_, ⟨h1, h2, rfl, h4⟩, ⟨h5, by simp [h6], h7, h8⟩, { s' with toDriver := [] }, true, rfl, f1, f2, f3, f4, rfl, f6, f7, f8, f9⟩
  simp only [Sub.Driver.run]
  rw [a1, R.bind_ok]
  show (d1.act Lo D _).bind _ = _
  rw [a2]
  show (({ d2 with woken := true } : Sub.Driver Nat).act Lo D _).bind _ = _
  rw [a3]
  rfl

theorem sub_run_append (Lo : Lossy) (D : Decompressors) {A : Type} [DecidableEq A] {s t u : Sub.Driver A} {xs ys : List (Sub.Act A)} (h : s.run Lo D xs = .ok t) (h' : t.run Lo D ys = .ok u) :
    s.run Lo D (xs ++ ys) = .ok u := by
  induction xs generalizing s with
  | nil => cases h; exact h'
  | cons a xs ih =>
    simp only [Sub.Driver.run, List.cons_append] at h ⊢
    cases ha : s.act Lo D a with
    | panic => rw [ha] at h; cases h
    | ok s1 => rw [ha, R.bind_ok] at h; rw [R.bind_ok]; exact ih h

/-- C106 fails for a subscriber: as long as messages of a publisher keep arriving, the task of its connection does not send the subscriptions it was told, and the background task does not look at the
user's calls. For every `n` there is a history in which `subscribe(b)` and `unsubscribe(a)` returned `Ok(())`, then the user received `n` messages, and still nothing was sent to the publisher and
the second call was not looked at. -/
theorem C106_refuted_subscriber (Lo : Lossy) (D : Decompressors) (n : Nat) : ∃ (d : Sub.Driver Nat) (s : Sub.Session), Sub.Reach Lo D d ∧ d.closed = false ∧ d.sessions = [s] ∧ d.received.length = n ∧
    d.processed = [.connect 5, .subscribe ['b']] ∧ d.cmdq = [.unsubscribe ['a']] ∧ s.cmds = [.subscribe ['b']] ∧ s.handled = [] ∧ s.sent = [] := by
  obtain ⟨d0, d, h0, h1, h2⟩ : ∃ d0 d : Sub.Driver Nat, Sub.Driver.new {} 0 = .ok d0 ∧
      d0.run Lo D [.call (.connect 5), .iter ⟨[], [], none⟩, .iter ⟨[], [], some (0, .connected ⟨List.replicate n (.data (msgA 0 1)), [], [], []⟩)⟩, .call (.subscribe ['b']), .iter ⟨[5], [], none⟩,
        .call (.tryUnsubscribe ['a'])] = .ok d ∧ SubBusy (List.replicate n (.data (msgA 0 1))) [.unsubscribe ['a']] [.subscribe ['b']] 0 d :=
    ⟨_, _, rfl, rfl, ⟨rfl, rfl, rfl, Nat.succ_pos 1023⟩, ⟨rfl, rfl, rfl, rfl⟩, _, _, rfl, rfl, rfl, rfl, rfl, rfl, rfl, rfl, rfl, rfl⟩
  have many : ∀ (k n : Nat) (d : Sub.Driver Nat), SubBusy (List.replicate k (.data (msgA 0 1))) [.unsubscribe ['a']] [.subscribe ['b']] n d →
      ∃ acts d', d.run Lo D acts = .ok d' ∧ SubBusy [] [.unsubscribe ['a']] [.subscribe ['b']] (n + k) d' := by
    intro k
    induction k with
    | zero => intro n d h; exact ⟨[], d, rfl, h⟩
    | succ k ih =>
      intro n d h
      obtain ⟨d1, g1, g2⟩ := subBusy_step Lo D h
      obtain ⟨acts, d', g3, g4⟩ := ih (n + 1) d1 g2
      exact ⟨_ ++ acts, d', sub_run_append Lo D g1 g3, by rw [show n + (k + 1) = n + 1 + k by omega]; exact g4⟩
  obtain ⟨acts, d', g1, g2, g3, s, b, q1, -, -, -, -, -, q2, q3, -, q4⟩ := many n 0 d h2
  exact ⟨d', s, ⟨{}, 0, d0, _, h0, sub_run_append Lo D h1 g1⟩, g2.2.1, q1, by rw [g3.2.1]; omega, g3.2.2.2, g3.1, q2, q4, q3⟩

/-! ## The publisher -/

/-- The bytes of `subscribe(a)` and of `unsubscribe(a)`. -/
def subscribeA : Bytes := PubSub.encode ⟨⟨0, 9, PubSub.subPrefix ++ [97], 0, 0, 0⟩, []⟩
def unsubscribeA : Bytes := PubSub.encode ⟨⟨0, 11, PubSub.unsubPrefix ++ [97], 0, 0, 0⟩, []⟩

/-- They are what a subscriber sends. -/
example : PubSub.Message.newSub 0 [97] = .ok ⟨⟨0, 9, PubSub.subPrefix ++ [97], 0, 0, 0⟩, []⟩ ∧ PubSub.Message.newUnsub 0 [97] = .ok ⟨⟨0, 11, PubSub.unsubPrefix ++ [97], 0, 0, 0⟩, []⟩ ∧ utf8 ['a'] = [97] :=
  ⟨rfl, rfl, rfl⟩

/-- A message published on `a`. -/
def pubA : PubMsg := PubMsg.new ['a'] [1]

/-- A session of a publisher that has everything but the client's `unsubscribe(a)` behind it. -/
structure PubBusy (s : Pub.Session) : Prop where
  idle : s.pending = none ∧ s.input = [] ∧ 0 < s.wr.boundary ∧ (s.shouldFlush = false → s.wr.buf = [])
  rd : s.rd = { st := .header, buf := unsubscribeA, readable := true }
  filter : Trie.contains s.filter ['a'] = true

/-- The environment of an iteration: the connection takes all bytes, and the channel has `f`. -/
def openEnv (s : Pub.Session) (f : Pub.FeedAns) : Pub.Env := ⟨true, [.ok (s.wr.buf.length + 1), .ok 1], [], [], f, 0⟩

theorem openEnv_flush (s : Pub.Session) (f : Pub.FeedAns) : (s.wr.flush (openEnv s f).flushAns).1 = .ok ∧ (s.wr.flush (openEnv s f).flushAns).2.buf = [] ∧
    (s.wr.flush (openEnv s f).flushAns).2.boundary = s.wr.boundary := by
  unfold openEnv
  simp only [Writer.flush]
  by_cases hb : s.wr.buf.isEmpty = true
  · rw [if_pos hb]
    exact ⟨rfl, List.isEmpty_iff.1 hb, rfl⟩
  · rw [if_neg hb, if_neg (by omega)]
    have : s.wr.buf.drop (s.wr.buf.length + 1) = [] := List.drop_of_length_le (by omega)
    simp [this]

theorem openEnv_step {s : Pub.Session} (h : 0 < s.wr.boundary ∧ (s.shouldFlush = false → s.wr.buf = [])) (f : Pub.FeedAns) :
    ∃ wr, s.flushStep (openEnv s f) = { s with wr, shouldFlush := false } ∧ wr.buf = [] ∧ wr.boundary = s.wr.boundary ∧ wr.ready (openEnv s f).readyAns = (.ok, wr) := by
  have hready : ∀ wr : Writer, wr.buf = [] → wr.boundary = s.wr.boundary → wr.ready (openEnv s f).readyAns = (.ok, wr) := by
    intro wr h1 h2
    unfold Writer.ready
    rw [if_neg (by rw [h1, h2]; simp only [List.length_nil]; omega)]
  unfold Pub.Session.flushStep
  obtain ⟨h1, h2, h3⟩ := openEnv_flush s f
  cases hs : s.shouldFlush with
  | false => exact ⟨s.wr, by simp only [Bool.false_and, Bool.false_eq_true, if_false]; rw [← hs], h.2 hs, rfl, hready _ (h.2 hs) rfl⟩
  | true =>
    refine ⟨(s.wr.flush (openEnv s f).flushAns).2, ?_, h2, h3, hready _ h2 h3⟩
    have ht : (openEnv s f).tick = true := rfl
    simp only [ht, Bool.and_self, if_true]
    rw [← Prod.eta (s.wr.flush (openEnv s f).flushAns), h1]

theorem pubBusy_step (L : Lossy) {s : Pub.Session} (h : PubBusy s) :
    ∃ es s' m, s.run L es = .ok (s', [.took pubA 0, .sent m]) ∧ PubBusy s' ∧ m.header.topic = [97] ∧ m.payload = [1] := by
  obtain ⟨⟨h1, h2, h3, h4⟩, h5, h6⟩ := h
  obtain ⟨wr, g1, g2, g3, g4⟩ := openEnv_step ⟨h3, h4⟩ (.msg pubA)
  let m : PubSub.Message := ⟨⟨0, 1, [97], 0, s.seq, 1⟩, [1]⟩
  let s1 : Pub.Session := { s with wr, shouldFlush := false, pending := some m, seq := s.seq + 1 }
  have i1 : s.iter L (openEnv s (.msg pubA)) = .ok (s1, .took pubA 0) := by
    unfold Pub.Session.iter
    simp only [g1]
    rw [g4]
    simp only [h1]
    have hf : (openEnv s (.msg pubA)).feed = .msg pubA := rfl
    simp only [hf]
    unfold Pub.Session.onOutgoing
    have hc : Trie.contains s.filter pubA.topic = true := h6
    rw [if_pos hc]
    rfl
  obtain ⟨wr', k1, k2, k3, k4⟩ := openEnv_step (s := s1) ⟨by rw [show s1.wr.boundary = s.wr.boundary from g3]; exact h3, fun _ => g2⟩ .pending
  let s2 : Pub.Session := { s1 with wr := wr'.send (PubSub.encode m), pending := none, shouldFlush := true, bytesTx := s1.bytesTx + m.size }
  have i2 : s1.iter L (openEnv s1 .pending) = .ok (s2, .sent m) := by
    unfold Pub.Session.iter
    simp only [k1]
    rw [k4]
  refine ⟨[openEnv s (.msg pubA), openEnv s1 .pending], s2, m, ?_, ⟨⟨rfl, h2, ?_, fun h => by cases h⟩, h5, h6⟩, rfl, rfl⟩
  · simp only [Pub.Session.run]
    rw [i1]
    simp only [R.bind_ok]
    rw [if_neg (by simp), i2]
    rfl
  · show 0 < wr'.boundary
    rw [k3, show s1.wr.boundary = s.wr.boundary from g3]
    exact h3

theorem pub_run_append (L : Lossy) {s t u : Pub.Session} {xs ys : List Pub.Env} {as bs : List Pub.Ev} (h : s.run L xs = .ok (t, as)) (hn : .ended ∉ as) (h' : t.run L ys = .ok (u, bs)) :
    s.run L (xs ++ ys) = .ok (u, as ++ bs) := by
  induction xs generalizing s as with
  | nil => cases h; exact h'
  | cons e xs ih =>
    simp only [Pub.Session.run, List.cons_append] at h ⊢
    cases hi : s.iter L e with
    | panic => rw [hi] at h; cases h
    | ok r =>
      obtain ⟨s1, ev⟩ := r
      rw [hi, R.bind_ok] at h
      rw [R.bind_ok]
      simp only at h ⊢
      split at h
      · cases h
        exact absurd (List.mem_singleton.2 rfl) hn
      · rename_i hev
        rw [if_neg hev]
        cases hr : s1.run L xs with
        | panic => rw [hr] at h; cases h
        | ok r =>
          obtain ⟨s2, evs⟩ := r
          rw [hr] at h
          cases h
          rw [ih hr (fun hm => hn (List.mem_cons_of_mem _ hm))]
          rfl

/-- C106 fails for a publisher: as long as messages are published, the session of a subscriber does not look at what the subscriber sends. For every `n` there is a history in which a client
subscribed to `a` and its `unsubscribe(a)` has arrived in the session's receive buffer, then `n` messages on `a` were published and sent to this client, one after the other, and still the
client is subscribed. -/
theorem C106_refuted_publisher (L : Lossy) (n : Nat) : ∃ (es : List Pub.Env) (s : Pub.Session) (msgs : List PubSub.Message),
    (Pub.Session.new 8192 [.data (subscribeA ++ unsubscribeA)]).run L es =
      .ok (s, .incoming ⟨⟨0, 9, PubSub.subPrefix ++ [97], 0, 0, 0⟩, []⟩ :: msgs.flatMap fun m => [.took pubA 0, .sent m]) ∧
    msgs.length = n ∧ (∀ m ∈ msgs, m.header.topic = [97] ∧ m.payload = [1]) ∧
    s.rd.buf = unsubscribeA ∧ Trie.contains s.filter ['a'] = true := by
  have many : ∀ (n : Nat) (s : Pub.Session), PubBusy s → ∃ (es : List Pub.Env) (s' : Pub.Session) (msgs : List PubSub.Message), s.run L es = .ok (s', msgs.flatMap fun m => [.took pubA 0, .sent m]) ∧ PubBusy s' ∧ msgs.length = n ∧
      ∀ m ∈ msgs, m.header.topic = [97] ∧ m.payload = [1] := by
    intro n
    induction n with
    | zero => intro s h; exact ⟨[], s, [], rfl, h, rfl, fun m hm => by cases hm⟩
    | succ n ih =>
      intro s h
      obtain ⟨es, s1, m, g1, g2, g3⟩ := pubBusy_step L h
      obtain ⟨es', s', msgs, k1, k2, k3, k4⟩ := ih s1 g2
      refine ⟨es ++ es', s', m :: msgs, pub_run_append L g1 (by simp) k1, k2, by simp [k3], fun x hx => ?_⟩
      cases hx with
      | head => exact g3
      | tail _ hx => exact k4 x hx
  have hdec : L.dec [97] = ['a'] := L.dec_utf8 ['a']
  let s0 : Pub.Session := { (Pub.Session.new 8192 [.data (subscribeA ++ unsubscribeA)]) with input := [], rd := { st := .header, buf := unsubscribeA, readable := true }, filter := Trie.insert Trie.Node.new ['a'] }
  have h0 : (Pub.Session.new 8192 [.data (subscribeA ++ unsubscribeA)]).run L [⟨true, [], [], [], .pending, 0⟩] = .ok (s0, [.incoming ⟨⟨0, 9, PubSub.subPrefix ++ [97], 0, 0, 0⟩, []⟩]) := by
    have hit : (Pub.Session.new 8192 [.data (subscribeA ++ unsubscribeA)]).iter L ⟨true, [], [], [], .pending, 0⟩ =
        .ok (Pub.Session.onIncoming L { (Pub.Session.new 8192 [.data (subscribeA ++ unsubscribeA)]) with input := [], rd := { st := .header, buf := unsubscribeA, readable := true } }
          ⟨⟨0, 9, PubSub.subPrefix ++ [97], 0, 0, 0⟩, []⟩, .incoming ⟨⟨0, 9, PubSub.subPrefix ++ [97], 0, 0, 0⟩, []⟩) := rfl
    have hmc : Pub.msgToControl L ⟨⟨0, 9, PubSub.subPrefix ++ [97], 0, 0, 0⟩, []⟩ = .subscribe ['a'] := by
      rw [← hdec]; rfl
    simp only [Pub.Session.run]
    rw [hit]
    simp only [R.bind_ok]
    rw [if_neg (by simp)]
    unfold Pub.Session.onIncoming
    rw [hmc]
    rfl
  have hb : PubBusy s0 := ⟨⟨rfl, rfl, Nat.succ_pos 8191, fun _ => rfl⟩, rfl, by decide +kernel⟩
  obtain ⟨es, s', msgs, k1, k2, k3, k4⟩ := many n s0 hb
  exact ⟨_ ++ es, s', msgs, pub_run_append L h0 (by simp) k1, k3, k4, by rw [k2.rd], k2.filter⟩

end MsgRs.Props
