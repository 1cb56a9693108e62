import Verif.Props.ReqRetry
/-!
# C39: what a request socket does between losing its connection and using the next one
-/
namespace MsgRs.Props
open MsgRs Req

theorem taskStep_keeps {s u : State} {e : Env} (h : s.taskStep e = .ok u) :
    u.egress = s.egress ∧ u.pending = s.pending ∧ u.queue = s.queue ∧ u.done = s.done ∧ u.calls = s.calls := by
  unfold State.taskStep at h
  split at h
  · cases hr : taskResult s.opts.token e.task with
    | panic => rw [hr] at h; cases h
    | ok r =>
      rw [hr] at h
      simp only [R.bind_ok, R.pure_eq] at h
      rcases r with _ | (_ | ⟨via, input⟩) <;> cases h <;> exact ⟨rfl, rfl, rfl, rfl, rfl⟩
  · cases h; exact ⟨rfl, rfl, rfl, rfl, rfl⟩

/-- An iteration without a connection, in which none is made, touches nothing that is waiting. -/
theorem iter_lone_keeps {D : Decompressors} {s t : State} {e : Env} {o : Out} {b : Backoff} (he : s.ended = false)
    (hb : s.conn = .inactive b) (h : s.iter D e = .ok (t, o)) (hlen : t.chans.length = s.chans.length) (hte : t.ended = false) :
    (∃ b', t.conn = .inactive b') ∧
    t.egress = s.egress ∧ t.pending = s.pending ∧ t.queue = s.queue ∧ t.done = s.done ∧ t.calls = s.calls := by
  obtain ⟨-, b1, -, -, hb1, -⟩ := iter_lone he hb h hlen
  refine ⟨⟨b1, hb1⟩, ?_⟩
  obtain ⟨k1, k2, k3, k4, k5, k6, k7, -⟩ := flushStep_same s e
  have k8 := flushStep_done s e
  have hfc := flushStep_ended s e
  unfold State.iter at h
  cases hu : (s.flushStep e).taskStep e with
  | panic => rw [hu] at h; cases h
  | ok u =>
    rw [hu] at h
    simp only [R.bind_ok, R.pure_eq] at h
    obtain ⟨g1, g2⟩ := taskStep_ended _ u e hu
    have hue : u.ended = false := by rw [g1, hfc.1, he]
    obtain ⟨m1, m2, m3, m4, m5⟩ := taskStep_keeps hu
    have hsame : u.egress = s.egress ∧ u.pending = s.pending ∧ u.queue = s.queue ∧ u.done = s.done ∧ u.calls = s.calls :=
      ⟨m1.trans k1, m2.trans k2, m3.trans k3, m4.trans k8, m5.trans k5⟩
    cases hc : u.conn with
    | inactive b2 =>
      simp only [hc] at h
      cases hp : b2.poll u.now with
      | panic => rw [hp] at h; cases h
      | ok r =>
        obtain ⟨x, b'⟩ := r
        rw [hp] at h
        simp only [R.bind_ok] at h
        cases x with
        | pending => cases h; exact hsame
        | item d => cases h; rw [State.retry_eq]; exact hsame
        | ended => cases h; simp [State.terminate] at hte
    | active c =>
      exfalso
      have hst : Steps D u t := by
        simp only [hc] at h
        cases hp : c.rd.pollNext ReqRep.codec c.input with
        | panic => rw [hp] at h; cases h
        | ok r =>
          obtain ⟨x, rd, input⟩ := r
          rw [hp] at h
          simp only [R.bind_ok] at h
          cases x with
          | item m => cases h; exact (Step.readItem u c m rd input hue hc hp).steps
          | err x => cases h; exact (Step.readErr u c x rd input hue hc hp).steps
          | ended => cases h; exact (Step.readEnd u c rd input hue hc hp).steps
          | pending =>
            have h2 := (Step.readIdle (D := D) u c rd input hue hc hp).steps
            have h3 := writeStep_steps u e { c with rd, input, polls := c.polls + 1 } c hue h2
            simp only [R.ok.injEq] at h
            rw [h] at h3
            exact h3
      have h1 := chans_steps hst
      have h2 := chans_steps (flushStep_steps (D := D) s e he)
      have hul : u.chans.length = s.chans.length + 1 := by
        have hf := k7 b hb
        unfold State.taskStep at hu
        split at hu
        · cases hr : taskResult (s.flushStep e).opts.token e.task with
          | panic => rw [hr] at hu; cases hu
          | ok r =>
            rw [hr] at hu
            simp only [R.bind_ok, R.pure_eq] at hu
            rcases r with _ | (_ | ⟨via, input⟩)
            · cases hu; rw [hf] at hc; cases hc
            · cases hu; simp only at hc; rw [hf] at hc; cases hc
            · have h2' : s.chans.length ≤ (s.flushStep e).past.length := by simpa [State.chans, hf] using h2
              have h4 : u.past = (s.flushStep e).past := by cases hu; simp [hf]
              have h5 : t.chans.length = s.chans.length := hlen
              have h6 : u.chans.length = (s.flushStep e).past.length + 1 := by simp [State.chans, hc, h4]
              omega
        · cases hu; rw [hf] at hc; cases hc
      omega

theorem ended_step {D : Decompressors} {s t : State} (h : Step D s t) (hs : s.ended = true) : t.ended = true := by
  cases h <;> simp_all

theorem ended_steps {D : Decompressors} {s t : State} (h : Steps D s t) (hs : s.ended = true) : t.ended = true :=
  h.induct (P := fun u => u.ended = true) (fun _ _ h hs => ended_step h hs) hs

theorem past_step {D : Decompressors} {s t : State} (h : Step D s t) : s.past <+: t.past := by
  cases h with
  | connect task via input he hct hr => exact List.prefix_append _ _
  | readItem c m rd input he hc hp =>
    obtain ⟨-, -, -, -, -, k6, -⟩ := onMessage_fields (D := D)
      { s with conn := .active { c with rd, input, polls := c.polls + 1, got := c.got ++ [m] } } m
    rw [k6]; exact List.prefix_refl _
  | readErr => exact List.prefix_append _ _
  | _ => exact List.prefix_refl _

theorem past_steps {D : Decompressors} {s t : State} (h : Steps D s t) : s.past <+: t.past :=
  h.induct (P := fun u => s.past <+: u.past) (fun _ _ h hs => hs.trans (past_step h)) (List.prefix_refl _)

theorem ended_run {D : Decompressors} {s t : State} (acts : List Act) (h : s.run D acts = .ok t) (ht : t.ended = false) : s.ended = false := by
  cases hs : s.ended with
  | false => rfl
  | true => rw [ended_steps (run_steps acts s t h) hs] at ht; cases ht

/-- C39 (partial), nothing is lost while there is no connection: the socket has just lost its connection (or has just been connected by its user and has none
yet). Whatever happens then, any number of failing attempts, further calls, time passing, as long as no connection is made and the socket has not given up (C93): the
requests not yet handed to a connection and those waiting for their responses are still there, no call returns, and the calls
made meanwhile wait behind those that waited already, in order. Missing: a server that closes the connection cleanly (`C39_clean_close_refuted`). -/
theorem C39_nothing_lost_partial (D : Decompressors) (opts comp) (s0 s : State) (h0 : Disconnected D opts comp s0) (acts : List Act)
    (hr : s0.run D acts = .ok s) (hno : s.chans.length = s0.chans.length) (he : s.ended = false) :
    (∃ b, s.conn = .inactive b) ∧ s.egress = s0.egress ∧ s.pending = s0.pending ∧ s.done = s0.done ∧
    ∃ new, s.calls = s0.calls ++ new ∧
      s.queue = s0.queue ++ (new.zipIdx s0.calls.length).map fun x => (x.2, x.1.payload) := by
  have hst := h0.retry
  obtain ⟨ts, -, -, -, -, k5⟩ := hst.lone rfl
  obtain ⟨b, b1, -⟩ := k5 (ended_run acts hr he)
  clear k5 hst h0
  induction acts generalizing s0 b with
  | nil => cases hr; exact ⟨⟨b, b1⟩, rfl, rfl, rfl, [], by simp, by simp⟩
  | cons a acts ih =>
    have he0 := ended_run _ hr he
    simp only [State.run] at hr
    cases ha : s0.act D a with
    | panic => rw [ha] at hr; cases hr
    | ok u =>
      rw [ha] at hr
      simp only [R.bind_ok] at hr
      have hue := ended_run acts hr he
      have l1 := chans_steps (act_steps s0 u a ha)
      have l2 := chans_steps (run_steps acts u s hr)
      cases a with
      | iter e =>
        simp only [State.act, he0, Bool.false_eq_true, if_false] at ha
        cases hi : s0.iter D e with
        | panic => rw [hi] at ha; cases ha
        | ok r =>
          obtain ⟨t, o⟩ := r
          rw [hi] at ha
          simp only [R.bind_ok, R.pure_eq, R.ok.injEq] at ha
          subst ha
          obtain ⟨⟨b', hb'⟩, q1, q2, q3, q4, q5⟩ := iter_lone_keeps he0 b1 hi (by omega) hue
          have := ih t hr (by omega) b' hb'
          rw [q1, q2, q3, q4, q5] at this
          exact this
      | advance dt => cases ha; exact ih { s0 with now := s0.now + dt } hr (by simpa [State.chans] using hno) b b1
      | dropSocket => cases ha; exact ih { s0 with closed := true } hr (by simpa [State.chans] using hno) b b1
      | request payload =>
        simp only [State.act] at ha
        split at ha
        · cases ha; exact ih _ hr hno b b1
        · rw [he0] at ha
          simp only [Bool.false_eq_true, if_false] at ha
          cases ha
          obtain ⟨p0, p1, p2, p3, new, p4, p5⟩ := ih _ hr (by simpa [State.chans] using hno) b b1
          refine ⟨p0, p1, p2, p3, { payload, time := s0.now } :: new, by simp [p4], ?_⟩
          rw [p5]
          simp [List.zipIdx_cons]

theorem tickLoop_same (n : Nat) (s : State) : (s.tickLoop n).ended = s.ended ∧ (s.tickLoop n).closed = s.closed := by
  induction n generalizing s with
  | zero => exact ⟨rfl, rfl⟩
  | succ n ih =>
    unfold State.tickLoop
    split
    · exact ⟨(ih _).1.trans rfl, (ih _).2.trans rfl⟩
    · exact ⟨rfl, rfl⟩

theorem lateStep_stays (s : State) (e : Env) (c : Chan) : ∃ c', (s.lateStep e c).1.conn = .active c' ∧ c'.via = c.via ∧
    c'.input0 = c.input0 ∧ (s.lateStep e c).1.past = s.past ∧ (s.closed = false → (s.lateStep e c).1.ended = s.ended) := by
  obtain ⟨wr, k1, -, -, -, -, -, -, -, k9, -⟩ := lateStep_fields s e c
  refine ⟨_, k1, rfl, rfl, k9, fun hcl => ?_⟩
  obtain ⟨j1, j2⟩ := tickLoop_same (s.now + 1) { s with conn := .active c }
  unfold State.lateStep
  simp only
  generalize ({ s with conn := .active c } : State).tickLoop (s.now + 1) = u at *
  split
  · exact j1
  · rw [if_neg (by rw [j2]; simp [hcl])]
    exact j1

theorem writeStep_stays (s : State) (e : Env) (c : Chan) : ∃ c', (s.writeStep e c).1.conn = .active c' ∧ c'.via = c.via ∧
    c'.input0 = c.input0 ∧ (s.writeStep e c).1.past = s.past ∧ (s.closed = false → (s.writeStep e c).1.ended = s.ended) := by
  unfold State.writeStep
  split
  · exact lateStep_stays s e _
  · exact lateStep_stays s e _
  · exact ⟨_, rfl, rfl, rfl, rfl, fun _ => rfl⟩

theorem flushStep_lone (s : State) (e : Env) (b : Backoff) (hb : s.conn = .inactive b) :
    (s.flushStep e).past = s.past ∧ (s.flushStep e).closed = s.closed := by
  have hw : ∀ b t, s.wantFlush = (b, t) → ∃ f, t = { s with flushIv := f } := by
    intro b t h
    unfold State.wantFlush at h
    split at h
    · split at h
      · cases h; exact ⟨_, rfl⟩
      · cases h; exact ⟨s.flushIv, rfl⟩
    · cases h; exact ⟨_, rfl⟩
  unfold State.flushStep
  rcases hq : s.wantFlush with ⟨r, t⟩
  obtain ⟨f, ht⟩ := hw r t hq
  cases ht
  cases r with
  | false => exact ⟨rfl, rfl⟩
  | true => simp only [hb]; exact ⟨trivial, trivial⟩

/-- C39 (partial), the next connection is used: when a connection attempt succeeds (with a token: the handshake was passed), the connection is the socket's
connection from then on, unless the very first read from it fails or reports its end. `input` is what the
connection will give to reads. -/
theorem C39_next_connection_partial (D : Decompressors) (opts comp) (s0 s t : State) (h0 : Disconnected D opts comp s0) (acts : List Act)
    (hr : s0.run D acts = .ok s) (hno : s.chans.length = s0.chans.length) (he : s.ended = false) (hcl : s.closed = false)
    (htask : s.connTask = true) (e : Env) (hs : HsEnv) (input : List ReadAns)
    (hok : taskResult opts.token e.task = .ok (some (some (hs, input)))) (o : Out) (hit : s.iter D e = .ok (t, o)) :
    ∃ c, t.chans = s0.chans ++ [c] ∧ c.via = hs ∧ c.input0 = input ∧
      ((t.conn = .active c ∧ t.ended = false) ∨
        ∃ rd rest, (∃ x, (Reader.new ReqRep.codec).pollNext ReqRep.codec input = .ok (.err x, rd, rest)) ∨
          (Reader.new ReqRep.codec).pollNext ReqRep.codec input = .ok (.ended, rd, rest)) := by
  obtain ⟨ts, -, -, -, -, k5⟩ := h0.retry.lone rfl
  obtain ⟨b0, b0', -⟩ := k5 (ended_run acts hr he)
  obtain ⟨⟨b, hb⟩, -⟩ := C39_nothing_lost_partial D opts comp s0 s h0 acts hr hno he
  have hpast : s0.past = s.past := by
    refine (past_steps (run_steps acts s0 s hr)).eq_of_length ?_
    simpa [State.chans, b0', hb] using hno.symm
  have hreach := req_reach_run h0.reach acts hr
  obtain ⟨k1, k2, k3, k4, k5, k6, k7, -⟩ := flushStep_same s e
  obtain ⟨f1, f2⟩ := flushStep_lone s e b hb
  have hfe := (flushStep_ended s e).1
  have hch : s0.chans = s.past := by simp [State.chans, b0', hpast]
  have h := taskStep_connected (s.flushStep e) e _ hs input (k4.trans htask) (k7 _ hb) (by rw [k6, hreach.opts.1]; exact hok)
  unfold State.iter at hit
  rw [h] at hit
  simp only [R.bind_ok, R.pure_eq] at hit
  cases hp : (Reader.new ReqRep.codec).pollNext ReqRep.codec input with
  | panic => simp only [Chan.new] at hit; rw [hp] at hit; cases hit
  | ok r =>
    obtain ⟨x, rd, rest⟩ := r
    simp only [Chan.new] at hit
    rw [hp] at hit
    simp only [R.bind_ok] at hit
    cases x with
    | item m =>
      cases hit
      obtain ⟨g1, -, -, -, -, g6, g7⟩ := onMessage_fields (D := D) { (s.flushStep e) with
        conn := .active { (Chan.new (s.flushStep e).opts.boundary hs input) with rd, input := rest, polls := 1, got := [m] }, connTask := false } m
      refine ⟨{ (Chan.new (s.flushStep e).opts.boundary hs input) with rd, input := rest, polls := 1, got := [m] }, ?_, rfl, rfl,
        .inl ⟨g1, g7.trans (hfe.trans he)⟩⟩
      show State.past _ ++ (match State.conn _ with | .active c => [c] | .inactive _ => []) = _
      erw [g1, g6]
      simp [hch, f1]
    | err x => cases hit; exact ⟨{ (Chan.new (s.flushStep e).opts.boundary hs input) with rd, input := rest, polls := 1 }, by simp [State.chans, f1, Chan.new, b0', hpast], rfl, rfl, .inr ⟨rd, rest, .inl ⟨x, rfl⟩⟩⟩
    | ended => cases hit; exact ⟨{ (Chan.new (s.flushStep e).opts.boundary hs input) with rd, input := rest, polls := 1 }, by simp [State.chans, f1, State.terminate, Chan.new, b0', hpast], rfl, rfl, .inr ⟨rd, rest, .inr rfl⟩⟩
    | pending =>
      simp only [R.ok.injEq] at hit
      obtain ⟨c', w1, w2, w3, w4, w5⟩ := writeStep_stays { (s.flushStep e) with
          connTask := false, conn := .active (Chan.new (s.flushStep e).opts.boundary hs input) } e
        { (Chan.new (s.flushStep e).opts.boundary hs input) with rd, input := rest, polls := 1 }
      have ht : t = (State.writeStep { (s.flushStep e) with
          connTask := false, conn := .active (Chan.new (s.flushStep e).opts.boundary hs input) } e
        { (Chan.new (s.flushStep e).opts.boundary hs input) with rd, input := rest, polls := 1 }).1 := by
        simp only [Chan.new]; erw [hit]
      rw [← ht] at w1 w4 w5
      refine ⟨c', ?_, w2, w3, .inl ⟨w1, ?_⟩⟩
      · simp only [State.chans, w1, w4]
        simp [State.chans, b0', f1, hpast]
      · rw [w5 (f2.trans hcl)]
        exact hfe.trans he

/-- C39 (partial), everything still to be sent goes to the next connection: the socket has lost its connection (or has just been connected by its user and
has none yet), then any history follows in which it gets a connection `c` and keeps it. When it goes idle, the requests handed to
that connection are, in order, exactly those of all calls made so far that had not been handed to a connection before the
loss; and (no flush interval) they are on the wire if the connection takes what it is given. Missing: as above (`C39_clean_close_refuted`). -/
theorem C39_rest_sent_partial (D : Decompressors) (opts comp) (s0 s t : State) (h0 : Disconnected D opts comp s0) (acts : List Act)
    (hr : s0.run D acts = .ok s) (he : s.ended = false) (e : Env) (hit : s.iter D e = .ok (t, .pending)) (c : Chan)
    (hc : t.conn = .active c) (hone : t.chans.length = s0.chans.length + 1)
    (hfl : opts.flushInterval = none) (hbd : 0 < opts.boundary)
    (htake : ∀ c0, s.conn = .active c0 → (c0.wr.flush e.flushAns).1 = .ok) :
    let before := (s0.chans.flatMap (·.sent)).length
    t.chans = s0.chans ++ [c] ∧
    c.sent = (t.calls.zipIdx.drop before).map (fun x => (x.2, requestFrame opts comp x.2 x.1.payload)) ∧
    c.wr.wire = c.sent.flatMap fun x => ReqRep.encode x.2 := by
  obtain ⟨ts, -, -, -, -, k5⟩ := h0.retry.lone rfl
  obtain ⟨b0, b0', -⟩ := k5 (ended_run acts hr he)
  have hpast : s0.past = t.past := by
    refine (past_steps ((run_steps acts s0 s hr).trans (iter_steps s t e .pending he hit))).eq_of_length ?_
    simp [State.chans, b0', hc] at hone
    exact hone.symm
  have hch : t.chans = s0.chans ++ [c] := by simp [State.chans, hc, b0', hpast]
  obtain ⟨-, -, hall⟩ := C70_idle_means_sent D opts comp s (req_reach_run h0.reach acts hr) he e t hit c hc
  obtain ⟨h1, h2⟩ := hall hfl hbd htake
  refine ⟨hch, ?_, h2⟩
  rw [hch] at h1
  simp only [List.flatMap_append, List.flatMap_cons, List.flatMap_nil, List.append_nil] at h1
  rw [List.map_drop, ← h1, List.drop_left]

/-- A connection that fails at its third read, having taken everything written before. -/
def lossy : List Act :=
  [.request [1], .iter {}, .advance 20000000, .iter {}, .iter { task := some (some ⟨[.pending, .pending, .pending, .err], [], [], []⟩) }, .iter {},
    .iter { flushAns := [.ok 100] }]

/-- A call while there is no connection, one attempt that fails, one that succeeds, and the iterations in which the waiting call is sent. -/
def recovering : List Act :=
  [.request [2], .iter {}, .advance 20000000, .iter {}, .iter { task := some none }, .advance 40000000, .iter {},
    .iter { task := some (some ⟨[], [], [], []⟩) }, .iter {}]

/-- The hypotheses of the three theorems can be met: one request was sent before the loss; the second call, made after it, is sent on the second connection,
after one failed attempt. -/
example (D : Decompressors) : ∃ s0 s1 s t c, Disconnected D {} none s0 ∧ (s0.chans.map fun c => c.sent.map (·.1)) = [[0]] ∧
    s0.run D (recovering.take 7) = .ok s1 ∧ s1.chans.length = s0.chans.length ∧ s1.ended = false ∧ s1.connTask = true ∧ s1.closed = false ∧
    s1.queue = [(1, [2])] ∧
    s0.run D recovering = .ok s ∧ s.ended = false ∧ s.iter D { flushAns := [.ok 100] } = .ok (t, .pending) ∧
    t.conn = .active c ∧ t.chans.length = s0.chans.length + 1 ∧ c.sent.map (·.1) = [1] ∧ c.wr.wire.length = 11 :=
  ⟨_, _, _, _, _, .inr ⟨_, {}, _, ⟨0, _, lossy, rfl, rfl⟩, rfl, rfl, Nat.lt_succ_self _⟩, rfl, rfl, rfl, rfl, rfl, rfl, rfl, rfl, rfl, rfl, rfl, rfl,
    rfl, rfl⟩

end MsgRs.Props
