import Verif.Proofs.ReqRetry
import Verif.Props.Req
/-!
# C93: how a request socket tries to connect, and when it gives up
-/
namespace MsgRs.Props
open MsgRs Req

/-- The socket has just been connected by its user (so there is no connection yet), or has just lost its connection. -/
def Disconnected (D : Decompressors) (opts : Options) (comp : Option Compressor) (s : State) : Prop :=
  (∃ now, State.new opts comp now = .ok s) ∨
  (∃ s' e o, ReqReach D opts comp s' ∧ s'.ended = false ∧ s'.iter D e = .ok (s, o) ∧ s'.past.length < s.past.length)

theorem req_reach_run {D : Decompressors} {opts comp} {s t : State} (h : ReqReach D opts comp s) (acts : List Act) (hr : s.run D acts = .ok t) :
    ReqReach D opts comp t := by
  obtain ⟨now, s0, as, h0, h1⟩ := h
  refine ⟨now, s0, as ++ acts, h0, ?_⟩
  have : ∀ (as : List Act) (s0 : State), s0.run D as = .ok s → s0.run D (as ++ acts) = .ok t := by
    intro as
    induction as with
    | nil => intro s0 h; cases h; exact hr
    | cons a as ih =>
      intro s0 h
      simp only [List.cons_append, State.run] at h ⊢
      cases ha : s0.act D a with
      | panic => rw [ha] at h; cases h
      | ok u => rw [ha] at h; exact ih u h
  exact this as s0 h1

theorem Disconnected.reach {D : Decompressors} {opts comp} {s : State} (h : Disconnected D opts comp s) : ReqReach D opts comp s := by
  rcases h with ⟨now, h⟩ | ⟨s', e, o, h1, h2, h3, -⟩
  · exact ⟨now, s, [], h, rfl⟩
  · exact req_reach_run h1 [.iter e] (by simp [State.run, State.act, h2, h3])

theorem Disconnected.retry {D : Decompressors} {opts comp} {s : State} (h : Disconnected D opts comp s) :
    Retry s.now s.chans.length s.tries s := by
  rcases h with ⟨now, h⟩ | ⟨s', e, o, h1, h2, h3, h4⟩
  · have hx : s.conn = .inactive backoff0 ∧ s.connTask = false := by
      unfold State.new at h
      cases hi : Interval.new now (opts.timeout / 10) with
      | panic => rw [hi] at h; cases h
      | ok iv =>
        rw [hi] at h
        simp only [R.bind_ok, R.pure_eq] at h
        split at h
        · cases h; exact ⟨rfl, rfl⟩
        · rename_i p hf
          cases hj : Interval.new now p with
          | panic => rw [hj] at h; cases h
          | ok iv' => rw [hj] at h; cases h; exact ⟨rfl, rfl⟩
    exact Retry.fresh hx.1 hx.2
  · obtain ⟨k1, k2, -⟩ := iter_lost h1.inv h2 h3 h4
    exact Retry.fresh k1 k2

/-- C93, the schedule: the socket has just been connected by its user, or has just lost its connection, at `s0.now`. Then whatever happens (calls,
failing attempts, time), as long as no connection is made: at most 15 attempts are started, the `i`-th of them (from 0) not before
20 ms * (2 ^ (i + 1) - 1) from then; and if an attempt is under way, it is one of these. -/
theorem C93_schedule (D : Decompressors) (opts comp) (s0 s : State) (h0 : Disconnected D opts comp s0) (acts : List Act)
    (hr : s0.run D acts = .ok s) (hno : s.chans.length = s0.chans.length) :
    ∃ started, s.tries = s0.tries ++ started ∧ started.length ≤ 15 ∧
      (∀ i t, started[i]? = some t → s0.now + 20000000 * (2 ^ (i + 1) - 1) ≤ t) ∧
      (s.connTask = true → started ≠ []) := by
  obtain ⟨ts, k1, k2, k3, k4, -⟩ := (h0.retry.steps (run_steps acts s0 s hr)).lone hno
  exact ⟨ts, k1, k2, fun i t hi => (k3 i t hi).1, k4⟩

/-- C93, nothing is forgotten: whenever the background task goes idle without a connection, a timer is set for some later time, at
most 20 ms * 2 ^ 15 away. -/
theorem C93_timer_set (D : Decompressors) (opts comp) (s0 s t : State) (h0 : Disconnected D opts comp s0) (acts : List Act)
    (hr : s0.run D acts = .ok s) (he : s.ended = false) (e : Env) (hp : s.iter D e = .ok (t, .pending))
    (hno : t.chans.length = s0.chans.length) :
    ∃ b d, t.conn = .inactive b ∧ b.deadline = some d ∧ t.now < d ∧ d ≤ t.now + 20000000 * 2 ^ 15 := by
  have hst := run_steps acts s0 s hr
  have hit := iter_steps s t e .pending he hp
  have hle := chans_steps hit
  have hle' := chans_steps hst
  have hs : s.chans.length = s0.chans.length := by omega
  obtain ⟨ts, -, -, -, -, k5⟩ := (h0.retry.steps hst).lone hs
  obtain ⟨b, b1, b2, b3, b4, b5⟩ := k5 he
  obtain ⟨x, b', q1, q2, q3, q4, q5⟩ := iter_lone he b1 hp (by omega)
  have hit' := ((h0.retry.steps hst).steps hit).lone hno
  obtain ⟨ts', -, h15, -, -, k5'⟩ := hit'
  have hte : t.ended = false := by
    rcases q5 with ⟨-, -, -, q, -⟩ | ⟨d, -, -, q, -⟩ | ⟨-, q, -⟩
    · exact q
    · exact q
    · cases q
  obtain ⟨b'', c1, c2, c3, c4, c5⟩ := k5' hte
  rw [q3] at c1
  cases c1
  rw [Backoff.poll_eq] at q1
  have b2' : ({ b with deadline := some (b.deadline.getD (s.now + b.cur)) } : Backoff).Ok 20000000 16 := ⟨b2.lim, b2.cur, b2.more⟩
  have hpow : b'.cur ≤ 20000000 * 2 ^ 15 := by
    rw [c2.cur]
    have : b'.count ≤ 15 := c3.2
    exact Nat.mul_le_mul_left _ (Nat.pow_le_pow_right (by omega) this)
  have fin : ∀ d, b'.deadline = some d → t.now < d →
      ∃ b d, t.conn = .inactive b ∧ b.deadline = some d ∧ t.now < d ∧ d ≤ t.now + 20000000 * 2 ^ 15 := by
    intro d hd hlt
    exact ⟨b', d, q3, hd, hlt, Nat.le_trans (c4 d hd).2 (by omega)⟩
  rcases Backoff.fire_spec (now := s.now) b2' rfl with ⟨hlt, hf⟩ | ⟨-, -, hf⟩ | ⟨-, -, y, hf⟩ | ⟨-, -, y, hf, y1, y2, y3⟩
  · rw [hf] at q1
    cases q1
    exact fin _ rfl (by rw [q2]; exact hlt)
  · rw [hf] at q1; cases q1
  · rw [hf] at q1
    cases q1
    rcases q5 with ⟨q, -⟩ | ⟨d, q, -⟩ | ⟨-, q, -⟩ <;> cases q
  · rw [hf] at q1
    cases q1
    refine fin _ y3 ?_
    rw [q2]
    have : 0 < 2 ^ (b.count + 1) := Nat.pow_pos (by omega)
    simp only
    omega

/-- How many timers have run out since the connection was lost. -/
def timersRun (s : State) : Nat :=
  match s.conn with
  | .inactive b => b.count
  | .active _ => 0

/-- C93: no timer has run out when the connection has just been lost. -/
theorem C93_fresh (D : Decompressors) (opts comp) (s0 : State) (h0 : Disconnected D opts comp s0) : timersRun s0 = 0 := by
  rcases h0 with ⟨now, h⟩ | ⟨s', e, o, h1, h2, h3, h4⟩
  · unfold State.new at h
    cases hi : Interval.new now (opts.timeout / 10) with
    | panic => rw [hi] at h; cases h
    | ok iv =>
      rw [hi] at h
      simp only [R.bind_ok, R.pure_eq] at h
      split at h
      · cases h; rfl
      · rename_i p hf
        cases hj : Interval.new now p with
        | panic => rw [hj] at h; cases h
        | ok iv' => rw [hj] at h; cases h; rfl
  · obtain ⟨k1, -⟩ := iter_lost h1.inv h2 h3 h4
    simp [timersRun, k1, backoff0, Backoff.new]

/-- C93: at most 15 timers run out without the background task ending, and no attempt is started without one running out: as long as nothing was due, the
attempts stay as they are. -/
theorem C93_not_before (D : Decompressors) (opts comp) (s0 s t : State) (h0 : Disconnected D opts comp s0) (acts : List Act)
    (hr : s0.run D acts = .ok s) (he : s.ended = false) (hearly : ∀ b d, s.conn = .inactive b → b.deadline = some d → s.now < d)
    (e : Env) (o : Out) (hp : s.iter D e = .ok (t, o)) (hno : t.chans.length = s0.chans.length) :
    timersRun s ≤ 15 ∧ o = .pending ∧ t.tries = s.tries ∧ timersRun t = timersRun s ∧ t.ended = false ∧
      (t.connTask = true → s.connTask = true) := by
  have hst := run_steps acts s0 s hr
  have hit := iter_steps s t e o he hp
  have hle := chans_steps hit
  have hle' := chans_steps hst
  have hs : s.chans.length = s0.chans.length := by omega
  obtain ⟨ts, a1, a2, -, -, k5⟩ := (h0.retry.steps hst).lone hs
  obtain ⟨b, b1, b2, b3, b4, b5⟩ := k5 he
  obtain ⟨x, b', q1, q2, q3, q4, q5⟩ := iter_lone he b1 hp (by omega)
  rw [Backoff.poll_eq] at q1
  have b2' : ({ b with deadline := some (b.deadline.getD (s.now + b.cur)) } : Backoff).Ok 20000000 16 := ⟨b2.lim, b2.cur, b2.more⟩
  have hlt : s.now < b.deadline.getD (s.now + b.cur) := by
    cases hd : b.deadline with
    | some d => exact hearly b d b1 hd
    | none =>
      have : 0 < b.cur := by rw [b2.cur]; exact Nat.mul_pos (by omega) (Nat.pow_pos (by omega))
      simp only [Option.getD_none]
      omega
  rcases Backoff.fire_spec (now := s.now) b2' rfl with ⟨-, hf⟩ | ⟨hle, -⟩ | ⟨hle, -⟩ | ⟨hle, -⟩
  · rw [hf] at q1
    cases q1
    rcases q5 with ⟨-, q6, q7, q8, q9⟩ | ⟨d, q, -⟩ | ⟨q, -⟩
    · exact ⟨by simp only [timersRun, b1]; exact b3.2, q6, q7, by simp [timersRun, b1, q3], q8, q9⟩
    · cases q
    · cases q
  all_goals omega

/-- C93: when that time has come, and 15 timers have not run out before it since the connection was lost: an attempt is started, unless one is still
under way (it was started earlier, and does not finish now): that one goes on, and none is started. After 15 timers the background task ends (even if an attempt is under
way), and every call that has not returned yet fails: with a timeout if it is late, else because the socket is closed. (Later calls fail at once:
`C93_later_calls`.) -/
theorem C93_retried_or_given_up (D : Decompressors) (opts comp) (s0 s t : State) (h0 : Disconnected D opts comp s0) (acts : List Act)
    (hr : s0.run D acts = .ok s) (he : s.ended = false) (b : Backoff) (d : Nat) (hb : s.conn = .inactive b) (hd : b.deadline = some d)
    (hdue : d ≤ s.now) (e : Env) (o : Out) (hp : s.iter D e = .ok (t, o)) (hno : t.chans.length = s0.chans.length) :
    (timersRun s < 15 → o = .pending ∧ t.ended = false ∧ t.connTask = true ∧ timersRun t = timersRun s + 1 ∧
      t.tries = if s.connTask = true ∧ taskResult s.opts.token e.task = .ok none then s.tries else s.tries ++ [t.now]) ∧
    (timersRun s = 15 → o = .ended ∧ t.ended = true ∧ t.tries = s.tries ∧
      ∀ k, k < s.calls.length → (∀ r u, (k, r, u) ∉ s.done) → ∃ r u, (k, r, u) ∈ t.done ∧ (r = .timeout ∨ r = .closed)) := by
  have hst := run_steps acts s0 s hr
  have hit := iter_steps s t e o he hp
  have hle := chans_steps hit
  have hle' := chans_steps hst
  have hs : s.chans.length = s0.chans.length := by omega
  obtain ⟨ts, a1, a2, -, -, k5⟩ := (h0.retry.steps hst).lone hs
  obtain ⟨b0, b1, b2, b3, b4, b5⟩ := k5 he
  rw [hb] at b1
  cases b1
  obtain ⟨x, b', q1, q2, q3, q4, q5⟩ := iter_lone he hb hp (by omega)
  have hcnt : timersRun s = b.count := by simp [timersRun, hb]
  simp only [Backoff.poll, hd] at q1
  rcases Backoff.fire_spec (now := s.now) b2 hd with ⟨hlt, hf⟩ | ⟨-, hbig, hf⟩ | ⟨-, hc, y, hf⟩ | ⟨-, hc, y, hf, y1, y2, y3⟩
  · omega
  · rw [hf] at q1; cases q1
  · rw [hf] at q1
    cases q1
    refine ⟨fun hl => by omega, fun _ => ?_⟩
    rcases q5 with ⟨q, -⟩ | ⟨d, q, -⟩ | ⟨-, q6, q7, q8, -⟩
    · cases q
    · cases q
    · subst q6
      exact ⟨rfl, q8, q7, ((C36_end_resolves_all D opts comp s (req_reach_run h0.reach acts hr)).2 e t he hp).2⟩
  · rw [hf] at q1
    cases q1
    refine ⟨fun _ => ?_, fun hl => by omega⟩
    rcases q5 with ⟨q, -⟩ | ⟨d, -, q6, q7, q8, q9⟩ | ⟨q, -⟩
    · cases q
    · refine ⟨q6, q7, q8, by simp only [timersRun, q3, hb]; exact y2, ?_⟩
      rcases q9 with ⟨q, q'⟩ | ⟨q, q'⟩
      · rw [if_pos q]; exact q'
      · rw [if_neg q, q2]; exact q'
    · cases q

/-- C93: once the background task has ended, it stays so, and every call made from then on fails at once because the socket is closed. -/
theorem C93_later_calls (D : Decompressors) (opts comp) (s t u : State) (_h : ReqReach D opts comp s) (he : s.ended = true) (acts : List Act)
    (hr : s.run D acts = .ok t) (hopen : t.closed = false) (payload : Bytes) (hc : t.act D (.request payload) = .ok u) :
    t.ended = true ∧ t.tries = s.tries ∧ u.calls = t.calls ++ [{ payload, time := t.now }] ∧ u.done = t.done ++ [(t.calls.length, .closed, t.now)] := by
  have hx : t.ended = true ∧ t.tries = s.tries := by
    refine (run_steps acts s t hr).induct (P := fun v => v.ended = true ∧ v.tries = s.tries) ?_ ⟨he, rfl⟩
    rintro v w hs ⟨h1, h2⟩
    cases hs <;> simp_all
  refine ⟨hx.1, hx.2, ?_⟩
  simp only [State.act, hopen, Bool.false_eq_true, if_false, hx.1, if_true] at hc
  cases hc
  exact ⟨rfl, rfl⟩

/-- Attempts at 20 ms, 60 ms, 140 ms, …, each failing at once. -/
def failing (n : Nat) : List Act :=
  (List.range n).flatMap fun i => [.advance (20000000 * 2 ^ i), .iter {}, .iter { task := some none }]

/-- Whether a history of this socket leads to a state with this property. -/
def leads (acts : List Act) (p : State → Bool) : Bool :=
  match State.new {} none 7 with
  | .panic => false
  | .ok s0 => match s0.run ⟨some, some, some, some⟩ acts with
    | .panic => false
    | .ok s => p s

/-- A socket whose server is never there: one call is made; after 15 attempts nothing has been given up; when the last timer has run out,
the call fails and the task has ended. -/
example :
    leads (.iter {} :: .request [1] :: failing 15) (fun s => s.tries.length == 15 && s.tries.take 3 == [20000007, 60000007, 140000007] &&
      !s.ended && s.done == [] && s.chans.length == 0) = true ∧
    leads (.iter {} :: .request [1] :: failing 16) (fun s => s.tries.length == 15 && s.ended && s.done == [(0, .closed, 1310700000007)]) = true := by
  decide +kernel

/-- An attempt that takes long: the timers that run out meanwhile start no other (here 8 of them), and it may still succeed; but at the sixteenth the socket
gives up, attempt or not. -/
def hanging (n : Nat) : List Act :=
  (List.range n).flatMap fun i => [.advance (20000000 * 2 ^ i), .iter {}]

example :
    leads (.iter {} :: .request [1] :: hanging 8) (fun s => s.tries == [20000007] && s.connTask && timersRun s == 8) = true ∧
    leads (.iter {} :: .request [1] :: hanging 8 ++ [.iter { task := some (some ⟨[.pending], [], [], []⟩) }])
      (fun s => s.tries == [20000007] && !s.connTask && s.chans.length == 1 && !s.ended) = true ∧
    leads (.iter {} :: .request [1] :: hanging 16) (fun s => s.tries == [20000007] && s.ended && s.done == [(0, .closed, 1310700000007)]) = true := by
  decide +kernel

/-- A socket that has just lost its connection. -/
example (D : Decompressors) : ∃ s, Disconnected D {} none s ∧ s.chans.length = 1 ∧ s.tries = [20000000] :=
  ⟨_, .inr ⟨_, {}, _, ⟨0, _, [.iter {}, .advance 20000000, .iter {}, .iter { task := some (some ⟨[.pending, .err], [], [], []⟩) }], rfl, rfl⟩, rfl,
    rfl, Nat.lt_succ_self _⟩, rfl, rfl⟩

end MsgRs.Props
