import Verif.Proofs.ReqFlush
import Verif.Props.Rep
/-!
# Properties C31, C33, C35–C41, C70: the request socket

A history is a list of `Req.Act`: iterations of the driver's loop (each with the behaviour of the connection
and of the connection task during it), the clock moving, calls of `request()` and the drop of the socket.
Calls are numbered in the order they are made: `calls[k]` is call number `k` with its payload and time,
`done` the completed calls with result and time. `chans` are all connections so far; of each, `wr.wire` are the
bytes written, `input0` what it answers to reads.
-/
namespace MsgRs.Props
open MsgRs MsgRs.Req

/-- A state of a request socket some history leads to. -/
def ReqReach (D : Decompressors) (opts : Options) (comp : Option Compressor) (s : State) : Prop :=
  ∃ now s0 acts, State.new opts comp now = .ok s0 ∧ s0.run D acts = .ok s

theorem ReqReach.inv {D opts comp s} (h : ReqReach D opts comp s) : Req.Inv D s := by
  obtain ⟨now, s0, acts, h0, hr⟩ := h
  exact (run_steps acts s0 s hr).inv (new_inv h0)

theorem step_opts {D : Decompressors} {s t : State} (h : Step D s t) : t.opts = s.opts ∧ t.comp = s.comp := by
  cases h with
  | readItem c m rd input he hc hp =>
    unfold State.onMessage
    split
    · exact ⟨rfl, rfl⟩
    · simp only; split <;> exact ⟨rfl, rfl⟩
  | _ => exact ⟨rfl, rfl⟩

theorem ReqReach.opts {D opts comp s} (h : ReqReach D opts comp s) : s.opts = opts ∧ s.comp = comp := by
  obtain ⟨now, s0, acts, h0, hr⟩ := h
  obtain ⟨-, f, rfl⟩ := new_fields h0
  exact (run_steps acts _ s hr).induct (P := fun s => s.opts = opts ∧ s.comp = comp)
    (fun _ _ hs h => ⟨(step_opts hs).1.trans h.1, (step_opts hs).2.trans h.2⟩) ⟨rfl, rfl⟩

/-! ## Creation and panics -/

/-- Connecting panics exactly if the timeout is below 10 ns or the flush interval is zero; after that the
driver never panics, in any history. (Sums of instants are unbounded here; an interval so large that the clock
overflows panics in the real program, see C107.) -/
theorem C36_no_panic (D : Decompressors) (opts : Options) (comp : Option Compressor) (now : Nat) :
    (State.new opts comp now = .panic ↔ opts.timeout < 10 ∨ opts.flushInterval = some 0) ∧
    ∀ s0, State.new opts comp now = .ok s0 → ∀ acts, ∃ s, s0.run D acts = .ok s := by
  constructor
  · unfold State.new
    by_cases h : opts.timeout < 10
    · have : opts.timeout / 10 = 0 := by omega
      simp [Interval.new, this, h]
    · have : opts.timeout / 10 ≠ 0 := by omega
      simp only [Interval.new, this, if_false, R.bind_ok, h, false_or, R.pure_eq]
      cases hf : opts.flushInterval with
      | none => simp
      | some p =>
        by_cases hp : p = 0 <;> simp [hp]
  · intro s0 h0 acts
    obtain ⟨s, hs, -⟩ := Req.run_inv acts (new_inv (D := D) h0)
    exact ⟨s, hs⟩

/-! ## C33, C36: conservation of calls -/

theorem done_grows {D : Decompressors} {s t : State} (h : Step D s t) : s.done <+: t.done := by
  have term : ∀ s : State, s.done <+: s.terminate.done := fun s => by
    simp only [State.terminate, List.append_assoc]; exact List.prefix_append _ _
  cases h with
  | readItem c m rd input he hc hp =>
    unfold State.onMessage
    split
    · exact List.prefix_rfl
    · simp only; split <;> exact List.prefix_append _ _
  | giveUp b b' he hc hp => exact term { s with conn := .inactive b' }
  | readEnd c rd input he hc hp => exact term { s with conn := .active { c with rd, input, polls := c.polls + 1 } }
  | close => exact term s
  | tick => exact List.prefix_append _ _
  | command => exact List.prefix_append _ _
  | requestLate => exact List.prefix_append _ _
  | _ => exact List.prefix_rfl

/-- C33: in every reachable state every call made is in exactly one of three places, once: waiting for the
driver, pending, completed. -/
theorem C33_each_call_in_one_place (D : Decompressors) (opts comp) (s : State) (h : ReqReach D opts comp s) :
    (s.queue.map (·.1) ++ (s.pending.map (·.call) ++ s.done.map (·.1))).Perm (List.range s.calls.length) :=
  h.inv.calls.perm

/-- C33: so a call completes at most once, no call is forgotten, and only calls that were made complete. -/
theorem C33_at_most_once (D : Decompressors) (opts comp) (s : State) (h : ReqReach D opts comp s) :
    (s.done.map (·.1)).Nodup ∧ (∀ k r t, (k, r, t) ∈ s.done → k < s.calls.length) ∧
    ∀ k, k < s.calls.length →
      (∃ payload, (k, payload) ∈ s.queue) ∨ (∃ p ∈ s.pending, p.call = k) ∨ ∃ r t, (k, r, t) ∈ s.done := by
  have hp := h.inv.calls.perm
  have hn := (hp.nodup_iff).mpr List.nodup_range
  refine ⟨?_, ?_, ?_⟩
  · exact (List.nodup_append.mp (List.nodup_append.mp hn).2.1).2.1
  · intro k r t hk
    have : k ∈ List.range s.calls.length := hp.subset (by
      simp only [List.mem_append, List.mem_map]; exact .inr (.inr ⟨_, hk, rfl⟩))
    simpa using this
  · intro k hk
    have : k ∈ s.queue.map (·.1) ++ (s.pending.map (·.call) ++ s.done.map (·.1)) := hp.symm.subset (by simpa using hk)
    simp only [List.mem_append, List.mem_map] at this
    rcases this with ⟨⟨a, b⟩, h1, h2⟩ | ⟨p, h1, h2⟩ | ⟨⟨a, b, c⟩, h1, h2⟩
    · cases h2; exact .inl ⟨b, h1⟩
    · exact .inr (.inl ⟨p, h1, h2⟩)
    · cases h2; exact .inr (.inr ⟨b, c, h1⟩)

/-- C33: a result, once there, stays, whatever happens afterwards. -/
theorem C33_result_stays (D : Decompressors) (s t : State) (acts : List Act) (hr : s.run D acts = .ok t) :
    s.done <+: t.done :=
  (run_steps acts s t hr).induct (P := fun t => s.done <+: t.done) (fun _ _ hs h => h.trans (done_grows hs)) List.prefix_rfl

theorem tickLoop_done (n : Nat) (s : State) : ∃ more, (s.tickLoop n).done = s.done ++ more ∧ ∀ x ∈ more, x.2.1 = Res.timeout := by
  induction n generalizing s with
  | zero => exact ⟨[], by simp [State.tickLoop], by simp⟩
  | succ n ih =>
    unfold State.tickLoop
    split
    · rename_i iv hq
      obtain ⟨more, h1, h2⟩ := ih ({ s with checkIv := iv }.checkTimeouts)
      rw [h1]
      refine ⟨((s.pending.filter fun p => decide (s.now - p.start > s.opts.timeout)).map fun p => (p.call, Res.timeout, s.now)) ++ more, ?_, ?_⟩
      · simp [State.checkTimeouts]
      · intro x hx
        simp only [List.mem_append, List.mem_map] at hx
        rcases hx with ⟨p, -, rfl⟩ | hx
        · rfl
        · exact h2 x hx
    · exact ⟨[], by simp, by simp⟩

theorem flushStep_done (s : State) (e : Env) : (s.flushStep e).done = s.done := by
  unfold State.flushStep
  have hw : ∀ b t, s.wantFlush = (b, t) → t.done = s.done := by
    intro b t h
    unfold State.wantFlush at h
    repeat' split at h
    all_goals cases h; rfl
  rcases hq : s.wantFlush with ⟨b, t⟩
  have := hw b t hq
  repeat' split
  all_goals (rename_i h; first | (cases h; simpa using this) | skip)
  all_goals simp_all

theorem taskStep_done (s t : State) (e : Env) (h : s.taskStep e = .ok t) : t.done = s.done := by
  unfold State.taskStep at h
  split at h
  · cases hr : taskResult s.opts.token e.task with
    | panic => rw [hr] at h; cases h
    | ok r =>
      rw [hr] at h
      simp only [R.bind_ok, R.pure_eq] at h
      rcases r with _ | (_ | ⟨via, input⟩) <;> cases h <;> rfl
  · cases h; rfl

theorem iter_ended_done {D : Decompressors} {s t : State} {e : Env} (h : s.iter D e = .ok (t, .ended)) :
    t.ended = true ∧ ∃ more, t.done = s.done ++ more ∧ ∀ x ∈ more, x.2.1 = Res.timeout ∨ x.2.1 = Res.closed := by
  have term : ∀ u : State, ∃ more, u.terminate.done = u.done ++ more ∧ ∀ x ∈ more, x.2.1 = Res.timeout ∨ x.2.1 = Res.closed := by
    intro u
    refine ⟨(u.pending.map fun p => (p.call, Res.closed, u.now)) ++ (u.queue.map fun c => (c.1, Res.closed, u.now)),
      by simp only [State.terminate, List.append_assoc], ?_⟩
    intro x hx
    simp only [List.mem_append, List.mem_map] at hx
    rcases hx with ⟨p, -, rfl⟩ | ⟨p, -, rfl⟩ <;> exact .inr rfl
  unfold State.iter at h
  cases hu : (s.flushStep e).taskStep e with
  | panic => rw [hu] at h; cases h
  | ok u =>
    rw [hu] at h
    simp only [R.bind_ok, R.pure_eq] at h
    have hd : u.done = s.done := (taskStep_done _ u e hu).trans (flushStep_done s e)
    rw [← hd]
    have late : ∀ c, u.lateStep e c = (t, .ended) →
        t.ended = true ∧ ∃ more, t.done = u.done ++ more ∧ ∀ x ∈ more, x.2.1 = Res.timeout ∨ x.2.1 = Res.closed := by
      intro c hl
      unfold State.lateStep at hl
      simp only at hl
      obtain ⟨m1, h1, h2⟩ := tickLoop_done (u.now + 1) { u with conn := .active c }
      generalize { u with conn := .active c }.tickLoop (u.now + 1) = v at *
      cases hq : v.queue with
      | cons x q => simp only [hq] at hl; cases hl
      | nil =>
        simp only [hq] at hl
        split at hl
        · rcases hw : c.wr.flush e.closeAns with ⟨o, wr⟩
          rw [hw] at hl
          have : o ≠ .pending → t = ({ v with conn := .active { c with wr }, queue := [] } : State).terminate := by
            intro ho; cases o with
            | pending => exact absurd rfl ho
            | ok => cases hl; rfl
            | err => cases hl; rfl
          have ho : o ≠ .pending := by rintro rfl; cases hl
          rw [this ho]
          refine ⟨rfl, ?_⟩
          obtain ⟨m2, h3, h4⟩ := term { v with conn := .active { c with wr }, queue := [] }
          refine ⟨m1 ++ m2, ?_, ?_⟩
          · rw [h3]; simp only; rw [h1]; simp
          · intro x hx
            rw [List.mem_append] at hx
            rcases hx with hx | hx
            · exact .inl (h2 x hx)
            · exact h4 x hx
        · cases hl
    cases hcn : u.conn with
    | inactive b =>
      simp only [hcn] at h
      cases hb : b.poll u.now with
      | panic => rw [hb] at h; cases h
      | ok r =>
        obtain ⟨x, b'⟩ := r
        rw [hb] at h
        simp only [R.bind_ok] at h
        cases x with
        | pending => cases h
        | item d => cases h
        | ended => cases h; exact ⟨rfl, term { u with conn := .inactive b' }⟩
    | active c =>
      simp only [hcn] at h
      cases hp : c.rd.pollNext ReqRep.codec c.input with
      | panic => rw [hp] at h; cases h
      | ok r =>
        obtain ⟨x, rd, input⟩ := r
        rw [hp] at h
        simp only [R.bind_ok] at h
        cases x with
        | item m => cases h
        | err x => cases h
        | ended => cases h; exact ⟨rfl, term { u with conn := .active { c with rd, input, polls := c.polls + 1 } }⟩
        | pending =>
          simp only [R.ok.injEq] at h
          unfold State.writeStep at h
          simp only at h
          split at h
          · exact late _ h
          · exact late _ h
          · cases h

/-- C36: in a reachable state in which the driver is gone, every call made so far has completed; and the
iteration in which it ends (connection closed by the server, backoff exhausted, socket dropped) completes every
call still outstanding with an error. -/
theorem C36_end_resolves_all (D : Decompressors) (opts comp) (s : State) (h : ReqReach D opts comp s) :
    (s.ended = true → ∀ k, k < s.calls.length → ∃ r t, (k, r, t) ∈ s.done) ∧
    ∀ e t, s.ended = false → s.iter D e = .ok (t, .ended) →
      t.ended = true ∧ ∀ k, k < s.calls.length → (∀ r u, (k, r, u) ∉ s.done) →
        ∃ r u, (k, r, u) ∈ t.done ∧ (r = .timeout ∨ r = .closed) := by
  have hi := h.inv
  have key : ∀ s : State, Req.Inv D s → s.ended = true → ∀ k, k < s.calls.length → ∃ r t, (k, r, t) ∈ s.done := by
    intro s hi he k hk
    obtain ⟨hq, hp⟩ := hi.calls.over he
    have := hi.calls.perm
    rw [hq, hp] at this
    have hm : k ∈ s.done.map (·.1) := this.symm.subset (by simpa using hk)
    obtain ⟨⟨a, b, c⟩, h1, rfl⟩ := List.mem_map.mp hm
    exact ⟨b, c, h1⟩
  refine ⟨key s hi, ?_⟩
  intro e t he hit
  obtain ⟨h1, more, h2, h3⟩ := iter_ended_done hit
  refine ⟨h1, fun k hk hno => ?_⟩
  have hst := iter_steps s t e _ he hit
  have hcl : s.calls.length ≤ t.calls.length := by
    refine hst.induct (P := fun t => s.calls.length ≤ t.calls.length) (fun a b hs hle => Nat.le_trans hle ?_) (Nat.le_refl _)
    cases hs with
    | readItem c m rd input he hc hp =>
      unfold State.onMessage
      split
      · exact Nat.le_refl _
      · simp only; split <;> exact Nat.le_refl _
    | request => simp
    | requestLate => simp
    | _ => exact Nat.le_refl _
  obtain ⟨r, u, hru⟩ := key t (hst.inv hi) h1 k (by omega)
  refine ⟨r, u, hru, ?_⟩
  rw [h2, List.mem_append] at hru
  rcases hru with hru | hru
  · exact absurd hru (hno r u)
  · exact h3 _ hru

/-- Three calls; the first is answered, the second pending and the third not yet received when the server
closes the connection. -/
example (D : Decompressors) : ∃ s0 s, State.new {} none 0 = .ok s0 ∧
    s0.run D [.iter {}, .request [1], .advance 20000000, .iter {},
      .iter { task := some (some ⟨[.pending, .pending, .pending, .pending, .data (reqBytes 0 [9]), .pending, .data []], [], [], []⟩) },
      .iter {}, .request [2], .iter {}, .iter {}, .request [3], .iter {}, .iter {}, .iter {}] = .ok s ∧
    s.ended = true ∧ s.done = [(0, .ok [9], 20000000), (1, .closed, 20000000), (2, .closed, 20000000)] :=
  ⟨_, _, rfl, rfl, rfl, rfl⟩

/-! ## C35: timeouts -/

/-- C35: a call never fails with a timeout before the timeout has passed. -/
theorem C35_never_early (D : Decompressors) (opts comp) (s : State) (h : ReqReach D opts comp s) (k t : Nat)
    (hd : (k, Res.timeout, t) ∈ s.done) : ∃ call, s.calls[k]? = some call ∧ call.time + opts.timeout < t ∧ t ≤ s.now := by
  obtain ⟨call, h1, h2⟩ := h.inv.calls.late k t hd
  rw [h.opts.1] at h2
  exact ⟨call, h1, h2, h.inv.calls.doneAt _ hd⟩

/-- The calls before number `n` were received by time `T`. -/
def ReceivedBy (n T : Nat) (s : State) : Prop :=
  (∀ p ∈ s.pending, p.call < n → p.start ≤ T) ∧ (∀ x ∈ s.queue, n ≤ x.1) ∧ n ≤ s.calls.length

theorem receivedBy_step {D : Decompressors} {n T : Nat} {s t : State} (hs : Step D s t) (h : ReceivedBy n T s) : ReceivedBy n T t := by
  obtain ⟨h1, h2, h3⟩ := h
  cases hs with
  | readItem c m rd input he hc hp =>
    unfold State.onMessage
    split
    · exact ⟨h1, h2, h3⟩
    · simp only
      split
      · exact ⟨fun p hp => h1 p (List.mem_filter.mp hp).1, h2, h3⟩
      · exact ⟨fun p hp => h1 p (List.mem_filter.mp hp).1, h2, h3⟩
  | giveUp | readEnd | close => exact ⟨by simp [State.terminate], by simp [State.terminate], h3⟩
  | tick => exact ⟨fun p hp => h1 p (List.mem_filter.mp hp).1, h2, h3⟩
  | command k payload q he hq =>
    rw [hq] at h2
    refine ⟨?_, fun x hx => h2 x (List.mem_cons_of_mem _ hx), h3⟩
    intro p hp hk
    simp only [State.onCommand, List.mem_append, List.mem_singleton] at hp
    rcases hp with hp | rfl
    · exact h1 p (List.mem_filter.mp hp).1 hk
    · have := h2 (k, payload) (by simp)
      simp only at this hk
      omega
  | request payload he hc =>
    refine ⟨h1, ?_, by simp only [List.length_append]; omega⟩
    intro x hx
    simp only [List.mem_append, List.mem_singleton] at hx
    rcases hx with hx | rfl
    · exact h2 x hx
    · exact h3
  | requestLate => exact ⟨h1, h2, by simp only [List.length_append]; omega⟩
  | _ => exact ⟨h1, h2, h3⟩

/-- C35 (partial): take a moment after a call at which the driver has finished a poll (returned `Pending`) with an
established connection, and a later such moment, at least timeout plus one check interval after the first. By
then the call has completed (with a response, a timeout or another error), whatever happened in between.
Missing: while the socket is not connected the driver does not look at the timeouts
(`C35_unconnected_refuted`). -/
theorem C35_prompt_partial (D : Decompressors) (opts comp) (s s1 t t1 : State) (e e' : Env) (acts : List Act) (c c' : Chan)
    (h : ReqReach D opts comp s) (he : s.ended = false)
    (h1 : s.iter D e = .ok (s1, .pending)) (hc : s1.conn = .active c)
    (hr : s1.run D acts = .ok t) (ht : t.ended = false)
    (h2 : t.iter D e' = .ok (t1, .pending)) (hc' : t1.conn = .active c')
    (hnow : s1.now + opts.timeout + opts.timeout / 10 ≤ t1.now) :
    ∀ k, k < s1.calls.length → ∃ r u, (k, r, u) ∈ t1.done := by
  have hi := h.inv
  have hst := iter_steps s s1 e _ he h1
  have hi1 := hst.inv hi
  obtain ⟨hq, -⟩ := iter_pending hi he h1 hc
  have hrb : ReceivedBy s1.calls.length s1.now s1 := by
    refine ⟨?_, by simp [hq], Nat.le_refl _⟩
    intro p hp _
    obtain ⟨-, -, -, call, -, -, h⟩ := hi1.calls.pend p hp
    exact h
  have hst2 : Steps D s1 t1 := (run_steps acts s1 t hr).trans (iter_steps t t1 e' _ ht h2)
  have hrb1 := hst2.induct (P := ReceivedBy s1.calls.length s1.now) (fun _ _ hs h => receivedBy_step hs h) hrb
  have hit1 := hst2.inv hi1
  obtain ⟨hq1, hn1⟩ := iter_pending ((run_steps acts s1 t hr).inv hi1) ht h2 hc'
  have hopts : t1.opts = opts := by
    have := (hst.trans hst2).induct (P := fun s => s.opts = opts) (fun _ _ hs h => (step_opts hs).1.trans h) h.opts.1
    exact this
  intro k hk
  have hmem : k ∈ t1.queue.map (·.1) ++ (t1.pending.map (·.call) ++ t1.done.map (·.1)) :=
    hit1.calls.perm.symm.subset (by have := hrb1.2.2; simp only [List.mem_range]; omega)
  simp only [hq1, List.map_nil, List.nil_append, List.mem_append, List.mem_map] at hmem
  rcases hmem with ⟨p, hp, rfl⟩ | ⟨⟨a, b, c⟩, hd, rfl⟩
  · exfalso
    have a1 := hrb1.1 p hp hk
    have a2 := hit1.timely.young p hp
    rw [hit1.timely.period, hopts] at a2
    omega
  · exact ⟨b, c, hd⟩

/-- A call that is never answered: timeout 100 ms, so checks every 10 ms. -/
example (D : Decompressors) : ∃ s0 s, State.new { timeout := 100000000 } none 0 = .ok s0 ∧
    s0.run D [.iter {}, .advance 20000000, .iter {}, .iter { task := some (some ⟨[], [], [], []⟩) }] = .ok s ∧
    ∃ s1 c t1 t2 c', s.run D [.request [1], .iter {}, .iter {}] = .ok s1 ∧ s1.iter D {} = .ok (t1, .pending) ∧
      t1.conn = .active c ∧ t1.done = [] ∧
      (t1.run D [.advance 100000000, .iter {}, .advance 10000000]).bind (·.iter D {}) = .ok (t2, .pending) ∧
      t2.conn = .active c' ∧ t2.done = [(0, .timeout, 130000000)] :=
  ⟨_, _, rfl, rfl, _, _, _, _, _, rfl, rfl, rfl, rfl, rfl, rfl, rfl⟩

/-- C35 (refuted as stated): with the default timeout of 5 s and a server that refuses connections, a call
made at the start has no result after 10 s. -/
theorem C35_unconnected_refuted (D : Decompressors) : ∃ s0 s, State.new {} none 0 = .ok s0 ∧
    s0.run D (.request [1] :: .iter {} :: [20, 40, 80, 160, 320, 640, 1280, 2560, 5120].flatMap fun ms =>
      [.advance (ms * 1000000), .iter {}, .iter { task := some none }]) = .ok s ∧
    s.now = 10220000000 ∧ s.ended = false ∧ s.done = [] ∧ s.calls = [⟨[1], 0⟩] :=
  ⟨_, _, rfl, rfl, rfl, rfl, rfl, rfl⟩

/-! ## C31 -/

/-- C31 for the request socket: with a token, every connection that was ever used for requests was established
by a handshake in which the client sent its authentication message and the first two bytes the server sent
were an Ack. -/
theorem C31_request_socket (D : Decompressors) (opts comp) (s : State) (h : ReqReach D opts comp s) (tok : Bytes)
    (ht : opts.token = some tok) (c : Chan) (hc : c ∈ s.chans) :
    ∃ wire lost pre a, hsClient tok c.via = .accepted tok wire c.input0 lost ∧ wire = Spec.authBytes tok ∧
      c.via.reads = pre ++ c.input0 ∧ a ≠ 0 ∧ dataOf pre = 1 :: a :: lost := by
  rcases (h.inv.chans.chan c hc).via with ⟨hn, -⟩ | ⟨tok', id, wire, lost, htok, hacc⟩
  · rw [h.opts.1, ht] at hn; cases hn
  · rw [h.opts.1, ht] at htok
    cases htok
    have := C31_client_needs_ack tok c.via
    rw [hacc] at this
    obtain ⟨rfl, h2, pre, a, h3, h4, h5⟩ := this
    exact ⟨wire, lost, pre, a, hacc, h2, h3, h4, h5⟩

/-- C62 for the request socket: with a token, if the server sends nothing but its Ack before the client's first
request, the reply codec of every connection reads exactly what the server sent after the Ack. -/
theorem C62_request_socket (D : Decompressors) (opts comp) (s : State) (h : ReqReach D opts comp s) (tok : Bytes)
    (ht : opts.token = some tok) (c : Chan) (hc : c ∈ s.chans)
    (hfollow : ∀ pre, c.via.reads = pre ++ c.input0 → dataOf pre <+: [1, 1]) :
    dataOf c.via.reads = [1, 1] ++ dataOf c.input0 := by
  obtain ⟨wire, lost, -, -, h1, -⟩ := C31_request_socket D opts comp s h tok ht c hc
  exact (C62_client_switch tok c.via tok wire c.input0 lost h1 hfollow).2

/-- C62, without token: the reply codec reads everything the connection delivers. -/
theorem C62_request_socket_no_auth (D : Decompressors) (opts comp) (s : State) (h : ReqReach D opts comp s)
    (ht : opts.token = none) (c : Chan) (hc : c ∈ s.chans) : c.input0 = c.via.reads := by
  rcases (h.inv.chans.chan c hc).via with ⟨-, hr⟩ | ⟨tok', id, wire, lost, htok, hacc⟩
  · exact hr
  · rw [h.opts.1, ht] at htok; cases htok

/-! ## C38 -/

/-- C38 (refuted): with a backoff duration of 1 s and one retry attempt, the first connection attempt starts
after 20 ms, a second one 40 ms after its failure, and a third one 80 ms later. -/
theorem C38_options_ignored_refuted (D : Decompressors) :
    let opts : Options := { backoffDuration := 1000000000, retryAttempts := some 1 }
    let fail : Act := .iter { task := some none }
    ∃ s0 s1 s2 s3, State.new opts none 0 = .ok s0 ∧
      s0.run D [.iter {}, .advance 20000000, .iter {}] = .ok s1 ∧ s1.connTask = true ∧
      s1.run D [fail, .advance 40000000, .iter {}] = .ok s2 ∧ s2.connTask = true ∧
      s2.run D [fail, .advance 80000000, .iter {}] = .ok s3 ∧ s3.connTask = true ∧ s3.now = 140000000 :=
  ⟨_, _, _, _, rfl, rfl, rfl, rfl, rfl, rfl, rfl, rfl⟩

/-- What happens instead (C38, partial): whatever the options, while the socket is not connected the number of
attempts made since the connection was lost is below 16 and the current delay is 20 ms doubled that many times.
Missing: that the options asked for are used (`C38_options_ignored_refuted`). -/
theorem C38_fixed_schedule_partial (D : Decompressors) (opts comp) (s : State) (h : ReqReach D opts comp s)
    (he : s.ended = false) (b : Backoff) (hb : s.conn = .inactive b) :
    b.max = 16 ∧ b.count < 16 ∧ b.cur = 20000000 * 2 ^ b.count := by
  have := (h.inv.back he).1 b hb
  exact ⟨this.lim, by rcases this.more with h | h <;> omega, this.cur⟩

/-! ## C39 -/

/-- C39 (refuted as stated): when the server closes an idle connection, the driver ends; a later call fails
although the server is reachable. -/
theorem C39_clean_close_refuted (D : Decompressors) : ∃ s0 s, State.new {} none 0 = .ok s0 ∧
    s0.run D [.iter {}, .advance 20000000, .iter {},
      .iter { task := some (some ⟨[.pending, .data []], [], [], []⟩) }, .iter {},
      .request [1], .iter { task := some (some ⟨[], [], [], []⟩) }] = .ok s ∧
    s.ended = true ∧ s.done = [(0, .closed, 20000000)] ∧ s.chans.map (·.sent) = [[]] :=
  ⟨_, _, rfl, rfl, rfl, rfl, rfl⟩

/-- The state without the parts that flushing changes. -/
theorem flushStep_same (s : State) (e : Env) : (s.flushStep e).egress = s.egress ∧ (s.flushStep e).pending = s.pending ∧
    (s.flushStep e).queue = s.queue ∧ (s.flushStep e).connTask = s.connTask ∧ (s.flushStep e).calls = s.calls ∧
    (s.flushStep e).opts = s.opts ∧
    (∀ b, s.conn = .inactive b → (s.flushStep e).conn = .inactive b) ∧
    (∀ c, s.conn = .active c → ∃ wr, (s.flushStep e).conn = .active { c with wr }) := by
  have hw : ∀ b t, s.wantFlush = (b, t) → ∃ f, t = { s with flushIv := f } := by
    intro b t h
    unfold State.wantFlush at h
    split at h
    · split at h
      · rename_i iv hiv
        rcases hi : iv.tick s.now with ⟨r, iv'⟩
        rw [hi] at h; cases h; exact ⟨some iv', rfl⟩
      · cases h; exact ⟨s.flushIv, rfl⟩
    · cases h; exact ⟨_, rfl⟩
  unfold State.flushStep
  rcases hq : s.wantFlush with ⟨b, t⟩
  obtain ⟨f, ht⟩ := hw b t hq
  cases b with
  | false => subst ht; exact ⟨rfl, rfl, rfl, rfl, rfl, rfl, fun _ h => h, fun c h => ⟨c.wr, h⟩⟩
  | true =>
    have hcn : t.conn = s.conn := by rw [ht]
    simp only
    cases hc : s.conn with
    | inactive b =>
      rw [hcn, hc]
      subst ht
      refine ⟨rfl, rfl, rfl, rfl, rfl, rfl, fun _ h => ?_, fun c h => by cases h⟩
      simp only; rw [hc]; exact h
    | active c =>
      rw [hcn, hc]
      simp only
      rcases hf : c.wr.flush e.flushAns with ⟨o, wr⟩
      subst ht
      cases o with
      | pending => exact ⟨rfl, rfl, rfl, rfl, rfl, rfl, (fun b h => by cases h), (fun c' h => by cases h; exact ⟨wr, rfl⟩)⟩
      | ok => exact ⟨rfl, rfl, rfl, rfl, rfl, rfl, (fun b h => by cases h), (fun c' h => by cases h; exact ⟨wr, rfl⟩)⟩
      | err => exact ⟨rfl, rfl, rfl, rfl, rfl, rfl, (fun b h => by cases h), (fun c' h => by cases h; exact ⟨wr, rfl⟩)⟩

/-- An idle iteration of a driver that is not connected and has no connection task. -/
theorem iter_inactive {D : Decompressors} (s : State) (e : Env) (b : Backoff) (hc : s.conn = .inactive b)
    (ht : taskResult s.opts.token e.task = .ok none ∨ s.connTask = false) (o : BOut) (b' : Backoff)
    (hb : b.poll s.now = .ok (o, b')) (ho : o ≠ .ended) :
    ∃ t, s.iter D e = .ok (t, .pending) ∧ t.conn = .inactive b' ∧ t.now = s.now ∧ t.egress = s.egress ∧
      t.pending = s.pending ∧ t.queue = s.queue ∧ t.ended = s.ended ∧ t.opts = s.opts ∧ t.calls = s.calls ∧
      t.done = s.done ∧ t.connTask = (if o = .pending then s.connTask else true) := by
  obtain ⟨h1, h2, h3, h4, h5, h6, h7, -⟩ := flushStep_same s e
  obtain ⟨h8, h9⟩ := flushStep_ended s e
  have h10 := flushStep_done s e
  have htask : (s.flushStep e).taskStep e = .ok (s.flushStep e) := by
    unfold State.taskStep
    rw [h4, h6]
    rcases ht with ht | ht
    · rw [ht]; simp
    · simp [ht]
  unfold State.iter
  rw [htask]
  simp only [R.bind_ok, h7 b hc]
  rw [h9, hb]
  simp only [R.bind_ok, R.pure_eq]
  cases o with
  | pending => exact ⟨_, rfl, rfl, rfl, h1, h2, h3, h8, h6, h5, h10, by simp [h4]⟩
  | item d => simp only [State.retry_eq]; exact ⟨_, rfl, rfl, rfl, h1, h2, h3, h8, h6, h5, h10, by simp⟩
  | ended => exact absurd rfl ho

theorem backoff_fires (b : Backoff) (now t : Nat) (hd : b.deadline = some t) (ht : t ≤ now)
    (hm : ¬ Duration.max < b.cur * 2) (hc : ¬ b.max ≤ b.count + 1) :
    b.poll now = .ok (.item (b.cur * 2),
      { b with cur := b.cur * 2, count := b.count + 1, deadline := some (now + b.cur * 2) }) := by
  unfold Backoff.poll
  rw [hd]
  simp only [Backoff.fire]
  rw [if_pos ht, if_neg hm, if_neg hc]

theorem taskStep_connected (s : State) (e : Env) (b : Backoff) (hs : HsEnv) (input : List ReadAns) (ht : s.connTask = true)
    (hc : s.conn = .inactive b) (hr : taskResult s.opts.token e.task = .ok (some (some (hs, input)))) :
    s.taskStep e = .ok { s with connTask := false, conn := .active (Chan.new s.opts.boundary hs input), past := s.past } := by
  unfold State.taskStep
  rw [if_pos ht, hr, hc]
  rfl

theorem iter_pending_read {D : Decompressors} (s t : State) (e : Env) (c : Chan) (rd : Reader ReqRep.State) (input : List ReadAns)
    (ht : (s.flushStep e).taskStep e = .ok t) (hc : t.conn = .active c)
    (hp : c.rd.pollNext ReqRep.codec c.input = .ok (.pending, rd, input)) :
    s.iter D e = .ok (t.writeStep e { c with rd, input, polls := c.polls + 1 }) := by
  unfold State.iter
  rw [ht]
  simp only [R.bind_ok]
  rw [hc]
  simp only [hp, R.bind_ok, R.pure_eq]

theorem iter_connected {D : Decompressors} (s : State) (e : Env) (b : Backoff) (hs : HsEnv) (ht : s.connTask = true)
    (hc : s.conn = .inactive b) (hr : taskResult s.opts.token e.task = .ok (some (some (hs, [])))) :
    ∃ v : State, v.ended = s.ended ∧ v.egress = s.egress ∧ v.pending = s.pending ∧
      s.iter D e = .ok (v.writeStep e { Chan.new s.opts.boundary hs [] with polls := 1 }) := by
  obtain ⟨k1, k2, k3, k4, k5, k6, k7, -⟩ := flushStep_same s e
  obtain ⟨k8, k9⟩ := flushStep_ended s e
  have h := taskStep_connected (s.flushStep e) e _ hs [] (k4.trans ht) (k7 _ hc) (by rw [k6]; exact hr)
  have hp : ((Chan.new (s.flushStep e).opts.boundary hs []).rd.pollNext ReqRep.codec []) = .ok (.pending, Reader.new ReqRep.codec, []) := rfl
  have := iter_pending_read (D := D) s _ e _ _ _ h rfl hp
  rw [k6] at this
  exact ⟨{ (s.flushStep e) with opts := s.opts, connTask := false, conn := .active (Chan.new s.opts.boundary hs []) },
    k8, k1, k2, this⟩

/-- C39 (partial): when a read from the connection fails (or the peer sends something that is not a frame), the
driver drops the connection and keeps the requests not yet written, the pending and the unreceived ones; 20 ms
later it starts a connection attempt. If that succeeds (and the new connection does not produce input at
once), the socket is connected again and, if requests were waiting, the first of them is handed to the new
connection. Missing: after a clean close by the server the driver ends (`C39_clean_close_refuted`). -/
theorem C39_error_recovers_partial (D : Decompressors) (opts comp) (s : State) (h : ReqReach D opts comp s)
    (he : s.ended = false) (c : Chan) (hc : s.conn = .active c) (x : ReqRep.Err) (rd : Reader ReqRep.State)
    (input : List ReadAns) (hx : c.rd.pollNext ReqRep.codec c.input = .ok (.err x, rd, input)) (e : Env) (hs : HsEnv)
    (hok : taskResult opts.token (some (some hs)) = .ok (some (some (hs, []))))  (hbd : 0 < opts.boundary) :
    ∃ t1 t2, s.run D [.iter e, .iter {}, .advance 20000000, .iter {}] = .ok t1 ∧
      t1.ended = false ∧ t1.connTask = true ∧ t1.egress = s.egress ∧ t1.pending = s.pending ∧ t1.queue = s.queue ∧
      t1.done = s.done ∧
      t1.run D [.iter { task := some (some hs) }] = .ok t2 ∧ t2.ended = false ∧
      ∃ c', t2.conn = .active c' ∧ c'.input0 = [] ∧
        ∀ k m rest, s.egress = (k, m) :: rest →
          c'.sent = [(k, m)] ∧ c'.wr.buf = ReqRep.encode m ∧ t2.egress = rest ∧ t2.pending = s.pending := by
  have hi := h.inv
  -- the failing read
  obtain ⟨h1, h2, h3, h4, h5, h6, -, h7⟩ := flushStep_same s e
  obtain ⟨h8, h9⟩ := flushStep_ended s e
  obtain ⟨wr, hwr⟩ := h7 c hc
  have hnt : s.connTask = false := by
    cases hb : s.connTask with
    | false => rfl
    | true =>
      obtain ⟨b, hb⟩ := (hi.back he).2 hb
      rw [hc] at hb; cases hb
  have htask : (s.flushStep e).taskStep e = .ok (s.flushStep e) := by
    unfold State.taskStep; rw [h4, hnt]; simp
  obtain ⟨u1, hu1, hu1c, hu1n, hu1e, hu1p, hu1q, hu1x, hu1o, hu1d, hu1t⟩ :
      ∃ t, s.act D (.iter e) = .ok t ∧ t.conn = .inactive backoff0 ∧ t.now = s.now ∧ t.egress = s.egress ∧
      t.pending = s.pending ∧ t.queue = s.queue ∧ t.ended = false ∧ t.opts = s.opts ∧ t.done = s.done ∧
      t.connTask = false := by
    unfold State.act
    simp only [he, Bool.false_eq_true, if_false, State.iter, htask, R.bind_ok, hwr, hx, R.pure_eq]
    exact ⟨_, rfl, rfl, h9, h1, h2, h3, h8.trans he, h6, flushStep_done s e, h4.trans hnt⟩
  -- the timer is set
  have hb1 : backoff0.poll u1.now = .ok (.pending, { backoff0 with deadline := some (u1.now + 20000000) }) := by
    simp only [Backoff.poll, Backoff.fire, backoff0, Backoff.new, R.bind_ok]
    simp
    intro hlt
    omega
  obtain ⟨u2, hu2, hu2c, hu2n, hu2e, hu2p, hu2q, hu2x, hu2o, -, hu2d, hu2t⟩ :=
    iter_inactive (D := D) u1 {} backoff0 hu1c (.inr hu1t) _ _ hb1 (by simp)
  have ha2 : u1.act D (.iter {}) = .ok u2 := by
    unfold State.act; simp only [hu1x, Bool.false_eq_true, if_false, hu2, R.bind_ok, R.pure_eq]
  -- it expires
  have hb2 := backoff_fires { backoff0 with deadline := some (u1.now + 20000000) } (u2.now + 20000000) _ rfl
    (by rw [hu2n]; exact Nat.le_refl _) (by show ¬ Duration.max < backoff0.cur * 2; decide) (by show ¬ backoff0.max ≤ backoff0.count + 1; decide)
  obtain ⟨u3, hu3, hu3c, hu3n, hu3e, hu3p, hu3q, hu3x, hu3o, -, hu3d, hu3t⟩ :=
    iter_inactive (D := D) { u2 with now := u2.now + 20000000 } {} _ hu2c (.inr (by rw [hu2t, if_pos rfl]; exact hu1t)) _ _ hb2 (by simp)
  have ha3 : ({ u2 with now := u2.now + 20000000 } : State).act D (.iter {}) = .ok u3 := by
    have hend2 : u2.ended = false := hu2x.trans hu1x
    unfold State.act
    simp only
    rw [if_neg (by rw [hend2]; decide), hu3]
    rfl
  simp only at hu3n hu3e hu3p hu3q hu3x hu3o hu3d hu3t
  -- the connection is established
  let e4 : Env := { task := some (some hs) }
  have hu3t' : u3.connTask = true := by simpa using hu3t
  have hopts3 : u3.opts = opts := by rw [hu3o, hu2o, hu1o, h.opts.1]
  have hend3 : u3.ended = false := by rw [hu3x, hu2x, hu1x]
  obtain ⟨v, v1, v2, v3, hv⟩ := iter_connected (D := D) u3 e4 _ hs hu3t' hu3c (by rw [hopts3]; exact hok)
  rw [hopts3] at hv
  rcases hw : v.writeStep e4 { Chan.new opts.boundary hs [] with polls := 1 } with ⟨t2, o⟩
  rw [hw] at hv
  refine ⟨u3, t2, ?_, hend3, hu3t', by rw [hu3e, hu2e, hu1e], by rw [hu3p, hu2p, hu1p], by rw [hu3q, hu2q, hu1q],
    by rw [hu3d, hu2d, hu1d], ?_, ?_⟩
  · simp only [State.run, hu1, R.bind_ok, ha2]
    have : u2.act D (.advance 20000000) = .ok { u2 with now := u2.now + 20000000 } := rfl
    rw [this]
    simp only [R.bind_ok, ha3]
  · simp only [State.run, State.act, hend3, Bool.false_eq_true, if_false]
    show (do let (s, _) ← u3.iter D e4; pure s : R State).bind _ = _
    rw [hv]; rfl
  · unfold State.writeStep at hw
    have hready : ({ Chan.new opts.boundary hs [] with polls := 1 } : Chan).wr.ready e4.readyAns =
        (.ok, { boundary := opts.boundary }) := by
      simp only [Chan.new, Writer.ready, List.length_nil]
      exact if_neg (by omega)
    rw [hready] at hw
    have heg : v.egress = s.egress := by rw [v2, hu3e, hu2e, hu1e]
    have hpe : v.pending = s.pending := by rw [v3, hu3p, hu2p, hu1p]
    have hve : v.ended = false := v1.trans hend3
    cases hg : s.egress with
    | cons y ms =>
      obtain ⟨k, m⟩ := y
      rw [heg, hg] at hw
      simp only [Prod.mk.injEq] at hw
      rw [← hw.1]
      refine ⟨hve, _, rfl, rfl, ?_⟩
      intro k' m' rest he
      cases he
      exact ⟨rfl, by simp [Writer.send], rfl, hpe⟩
    | nil =>
      rw [heg, hg] at hw
      simp only at hw
      unfold State.lateStep at hw
      simp only at hw
      obtain ⟨-, q1, q2, q3, q4, -⟩ := tickLoop_steps (D := D) (v.now + 1)
        { v with conn := .active { Chan.new opts.boundary hs [] with polls := 1, wr := { boundary := opts.boundary } } } hve
      generalize hT : State.tickLoop _ _ = T at q1 q2 q3 q4 hw
      cases hq : T.queue with
      | cons x q =>
        obtain ⟨k, payload⟩ := x
        rw [hq] at hw
        simp only [Prod.mk.injEq] at hw
        rw [← hw.1]
        exact ⟨q1, _, q2, rfl, (fun k m rest h => by cases h)⟩
      | nil =>
        rw [hq] at hw
        simp only at hw
        split at hw
        · have : ∀ w : Writer, w.flush e4.closeAns = (.pending, w) := fun _ => rfl
          rw [this] at hw
          simp only [Prod.mk.injEq] at hw
          rw [← hw.1]
          exact ⟨q1, _, rfl, rfl, (fun k m rest h => by cases h)⟩
        · simp only [Prod.mk.injEq] at hw
          rw [← hw.1]
          exact ⟨q1, _, q2, rfl, (fun k m rest h => by cases h)⟩

/-! ## C40 -/

/-- What call number `k` looks like on the wire. -/
def requestFrame (opts : Options) (comp : Option Compressor) (k : Nat) (payload : Bytes) : ReqRep.Message :=
  (requestPrepare opts.minCompress comp payload).intoWire (UInt32.ofNat k)

theorem taken_eq {s : State} (h : Calls s) :
    s.taken = ((s.calls.take s.taken.length).zipIdx.map fun x => (x.2, requestFrame s.opts s.comp x.2 x.1.payload)) := by
  apply List.ext_getElem?
  intro n
  cases hx : s.taken[n]? with
  | none =>
    symm
    rw [List.getElem?_eq_none_iff] at hx ⊢
    simp only [List.length_map, List.length_zipIdx, List.length_take]
    omega
  | some x =>
    obtain ⟨h1, call, h2, h3⟩ := h.taken n x hx
    have hn : n < s.taken.length := (List.getElem?_eq_some_iff.mp hx).1
    symm
    rw [List.getElem?_map, List.getElem?_zipIdx, List.getElem?_take, if_pos hn, h2]
    obtain ⟨a, b⟩ := x
    simp only at h1 h3
    simp [requestFrame, h1, h3]

/-- C40: over all connections of the socket together, the requests handed to them are, in order and without
repetition, the frames of the first calls made; and on each connection the bytes written are a prefix of its
frames. (The frame of call `k` carries the number `k` as id.) -/
theorem C40_in_order_at_most_once (D : Decompressors) (opts comp) (s : State) (h : ReqReach D opts comp s) :
    (∃ n, s.chans.flatMap (·.sent) =
      ((s.calls.take n).zipIdx.map fun x => (x.2, requestFrame opts comp x.2 x.1.payload))) ∧
    ∀ c ∈ s.chans, c.wr.wire <+: c.sent.flatMap fun x => ReqRep.encode x.2 := by
  have hi := h.inv
  constructor
  · have hp : s.chans.flatMap (·.sent) <+: s.taken := ⟨_, hi.chans.flow⟩
    have ht := taken_eq hi.calls
    rw [h.opts.1, h.opts.2] at ht
    refine ⟨(s.chans.flatMap (·.sent)).length, ?_⟩
    rw [List.prefix_iff_eq_take] at hp
    generalize hm : (s.chans.flatMap (·.sent)).length = m at *
    rw [hp, ht]
    have hlen : m ≤ s.taken.length := by
      have := congrArg List.length hp
      rw [hm, List.length_take] at this
      omega
    rw [← List.map_take]
    congr 1
    apply List.ext_getElem?
    intro i
    rw [List.getElem?_take, List.getElem?_zipIdx, List.getElem?_zipIdx, List.getElem?_take, List.getElem?_take]
    by_cases hi : i < m
    · rw [if_pos hi, if_pos hi, if_pos (by omega : i < s.taken.length)]
    · rw [if_neg hi, if_neg hi]; rfl
  · intro c hc
    rw [← (hi.chans.chan c hc).bytes]
    exact List.prefix_append _ _

/-! ## C41 -/

/-- C41 for the request socket (partial): in every history `bytes_tx` is the number of bytes handed to the
connections minus one for every frame, and `bytes_rx` the sum, over the responses that completed a call, of nine
bytes plus the payload size. Missing: both are one short per frame (`C41_request_bytes_refuted`). -/
theorem C41_request_bytes_partial (D : Decompressors) (opts comp) (s : State) (h : ReqReach D opts comp s)
    (hsmall : ∀ c ∈ s.chans, ∀ x ∈ c.sent, x.2.payload.length < 2 ^ 32) :
    s.bytesTx + (s.chans.flatMap (·.sent)).length = (s.chans.map fun c => (c.wr.wire ++ c.wr.buf).length).sum ∧
    s.bytesRx = (s.samples.map fun x => 9 + x.2.1.header.size.toNat).sum ∧
    s.samples.map (fun x => (x.1, tryDecompress D x.2.1.header.ctype x.2.1.payload)) =
      (s.done.filterMap okOf).map (fun x => (x.1, some x.2)) := by
  have hi := h.inv
  refine ⟨?_, hi.chans.rx, hi.chans.samples⟩
  have hwf : ∀ x ∈ s.chans.flatMap (·.sent), x.2.size = 9 + x.2.payload.length := by
    intro x hx
    obtain ⟨c, hc, hxc⟩ := List.mem_flatMap.mp hx
    have hlt := hsmall c hc x hxc
    have hx' : x ∈ s.taken := by rw [← hi.chans.flow]; exact List.mem_append_left _ hx
    obtain ⟨n, hn⟩ := List.mem_iff_getElem?.mp hx'
    obtain ⟨-, call, -, h3⟩ := hi.calls.taken n x hn
    simp only [ReqRep.Message.size, ReqRep.Header.len]
    have : x.2.header.size = UInt32.ofNat x.2.payload.length := by rw [h3]; rfl
    rw [this, UInt32.toNat_ofNat']
    omega
  rw [hi.chans.tx]
  have hall := fun c hc => (hi.chans.chan c hc).bytes
  generalize s.chans = l at hwf hall
  clear hsmall
  induction l with
  | nil => rfl
  | cons c l ih =>
    have ih := ih (fun x hx => hwf x (by simp only [List.flatMap_cons, List.mem_append]; exact .inr hx)) (fun d hd => hall d (by simp [hd]))
    have key : ∀ l : List (Nat × ReqRep.Message), (∀ x ∈ l, x.2.size = 9 + x.2.payload.length) →
        (l.map (·.2.size)).sum + l.length = (l.flatMap fun x => ReqRep.encode x.2).length := by
      intro l hl
      induction l with
      | nil => rfl
      | cons m l ih =>
        have := hl m (by simp)
        have := ih (fun x hx => hl x (by simp [hx]))
        simp only [List.map_cons, List.sum_cons, List.length_cons, List.flatMap_cons, List.length_append, encode_length]
        omega
    have hk := key c.sent (fun x hx => hwf x (by simp only [List.flatMap_cons, List.mem_append]; exact .inl hx))
    rw [← hall c (by simp)] at hk
    simp only [List.flatMap_cons, List.map_append, List.sum_append, List.length_append, List.map_cons, List.sum_cons] at ih hk ⊢
    omega

/-- C41 (refuted as stated): a request frame of 11 bytes and its response frame of 12 bytes are counted as 10
and 11. -/
theorem C41_request_bytes_refuted (D : Decompressors) : ∃ s0 s c, State.new {} none 0 = .ok s0 ∧
    s0.run D [.iter {}, .request [1], .advance 20000000, .iter {},
      .iter { task := some (some ⟨[.pending, .pending, .pending, .pending, .data (reqBytes 0 [9, 9])], [], [], []⟩) },
      .iter {}, .iter { flushAns := [.ok 100, .ok 1] }, .iter {}, .iter {}, .iter {}] = .ok s ∧ s.conn = .active c ∧
    c.wr.wire.length = 11 ∧ s.bytesTx = 10 ∧ (dataOf c.input0).length = 12 ∧ s.bytesRx = 11 ∧
    s.done = [(0, .ok [9, 9], 20000000)] :=
  ⟨_, _, _, rfl, rfl, rfl, rfl, rfl, rfl, rfl, rfl⟩

/-- C41: the average round-trip time lies between the smallest and the largest one observed (as long as all of them add up to less than `2 ^ 64` µs). -/
theorem C41_rtt_between (D : Decompressors) (opts comp) (s : State) (h : ReqReach D opts comp s)
    (lo hi : Nat) (hb : ∀ x ∈ s.samples, lo ≤ x.2.2 ∧ x.2.2 ≤ hi) (hne : s.samples ≠ [])
    (hsum : (s.samples.map (·.2.2)).sum < 2 ^ 64) :
    lo ≤ s.rtt ∧ s.rtt ≤ hi ∧ s.rttIdx = s.samples.length :=
  ⟨((h.inv.chans.rtt hsum).1 lo hi hb hne).1, ((h.inv.chans.rtt hsum).1 lo hi hb hne).2, h.inv.chans.idx⟩

/-! ## C70 -/

/-- C70: when the driver of a connected socket goes idle, no call made so far is still waiting for the driver.
The frames of all calls have been handed to connections, unless the connection in use has at least
`boundary` bytes waiting and does not take them. Without a flush interval (and with a positive boundary), if
the connection takes the bytes when the driver flushes it, all of them have been handed over and everything
handed to the connection in use is on the wire. -/
theorem C70_idle_means_sent (D : Decompressors) (opts comp) (s : State) (h : ReqReach D opts comp s)
    (he : s.ended = false) (e : Env) (t : State) (hit : s.iter D e = .ok (t, .pending)) (c : Chan)
    (hc : t.conn = .active c) :
    let allSent := t.chans.flatMap (·.sent) =
      t.calls.zipIdx.map fun x => (x.2, requestFrame opts comp x.2 x.1.payload)
    t.queue = [] ∧
    (allSent ∨ ∃ w : Writer, w.boundary ≤ w.buf.length ∧ (w.ready e.readyAns).1 = .pending) ∧
    (opts.flushInterval = none → 0 < opts.boundary →
      (∀ c0, s.conn = .active c0 → (c0.wr.flush e.flushAns).1 = .ok) →
      allSent ∧ c.wr.wire = c.sent.flatMap fun x => ReqRep.encode x.2) := by
  have hi := h.inv
  have hf : FInv s := by
    obtain ⟨now, s0, acts, h0, hr⟩ := h
    exact (FInv.new h0).run hr
  have hst := iter_steps s t e _ he hit
  have hti := hst.inv hi
  have hopts : t.opts = opts ∧ t.comp = comp :=
    hst.induct (P := fun s => s.opts = opts ∧ s.comp = comp)
      (fun _ _ hs h => ⟨(step_opts hs).1.trans h.1, (step_opts hs).2.trans h.2⟩) h.opts
  have hq := (Req.iter_pending hi he hit hc).1
  obtain ⟨u, hu, hr⟩ := iter_rest hit
  have hte : t.ended = false := by
    have hue : u.ended = false := by rw [(taskStep_ended _ _ e hu).1, (flushStep_ended s e).1, he]
    unfold State.rest at hr
    cases hcu : u.conn with
    | inactive b =>
      simp only [hcu] at hr
      cases hb : b.poll u.now with
      | panic => rw [hb] at hr; cases hr
      | ok r =>
        obtain ⟨x, b'⟩ := r
        rw [hb] at hr
        simp only [R.bind_ok, R.pure_eq] at hr
        simp only [State.retry_eq] at hr; cases x <;> cases hr <;> exact hue
    | active c1 =>
      simp only [hcu] at hr
      cases hp : c1.rd.pollNext ReqRep.codec c1.input with
      | panic => rw [hp] at hr; cases hr
      | ok r =>
        obtain ⟨x, rd, input⟩ := r
        rw [hp] at hr
        simp only [R.bind_ok, R.pure_eq] at hr
        cases x with
        | item m => cases hr
        | err x => cases hr
        | ended => cases hr
        | pending =>
          simp only [R.ok.injEq] at hr
          have late : ∀ (v : State) (c : Chan), v.ended = false → v.lateStep e c = (t, .pending) → t.ended = false := by
            intro v c hv hl
            unfold State.lateStep at hl
            obtain ⟨-, k, -⟩ := tickLoop_steps (D := D) (v.now + 1) { v with conn := .active c } hv
            simp only at hl
            generalize { v with conn := .active c }.tickLoop (v.now + 1) = w at *
            cases hq : w.queue with
            | cons x q => simp only [hq] at hl; cases hl
            | nil =>
              simp only [hq] at hl
              split at hl
              · rcases hw : c.wr.flush e.closeAns with ⟨o, wr⟩
                rw [hw] at hl
                cases o <;> cases hl
                exact k
              · cases hl; exact k
          unfold State.writeStep at hr
          simp only at hr
          split at hr
          · exact late _ _ hue hr
          · exact late _ _ hue hr
          · cases hr
  have hall : t.egress = [] → t.chans.flatMap (·.sent) =
      t.calls.zipIdx.map fun x => (x.2, requestFrame opts comp x.2 x.1.payload) := by
    intro hg
    have h1 := hti.chans.flow
    rw [hg, List.append_nil] at h1
    have h2 := taken_eq hti.calls
    have h3 := hti.calls.len hte
    rw [hq, List.length_nil, Nat.add_zero] at h3
    rw [h3, List.take_length, hopts.1, hopts.2] at h2
    rw [h1]; exact h2
  obtain ⟨-, -, -, r4⟩ := rest_fields hr
  rcases r4 with ⟨b, hb⟩ | ⟨c0, c', m1, m2, -, -, -, -, -, m8⟩
  · rw [hb] at hc; cases hc
  rw [m2] at hc
  cases hc
  obtain ⟨m9, m10⟩ := m8 rfl
  refine ⟨hq, ?_, ?_⟩
  · rcases m10 with m10 | m10
    · exact .inl (hall m10)
    · refine .inr ⟨c0.wr, ?_, m10⟩
      unfold Writer.ready at m10
      split at m10
      · rename_i hle; exact hle
      · cases m10
  · intro hn hbd ht
    have hbuf : c0.wr.buf = [] := by
      rcases taskStep_conn hu with ⟨q1, -⟩ | ⟨⟨cn, q1, q2, -⟩, -⟩
      · rw [q1] at m1
        cases hsc : s.conn with
        | inactive b =>
          rw [(flushStep_same s e).2.2.2.2.2.2.1 b hsc] at m1
          cases m1
        | active cs =>
          obtain ⟨wr, f1, -, -, -, f5⟩ := flushStep_takes hf e hsc (ht cs hsc)
          rw [f1] at m1
          cases m1
          rcases f5 with f5 | ⟨-, -, -, iv, f6, -⟩
          · exact f5
          · have := hf.iv
            rw [f6, h.opts.1, hn] at this
            cases this
      · rw [q1] at m1; cases m1; exact q2
    have hbound : c0.wr.boundary = opts.boundary := by
      have hP : ∀ c, u.conn = .active c → c.wr.boundary = u.opts.boundary := by
        obtain ⟨now, s0, acts, h0, hr⟩ := h
        obtain ⟨-, f, rfl⟩ := new_fields h0
        exact ((run_steps acts _ s hr).trans ((flushStep_steps (D := D) s e he).trans
          (taskStep_steps _ u e ((flushStep_ended s e).1.trans he) hu))).induct
          (P := fun s => ∀ c, s.conn = .active c → c.wr.boundary = s.opts.boundary)
          (fun _ _ hs h => boundary_step hs h) (fun c hc => by cases hc)
      have huo : u.opts = opts := ((flushStep_steps (D := D) s e he).trans
          (taskStep_steps _ u e ((flushStep_ended s e).1.trans he) hu)).induct (P := fun s => s.opts = opts)
          (fun _ _ hs h => (step_opts hs).1.trans h) h.opts.1
      rw [hP c0 m1, huo]
    have hready : (c0.wr.ready e.readyAns).1 ≠ .pending := by
      unfold Writer.ready
      rw [if_neg (by rw [hbuf, hbound]; simp only [List.length_nil]; omega)]
      simp
    refine ⟨hall (m10.resolve_right hready), ?_⟩
    have hm : c ∈ t.chans := by unfold State.chans; rw [m2]; simp
    have := (hti.chans.chan c hm).bytes
    rw [m9 hbuf, List.append_nil] at this
    exact this

/-- Two requests on a connection without flush interval: the driver goes idle with both on the wire. -/
example (D : Decompressors) : ∃ s0 s t c c', State.new {} none 0 = .ok s0 ∧
    s0.run D [.iter {}, .request [1], .advance 20000000, .iter {},
      .iter { task := some (some ⟨[], [], [], []⟩) }, .iter {}, .request [2], .iter {}, .iter {}] = .ok s ∧
    s.ended = false ∧ s.conn = .active c ∧ c.wr.buf = reqBytes 0 [1] ++ reqBytes 1 [2] ∧
    (c.wr.flush [.ok 100, .ok 1]).1 = .ok ∧
    s.iter D { flushAns := [.ok 100, .ok 1] } = .ok (t, .pending) ∧ t.conn = .active c' ∧
    c'.wr.wire = reqBytes 0 [1] ++ reqBytes 1 [2] :=
  ⟨_, _, _, _, _, rfl, rfl, rfl, rfl, rfl, rfl, rfl, rfl, rfl⟩

/-- C70: with a flush interval (or without: then read 0 for it), what has been handed to a connection is on the
wire at the latest in the first iteration one interval later, as long as the connection lasts and takes the
bytes when it is flushed. -/
theorem C70_flushed_within_interval (D : Decompressors) (opts comp) (s : State) (h : ReqReach D opts comp s)
    (c : Chan) (hc : s.conn = .active c) (acts : List Act) (e : Env) (t t' : State) (o : Out)
    (hrun : s.run D acts = .ok t) (htake : Taking D s (acts ++ [.iter e]))
    (htime : s.now + opts.flushInterval.getD 0 ≤ t.now) (hit : t.iter D e = .ok (t', o))
    (hsame : t'.past.length = s.past.length) (halive : t.ended = false) (halive' : t'.ended = false) :
    ∃ c', t'.conn = .active c' ∧ c.sent.flatMap (fun x => ReqRep.encode x.2) <+: c'.wr.wire := by
  have hi := h.inv
  have hf : FInv s := by
    obtain ⟨now, s0, acts, h0, hr⟩ := h
    exact (FInv.new h0).run hr
  have hdue : Due s.past.length c.sent (s.now + opts.flushInterval.getD 0) s := by
    intro _ _
    refine ⟨c, hc, List.prefix_refl _, ?_⟩
    cases hs : s.shouldFlush with
    | false => exact .inl (sent_prefix_wire hi hc (List.prefix_refl _) (hf.buf c hc hs))
    | true =>
      refine .inr ⟨rfl, fun iv hiv => ?_⟩
      have h1 := hf.next iv hiv
      have h2 := hf.iv
      rw [hiv, h.opts.1] at h2
      rw [← h2]
      exact h1
  have htk : Taking D s acts ∧ ∀ u, s.run D acts = .ok u → Taking D u [.iter e] := by
    clear hdue hi hf h hrun htime hsame hc
    induction acts generalizing s with
    | nil => exact ⟨trivial, fun u hu => by cases hu; exact htake⟩
    | cons a acts ih =>
      refine ⟨⟨htake.1, fun u hu => (ih u (htake.2 u hu)).1⟩, fun u hu => ?_⟩
      unfold State.run at hu
      cases hx : s.act D a with
      | panic => rw [hx] at hu; cases hu
      | ok v => rw [hx] at hu; exact (ih v (htake.2 v hx)).2 u hu
  obtain ⟨d1, d2, d3, d4⟩ := Due.run hi hf hdue htk.1 hrun (Nat.le_refl _)
  exact (Due.iter d2 d3 halive d1 (fun c0 hc0 => (htk.2 t hrun).1 e c0 rfl hc0) hit d4).2 htime halive' hsame

/-- A flush interval of 1 ms: a request is held back until the millisecond is over. -/
example (D : Decompressors) : ∃ s0 s t t' c c' c1, State.new { flushInterval := some 1000000 } none 0 = .ok s0 ∧
    s0.run D [.iter {}, .request [1], .advance 20000000, .iter {},
      .iter { task := some (some ⟨[], [], [], []⟩) }, .iter {}] = .ok s ∧
    s.conn = .active c ∧ c.wr.buf = reqBytes 0 [1] ∧ c.sent.length = 1 ∧
    s.run D [.iter { flushAns := [.ok 100, .ok 1] }, .advance 1000000] = .ok t ∧ t.conn = .active c1 ∧ c1.wr.wire = [] ∧
    t.iter D { flushAns := [.ok 100, .ok 1] } = .ok (t', .pending) ∧ t'.conn = .active c' ∧
    c'.wr.wire = reqBytes 0 [1] ∧ t'.past.length = s.past.length ∧ t'.ended = false :=
  ⟨_, _, _, _, _, _, _, rfl, rfl, rfl, rfl, rfl, rfl, rfl, rfl, rfl, rfl, rfl, rfl, rfl⟩

end MsgRs.Props
