import Verif.Props.Req
import Verif.Proofs.Returns
/-!
# Properties C73, C74: background tasks come to rest
-/
namespace MsgRs.Props
open MsgRs

section Req
open MsgRs.Req
variable {D : Decompressors}

/-- What the driver has to do before it rests, as long as nothing new comes in. -/
def Req.work (s : State) : Nat :=
  match s.conn with
  | .inactive _ => 0
  | .active c => c.rd.pot ReqRep.meas c.input + 2 * s.queue.length + s.egress.length + 1

theorem tickLoop_work (n : Nat) (s : State) : (s.tickLoop n).queue = s.queue ∧ (s.tickLoop n).egress = s.egress ∧
    (s.tickLoop n).connTask = s.connTask ∧ (s.tickLoop n).conn = s.conn := by
  induction n generalizing s with
  | zero => exact ⟨rfl, rfl, rfl, rfl⟩
  | succ n ih =>
    unfold State.tickLoop
    split
    · obtain ⟨h1, h2, h3, h4⟩ := ih ({ s with checkIv := _ } : State).checkTimeouts
      exact ⟨h1, h2, h3, h4⟩
    · exact ⟨rfl, rfl, rfl, rfl⟩

theorem lateStep_work {s t : State} {e : Env} {c : Chan} (h : s.lateStep e c = (t, .again)) :
    t.conn = .active c ∧ t.connTask = s.connTask ∧ t.queue.length + 1 = s.queue.length ∧
    t.egress.length = s.egress.length + 1 := by
  unfold State.lateStep at h
  obtain ⟨h1, h2, h3, h4⟩ := tickLoop_work (s.now + 1) { s with conn := .active c }
  simp only at h
  generalize { s with conn := .active c }.tickLoop (s.now + 1) = u at *
  cases hq : u.queue with
  | cons x q =>
    simp only [hq] at h
    cases h
    simp only [State.onCommand, List.length_append, List.length_cons, List.length_nil]
    refine ⟨h4, h3, ?_, by rw [h2]⟩
    rw [← show u.queue = s.queue from h1, hq]; rfl
  | nil =>
    simp only [hq] at h
    split at h
    · split at h <;> cases h
    · cases h

theorem rest_work {s t : State} {e : Env} (h : s.rest D e = .ok (t, .again)) (ht : s.connTask = false) :
    t.connTask = false ∧ Req.work t < Req.work s := by
  unfold State.rest at h
  cases hc : s.conn with
  | inactive b =>
    simp only [hc] at h
    cases hb : b.poll s.now with
    | panic => rw [hb] at h; cases h
    | ok r =>
      obtain ⟨x, b'⟩ := r
      rw [hb] at h
      simp only [R.bind_ok, R.pure_eq] at h
      cases x <;> cases h
  | active c =>
    simp only [hc] at h
    cases hp : c.rd.pollNext ReqRep.codec c.input with
    | panic => rw [hp] at h; cases h
    | ok r =>
      obtain ⟨x, rd, input⟩ := r
      obtain ⟨p1, p2⟩ := pollNext_pot ReqRep.sized c.input c.rd hp
      rw [hp] at h
      simp only [R.bind_ok, R.pure_eq] at h
      cases x with
      | item m =>
        simp only [R.ok.injEq, Prod.mk.injEq, and_true] at h
        subst h
        have := p2 (by simp)
        have key : ∀ u : State, u.conn = .active { c with rd, input, polls := c.polls + 1, got := c.got ++ [m] } →
            u.connTask = false → u.queue = s.queue → u.egress = s.egress →
            (State.onMessage D u m).connTask = false ∧ Req.work (State.onMessage D u m) < Req.work s := by
          intro u h1 h2 h3 h4
          have h5 : (State.onMessage D u m).conn = u.conn ∧ (State.onMessage D u m).connTask = u.connTask ∧
              (State.onMessage D u m).queue = u.queue ∧ (State.onMessage D u m).egress = u.egress := by
            unfold State.onMessage
            split
            · exact ⟨rfl, rfl, rfl, rfl⟩
            · simp only; split <;> exact ⟨rfl, rfl, rfl, rfl⟩
          refine ⟨h5.2.1.trans h2, ?_⟩
          simp only [Req.work, h5.1, h1, hc, h5.2.2, h3, h4]
          omega
        exact key _ rfl ht rfl rfl
      | err x => cases h; refine ⟨ht, ?_⟩; simp only [Req.work, hc]; omega
      | ended => cases h
      | pending =>
        simp only [R.ok.injEq] at h
        have late : ∀ wr : Writer, s.lateStep e { c with rd, input, polls := c.polls + 1, wr } = (t, .again) →
            t.connTask = false ∧ Req.work t < Req.work s := by
          intro wr hl
          obtain ⟨h1, h2, h3, h4⟩ := lateStep_work hl
          refine ⟨h2.trans ht, ?_⟩
          simp only [Req.work, h1, hc]
          omega
        unfold State.writeStep at h
        simp only at h
        split at h
        · exact late _ h
        · exact late _ h
        · rename_i k m ms _ hg
          cases h
          refine ⟨ht, ?_⟩
          simp only [Req.work, hc, hg, List.length_cons]
          omega

theorem flushStep_task (s : State) (e : Env) : (s.flushStep e).connTask = s.connTask ∧ (s.flushStep e).queue = s.queue ∧
    (s.flushStep e).egress = s.egress ∧ Req.work (s.flushStep e) = Req.work s ∧ (s.flushStep e).closed = s.closed := by
  have hw : ∀ b u, s.wantFlush = (b, u) → u.connTask = s.connTask ∧ u.queue = s.queue ∧ u.egress = s.egress ∧
      u.conn = s.conn ∧ u.closed = s.closed := by
    intro b u hu
    unfold State.wantFlush at hu
    split at hu
    · split at hu <;> cases hu <;> exact ⟨rfl, rfl, rfl, rfl, rfl⟩
    · cases hu; exact ⟨rfl, rfl, rfl, rfl, rfl⟩
  unfold State.flushStep
  rcases hq : s.wantFlush with ⟨b, u⟩
  obtain ⟨h1, h2, h3, h4, h5⟩ := hw b u hq
  cases b with
  | false => exact ⟨h1, h2, h3, by simp only [Req.work, h2, h3, h4], h5⟩
  | true =>
    simp only
    cases hc : u.conn with
    | inactive b => exact ⟨h1, h2, h3, by simp only [Req.work, h2, h3, h4], h5⟩
    | active c =>
      simp only
      rcases hf : c.wr.flush e.flushAns with ⟨o, wr⟩
      rw [h4] at hc
      cases o <;> exact ⟨h1, h2, h3, by simp only [Req.work, h2, h3, hc], h5⟩

/-- An iteration that goes on looping. -/
theorem again_step (s : State) (e : Env) (hi : Req.Inv D s) (he : s.ended = false) : ∃ t o, s.iter D e = .ok (t, o) ∧
    (o = .again → Req.Inv D t ∧ t.ended = false ∧ t.connTask = false ∧ (s.connTask = false → Req.work t < Req.work s)) := by
  obtain ⟨t, o, hit⟩ := hi.iter he e
  refine ⟨t, o, hit, ?_⟩
  rintro rfl
  have hti := (iter_steps s t e _ he hit).inv hi
  obtain ⟨u, hu, hr⟩ := iter_rest hit
  have hue : u.ended = false := by rw [(taskStep_ended _ _ e hu).1, (flushStep_ended s e).1, he]
  obtain ⟨f1, f2, f3, f4, -⟩ := flushStep_task s e
  have hut : u.connTask = false ∧ (s.connTask = false → Req.work u = Req.work s) := by
    unfold State.taskStep at hu
    by_cases hct : (s.flushStep e).connTask = true
    · rw [if_pos hct] at hu
      cases htr : taskResult (s.flushStep e).opts.token e.task with
      | panic => rw [htr] at hu; cases hu
      | ok r =>
        rw [htr] at hu
        simp only [R.bind_ok, R.pure_eq] at hu
        have hn : s.connTask = false → False := by intro h; rw [f1, h] at hct; cases hct
        rcases r with _ | (_ | ⟨via, input⟩)
        · cases hu
          -- still connecting: the iteration does not go on
          exfalso
          have hne : (s.flushStep e).ended = false := hue
          have hfi : Req.Inv D (s.flushStep e) := (flushStep_steps s e he).inv hi
          obtain ⟨b, hb⟩ := (hfi.back hne).2 hct
          unfold State.rest at hr
          simp only [hb] at hr
          cases hbp : b.poll (s.flushStep e).now with
          | panic => rw [hbp] at hr; cases hr
          | ok r =>
            obtain ⟨x, b'⟩ := r
            rw [hbp] at hr
            simp only [R.bind_ok, R.pure_eq] at hr
            cases x <;> cases hr
        · cases hu; exact ⟨rfl, fun h => (hn h).elim⟩
        · cases hu; exact ⟨rfl, fun h => (hn h).elim⟩
    · rw [if_neg hct] at hu
      cases hu
      exact ⟨by simpa using hct, fun _ => f4⟩
  obtain ⟨w1, w2⟩ := rest_work hr hut.1
  have hte : t.ended = false := by
    cases hce : t.ended with
    | false => rfl
    | true =>
      exfalso
      unfold State.rest at hr
      cases hc : u.conn with
      | inactive b =>
        simp only [hc] at hr
        cases hb : b.poll u.now with
        | panic => rw [hb] at hr; cases hr
        | ok r =>
          obtain ⟨x, b'⟩ := r
          rw [hb] at hr
          simp only [R.bind_ok, R.pure_eq] at hr
          cases x <;> cases hr
      | active c =>
        simp only [hc] at hr
        cases hp : c.rd.pollNext ReqRep.codec c.input with
        | panic => rw [hp] at hr; cases hr
        | ok r =>
          obtain ⟨x, rd, input⟩ := r
          rw [hp] at hr
          simp only [R.bind_ok, R.pure_eq] at hr
          cases x with
          | item m =>
            simp only [R.ok.injEq, Prod.mk.injEq, and_true] at hr
            subst hr
            revert hce
            unfold State.onMessage
            split
            · simp [hue]
            · simp only; split <;> simp [State.updateRtt, hue]
          | err x => cases hr; simp [hue] at hce
          | ended => cases hr
          | pending =>
            simp only [R.ok.injEq] at hr
            have late : ∀ wr : Writer, u.lateStep e { c with rd, input, polls := c.polls + 1, wr } = (t, .again) → False := by
              intro wr hl
              unfold State.lateStep at hl
              obtain ⟨-, k, -⟩ := tickLoop_steps (D := D) (u.now + 1) { u with conn := .active { c with rd, input, polls := c.polls + 1, wr } } hue
              simp only at hl
              generalize { u with conn := .active { c with rd, input, polls := c.polls + 1, wr } }.tickLoop (u.now + 1) = v at *
              cases hq : v.queue with
              | cons x q => simp only [hq] at hl; cases hl; simp [State.onCommand, k] at hce
              | nil =>
                simp only [hq] at hl
                split at hl
                · split at hl <;> cases hl
                · cases hl
            unfold State.writeStep at hr
            simp only at hr
            split at hr
            · exact late _ hr
            · exact late _ hr
            · cases hr; simp [hue] at hce
  exact ⟨hti, hte, w1, fun hs => by rw [← hut.2 hs]; exact w2⟩

/-- What others do to the socket keeps the driver running. -/
theorem others_inv (acts : List Act) (ho : ∀ a ∈ acts, ∀ e, a ≠ .iter e) {s : State} (hi : Req.Inv D s) (he : s.ended = false) :
    ∃ t, s.run D acts = .ok t ∧ Req.Inv D t ∧ t.ended = false := by
  induction acts generalizing s with
  | nil => exact ⟨s, rfl, hi, he⟩
  | cons a acts ih =>
    have h1 : ∃ u, s.act D a = .ok u ∧ u.ended = false := by
      cases a with
      | iter e => exact absurd rfl (ho _ (by simp) e)
      | advance dt => exact ⟨_, rfl, he⟩
      | request p =>
        simp only [State.act]
        split
        · exact ⟨_, rfl, he⟩
        · simp only [he, Bool.false_eq_true, if_false]
          exact ⟨_, rfl, rfl⟩
      | dropSocket => exact ⟨_, rfl, he⟩
    obtain ⟨u, h1, h2⟩ := h1
    obtain ⟨t, h3, h4⟩ := ih (fun a ha => ho a (by simp [ha])) ((act_steps s u a h1).inv hi) h2
    refine ⟨t, ?_, h4⟩
    unfold State.run
    rw [h1]
    exact h3

/-- C74 for the request socket: from every reachable state, whatever the connection and the connection attempts do, a
poll of the driver returns after finitely many iterations (and does not panic); also when requests are made, time
passes and the socket is dropped meanwhile, as long as this does not go on for ever. -/
theorem C74_request_driver_returns (D : Decompressors) (opts comp) (s : State) (h : ReqReach D opts comp s)
    (he : s.ended = false) (es : Nat → List Act × Env) (ho : ∀ k, ∀ a ∈ (es k).1, ∀ e, a ≠ .iter e)
    (hf : ∃ n, ∀ k, n ≤ k → (es k).1 = []) :
    Spec.Returns (fun s (e : List Act × Env) => do (← s.run D e.1).iter D e.2) (· = .again) s es := by
  have hi := h.inv
  clear h
  obtain ⟨n, hf⟩ := hf
  induction n generalizing s es with
  | succ n ih =>
    obtain ⟨u, hu, hui, hue⟩ := others_inv (D := D) (es 0).1 (ho 0) hi he
    obtain ⟨t, o, hit, ha⟩ := again_step (D := D) u (es 0).2 hui hue
    exact returns_step (t := t) (o := o) (by rw [hu]; exact hit) fun hag =>
      ih t (ha hag).2.1 (fun n => es (n + 1)) (fun k => ho (k + 1)) (ha hag).1 fun k hk => hf (k + 1) (by omega)
  | zero =>
    have e0 : (es 0).1 = [] := hf 0 (by omega)
    obtain ⟨t, o, hit, ha⟩ := again_step (D := D) s (es 0).2 hi he
    refine returns_step (t := t) (o := o) (by rw [e0]; exact hit) fun ho => ?_
    obtain ⟨h1, h2, h3, -⟩ := ha ho
    refine returns_of_measure (fun s => Req.Inv D s ∧ s.ended = false ∧ s.connTask = false) Req.work
      (fun e : List Act × Env => e.1 = []) ?_ t ⟨h1, h2, h3⟩ _ fun k => hf (k + 1) (by omega)
    rintro s e ⟨k1, k2, k3⟩ hen
    obtain ⟨t, o, hit, ha⟩ := again_step (D := D) s e.2 k1 k2
    exact ⟨t, o, by rw [hen]; exact hit, fun ho => ⟨⟨(ha ho).1, (ha ho).2.1, (ha ho).2.2.1⟩, (ha ho).2.2.2 k3⟩⟩

/-- An iteration of a dropped socket's driver that rests or ends. -/
theorem closed_iter {s t : State} {e : Env} {o : Out} (hi : Req.Inv D s) (he : s.ended = false) (hcl : s.closed = true)
    (hit : s.iter D e = .ok (t, o)) {c : Chan} (hc : t.conn = .active c) :
    (o = .pending → ∃ w : Writer, w.flush e.closeAns = (.pending, c.wr)) ∧
    (o = .ended → (∃ rd : Reader ReqRep.State, ∃ input, rd.pollNext ReqRep.codec input = .ok (.ended, c.rd, c.input)) ∨
      ∃ w : Writer, ∃ r, r ≠ .pending ∧ w.flush e.closeAns = (r, c.wr)) := by
  obtain ⟨u, hu, hr⟩ := iter_rest hit
  have huc : u.closed = true ∧ u.ended = false := by
    have h1 : (s.flushStep e).closed = s.closed := (flushStep_task s e).2.2.2.2
    refine ⟨?_, by rw [(taskStep_ended _ _ e hu).1, (flushStep_ended s e).1, he]⟩
    rw [← h1] at hcl
    generalize s.flushStep e = v at *
    unfold State.taskStep at hu
    split at hu
    · cases htr : taskResult v.opts.token e.task with
      | panic => rw [htr] at hu; cases hu
      | ok r =>
        rw [htr] at hu
        simp only [R.bind_ok, R.pure_eq] at hu
        rcases r with _ | (_ | ⟨via, input⟩) <;> cases hu <;> exact hcl
    · cases hu; exact hcl
  unfold State.rest at hr
  cases hcu : u.conn with
  | inactive b =>
    simp only [hcu] at hr
    cases hb : b.poll u.now with
    | panic => rw [hb] at hr; cases hr
    | ok r =>
      obtain ⟨x, b'⟩ := r
      rw [hb] at hr
      simp only [R.bind_ok, R.pure_eq, State.retry_eq] at hr
      cases x <;> cases hr <;> cases hc
  | active c1 =>
    simp only [hcu] at hr
    cases hp : c1.rd.pollNext ReqRep.codec c1.input with
    | panic => rw [hp] at hr; cases hr
    | ok r =>
      obtain ⟨x, rd, input⟩ := r
      rw [hp] at hr
      simp only [R.bind_ok, R.pure_eq] at hr
      cases x with
      | item m =>
        simp only [R.ok.injEq, Prod.mk.injEq] at hr
        obtain ⟨-, rfl⟩ := hr
        exact ⟨by simp, by simp⟩
      | err x => cases hr; cases hc
      | ended =>
        cases hr
        simp only [State.terminate, CState.active.injEq] at hc
        subst hc
        exact ⟨by simp, fun _ => .inl ⟨_, _, hp⟩⟩
      | pending =>
        simp only [R.ok.injEq] at hr
        have late : ∀ wr : Writer, u.lateStep e { c1 with rd, input, polls := c1.polls + 1, wr } = (t, o) →
            (o = .pending → ∃ w : Writer, w.flush e.closeAns = (.pending, c.wr)) ∧
            (o = .ended → ∃ w : Writer, ∃ r, r ≠ .pending ∧ w.flush e.closeAns = (r, c.wr)) := by
          intro wr hl
          unfold State.lateStep at hl
          obtain ⟨-, -, -, -, k, -⟩ := tickLoop_steps (D := D) (u.now + 1)
            { u with conn := .active { c1 with rd, input, polls := c1.polls + 1, wr } } huc.2
          simp only at hl
          generalize { u with conn := .active { c1 with rd, input, polls := c1.polls + 1, wr } }.tickLoop (u.now + 1) = v at *
          simp only at k
          cases hq : v.queue with
          | cons x q =>
            simp only [hq] at hl
            cases hl
            exact ⟨by simp, by simp⟩
          | nil =>
            simp only [hq, k, huc.1, if_true] at hl
            rcases hw : wr.flush e.closeAns with ⟨r, wr'⟩
            rw [hw] at hl
            cases r with
            | pending =>
              cases hl
              simp only [CState.active.injEq] at hc
              subst hc
              exact ⟨fun _ => ⟨_, hw⟩, by simp⟩
            | ok =>
              cases hl
              simp only [State.terminate, CState.active.injEq] at hc
              subst hc
              exact ⟨by simp, fun _ => ⟨_, _, by simp, hw⟩⟩
            | err =>
              cases hl
              simp only [State.terminate, CState.active.injEq] at hc
              subst hc
              exact ⟨by simp, fun _ => ⟨_, _, by simp, hw⟩⟩
        unfold State.writeStep at hr
        simp only at hr
        split at hr
        · exact ⟨(late _ hr).1, fun h => .inr ((late _ hr).2 h)⟩
        · exact ⟨(late _ hr).1, fun h => .inr ((late _ hr).2 h)⟩
        · cases hr; exact ⟨by simp, by simp⟩

theorem closed_step {s t : State} (h : Step D s t) (hc : s.closed = true) : t.closed = true := by
  cases h with
  | readItem c m rd input he hcn hp =>
    unfold State.onMessage
    split
    · exact hc
    · simp only; split <;> exact hc
  | drop => rfl
  | _ => exact hc

theorem ended_iff {s t : State} {e : Env} (hi : Req.Inv D s) (he : s.ended = false) (hit : s.iter D e = .ok (t, .ended)) :
    t.ended = true := by
  obtain ⟨u, hu, hr⟩ := iter_rest hit
  unfold State.rest at hr
  cases hcu : u.conn with
  | inactive b =>
    simp only [hcu] at hr
    cases hb : b.poll u.now with
    | panic => rw [hb] at hr; cases hr
    | ok r =>
      obtain ⟨x, b'⟩ := r
      rw [hb] at hr
      simp only [R.bind_ok, R.pure_eq] at hr
      cases x <;> cases hr
      rfl
  | active c1 =>
    simp only [hcu] at hr
    cases hp : c1.rd.pollNext ReqRep.codec c1.input with
    | panic => rw [hp] at hr; cases hr
    | ok r =>
      obtain ⟨x, rd, input⟩ := r
      rw [hp] at hr
      simp only [R.bind_ok, R.pure_eq] at hr
      cases x with
      | item m => cases hr
      | err x => cases hr
      | ended => cases hr; rfl
      | pending =>
        simp only [R.ok.injEq] at hr
        have late : ∀ wr : Writer, u.lateStep e { c1 with rd, input, polls := c1.polls + 1, wr } = (t, .ended) →
            t.ended = true := by
          intro wr hl
          unfold State.lateStep at hl
          simp only at hl
          split at hl
          · cases hl
          · split at hl
            · split at hl
              · cases hl
              · cases hl; rfl
            · cases hl
        unfold State.writeStep at hr
        simp only at hr
        split at hr
        · exact late _ hr
        · exact late _ hr
        · cases hr

/-- C73 (partial): the socket has been dropped. Then a poll of its driver ends the driver, unless it leaves the socket
without a connection, or the connection does not take all the bytes it is offered when the driver closes it. If it ends
with a connection in use, either the server had closed that connection, or the driver has tried to write everything
that was handed to it, and if that succeeded all of it is on the wire. (That a poll returns at all is C74.) Missing:
while there is no connection the driver does not notice that the socket is gone (`C73_unconnected_refuted`). -/
theorem C73_drop_ends_partial (D : Decompressors) (opts comp) (s : State) (h : ReqReach D opts comp s)
    (he : s.ended = false) (hcl : s.closed = true) (es : List Env) (t : State) (o : Out)
    (hp : Spec.poll (State.iter D) (· = .again) s es = .ok (t, some o)) :
    (o = .ended ∧ t.ended = true ∧ ∀ c, t.conn = .active c →
      (∃ rd : Reader ReqRep.State, ∃ input, rd.pollNext ReqRep.codec input = .ok (.ended, c.rd, c.input)) ∨
      ∃ e ∈ es, ∃ (w : Writer) (r : WOut), w.flush e.closeAns = (r, c.wr) ∧
        (r = .err ∨ r = .ok ∧ c.wr.wire = c.sent.flatMap fun x => ReqRep.encode x.2)) ∨
    (o = .pending ∧ ∃ b, t.conn = .inactive b) ∨
    (o = .pending ∧ ∃ c, t.conn = .active c ∧ ∃ e ∈ es, ∃ w : Writer, w.flush e.closeAns = (.pending, c.wr)) := by
  have hi := h.inv
  clear h
  induction es generalizing s with
  | nil => simp [Spec.poll] at hp
  | cons e es ih =>
    unfold Spec.poll at hp
    obtain ⟨u, o', hit, ha⟩ := again_step (D := D) s e hi he
    rw [hit] at hp
    simp only [R.bind_ok, R.pure_eq] at hp
    have hst := iter_steps s u e _ he hit
    have hui := hst.inv hi
    have huc : u.closed = true := hst.induct (P := fun s => s.closed = true) (fun _ _ hs h => closed_step hs h) hcl
    by_cases ho : o' = .again
    · rw [if_pos ho] at hp
      rcases ih u (ha ho).2.1 huc hp hui with ⟨h1, h2, h3⟩ | h1 | ⟨h1, c, h2, e', h3, h4⟩
      · refine .inl ⟨h1, h2, fun c hc => ?_⟩
        rcases h3 c hc with h4 | ⟨e', h4, h5⟩
        · exact .inl h4
        · exact .inr ⟨e', List.mem_cons_of_mem _ h4, h5⟩
      · exact .inr (.inl h1)
      · exact .inr (.inr ⟨h1, c, h2, e', List.mem_cons_of_mem _ h3, h4⟩)
    · rw [if_neg ho] at hp
      simp only [R.ok.injEq, Prod.mk.injEq, Option.some.injEq] at hp
      obtain ⟨rfl, rfl⟩ := hp
      cases hc : u.conn with
      | inactive b =>
        cases o' with
        | again => exact absurd rfl ho
        | pending => exact .inr (.inl ⟨rfl, b, rfl⟩)
        | ended => exact .inl ⟨rfl, ended_iff hi he hit, fun c hc' => by cases hc'⟩
      | active c =>
        obtain ⟨k1, k2⟩ := closed_iter hi he hcl hit hc
        cases o' with
        | again => exact absurd rfl ho
        | pending =>
          obtain ⟨w, hw⟩ := k1 rfl
          exact .inr (.inr ⟨rfl, c, rfl, e, by simp, w, hw⟩)
        | ended =>
          refine .inl ⟨rfl, ended_iff hi he hit, fun c' hc' => ?_⟩
          cases hc'
          rcases k2 rfl with h1 | ⟨w, r, hr, hw⟩
          · exact .inl h1
          · refine .inr ⟨e, by simp, w, r, hw, ?_⟩
            cases r with
            | pending => exact absurd rfl hr
            | err => exact .inl rfl
            | ok =>
              refine .inr ⟨rfl, ?_⟩
              have hb : c.wr.buf = [] := by
                have := (Writer.flush_spec w e.closeAns).2.2.2.1 (by rw [hw])
                rwa [hw] at this
              have hmem : c ∈ u.chans := by unfold State.chans; rw [hc]; simp
              have := (hui.chans.chan c hmem).bytes
              rwa [hb, List.append_nil] at this

/-- C73, the hypotheses can be met and the driver does end: a connected socket with one request in its write buffer
is dropped; the next poll writes the request and ends. -/
example (D : Decompressors) : ∃ s0 s t c, State.new {} none 0 = .ok s0 ∧
    s0.run D [.iter {}, .request [1], .advance 20000000, .iter {}, .iter { task := some (some ⟨[], [], [], []⟩) },
      .dropSocket] = .ok s ∧ s.ended = false ∧ s.closed = true ∧
    Spec.poll (State.iter D) (· = .again) s [{}, { closeAns := [.ok 100, .ok 0] }] = .ok (t, some .ended) ∧
    t.conn = .active c ∧ c.wr.wire.length = 11 ∧ c.wr.buf = [] ∧ t.done = [(0, .closed, 20000000)] :=
  ⟨_, _, _, _, rfl, rfl, rfl, rfl, rfl, rfl, rfl, rfl, rfl⟩

/-- C73 (refuted as stated): the server cannot be reached; the socket is dropped at the start. Ten seconds later the
driver still runs and starts its tenth connection attempt. -/
theorem C73_unconnected_refuted (D : Decompressors) : ∃ s0 s t, State.new {} none 0 = .ok s0 ∧
    s0.run D (.dropSocket :: .iter {} :: [20, 40, 80, 160, 320, 640, 1280, 2560, 5120].flatMap fun ms =>
      [.advance (ms * 1000000), .iter {}, .iter { task := some none }]) = .ok s ∧
    s.now = 10220000000 ∧ s.closed = true ∧ s.ended = false ∧ s.connTask = false ∧
    s.run D [.advance 10240000000, .iter {}] = .ok t ∧ t.ended = false ∧ t.connTask = true :=
  ⟨_, _, _, rfl, rfl, rfl, rfl, rfl, rfl, rfl, rfl, rfl⟩

end Req
end MsgRs.Props
