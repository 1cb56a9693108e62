import Verif.Model.ReqDriver
import Verif.Proofs.Writer
import Verif.Proofs.Reading
import Verif.Proofs.Codecs
/-!
# The request driver in small steps

Everything that happens to a request socket is a sequence of the steps `Step` below; invariants are proved
step by step.
-/
namespace MsgRs.Req
open MsgRs

theorem State.retry_eq (s : State) :
    s.retry = { s with connTask := true, tries := if s.connTask then s.tries else s.tries ++ [s.now] } := by
  unfold State.retry
  cases h : s.connTask
  · rfl
  · simp only [if_true]
    cases s
    simp only at h
    subst h
    rfl

/-- Small steps of the driver (while it lives) and of its users. -/
inductive Step (D : Decompressors) : State → State → Prop where
  | now (s : State) (dt : Nat) : Step D s { s with now := s.now + dt }
  | misc (s : State) (b : Bool) (iv : Option Interval) : s.ended = false →
      Step D s { s with shouldFlush := b, flushIv := iv }
  | write (s : State) (c : Chan) (wr : Writer) : s.ended = false → s.conn = .active c →
      wr.total = c.wr.total → c.wr.wire <+: wr.wire → wr.boundary = c.wr.boundary → Step D s { s with conn := .active { c with wr } }
  | taskGone (s : State) : s.ended = false → Step D s { s with connTask := false }
  | connect (s : State) (task : Option (Option HsEnv)) (via : HsEnv) (input : List ReadAns) : s.ended = false →
      s.connTask = true → taskResult s.opts.token task = .ok (some (some (via, input))) →
      Step D s { s with connTask := false, conn := .active (Chan.new s.opts.boundary via input), past := s.chans }
  | backoff (s : State) (b b' : Backoff) : s.ended = false → s.conn = .inactive b →
      b.poll s.now = .ok (.pending, b') → Step D s { s with conn := .inactive b' }
  | taskStart (s : State) (b b' : Backoff) (d : Nat) (ts : List Nat) : s.ended = false → s.conn = .inactive b →
      b.poll s.now = .ok (.item d, b') → ts = (if s.connTask then s.tries else s.tries ++ [s.now]) →
      Step D s { s with conn := .inactive b', connTask := true, tries := ts }
  | giveUp (s : State) (b b' : Backoff) : s.ended = false → s.conn = .inactive b →
      b.poll s.now = .ok (.ended, b') → Step D s { s with conn := .inactive b' }.terminate
  | readItem (s : State) (c : Chan) (m : ReqRep.Message) (rd : Reader ReqRep.State) (input : List ReadAns) :
      s.ended = false → s.conn = .active c → c.rd.pollNext ReqRep.codec c.input = .ok (.item m, rd, input) →
      Step D s (State.onMessage D { s with conn := .active { c with rd, input, polls := c.polls + 1, got := c.got ++ [m] } } m)
  | readIdle (s : State) (c : Chan) (rd : Reader ReqRep.State) (input : List ReadAns) :
      s.ended = false → s.conn = .active c → c.rd.pollNext ReqRep.codec c.input = .ok (.pending, rd, input) →
      Step D s { s with conn := .active { c with rd, input, polls := c.polls + 1 } }
  | readErr (s : State) (c : Chan) (x : ReqRep.Err) (rd : Reader ReqRep.State) (input : List ReadAns) :
      s.ended = false → s.conn = .active c → c.rd.pollNext ReqRep.codec c.input = .ok (.err x, rd, input) →
      Step D s { s with conn := .inactive backoff0, past := s.past ++ [{ c with rd, input, polls := c.polls + 1 }] }
  | readEnd (s : State) (c : Chan) (rd : Reader ReqRep.State) (input : List ReadAns) :
      s.ended = false → s.conn = .active c → c.rd.pollNext ReqRep.codec c.input = .ok (.ended, rd, input) →
      Step D s { s with conn := .active { c with rd, input, polls := c.polls + 1 } }.terminate
  | send (s : State) (c : Chan) (k : Nat) (m : ReqRep.Message) (ms : List (Nat × ReqRep.Message)) :
      s.ended = false → s.conn = .active c → s.egress = (k, m) :: ms →
      Step D s { s with
        conn := .active { c with wr := c.wr.send (ReqRep.encode m), sent := c.sent ++ [(k, m)] }
        egress := ms
        bytesTx := s.bytesTx + m.size
        shouldFlush := true }
  | tick (s : State) (iv : Interval) : s.ended = false → s.checkIv.tick s.now = (true, iv) →
      Step D s { s with checkIv := iv }.checkTimeouts
  | command (s : State) (k : Nat) (payload : Bytes) (q : List (Nat × Bytes)) : s.ended = false →
      s.queue = (k, payload) :: q → Step D s ({ s with queue := q }.onCommand k payload)
  | close (s : State) : s.ended = false → s.queue = [] → s.closed = true → Step D s s.terminate
  | request (s : State) (payload : Bytes) : s.ended = false → s.closed = false →
      Step D s { s with
        calls := s.calls ++ [{ payload, time := s.now }]
        queue := s.queue ++ [(s.calls.length, payload)] }
  | requestLate (s : State) (payload : Bytes) : s.ended = true → s.closed = false →
      Step D s { s with
        calls := s.calls ++ [{ payload, time := s.now }]
        done := s.done ++ [(s.calls.length, Res.closed, s.now)] }
  | drop (s : State) : Step D s { s with closed := true }

/-- Any number of steps. -/
inductive Steps (D : Decompressors) : State → State → Prop where
  | refl (s : State) : Steps D s s
  | step {s t u : State} : Steps D s t → Step D t u → Steps D s u

variable {D : Decompressors}

theorem Step.steps {s t : State} (h : Step D s t) : Steps D s t := .step (.refl s) h

theorem Steps.trans {s t u : State} (h : Steps D s t) (h' : Steps D t u) : Steps D s u := by
  induction h' with
  | refl => exact h
  | step _ hs ih => exact .step ih hs

theorem Steps.induct {P : State → Prop} (hp : ∀ s t, Step D s t → P s → P t) {s t : State} (h : Steps D s t)
    (h0 : P s) : P t := by
  induction h with
  | refl => exact h0
  | step _ hs ih => exact hp _ _ hs ih

theorem State.eta_misc (s : State) : s = { s with shouldFlush := s.shouldFlush, flushIv := s.flushIv } := rfl

/-- The connection is what it was, or the same connection with more written. -/
theorem flushStep_steps (s : State) (e : Env) (he : s.ended = false) : Steps D s (s.flushStep e) := by
  unfold State.flushStep
  have hw : ∀ b t, s.wantFlush = (b, t) → ∃ iv, t = { s with shouldFlush := s.shouldFlush, flushIv := iv } := by
    intro b t h
    unfold State.wantFlush at h
    split at h
    · split at h
      · rename_i iv _
        rcases hi : iv.tick s.now with ⟨r, iv'⟩
        rw [hi] at h
        cases h
        exact ⟨some iv', rfl⟩
      · cases h; exact ⟨s.flushIv, rfl⟩
    · cases h; exact ⟨_, rfl⟩
  rcases hq : s.wantFlush with ⟨b, t⟩
  obtain ⟨iv, ht⟩ := hw b t hq
  have h1 : Steps D s t := by rw [ht]; exact (Step.misc s s.shouldFlush iv he).steps
  have hte : t.ended = false := by rw [ht]; exact he
  cases b with
  | false => exact h1
  | true =>
    simp only
    cases hc : t.conn with
    | inactive b => exact h1
    | active c =>
      simp only
      have hf := Writer.flush_spec c.wr e.flushAns
      rcases hw : c.wr.flush e.flushAns with ⟨o, wr⟩
      rw [hw] at hf
      have h2 : Steps D s { t with conn := .active { c with wr } } := h1.trans (Step.write t c wr hte hc hf.1 hf.2.2.1 hf.2.1).steps
      cases o with
      | ok => exact h2.step (Step.misc { t with conn := .active { c with wr } } false t.flushIv hte)
      | pending => exact h2
      | err => exact h2

theorem taskStep_steps (s t : State) (e : Env) (he : s.ended = false) (h : s.taskStep e = .ok t) : Steps D s t := by
  unfold State.taskStep at h
  split at h
  · rename_i hc
    cases hr : taskResult s.opts.token e.task with
    | panic => rw [hr] at h; cases h
    | ok r =>
      rw [hr] at h
      simp only [R.bind_ok, R.pure_eq] at h
      rcases r with _ | (_ | ⟨via, input⟩)
      · cases h; exact .refl s
      · cases h; exact (Step.taskGone s he).steps
      · have := Step.connect (D := D) s e.task via input he hc hr
        cases hcn : s.conn with
        | active c =>
          simp only [hcn] at h
          cases h
          simp only [State.chans, hcn] at this
          exact this.steps
        | inactive b =>
          simp only [hcn] at h
          cases h
          simp only [State.chans, hcn, List.append_nil] at this
          exact this.steps
  · cases h; exact .refl s

theorem taskStep_ended (s t : State) (e : Env) (h : s.taskStep e = .ok t) : t.ended = s.ended ∧ t.now = s.now := by
  unfold State.taskStep at h
  split at h
  · cases hr : taskResult s.opts.token e.task with
    | panic => rw [hr] at h; cases h
    | ok r =>
      rw [hr] at h
      simp only [R.bind_ok, R.pure_eq] at h
      rcases r with _ | (_ | ⟨via, input⟩) <;> cases h <;> exact ⟨rfl, rfl⟩
  · cases h; exact ⟨rfl, rfl⟩

theorem flushStep_ended (s : State) (e : Env) : (s.flushStep e).ended = s.ended ∧ (s.flushStep e).now = s.now := by
  unfold State.flushStep
  have hw : ∀ b t, s.wantFlush = (b, t) → t.ended = s.ended ∧ t.now = s.now := by
    intro b t h
    unfold State.wantFlush at h
    repeat' split at h
    all_goals cases h; exact ⟨rfl, rfl⟩
  rcases hq : s.wantFlush with ⟨b, t⟩
  have := hw b t hq
  repeat' split
  all_goals (rename_i h; first | (cases h; simpa using this) | skip)
  all_goals simp_all

theorem tickLoop_steps (n : Nat) (s : State) (he : s.ended = false) :
    Steps D s (s.tickLoop n) ∧ (s.tickLoop n).ended = false ∧ (s.tickLoop n).conn = s.conn ∧
      (s.tickLoop n).queue = s.queue ∧ (s.tickLoop n).closed = s.closed ∧ (s.tickLoop n).now = s.now := by
  induction n generalizing s with
  | zero => exact ⟨.refl s, he, rfl, rfl, rfl, rfl⟩
  | succ n ih =>
    unfold State.tickLoop
    rcases hi : s.checkIv.tick s.now with ⟨b, iv⟩
    cases b with
    | true =>
      simp only
      obtain ⟨h1, h2, h3, h4, h5, h6⟩ := ih ({ s with checkIv := iv }.checkTimeouts) he
      exact ⟨(Step.tick s iv he hi).steps.trans h1, h2, h3, h4, h5, h6⟩
    | false =>
      have : iv = s.checkIv := by
        unfold Interval.tick at hi
        split at hi <;> cases hi
        rfl
      subst this
      exact ⟨.refl s, he, rfl, rfl, rfl, rfl⟩

theorem lateStep_steps (s : State) (e : Env) (c : Chan) (he : s.ended = false) (hc : s.conn = .active c) :
    Steps D s (s.lateStep e c).1 := by
  unfold State.lateStep
  have hs : { s with conn := .active c } = s := by rw [← hc]
  rw [hs]
  obtain ⟨h1, h2, h3, h4, h5, -⟩ := tickLoop_steps (D := D) (s.now + 1) s he
  simp only
  generalize s.tickLoop (s.now + 1) = t at *
  cases hq : t.queue with
  | cons x q => obtain ⟨k, payload⟩ := x; exact h1.step (.command t k payload q h2 hq)
  | nil =>
    simp only
    split
    · rename_i hcl
      have hf := Writer.flush_spec c.wr e.closeAns
      rcases hw : c.wr.flush e.closeAns with ⟨o, wr⟩
      rw [hw] at hf
      have h6 : Steps D s { t with conn := .active { c with wr } } :=
        h1.step (Step.write t c wr h2 (h3.trans hc) hf.1 hf.2.2.1 hf.2.1)
      cases o with
      | pending => simpa only [hq] using h6
      | ok => simpa only [hq] using h6.step (.close { t with conn := .active { c with wr } } h2 hq hcl)
      | err => simpa only [hq] using h6.step (.close { t with conn := .active { c with wr } } h2 hq hcl)
    · exact h1

theorem writeStep_steps (s : State) (e : Env) (c c0 : Chan) (he : s.ended = false)
    (hc : Steps D s { s with conn := .active c }) :
    Steps D s (s.writeStep e c).1 := by
  unfold State.writeStep
  have hf := Writer.ready_spec c.wr e.readyAns
  rcases hw : c.wr.ready e.readyAns with ⟨o, wr⟩
  rw [hw] at hf
  have h2 : Steps D s { s with conn := .active { c with wr } } :=
    hc.step (Step.write { s with conn := .active c } c wr he rfl hf.1 hf.2.2.1 hf.2.1)
  have h3 : Steps D s (s.lateStep e { c with wr }).1 := by
    have := lateStep_steps (D := D) { s with conn := .active { c with wr } } e { c with wr } he rfl
    exact h2.trans this
  cases o with
  | pending => exact h3
  | ok =>
    cases hg : s.egress with
    | nil => exact h3
    | cons x ms =>
      obtain ⟨k, m⟩ := x
      exact h2.step (.send { s with conn := .active { c with wr } } _ k m ms he rfl hg)
  | err =>
    cases hg : s.egress with
    | nil => exact h3
    | cons x ms =>
      obtain ⟨k, m⟩ := x
      exact h2.step (.send { s with conn := .active { c with wr } } _ k m ms he rfl hg)

theorem iter_steps (s t : State) (e : Env) (o : Out) (he : s.ended = false) (h : s.iter D e = .ok (t, o)) :
    Steps D s t := by
  unfold State.iter at h
  cases hu : (s.flushStep e).taskStep e with
  | panic => rw [hu] at h; cases h
  | ok u =>
    rw [hu] at h
    simp only [R.bind_ok, R.pure_eq] at h
    have hue : u.ended = false := by rw [(taskStep_ended _ _ e hu).1, (flushStep_ended s e).1, he]
    have h1 : Steps D s u :=
      (flushStep_steps s e he).trans (taskStep_steps _ u e ((flushStep_ended s e).1.trans he) hu)
    cases hcn : u.conn with
    | inactive b =>
      simp only [hcn] at h
      cases hb : b.poll u.now with
      | panic => rw [hb] at h; cases h
      | ok r =>
        obtain ⟨x, b'⟩ := r
        rw [hb] at h
        simp only [R.bind_ok] at h
        cases x with
        | pending => cases h; exact h1.step (.backoff u b b' hue hcn hb)
        | item d =>
          cases h
          rw [State.retry_eq]
          exact h1.step (.taskStart u b b' d _ hue hcn hb rfl)
        | ended => cases h; exact h1.step (.giveUp u b b' hue hcn hb)
    | active c =>
      simp only [hcn] at h
      cases hp : c.rd.pollNext ReqRep.codec c.input with
      | panic => rw [hp] at h; cases h
      | ok r =>
        obtain ⟨x, rd, input⟩ := r
        rw [hp] at h
        simp only [R.bind_ok] at h
        cases x with
        | item m => cases h; exact h1.step (.readItem u c m rd input hue hcn hp)
        | err x => cases h; exact h1.step (.readErr u c x rd input hue hcn hp)
        | ended => cases h; exact h1.step (.readEnd u c rd input hue hcn hp)
        | pending =>
          have h2 := (Step.readIdle (D := D) u c rd input hue hcn hp).steps
          have h3 := writeStep_steps u e { c with rd, input, polls := c.polls + 1 } c hue h2
          simp only [R.ok.injEq] at h
          rw [h] at h3
          exact h1.trans h3

theorem act_steps (s t : State) (a : Act) (h : s.act D a = .ok t) : Steps D s t := by
  cases a with
  | iter e =>
    unfold State.act at h
    simp only at h
    split at h
    · cases h; exact .refl s
    · rename_i he
      cases hi : s.iter D e with
      | panic => rw [hi] at h; cases h
      | ok r =>
        obtain ⟨u, o⟩ := r
        rw [hi] at h
        cases h
        exact iter_steps s u e o (by simpa using he) hi
  | advance dt => cases h; exact (Step.now s dt).steps
  | request payload =>
    unfold State.act at h
    simp only at h
    repeat' split at h
    all_goals cases h
    · exact .refl s
    · rename_i h1 h2; exact (Step.requestLate s payload (by simpa using h2) (by simpa using h1)).steps
    · rename_i h1 h2; exact (Step.request s payload (by simpa using h2) (by simpa using h1)).steps
  | dropSocket => cases h; exact (Step.drop s).steps

theorem run_steps (acts : List Act) (s t : State) (h : s.run D acts = .ok t) : Steps D s t := by
  induction acts generalizing s with
  | nil => cases h; exact .refl _
  | cons a acts ih =>
    unfold State.run at h
    cases ha : s.act D a with
    | panic => rw [ha] at h; cases h
    | ok u => rw [ha] at h; exact (act_steps s u a ha).trans (ih u h)

end MsgRs.Req
