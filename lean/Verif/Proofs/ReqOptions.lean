import Verif.Model.ReqSocket
/-!
# Which options of the request socket its code reads

`s.withOpts o` is the state with other options. If `o` agrees with the options of `s` on the token, the timeout, the flush interval, the
write boundary and the compression threshold, everything that can happen to `s` happens to `s.withOpts o` alike.
-/
namespace MsgRs.Req
open MsgRs

/-- The same state, with other options. -/
def State.withOpts (o : Options) (s : State) : State := { s with opts := o }

/-- The options that the code reads are the same. -/
structure Options.Alike (o p : Options) : Prop where
  token : o.token = p.token
  timeout : o.timeout = p.timeout
  flushInterval : o.flushInterval = p.flushInterval
  boundary : o.boundary = p.boundary
  minCompress : o.minCompress = p.minCompress

variable {D : Decompressors} {o : Options}

theorem terminate_with (s : State) : (s.withOpts o).terminate = s.terminate.withOpts o := rfl

theorem terminate_opts (s : State) : s.terminate.opts = s.opts := rfl

theorem wantFlush_with (s : State) : (s.withOpts o).wantFlush = (s.wantFlush.1, s.wantFlush.2.withOpts o) := by
  obtain ⟨_, _, _, _, _, _, _, _, _, _, _, iv, fl, _, _, _, _, _, _, _, _, _, _, _⟩ := s
  cases fl <;> cases iv <;> rfl

theorem wantFlush_opts (s : State) : s.wantFlush.2.opts = s.opts := by
  obtain ⟨_, _, _, _, _, _, _, _, _, _, _, iv, fl, _, _, _, _, _, _, _, _, _, _, _⟩ := s
  cases fl <;> cases iv <;> rfl

theorem flushStep_with (s : State) (e : Env) : (s.withOpts o).flushStep e = (s.flushStep e).withOpts o := by
  unfold State.flushStep
  rw [wantFlush_with]
  rcases s.wantFlush with ⟨b, t⟩
  cases b
  · rfl
  · have hc : (t.withOpts o).conn = t.conn := rfl
    simp only [hc]
    cases t.conn with
    | inactive b => rfl
    | active c =>
      simp only
      rcases c.wr.flush e.flushAns with ⟨r, wr⟩
      cases r <;> rfl

theorem flushStep_opts (s : State) (e : Env) : (s.flushStep e).opts = s.opts := by
  have h := wantFlush_opts s
  unfold State.flushStep
  revert h
  rcases s.wantFlush with ⟨b, t⟩
  intro h
  cases b
  · exact h
  · simp only
    cases t.conn with
    | inactive b => exact h
    | active c =>
      simp only
      rcases c.wr.flush e.flushAns with ⟨r, wr⟩
      cases r <;> exact h

theorem taskStep_with (s : State) (e : Env) (ho : s.opts.Alike o) :
    (s.withOpts o).taskStep e = (do let t ← s.taskStep e; return t.withOpts o) := by
  unfold State.taskStep
  have h1 : (s.withOpts o).connTask = s.connTask := rfl
  have h2 : (s.withOpts o).opts.token = s.opts.token := ho.token.symm
  have h3 : (s.withOpts o).opts.boundary = s.opts.boundary := ho.boundary.symm
  rw [h1, h2, h3]
  cases s.connTask with
  | false => rfl
  | true =>
    simp only [if_true]
    cases taskResult s.opts.token e.task with
    | panic => rfl
    | ok r =>
      rcases r with _ | _ | ⟨via, input⟩
      · rfl
      · rfl
      · rfl

theorem taskStep_opts {s t : State} {e : Env} (h : s.taskStep e = .ok t) : t.opts = s.opts := by
  unfold State.taskStep at h
  cases hc : s.connTask with
  | false => simp only [hc, Bool.false_eq_true, if_false, R.ok.injEq] at h; subst h; rfl
  | true =>
    simp only [hc, if_true] at h
    cases hr : taskResult s.opts.token e.task with
    | panic => rw [hr] at h; cases h
    | ok r =>
      rw [hr] at h
      rcases r with _ | _ | ⟨via, input⟩ <;>
        (simp only [R.bind_ok, R.pure_eq, R.ok.injEq] at h; subst h; rfl)

theorem onMessage_with (s : State) (m : ReqRep.Message) : (s.withOpts o).onMessage D m = (s.onMessage D m).withOpts o := by
  unfold State.onMessage
  have h1 : (s.withOpts o).pending = s.pending := rfl
  rw [h1]
  cases s.pending.find? (·.id = m.header.id) with
  | none => rfl
  | some p =>
    simp only
    cases tryDecompress D m.header.ctype m.payload <;> rfl

theorem onMessage_opts (s : State) (m : ReqRep.Message) : (s.onMessage D m).opts = s.opts := by
  unfold State.onMessage
  simp only
  cases s.pending.find? (·.id = m.header.id) with
  | none => rfl
  | some p =>
    simp only
    cases tryDecompress D m.header.ctype m.payload <;> rfl

theorem onCommand_with (s : State) (ho : s.opts.Alike o) (k : Nat) (b : Bytes) :
    (s.withOpts o).onCommand k b = (s.onCommand k b).withOpts o := by
  unfold State.onCommand State.withOpts
  simp only [← ho.minCompress]

theorem checkTimeouts_with (s : State) (ho : s.opts.Alike o) : (s.withOpts o).checkTimeouts = s.checkTimeouts.withOpts o := by
  unfold State.checkTimeouts State.withOpts
  simp only [← ho.timeout]

theorem tickLoop_with (n : Nat) (s : State) (ho : s.opts.Alike o) :
    (s.withOpts o).tickLoop n = (s.tickLoop n).withOpts o ∧ (s.tickLoop n).opts = s.opts := by
  induction n generalizing s with
  | zero => exact ⟨rfl, rfl⟩
  | succ n ih =>
    unfold State.tickLoop
    have h0 : (s.withOpts o).checkIv.tick (s.withOpts o).now = s.checkIv.tick s.now := rfl
    rw [h0]
    rcases s.checkIv.tick s.now with ⟨b, iv⟩
    cases b with
    | false => exact ⟨rfl, rfl⟩
    | true =>
      simp only
      have hc : ({ s.withOpts o with checkIv := iv } : State).checkTimeouts
          = ({ s with checkIv := iv } : State).checkTimeouts.withOpts o :=
        checkTimeouts_with { s with checkIv := iv } ho
      rw [hc]
      exact ih _ ho

theorem lateStep_with (s : State) (ho : s.opts.Alike o) (e : Env) (c : Chan) :
    (s.withOpts o).lateStep e c = ((s.lateStep e c).1.withOpts o, (s.lateStep e c).2) ∧ (s.lateStep e c).1.opts = s.opts := by
  unfold State.lateStep
  have hl := tickLoop_with (s.now + 1) { s with conn := .active c } ho
  have h0 : ({ s.withOpts o with conn := .active c } : State).tickLoop ((s.withOpts o).now + 1)
      = (({ s with conn := .active c } : State).tickLoop (s.now + 1)).withOpts o := hl.1
  have h1 := hl.2
  simp only [h0]
  generalize ({ s with conn := .active c } : State).tickLoop (s.now + 1) = t at h1 ⊢
  have h1 : t.opts = s.opts := h1
  have h2 : (t.withOpts o).queue = t.queue := rfl
  have h3 : (t.withOpts o).closed = t.closed := rfl
  rw [h2, h3]
  cases hq : t.queue with
  | cons x q =>
    obtain ⟨k, b⟩ := x
    simp only
    refine ⟨?_, h1⟩
    have := onCommand_with { t with queue := q } (o := o) (by rw [show ({ t with queue := q } : State).opts = t.opts from rfl, h1]; exact ho) k b
    exact congrArg (·, Out.again) this
  | nil =>
    simp only
    cases t.closed with
    | false => exact ⟨rfl, h1⟩
    | true =>
      simp only [if_true]
      rcases c.wr.flush e.closeAns with ⟨r, wr⟩
      cases r <;> exact ⟨rfl, h1⟩

theorem writeStep_with (s : State) (ho : s.opts.Alike o) (e : Env) (c : Chan) :
    (s.withOpts o).writeStep e c = ((s.writeStep e c).1.withOpts o, (s.writeStep e c).2) ∧ (s.writeStep e c).1.opts = s.opts := by
  unfold State.writeStep
  have h0 : (s.withOpts o).egress = s.egress := rfl
  rw [h0]
  rcases c.wr.ready e.readyAns with ⟨r, wr⟩
  cases r <;> cases s.egress <;> first | exact lateStep_with s ho e _ | exact ⟨rfl, rfl⟩

theorem iter_with (s : State) (ho : s.opts.Alike o) (e : Env) :
    (s.withOpts o).iter D e = (do let (t, r) ← s.iter D e; return (t.withOpts o, r)) ∧
    ∀ t r, s.iter D e = .ok (t, r) → t.opts = s.opts := by
  unfold State.iter
  rw [flushStep_with, taskStep_with _ e (by rw [flushStep_opts]; exact ho)]
  have hf := flushStep_opts s e
  generalize s.flushStep e = s1 at hf ⊢
  cases ht : s1.taskStep e with
  | panic => exact ⟨rfl, fun t r h => by cases h⟩
  | ok s2 =>
    have h2 := (taskStep_opts ht).trans hf
    simp only [R.bind_ok, R.pure_eq]
    have hc : (s2.withOpts o).conn = s2.conn := rfl
    have hn : (s2.withOpts o).now = s2.now := rfl
    rw [hc, hn]
    cases s2.conn with
    | inactive b =>
      simp only
      cases b.poll s2.now with
      | panic => exact ⟨rfl, fun t r h => by cases h⟩
      | ok x =>
        obtain ⟨out, b'⟩ := x
        simp only [R.bind_ok]
        cases out with
        | pending => exact ⟨rfl, fun t r h => by cases h; exact h2⟩
        | item i =>
          unfold State.retry
          have hct : (s2.withOpts o).connTask = s2.connTask := rfl
          simp only [hct]
          cases s2.connTask with
          | true => exact ⟨rfl, fun t r h => by cases h; exact h2⟩
          | false => exact ⟨rfl, fun t r h => by cases h; exact h2⟩
        | ended => exact ⟨rfl, fun t r h => by cases h; exact h2⟩
    | active c =>
      simp only
      cases c.rd.pollNext ReqRep.codec c.input with
      | panic => exact ⟨rfl, fun t r h => by cases h⟩
      | ok x =>
        obtain ⟨out, rd, input⟩ := x
        simp only [R.bind_ok]
        cases out with
        | item m =>
          simp only [R.bind_ok, R.ok.injEq, Prod.mk.injEq]
          refine ⟨⟨?_, trivial⟩, fun t r h => by rw [← h.1, onMessage_opts]; exact h2⟩
          exact onMessage_with { s2 with conn := .active { c with rd, input, polls := c.polls + 1, got := c.got ++ [m] } } m
        | err x => exact ⟨rfl, fun t r h => by cases h; exact h2⟩
        | ended => exact ⟨rfl, fun t r h => by cases h; exact h2⟩
        | pending =>
          have hw := writeStep_with s2 (o := o) (by rw [h2]; exact ho) e { c with rd, input, polls := c.polls + 1 }
          simp only [R.bind_ok, R.ok.injEq]
          exact ⟨hw.1, fun t r h => by rw [← show (s2.writeStep e { c with rd, input, polls := c.polls + 1 }).1 = t from by rw [h], hw.2]; exact h2⟩

theorem act_with (s : State) (ho : s.opts.Alike o) (a : Act) :
    (s.withOpts o).act D a = (do let t ← s.act D a; return t.withOpts o) ∧ ∀ t, s.act D a = .ok t → t.opts = s.opts := by
  cases a with
  | iter e =>
    unfold State.act
    have he : (s.withOpts o).ended = s.ended := rfl
    simp only [he]
    cases s.ended with
    | true => exact ⟨rfl, fun t h => by cases h; rfl⟩
    | false =>
      simp only [Bool.false_eq_true, if_false]
      have hi := iter_with (D := D) s ho e
      rw [hi.1]
      cases hs : s.iter D e with
      | panic => exact ⟨rfl, fun t h => by cases h⟩
      | ok x =>
        obtain ⟨t, r⟩ := x
        exact ⟨rfl, fun t' h => by cases h; exact hi.2 t r hs⟩
  | advance dt => exact ⟨rfl, fun t h => by cases h; rfl⟩
  | request b =>
    unfold State.act
    have he : (s.withOpts o).closed = s.closed := rfl
    simp only [he]
    cases s.closed with
    | true => exact ⟨rfl, fun t h => by cases h; rfl⟩
    | false =>
      have he : (s.withOpts o).ended = s.ended := rfl
      simp only [Bool.false_eq_true, if_false, he]
      cases s.ended with
      | true => exact ⟨rfl, fun t h => by cases h; rfl⟩
      | false => exact ⟨rfl, fun t h => by cases h; rfl⟩
  | dropSocket => exact ⟨rfl, fun t h => by cases h; rfl⟩

theorem new_with {p : Options} (ho : p.Alike o) (comp : Option Compressor) (now : Nat) :
    State.new o comp now = (do let t ← State.new p comp now; return t.withOpts o) ∧
    ∀ t, State.new p comp now = .ok t → t.opts = p := by
  unfold State.new
  rw [← ho.timeout, ← ho.flushInterval]
  cases Interval.new now (p.timeout / 10) with
  | panic => exact ⟨rfl, fun t h => by cases h⟩
  | ok iv =>
    cases p.flushInterval with
    | none => exact ⟨rfl, fun t h => by cases h; rfl⟩
    | some q =>
      simp only [R.bind_ok]
      cases Interval.new now q with
      | panic => exact ⟨rfl, fun t h => by cases h⟩
      | ok iv' => exact ⟨rfl, fun t h => by cases h; rfl⟩

/-- The same socket, with other options. -/
def Socket.withOpts (o : Options) (s : Socket) : Socket := { s with opts := o, drv := s.drv.map (State.withOpts o) }

/-- The driver has the options of the socket. -/
def Socket.Own (s : Socket) : Prop := ∀ d, s.drv = some d → d.opts = s.opts

theorem onDriver_with (s : Socket) (ho : s.opts.Alike o) (hw : s.Own) (a : Act) :
    (s.withOpts o).onDriver D a = (do let t ← s.onDriver D a; return t.withOpts o) ∧
    ∀ t, s.onDriver D a = .ok t → t.Own ∧ t.opts = s.opts := by
  unfold Socket.onDriver
  have hd : (s.withOpts o).drv = s.drv.map (State.withOpts o) := rfl
  rw [hd]
  cases hs : s.drv with
  | none => exact ⟨rfl, fun t h => by cases h; exact ⟨hw, rfl⟩⟩
  | some d =>
    have ha := act_with (D := D) d (o := o) (by rw [hw d hs]; exact ho) a
    simp only [Option.map_some, ha.1]
    cases hr : d.act D a with
    | panic => exact ⟨rfl, fun t h => by cases h⟩
    | ok d' =>
      refine ⟨rfl, fun t h => ?_⟩
      simp only [R.bind_ok, R.pure_eq, R.ok.injEq] at h
      subst h
      refine ⟨fun d2 h2 => ?_, rfl⟩
      cases h2
      exact (ha.2 d' hr).trans (hw d hs)

theorem pollCall_with (s : Socket) (ho : s.opts.Alike o) (hw : s.Own) (i : Nat) :
    (s.withOpts o).pollCall D i = (do let t ← s.pollCall D i; return t.withOpts o) ∧
    ∀ t, s.pollCall D i = .ok t → t.Own ∧ t.opts = s.opts := by
  unfold Socket.pollCall
  have hd : (s.withOpts o).drv = s.drv.map (State.withOpts o) := rfl
  have hcl : (s.withOpts o).callers = s.callers := rfl
  have hdr : (s.withOpts o).dropped = s.dropped := rfl
  rw [hd, hcl, hdr]
  cases s.callers[i]? with
  | none => exact ⟨rfl, fun t h => by cases h; exact ⟨hw, rfl⟩⟩
  | some c =>
    cases hs : s.drv with
    | none => exact ⟨rfl, fun t h => by cases h; exact ⟨hw, rfl⟩⟩
    | some d =>
      simp only [Option.map_some]
      have he : (d.withOpts o).ended = d.ended := rfl
      have hq : (d.withOpts o).queue = d.queue := rfl
      have hcs : (d.withOpts o).calls = d.calls := rfl
      rw [he, hq, hcs]
      by_cases h1 : c.stage = .waiting ∧ c.cancelled = false ∧ s.dropped = false
      · rw [if_pos h1, if_pos h1]
        cases d.ended with
        | true =>
          refine ⟨by simp only [if_true, R.bind_ok, R.pure_eq, Socket.withOpts, hs, Option.map_some], fun t h => ?_⟩
          simp only [if_true, R.ok.injEq] at h
          subst h
          exact ⟨fun d2 h2 => hw d2 (by simpa [hs] using h2), rfl⟩
        | false =>
          simp only [Bool.false_eq_true, if_false]
          by_cases h2 : d.queue.length < chanCap
          · rw [if_pos h2, if_pos h2]
            have ha := act_with (D := D) d (o := o) (by rw [hw d hs]; exact ho) (.request c.payload)
            rw [ha.1]
            cases hr : d.act D (.request c.payload) with
            | panic => exact ⟨rfl, fun t h => by cases h⟩
            | ok d' =>
              refine ⟨rfl, fun t h => ?_⟩
              simp only [R.bind_ok, R.pure_eq, R.ok.injEq] at h
              subst h
              refine ⟨fun d2 h2 => ?_, rfl⟩
              cases h2
              exact (ha.2 d' hr).trans (hw d hs)
          · rw [if_neg h2, if_neg h2]
            exact ⟨rfl, fun t h => by cases h; exact ⟨hw, rfl⟩⟩
      · rw [if_neg h1, if_neg h1]
        exact ⟨rfl, fun t h => by cases h; exact ⟨hw, rfl⟩⟩

theorem sact_with (s : Socket) (ho : s.opts.Alike o) (hw : s.Own) (a : SAct) :
    (s.withOpts o).act D a = (do let t ← s.act D a; return t.withOpts o) ∧
    ∀ t, s.act D a = .ok t → t.Own ∧ t.opts = s.opts := by
  cases a with
  | connect =>
    unfold Socket.act
    have hdr : (s.withOpts o).dropped = s.dropped := rfl
    simp only [hdr]
    cases s.dropped with
    | true => exact ⟨rfl, fun t h => by cases h; exact ⟨hw, rfl⟩⟩
    | false =>
      simp only [Bool.false_eq_true, if_false, R.bind_ok, R.pure_eq, R.ok.injEq]
      unfold Socket.tryConnect
      have htr : (s.withOpts o).transport = s.transport := rfl
      rw [htr]
      cases s.transport with
      | false => exact ⟨rfl, fun t h => by cases h; exact ⟨hw, rfl⟩⟩
      | true =>
        have hn := new_with ho s.comp s.now
        have hn1 : State.new (s.withOpts o).opts (s.withOpts o).comp (s.withOpts o).now
            = (do let t ← State.new s.opts s.comp s.now; return t.withOpts o) := hn.1
        simp only [if_true, hn1]
        cases hr : State.new s.opts s.comp s.now with
        | panic => exact ⟨rfl, fun t h => by subst h; exact ⟨hw, rfl⟩⟩
        | ok d =>
          refine ⟨rfl, fun t h => ?_⟩
          subst h
          refine ⟨fun d2 h2 => ?_, rfl⟩
          cases h2
          exact hn.2 d hr
  | request b =>
    unfold Socket.act
    have hdr : (s.withOpts o).dropped = s.dropped := rfl
    simp only [hdr]
    cases s.dropped with
    | true => exact ⟨rfl, fun t h => by cases h; exact ⟨hw, rfl⟩⟩
    | false =>
      simp only [Bool.false_eq_true, if_false, R.bind_ok, R.pure_eq, R.ok.injEq]
      unfold Socket.request
      have hd : (s.withOpts o).drv = s.drv.map (State.withOpts o) := rfl
      rw [hd]
      cases hs : s.drv with
      | none => exact ⟨by simp [Socket.withOpts, hs], fun t h => by subst h; exact ⟨fun d2 h2 => hw d2 (by simpa [hs] using h2), rfl⟩⟩
      | some d => exact ⟨by simp [Socket.withOpts, hs], fun t h => by subst h; exact ⟨fun d2 h2 => hw d2 (by simpa [hs] using h2), rfl⟩⟩
  | poll i => exact pollCall_with s ho hw i
  | cancel i =>
    unfold Socket.act
    simp only [Socket.cancel]
    have hcl : (s.withOpts o).callers = s.callers := rfl
    rw [hcl]
    cases s.callers[i]? with
    | none => exact ⟨rfl, fun t h => by cases h; exact ⟨hw, rfl⟩⟩
    | some c => exact ⟨rfl, fun t h => by cases h; exact ⟨hw, rfl⟩⟩
  | driver e => exact onDriver_with s ho hw (.iter e)
  | advance dt =>
    unfold Socket.act
    have hd := onDriver_with (D := D) s ho hw (.advance dt)
    simp only [hd.1]
    cases hr : s.onDriver D (.advance dt) with
    | panic => exact ⟨rfl, fun t h => by cases h⟩
    | ok t =>
      refine ⟨rfl, fun t' h => ?_⟩
      simp only [R.bind_ok, R.pure_eq, R.ok.injEq] at h
      subst h
      exact hd.2 t hr
  | drop =>
    unfold Socket.act
    have hd := onDriver_with (D := D) s ho hw .dropSocket
    simp only [hd.1]
    cases hr : s.onDriver D .dropSocket with
    | panic => exact ⟨rfl, fun t h => by cases h⟩
    | ok t =>
      refine ⟨rfl, fun t' h => ?_⟩
      simp only [R.bind_ok, R.pure_eq, R.ok.injEq] at h
      subst h
      exact hd.2 t hr

theorem run_with (acts : List SAct) (s : Socket) (ho : s.opts.Alike o) (hw : s.Own) :
    (s.withOpts o).run D acts = (do let t ← s.run D acts; return t.withOpts o) := by
  induction acts generalizing s with
  | nil => rfl
  | cons a as ih =>
    have ha := sact_with (D := D) s ho hw a
    unfold Socket.run
    rw [ha.1]
    cases hr : s.act D a with
    | panic => rfl
    | ok t =>
      have h := ha.2 t hr
      exact ih t (by rw [h.2]; exact ho) h.1

end MsgRs.Req
