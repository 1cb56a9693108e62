import Verif.Proofs.ReqLive
import Verif.Spec.Req
/-!
# The request driver flushes what it has sent

`FInv`: bytes remain in the write buffer only while the driver remembers that it has to flush, and the next
flush is at most one flush interval away.
-/
namespace MsgRs.Req
open MsgRs

variable {D : Decompressors}

structure FInv (s : State) : Prop where
  buf : ∀ c, s.conn = .active c → s.shouldFlush = false → c.wr.buf = []
  iv : s.flushIv.map (·.period) = s.opts.flushInterval
  next : ∀ iv, s.flushIv = some iv → iv.next ≤ s.now + iv.period

theorem FInv.frame {s t : State} (h : FInv s) (h1 : t.conn = s.conn) (h2 : t.shouldFlush = s.shouldFlush)
    (h3 : t.flushIv = s.flushIv) (h4 : t.opts = s.opts) (h5 : s.now ≤ t.now) : FInv t := by
  refine ⟨?_, ?_, ?_⟩
  · rw [h1, h2]; exact h.buf
  · rw [h3, h4]; exact h.iv
  · rw [h3]; intro iv hi; have := h.next iv hi; omega

/-- What `should_flush` says and does to the interval. -/
theorem wantFlush_cases (s : State) :
    (s.shouldFlush = false ∧ s.wantFlush = (false, { s with flushIv := s.flushIv.map (·.reset s.now) })) ∨
    (s.shouldFlush = true ∧ s.flushIv = none ∧ s.wantFlush = (true, s)) ∨
    (s.shouldFlush = true ∧ ∃ iv, s.flushIv = some iv ∧ iv.next ≤ s.now ∧
      s.wantFlush = (true, { s with flushIv := some { iv with next := iv.next + iv.period } })) ∨
    (s.shouldFlush = true ∧ ∃ iv, s.flushIv = some iv ∧ s.now < iv.next ∧ s.wantFlush = (false, s)) := by
  unfold State.wantFlush
  cases hs : s.shouldFlush with
  | false => left; exact ⟨rfl, rfl⟩
  | true =>
    right
    simp only [if_true]
    cases hf : s.flushIv with
    | none => left; exact ⟨trivial, rfl, rfl⟩
    | some iv =>
      right
      simp only [Interval.tick]
      by_cases h : iv.next ≤ s.now
      · left; refine ⟨trivial, iv, rfl, h, ?_⟩; rw [if_pos h]
      · right; refine ⟨trivial, iv, rfl, by omega, ?_⟩; rw [if_neg h]; simp only; rw [← hf, ← hs]

/-- The driver flushes: the connection is flushed, and the flag cleared if that worked. -/
def State.flushConn (s : State) (e : Env) : State :=
  match s.conn with
  | .active c =>
    match c.wr.flush e.flushAns with
    | (.ok, wr) => { s with conn := .active { c with wr }, shouldFlush := false }
    | (_, wr) => { s with conn := .active { c with wr } }
  | .inactive _ => s

theorem flushStep_eq (s : State) (e : Env) :
    s.flushStep e = if s.wantFlush.1 then s.wantFlush.2.flushConn e else s.wantFlush.2 := by
  unfold State.flushStep State.flushConn
  rcases s.wantFlush with ⟨b, t⟩
  cases b with
  | false => rfl
  | true =>
    simp only [if_true]
    cases t.conn with
    | inactive _ => rfl
    | active c =>
      simp only
      rcases c.wr.flush e.flushAns with ⟨o, wr⟩
      cases o <;> rfl

theorem FInv.flushConn {s : State} (h : FInv s) (e : Env) : FInv (s.flushConn e) := by
  unfold State.flushConn
  cases hc : s.conn with
  | inactive b => exact h
  | active c =>
    simp only
    have hf := Writer.flush_spec c.wr e.flushAns
    rcases hw : c.wr.flush e.flushAns with ⟨o, wr⟩
    rw [hw] at hf
    cases o with
    | ok => exact ⟨(fun c' hc' _ => by cases hc'; exact hf.2.2.2.1 rfl), h.iv, h.next⟩
    | pending =>
      refine ⟨fun c' hc' hs => ?_, h.iv, h.next⟩
      cases hc'
      have hb := h.buf c hc hs
      have := hf.2.2.2.2 hb
      simp only at this; simp only; rw [this]; exact hb
    | err =>
      refine ⟨fun c' hc' hs => ?_, h.iv, h.next⟩
      cases hc'
      have hb := h.buf c hc hs
      have := hf.2.2.2.2 hb
      simp only at this; simp only; rw [this]; exact hb

theorem FInv.flushStep {s : State} (h : FInv s) (e : Env) : FInv (s.flushStep e) := by
  rw [flushStep_eq]
  rcases wantFlush_cases s with ⟨hs, hw⟩ | ⟨hs, hn, hw⟩ | ⟨hs, iv, hi, ht, hw⟩ | ⟨hs, iv, hi, ht, hw⟩
  · rw [hw]
    refine ⟨h.buf, ?_, ?_⟩
    · simp only [Bool.false_eq_true, if_false]
      rw [← h.iv]
      cases s.flushIv <;> rfl
    · intro iv hi
      simp only [Bool.false_eq_true, if_false] at hi ⊢
      cases hf : s.flushIv with
      | none => rw [hf] at hi; cases hi
      | some iv' => rw [hf] at hi; cases hi; exact Nat.le_refl _
  · rw [hw]; exact h.flushConn e
  · rw [hw]
    simp only [if_true]
    apply FInv.flushConn
    refine ⟨h.buf, ?_, ?_⟩
    · simp only; rw [← h.iv, hi]; rfl
    · intro iv' hi'; cases hi'; simp only; omega
  · rw [hw]; exact h

theorem FInv.taskStep {s t : State} (h : FInv s) (e : Env) (ht : s.taskStep e = .ok t) : FInv t := by
  unfold State.taskStep at ht
  split at ht
  · cases hr : taskResult s.opts.token e.task with
    | panic => rw [hr] at ht; cases ht
    | ok r =>
      rw [hr] at ht
      simp only [R.bind_ok, R.pure_eq] at ht
      rcases r with _ | (_ | ⟨via, input⟩)
      · cases ht; exact h
      · cases ht; exact ⟨h.buf, h.iv, h.next⟩
      · cases ht; exact ⟨(fun c hc _ => by cases hc; rfl), h.iv, h.next⟩
  · cases ht; exact h

theorem tickLoop_fields (n : Nat) (s : State) :
    (s.tickLoop n).conn = s.conn ∧ (s.tickLoop n).shouldFlush = s.shouldFlush ∧ (s.tickLoop n).flushIv = s.flushIv ∧
    (s.tickLoop n).opts = s.opts ∧ (s.tickLoop n).now = s.now ∧ (s.tickLoop n).past = s.past ∧
    (s.tickLoop n).egress = s.egress := by
  induction n generalizing s with
  | zero => exact ⟨rfl, rfl, rfl, rfl, rfl, rfl, rfl⟩
  | succ n ih =>
    unfold State.tickLoop
    split
    · obtain ⟨h1, h2, h3, h4, h5, h6, h7⟩ := ih ({ s with checkIv := _ } : State).checkTimeouts
      exact ⟨h1, h2, h3, h4, h5, h6, h7⟩
    · exact ⟨rfl, rfl, rfl, rfl, rfl, rfl, rfl⟩

/-- What the last part of an iteration leaves: the connection with more written, the flag, the interval. -/
theorem lateStep_fields (s : State) (e : Env) (c : Chan) : ∃ wr : Writer,
    (s.lateStep e c).1.conn = .active { c with wr } ∧ wr.total = c.wr.total ∧ c.wr.wire <+: wr.wire ∧
    (c.wr.buf = [] → wr = c.wr) ∧
    (s.lateStep e c).1.shouldFlush = s.shouldFlush ∧ (s.lateStep e c).1.flushIv = s.flushIv ∧
    (s.lateStep e c).1.opts = s.opts ∧ (s.lateStep e c).1.now = s.now ∧ (s.lateStep e c).1.past = s.past ∧
    ((s.lateStep e c).2 = .pending → (s.lateStep e c).1.egress = s.egress) := by
  unfold State.lateStep
  obtain ⟨h1, h2, h3, h4, h5, h6, h7⟩ := tickLoop_fields (s.now + 1) { s with conn := .active c }
  simp only
  generalize { s with conn := .active c }.tickLoop (s.now + 1) = t at *
  simp only at h1 h2 h3 h4 h5 h6 h7
  cases hq : t.queue with
  | cons x q =>
    obtain ⟨k, payload⟩ := x
    exact ⟨c.wr, h1, rfl, List.prefix_refl _, fun _ => rfl, h2, h3, h4, h5, h6, fun h => by cases h⟩
  | nil =>
    simp only
    split
    · have hf := Writer.flush_spec c.wr e.closeAns
      rcases hw : c.wr.flush e.closeAns with ⟨o, wr⟩
      rw [hw] at hf
      cases o with
      | pending => exact ⟨wr, rfl, hf.1, hf.2.2.1, hf.2.2.2.2, h2, h3, h4, h5, h6, fun _ => h7⟩
      | ok => exact ⟨wr, rfl, hf.1, hf.2.2.1, hf.2.2.2.2, h2, h3, h4, h5, h6, fun h => by cases h⟩
      | err => exact ⟨wr, rfl, hf.1, hf.2.2.1, hf.2.2.2.2, h2, h3, h4, h5, h6, fun h => by cases h⟩
    · exact ⟨c.wr, h1, rfl, List.prefix_refl _, fun _ => rfl, h2, h3, h4, h5, h6, fun _ => h7⟩

/-- The same for everything after the read. -/
theorem writeStep_fields (s : State) (e : Env) (c : Chan) : ∃ c' : Chan,
    (s.writeStep e c).1.conn = .active c' ∧ c.sent <+: c'.sent ∧ c.wr.wire <+: c'.wr.wire ∧
    ((s.writeStep e c).1.shouldFlush = true ∨ (s.writeStep e c).1.shouldFlush = s.shouldFlush ∧
      (c.wr.buf = [] → c'.wr.buf = [])) ∧
    (s.shouldFlush = true → (s.writeStep e c).1.shouldFlush = true) ∧
    (s.writeStep e c).1.flushIv = s.flushIv ∧
    (s.writeStep e c).1.opts = s.opts ∧ (s.writeStep e c).1.now = s.now ∧ (s.writeStep e c).1.past = s.past ∧
    ((s.writeStep e c).2 = .pending → (c.wr.buf = [] → c'.wr.buf = []) ∧
      ((s.writeStep e c).1.egress = [] ∨ (c.wr.ready e.readyAns).1 = .pending)) := by
  unfold State.writeStep
  have hf := Writer.ready_spec c.wr e.readyAns
  rcases hw : c.wr.ready e.readyAns with ⟨o, wr⟩
  rw [hw] at hf
  have late : ∃ c' : Chan,
    (s.lateStep e { c with wr }).1.conn = .active c' ∧ c.sent <+: c'.sent ∧ c.wr.wire <+: c'.wr.wire ∧
    ((s.lateStep e { c with wr }).1.shouldFlush = true ∨ (s.lateStep e { c with wr }).1.shouldFlush = s.shouldFlush ∧
      (c.wr.buf = [] → c'.wr.buf = [])) ∧
    (s.shouldFlush = true → (s.lateStep e { c with wr }).1.shouldFlush = true) ∧
    (s.lateStep e { c with wr }).1.flushIv = s.flushIv ∧
    (s.lateStep e { c with wr }).1.opts = s.opts ∧ (s.lateStep e { c with wr }).1.now = s.now ∧
    (s.lateStep e { c with wr }).1.past = s.past ∧
    ((s.lateStep e { c with wr }).2 = .pending → (c.wr.buf = [] → c'.wr.buf = []) ∧
      (s.lateStep e { c with wr }).1.egress = s.egress) := by
    obtain ⟨wr', k1, k2, k3, k4, k5, k6, k7, k8, k9, k10⟩ := lateStep_fields s e { c with wr }
    have hb : c.wr.buf = [] → wr'.buf = [] := by
      intro hb
      have hwr : wr = c.wr := hf.2.2.2 hb
      rw [k4 (by simp only; rw [hwr]; exact hb)]
      simp only; rw [hwr]; exact hb
    exact ⟨_, k1, List.prefix_refl _, hf.2.2.1.trans k3, .inr ⟨k5, hb⟩, (fun h => k5.trans h), k6, k7, k8, k9,
      fun h => ⟨hb, k10 h⟩⟩
  cases o with
  | pending =>
    obtain ⟨c', k1, k2, k3, k4, k5, k6, k7, k8, k9, k10⟩ := late
    exact ⟨c', k1, k2, k3, k4, k5, k6, k7, k8, k9, fun h => ⟨(k10 h).1, .inr rfl⟩⟩
  | ok =>
    cases hg : s.egress with
    | nil =>
      obtain ⟨c', k1, k2, k3, k4, k5, k6, k7, k8, k9, k10⟩ := late
      exact ⟨c', k1, k2, k3, k4, k5, k6, k7, k8, k9, fun h => ⟨(k10 h).1, .inl ((k10 h).2.trans hg)⟩⟩
    | cons x ms =>
      exact ⟨_, rfl, List.prefix_append _ _, hf.2.2.1, .inl rfl, fun _ => rfl, rfl, rfl, rfl, rfl, fun h => by cases h⟩
  | err =>
    cases hg : s.egress with
    | nil =>
      obtain ⟨c', k1, k2, k3, k4, k5, k6, k7, k8, k9, k10⟩ := late
      exact ⟨c', k1, k2, k3, k4, k5, k6, k7, k8, k9, fun h => ⟨(k10 h).1, .inl ((k10 h).2.trans hg)⟩⟩
    | cons x ms =>
      exact ⟨_, rfl, List.prefix_append _ _, hf.2.2.1, .inl rfl, fun _ => rfl, rfl, rfl, rfl, rfl, fun h => by cases h⟩

theorem onMessage_fields (s : State) (m : ReqRep.Message) :
    (State.onMessage D s m).conn = s.conn ∧ (State.onMessage D s m).shouldFlush = s.shouldFlush ∧
    (State.onMessage D s m).flushIv = s.flushIv ∧ (State.onMessage D s m).opts = s.opts ∧
    (State.onMessage D s m).now = s.now ∧ (State.onMessage D s m).past = s.past ∧
    (State.onMessage D s m).ended = s.ended := by
  unfold State.onMessage
  split
  · exact ⟨rfl, rfl, rfl, rfl, rfl, rfl, rfl⟩
  · simp only
    split <;> exact ⟨rfl, rfl, rfl, rfl, rfl, rfl, rfl⟩

/-- An iteration after its flush and its connection task. -/
def State.rest (D : Decompressors) (s : State) (e : Env) : R (State × Out) :=
  match s.conn with
  | .inactive b => do
    let (o, b) ← b.poll s.now
    let s := { s with conn := .inactive b }
    match o with
    | .pending => return (s, .pending)
    | .item _ => return (s.retry, .pending)
    | .ended => return (s.terminate, .ended)
  | .active c => do
    let (o, rd, input) ← c.rd.pollNext ReqRep.codec c.input
    let c := { c with rd, input, polls := c.polls + 1 }
    match o with
    | .item m => return (State.onMessage D { s with conn := .active { c with got := c.got ++ [m] } } m, .again)
    | .err _ => return ({ s with conn := .inactive backoff0, past := s.past ++ [c] }, .again)
    | .ended => return ({ s with conn := .active c }.terminate, .ended)
    | .pending => return s.writeStep e c

theorem iter_rest {s t : State} {e : Env} {o : Out} (h : s.iter D e = .ok (t, o)) :
    ∃ u, (s.flushStep e).taskStep e = .ok u ∧ u.rest D e = .ok (t, o) := by
  unfold State.iter at h
  cases hu : (s.flushStep e).taskStep e with
  | panic => rw [hu] at h; cases h
  | ok u =>
    rw [hu] at h
    refine ⟨u, rfl, ?_⟩
    unfold State.rest
    simp only [R.bind_ok] at h
    cases hc : u.conn with
    | inactive b => rw [hc] at h; exact h
    | active c => rw [hc] at h; exact h

/-- What the rest of an iteration does to the connection, the flag and the interval. -/
theorem rest_fields {s t : State} {e : Env} {o : Out} (h : s.rest D e = .ok (t, o)) :
    t.flushIv = s.flushIv ∧ t.opts = s.opts ∧ t.now = s.now ∧
    ((∃ b, t.conn = .inactive b) ∨
     ∃ c c', s.conn = .active c ∧ t.conn = .active c' ∧ t.past = s.past ∧ c.sent <+: c'.sent ∧ c.wr.wire <+: c'.wr.wire ∧
      (t.shouldFlush = true ∨ t.shouldFlush = s.shouldFlush ∧ (c.wr.buf = [] → c'.wr.buf = [])) ∧
      (s.shouldFlush = true → t.shouldFlush = true) ∧
      (o = .pending → (c.wr.buf = [] → c'.wr.buf = []) ∧ (t.egress = [] ∨ (c.wr.ready e.readyAns).1 = .pending))) := by
  unfold State.rest at h
  cases hc : s.conn with
  | inactive b =>
    simp only [hc] at h
    cases hb : b.poll s.now with
    | panic => rw [hb] at h; cases h
    | ok r =>
      obtain ⟨x, b'⟩ := r
      rw [hb] at h
      simp only [R.bind_ok, R.pure_eq, State.retry_eq] at h
      cases x <;> cases h <;> exact ⟨rfl, rfl, rfl, .inl ⟨_, rfl⟩⟩
  | active c =>
    simp only [hc] at h
    cases hp : c.rd.pollNext ReqRep.codec c.input with
    | panic => rw [hp] at h; cases h
    | ok r =>
      obtain ⟨x, rd, input⟩ := r
      rw [hp] at h
      simp only [R.bind_ok, R.pure_eq] at h
      cases x with
      | item m =>
        simp only [R.ok.injEq, Prod.mk.injEq] at h
        obtain ⟨rfl, rfl⟩ := h
        obtain ⟨k1, k2, k3, k4, k5, k6, -⟩ := onMessage_fields (D := D)
          { s with conn := .active { c with rd, input, polls := c.polls + 1, got := c.got ++ [m] } } m
        refine ⟨k3, k4, k5, .inr ⟨c, _, rfl, k1, k6, List.prefix_refl _, List.prefix_refl _, .inr ⟨k2, fun h => h⟩,
          (fun h => k2.trans h), fun h => by cases h⟩⟩
      | err x => cases h; exact ⟨rfl, rfl, rfl, .inl ⟨_, rfl⟩⟩
      | ended =>
        cases h
        exact ⟨rfl, rfl, rfl, .inr ⟨c, _, rfl, rfl, rfl, List.prefix_refl _, List.prefix_refl _, .inr ⟨rfl, fun h => h⟩,
          (fun h => h), fun h => by cases h⟩⟩
      | pending =>
        simp only [R.ok.injEq] at h
        obtain ⟨c', k1, k2, k3, k4, k5, k6, k7, k8, k9, k10⟩ :=
          writeStep_fields s e { c with rd, input, polls := c.polls + 1 }
        rw [h] at k1 k4 k5 k6 k7 k8 k9 k10
        exact ⟨k6, k7, k8, .inr ⟨c, c', rfl, k1, k9, k2, k3, k4, k5, k10⟩⟩

theorem FInv.iter {s t : State} {e : Env} {o : Out} (h : FInv s) (hi : s.iter D e = .ok (t, o)) : FInv t := by
  obtain ⟨u, hu, hr⟩ := iter_rest hi
  have h1 := (h.flushStep e).taskStep e hu
  obtain ⟨k1, k2, k3, k4⟩ := rest_fields hr
  refine ⟨?_, by rw [k1, k2]; exact h1.iv, by rw [k1, k3]; exact h1.next⟩
  intro c hc hs
  rcases k4 with ⟨b, hb⟩ | ⟨c0, c', m1, m2, -, -, -, m3, m4, -⟩
  · rw [hb] at hc; cases hc
  · rw [m2] at hc; cases hc
    rcases m3 with m3 | ⟨m3, m5⟩
    · rw [m3] at hs; cases hs
    · exact m5 (h1.buf c0 m1 (m3 ▸ hs))

theorem FInv.act {s t : State} {a : Act} (h : FInv s) (ha : s.act D a = .ok t) : FInv t := by
  cases a with
  | iter e =>
    unfold State.act at ha
    simp only at ha
    split at ha
    · cases ha; exact h
    · cases hi : s.iter D e with
      | panic => rw [hi] at ha; cases ha
      | ok r =>
        obtain ⟨u, o⟩ := r
        rw [hi] at ha
        cases ha
        exact h.iter hi
  | advance dt => cases ha; exact h.frame rfl rfl rfl rfl (Nat.le_add_right _ _)
  | request payload =>
    unfold State.act at ha
    simp only at ha
    repeat' split at ha
    all_goals cases ha
    · exact h
    · exact h.frame rfl rfl rfl rfl (Nat.le_refl _)
    · exact h.frame rfl rfl rfl rfl (Nat.le_refl _)
  | dropSocket => cases ha; exact h.frame rfl rfl rfl rfl (Nat.le_refl _)

theorem FInv.run {s t : State} {acts : List Act} (h : FInv s) (ha : s.run D acts = .ok t) : FInv t := by
  induction acts generalizing s with
  | nil => cases ha; exact h
  | cons a acts ih =>
    unfold State.run at ha
    cases hx : s.act D a with
    | panic => rw [hx] at ha; cases ha
    | ok u => rw [hx] at ha; exact ih (h.act hx) ha

theorem FInv.new {opts : Options} {comp : Option Compressor} {now : Nat} {s : State}
    (h : State.new opts comp now = .ok s) : FInv s := by
  unfold State.new at h
  cases h1 : Interval.new now (opts.timeout / 10) with
  | panic => rw [h1] at h; cases h
  | ok iv =>
    rw [h1] at h
    simp only [R.bind_ok, R.pure_eq] at h
    cases hf : opts.flushInterval with
    | none =>
      simp only [hf] at h
      cases h
      exact ⟨(fun c hc => by cases hc), hf.symm, fun iv hi => by cases hi⟩
    | some p =>
      simp only [hf] at h
      cases h2 : Interval.new now p with
      | panic => rw [h2] at h; cases h
      | ok iv' =>
        rw [h2] at h
        cases h
        unfold Interval.new at h2
        split at h2
        · cases h2
        · cases h2
          exact ⟨(fun c hc => by cases hc), hf.symm, (fun iv hi => by cases hi; exact Nat.le_add_right _ _)⟩

/-! ## From a flag to the wire -/

/-- What a flush step does when the connection takes the bytes: if it is time, all bytes are on the wire. -/
theorem flushStep_takes {s : State} (h : FInv s) (e : Env) {c : Chan} (hc : s.conn = .active c)
    (ht : (c.wr.flush e.flushAns).1 = .ok) : ∃ wr : Writer, (s.flushStep e).conn = .active { c with wr } ∧
      (s.flushStep e).past = s.past ∧ wr.total = c.wr.total ∧ c.wr.wire <+: wr.wire ∧
      (wr.buf = [] ∨ wr = c.wr ∧ s.shouldFlush = true ∧ (s.flushStep e).shouldFlush = true ∧
        ∃ iv, s.flushIv = some iv ∧ (s.flushStep e).flushIv = some iv ∧ s.now < iv.next) := by
  rw [flushStep_eq]
  have hf := Writer.flush_spec c.wr e.flushAns
  rcases hw : c.wr.flush e.flushAns with ⟨o, wr⟩
  rw [hw] at hf ht
  simp only at ht
  subst ht
  have key : ∀ u : State, u.conn = s.conn → u.past = s.past → ∃ wr : Writer, (u.flushConn e).conn = .active { c with wr } ∧
      (u.flushConn e).past = s.past ∧ wr.total = c.wr.total ∧ c.wr.wire <+: wr.wire ∧ wr.buf = [] := by
    intro u hu hp
    unfold State.flushConn
    rw [hu, hc]
    simp only [hw]
    exact ⟨wr, rfl, hp, hf.1, hf.2.2.1, hf.2.2.2.1 rfl⟩
  rcases wantFlush_cases s with ⟨hs, hq⟩ | ⟨hs, hn, hq⟩ | ⟨hs, iv, hi, hn, hq⟩ | ⟨hs, iv, hi, hn, hq⟩
  · rw [hq]
    exact ⟨c.wr, hc, rfl, rfl, List.prefix_refl _, .inl (h.buf c hc hs)⟩
  · rw [hq]
    obtain ⟨w, k1, k2, k3, k4, k5⟩ := key s rfl rfl
    exact ⟨w, k1, k2, k3, k4, .inl k5⟩
  · rw [hq]
    obtain ⟨w, k1, k2, k3, k4, k5⟩ := key { s with flushIv := some { iv with next := iv.next + iv.period } } rfl rfl
    exact ⟨w, k1, k2, k3, k4, .inl k5⟩
  · rw [hq]
    exact ⟨c.wr, hc, rfl, rfl, List.prefix_refl _, .inr ⟨rfl, hs, hs, iv, hi, hi, hn⟩⟩

theorem taskStep_conn {s t : State} {e : Env} (h : s.taskStep e = .ok t) :
    (t.conn = s.conn ∧ t.past = s.past ∧ t.shouldFlush = s.shouldFlush ∧ t.flushIv = s.flushIv) ∨
    ((∃ c, t.conn = .active c ∧ c.wr.buf = [] ∧ c.wr.boundary = s.opts.boundary) ∧ (∀ c, s.conn = .active c → t.past = s.past ++ [c]) ∧
      t.shouldFlush = s.shouldFlush ∧ t.flushIv = s.flushIv) := by
  unfold State.taskStep at h
  split at h
  · cases hr : taskResult s.opts.token e.task with
    | panic => rw [hr] at h; cases h
    | ok r =>
      rw [hr] at h
      simp only [R.bind_ok, R.pure_eq] at h
      rcases r with _ | (_ | ⟨via, input⟩)
      · cases h; exact .inl ⟨rfl, rfl, rfl, rfl⟩
      · cases h; exact .inl ⟨rfl, rfl, rfl, rfl⟩
      · cases h
        refine .inr ⟨⟨_, rfl, rfl, rfl⟩, ?_, rfl, rfl⟩
        intro c hc
        simp only [hc]
  · cases h; exact .inl ⟨rfl, rfl, rfl, rfl⟩

/-- The connection in use has the write buffer limit of the options. -/
theorem boundary_step {s t : State} (h : Step D s t) (hs : ∀ c, s.conn = .active c → c.wr.boundary = s.opts.boundary) :
    ∀ c, t.conn = .active c → c.wr.boundary = t.opts.boundary := by
  cases h with
  | write c wr he hc h1 h2 h3 => intro c' hc'; cases hc'; exact h3.trans (hs c hc)
  | connect => intro c' hc'; cases hc'; rfl
  | backoff => intro c' hc'; cases hc'
  | taskStart => intro c' hc'; cases hc'
  | giveUp => intro c' hc'; cases hc'
  | readItem c m rd input he hc hp =>
    obtain ⟨k1, -, -, k2, -⟩ := onMessage_fields (D := D)
      { s with conn := .active { c with rd, input, polls := c.polls + 1, got := c.got ++ [m] } } m
    intro c' hc'
    rw [k1] at hc'; cases hc'; rw [k2]; exact hs c hc
  | readIdle c rd input he hc hp => intro c' hc'; cases hc'; exact hs c hc
  | readErr => intro c' hc'; cases hc'
  | readEnd c rd input he hc hp => intro c' hc'; cases hc'; exact hs c hc
  | send c k m ms he hc hg => intro c' hc'; cases hc'; exact hs c hc
  | _ => exact hs

/-- `L` has been handed to the current connection, which is connection number `n`, and is on the wire or will
be flushed at `T`. -/
def Due (n : Nat) (L : List (Nat × ReqRep.Message)) (T : Nat) (s : State) : Prop :=
  s.ended = false → s.past.length = n → ∃ c, s.conn = .active c ∧ L <+: c.sent ∧
    (L.flatMap (fun x => ReqRep.encode x.2) <+: c.wr.wire ∨
      s.shouldFlush = true ∧ ∀ iv, s.flushIv = some iv → iv.next ≤ T)

theorem sent_prefix_wire {s : State} (hi : Inv D s) {c : Chan} (hc : s.conn = .active c) {L : List (Nat × ReqRep.Message)}
    (hL : L <+: c.sent) (hb : c.wr.buf = []) : L.flatMap (fun x => ReqRep.encode x.2) <+: c.wr.wire := by
  have hmem : c ∈ s.chans := by unfold State.chans; rw [hc]; simp
  have := (hi.chans.chan c hmem).bytes
  rw [hb, List.append_nil] at this
  rw [this]
  obtain ⟨r, hr⟩ := hL
  rw [← hr, List.flatMap_append]
  exact List.prefix_append _ _

theorem past_step {s t : State} (h : Step D s t) : s.past.length ≤ t.past.length := by
  cases h with
  | readItem c m rd input he hc hp =>
    rw [(onMessage_fields (D := D) _ m).2.2.2.2.2.1]
    exact Nat.le_refl _
  | connect task via input he ht hr =>
    simp only [State.chans]; simp
  | readErr => simp
  | _ => exact Nat.le_refl _

theorem ended_step {s t : State} (h : Step D s t) : s.ended = true → t.ended = true := by
  cases h with
  | readItem c m rd input he hc hp =>
    rw [(onMessage_fields (D := D) _ m).2.2.2.2.2.2]
    exact id
  | giveUp => intro _; rfl
  | readEnd => intro _; rfl
  | close => intro _; rfl
  | _ => exact id

/-- An iteration during which the connection takes what it is offered keeps the promise; at `T` it is met. -/
theorem Due.iter {n T : Nat} {L : List (Nat × ReqRep.Message)} {s t : State} {e : Env} {o : Out} (hi : Inv D s) (hf : FInv s)
    (he : s.ended = false) (h : Due n L T s) (ht : ∀ c, s.conn = .active c → (c.wr.flush e.flushAns).1 = .ok)
    (hit : s.iter D e = .ok (t, o)) (hn : n ≤ s.past.length) : Due n L T t ∧ (T ≤ s.now → t.ended = false → t.past.length = n →
      ∃ c, t.conn = .active c ∧ L.flatMap (fun x => ReqRep.encode x.2) <+: c.wr.wire) := by
  suffices key : t.ended = false → t.past.length = n → ∃ c, t.conn = .active c ∧ L <+: c.sent ∧
      (L.flatMap (fun x => ReqRep.encode x.2) <+: c.wr.wire ∨
        s.now < T ∧ t.shouldFlush = true ∧ ∀ iv, t.flushIv = some iv → iv.next ≤ T) by
    constructor
    · intro h1 h2
      obtain ⟨c, k1, k2, k3⟩ := key h1 h2
      exact ⟨c, k1, k2, k3.imp id (fun x => x.2)⟩
    · intro h0 h1 h2
      obtain ⟨c, k1, k2, k3⟩ := key h1 h2
      rcases k3 with k3 | k3
      · exact ⟨c, k1, k3⟩
      · omega
  intro hte hpt
  have hsp : s.past.length = n := by
    have : s.past.length ≤ t.past.length :=
      (iter_steps s t e o he hit).induct (P := fun x => s.past.length ≤ x.past.length)
        (fun _ _ hs h => Nat.le_trans h (past_step hs)) (Nat.le_refl _)
    omega
  obtain ⟨c, hc, hL, hd⟩ := h he hsp
  obtain ⟨wr, f1, f2, f3, f4, f5⟩ := flushStep_takes hf e hc (ht c hc)
  obtain ⟨u, hu, hr⟩ := iter_rest hit
  have hui : Inv D u := ((flushStep_steps s e he).trans (taskStep_steps _ u e ((flushStep_ended s e).1.trans he) hu)).inv hi
  obtain ⟨r1, r2, r3, r4⟩ := rest_fields hr
  have hnow : u.now = s.now := (taskStep_ended _ _ e hu).2.trans (flushStep_ended s e).2
  have hpu : t.past.length = u.past.length ∧ ∃ c c', u.conn = .active c ∧ t.conn = .active c' ∧ c.sent <+: c'.sent ∧
      c.wr.wire <+: c'.wr.wire ∧ (u.shouldFlush = true → t.shouldFlush = true) := by
    rcases r4 with ⟨b, hb⟩ | ⟨c1, c', m1, m2, m3, m4, m5, m6, m7, -⟩
    · exfalso
      -- the connection was lost: then it is in `past`
      have : n < t.past.length := by
        rcases taskStep_conn hu with ⟨q1, q2, -, -⟩ | ⟨⟨cn, q1, -, -⟩, q2, -⟩
        · unfold State.rest at hr
          rw [q1, f1] at hr
          simp only at hr
          cases hp : ({ c with wr } : Chan).rd.pollNext ReqRep.codec ({ c with wr } : Chan).input with
          | panic => rw [hp] at hr; cases hr
          | ok r =>
            obtain ⟨x, rd, input⟩ := r
            rw [hp] at hr
            simp only [R.bind_ok, R.pure_eq] at hr
            cases x with
            | item m =>
              simp only [R.ok.injEq, Prod.mk.injEq] at hr
              obtain ⟨rfl, -⟩ := hr
              rw [(onMessage_fields (D := D) _ m).1] at hb; cases hb
            | err x => cases hr; simp only [List.length_append, List.length_singleton]; rw [q2, f2]; omega
            | ended => cases hr; cases hb
            | pending =>
              simp only [R.ok.injEq] at hr
              obtain ⟨c', k1, -⟩ := writeStep_fields u e { c with wr, rd, input, polls := c.polls + 1 }
              have : (u.writeStep e { c with wr, rd, input, polls := c.polls + 1 }).1.conn = t.conn := by rw [hr]
              rw [this, hb] at k1; cases k1
        · have h1 := q2 _ f1
          have h2 : u.past.length ≤ t.past.length := by
            have hx : u.past <+: t.past := by
              unfold State.rest at hr
              rw [q1] at hr
              simp only at hr
              cases hp : cn.rd.pollNext ReqRep.codec cn.input with
              | panic => rw [hp] at hr; cases hr
              | ok r =>
                obtain ⟨x, rd, input⟩ := r
                rw [hp] at hr
                simp only [R.bind_ok, R.pure_eq] at hr
                cases x with
                | item m =>
                  simp only [R.ok.injEq, Prod.mk.injEq] at hr
                  obtain ⟨rfl, -⟩ := hr
                  rw [(onMessage_fields (D := D) _ m).1] at hb; cases hb
                | err x => cases hr; exact List.prefix_append _ _
                | ended => cases hr; cases hb
                | pending =>
                  simp only [R.ok.injEq] at hr
                  obtain ⟨c', k1, -⟩ := writeStep_fields u e { cn with rd, input, polls := cn.polls + 1 }
                  have : (u.writeStep e { cn with rd, input, polls := cn.polls + 1 }).1.conn = t.conn := by rw [hr]
                  rw [this, hb] at k1; cases k1
            exact hx.length_le
          rw [h1, f2, List.length_append, List.length_singleton] at h2
          omega
      omega
    · exact ⟨by rw [m3], c1, c', m1, m2, m4, m5, m7⟩
  obtain ⟨hpl, c1, c', m1, m2, m3, m4, m5⟩ := hpu
  rcases taskStep_conn hu with ⟨q1, q2, q3, q4⟩ | ⟨-, q2, -⟩
  · rw [q1, f1] at m1
    cases m1
    refine ⟨c', m2, List.IsPrefix.trans hL m3, ?_⟩
    rcases f5 with f5 | ⟨f5, f6, f7, iv, f8, f9, f10⟩
    · left
      exact List.IsPrefix.trans (sent_prefix_wire hui (q1.trans f1) hL f5) m4
    · subst f5
      rcases hd with hd | ⟨hd1, hd2⟩
      · left; exact List.IsPrefix.trans hd m4
      · right
        have := hd2 iv f8
        refine ⟨by omega, m5 (q3.trans f7), ?_⟩
        intro iv' hiv'
        rw [r1, q4, f9] at hiv'
        cases hiv'
        exact this
  · have := q2 _ f1
    rw [hpl, this, f2, List.length_append, List.length_singleton] at hpt
    omega

theorem Due.act {n T : Nat} {L : List (Nat × ReqRep.Message)} {s t : State} {a : Act} (hi : Inv D s) (hf : FInv s)
    (h : Due n L T s) (ht : ∀ e c, a = .iter e → s.conn = .active c → (c.wr.flush e.flushAns).1 = .ok)
    (ha : s.act D a = .ok t) (hn : n ≤ s.past.length) : Due n L T t := by
  cases a with
  | iter e =>
    unfold State.act at ha
    simp only at ha
    split at ha
    · cases ha; exact h
    · rename_i he
      cases hx : s.iter D e with
      | panic => rw [hx] at ha; cases ha
      | ok r =>
        obtain ⟨u, o⟩ := r
        rw [hx] at ha
        cases ha
        exact (Due.iter hi hf (by simpa using he) h (fun c hc => ht e c rfl hc) hx hn).1
  | advance dt => cases ha; exact h
  | request payload =>
    unfold State.act at ha
    simp only at ha
    repeat' split at ha
    all_goals cases ha
    all_goals exact h
  | dropSocket => cases ha; exact h

theorem Due.run {n T : Nat} {L : List (Nat × ReqRep.Message)} {acts : List Act} {s t : State} (hi : Inv D s) (hf : FInv s)
    (h : Due n L T s) (ht : Taking D s acts) (ha : s.run D acts = .ok t) (hn : n ≤ s.past.length) :
    Due n L T t ∧ Inv D t ∧ FInv t ∧ n ≤ t.past.length := by
  induction acts generalizing s with
  | nil => cases ha; exact ⟨h, hi, hf, hn⟩
  | cons a acts ih =>
    unfold State.run at ha
    cases hx : s.act D a with
    | panic => rw [hx] at ha; cases ha
    | ok u =>
      rw [hx] at ha
      have hp : s.past.length ≤ u.past.length :=
        (act_steps s u a hx).induct (P := fun x => s.past.length ≤ x.past.length)
          (fun _ _ hs h => Nat.le_trans h (past_step hs)) (Nat.le_refl _)
      exact ih ((act_steps s u a hx).inv hi) (hf.act hx) (Due.act hi hf h ht.1 hx hn) (ht.2 u hx) ha (Nat.le_trans hn hp)

end MsgRs.Req
