import Verif.Proofs.PubTimed
import Verif.Props.Pub
/-!
# Property C72: published messages reach the wire

A history of a session is a list of `TAct`: iterations of its poll loop and the passing of time.
-/
namespace MsgRs.Props
open MsgRs Pub Spec

/-- C72: the histories of a session with its flush interval and a clock are histories of the session, to which
everything proved about sessions applies (`C22_session_in_order` and the others). -/
theorem C72_is_a_session (L : Lossy) (boundary : Nat) (input : List ReadAns) (period : Option Nat) (now : Nat)
    (t0 t : Timed) (acts : List TAct) (evs : List Ev) (h0 : Timed.new boundary input period now = .ok t0)
    (hr : t0.run L acts = .ok (t, evs)) : ∃ es, (Session.new boundary input).run L es = .ok (t.s, evs) := by
  have : t0.s = Session.new boundary input ∧ t0.ended = false := by
    unfold Timed.new at h0
    cases period with
    | none => cases h0; exact ⟨rfl, rfl⟩
    | some p =>
      simp only at h0
      cases h2 : Interval.new now p with
      | panic => rw [h2] at h0; cases h0
      | ok iv => rw [h2] at h0; cases h0; exact ⟨rfl, rfl⟩
  rw [← this.1]
  exact Timed.run_session acts this.2 hr

/-- C72, without flush interval (and with a positive boundary): whenever a session returns `Pending`, every
message it took from the feed while its topic was subscribed is on the wire, whole and in order; or the
connection was just offered the bytes still buffered and did not take them all. -/
theorem C72_idle_means_sent (L : Lossy) (boundary : Nat) (hb : 0 < boundary) (input : List ReadAns) (now : Nat)
    (t0 t t' : Timed) (acts : List TAct) (evs : List Ev) (e : Env) (ev : Ev)
    (h0 : Timed.new boundary input none now = .ok t0) (hr : t0.run L acts = .ok (t, evs))
    (hi : t.iter L e = .ok (t', ev)) (hev : ev = .idle ∨ ev = .blocked) :
    t'.s.wr.wire = (due L [] 0 evs).flatMap PubSub.encode ∨
    (t.s.wr.buf ≠ [] ∧ (t.s.wr.flush e.flushAns).1 ≠ .ok) := by
  have hT := ClockInv.run (L := L) acts (ClockInv.new h0) hr
  rw [List.nil_append] at hT
  have hbd : t.s.wr.boundary = boundary := by
    rw [Timed.run_boundary acts hr]
    cases h0; rfl
  have hiv : t.iv = none := by
    have := hT.period
    cases hx : t.iv with
    | none => rfl
    | some iv => rw [hx] at this; cases this
  obtain ⟨h1, -, -, -⟩ := Timed.iter_ok hi
  have hI := inv_step _ _ _ _ _ hT.inv (iter_step hT.inv.flush h1)
  -- the buffer is empty after the flush step, or the connection refused
  have hflush : (t.s.flushStep { e with tick := t.shouldFlush.1 }).wr.buf = [] ∨
      (t.s.wr.buf ≠ [] ∧ (t.s.wr.flush e.flushAns).1 ≠ .ok) := by
    have hf := Writer.flush_spec t.s.wr e.flushAns
    rcases shouldFlush_cases t with ⟨hs, hq⟩ | ⟨hs, hn, hq⟩ | ⟨hs, iv, hn, hl, hq⟩ | ⟨hs, iv, hn, hl, hq⟩
    · left
      unfold Session.flushStep
      rw [if_neg (by rw [hq]; simp)]
      exact hT.inv.flush hs
    · unfold Session.flushStep
      rw [if_pos (by rw [hq]; simp [hs])]
      rcases hw : t.s.wr.flush e.flushAns with ⟨o, w⟩
      rw [hw] at hf
      by_cases hz : t.s.wr.buf = []
      · left
        have := hf.2.2.2.2 hz
        simp only at this
        subst this
        cases o <;> exact hz
      · cases o with
        | ok => left; exact hf.2.2.2.1 rfl
        | pending => right; exact ⟨hz, by simp⟩
        | err => right; exact ⟨hz, by simp⟩
    · rw [hiv] at hn; cases hn
    · rw [hiv] at hn; cases hn
  refine hflush.imp (fun hz => ?_) id
  have hbd' : (t.s.flushStep { e with tick := t.shouldFlush.1 }).wr.boundary = boundary := by
    rw [← hbd]
    unfold Session.flushStep
    split
    · have hf := (Writer.flush_spec t.s.wr e.flushAns).2.1
      rcases hq : t.s.wr.flush e.flushAns with ⟨o, w⟩
      rw [hq] at hf
      cases o <;> exact hf
    · rfl
  rw [iter_rest] at h1
  have hready : ∀ as, (t.s.flushStep { e with tick := t.shouldFlush.1 }).wr.ready as =
      (.ok, (t.s.flushStep { e with tick := t.shouldFlush.1 }).wr) := by
    intro as
    unfold Writer.ready
    rw [if_neg (by rw [hz, hbd']; simp only [List.length_nil]; omega)]
  simp only [hready] at h1
  rw [if_neg (by simp)] at h1
  obtain ⟨-, -, k3, k4⟩ := rest_wire h1
  have hidle : ev = .idle := hev.resolve_right k4
  obtain ⟨-, k5, k6⟩ := k3 hidle
  have hd := hI.due
  have hby := hI.bytes
  subst hidle
  have e1 : sentOf (evs ++ [Ev.idle]) = sentOf evs := by simp [sentOf]
  have e2 : due L [] 0 (evs ++ [Ev.idle]) = due L [] 0 evs := by rw [due_append]; simp [due]
  rw [e1, e2, k5] at hd
  rw [e1] at hby
  simp only [Option.toList, List.append_nil] at hd
  rw [← hd, ← hby]
  unfold Writer.total
  rw [k6]
  simp only
  rw [hz, List.append_nil]

/-- C72, with a flush interval (or without: then read 0 for it): what the session has handed to the connection is
on the wire at the latest after the first iteration one interval later, as long as the connection takes the
bytes when it is flushed. -/
theorem C72_flushed_within_interval (L : Lossy) (boundary : Nat) (input : List ReadAns) (period : Option Nat)
    (now : Nat) (t0 t t1 t' : Timed) (acts acts' : List TAct) (evs evs' : List Ev) (e : Env) (ev : Ev)
    (h0 : Timed.new boundary input period now = .ok t0) (hr : t0.run L acts = .ok (t, evs))
    (hr' : t.run L acts' = .ok (t1, evs')) (htake : Timed.Taking L t acts')
    (htime : t.now + period.getD 0 ≤ t1.now) (hi : t1.iter L e = .ok (t', ev))
    (htake' : (t1.s.wr.flush e.flushAns).1 = .ok) :
    (sentOf evs).flatMap PubSub.encode <+: t'.s.wr.wire := by
  have hT := ClockInv.run (L := L) acts (ClockInv.new h0) hr
  rw [List.nil_append] at hT
  have hdue : TDue ((sentOf evs).flatMap PubSub.encode) (t.now + period.getD 0) t := by
    cases hs : t.s.shouldFlush with
    | false =>
      left
      have := hT.inv.bytes
      unfold Writer.total at this
      rw [hT.inv.flush hs, List.append_nil] at this
      rw [this]
      exact List.prefix_refl _
    | true =>
      right
      refine ⟨by rw [hT.inv.bytes]; exact List.prefix_refl _, hs, fun iv hiv => ?_⟩
      have h1 := hT.next iv hiv
      have h2 := hT.period
      rw [hiv] at h2
      rw [← h2]
      exact h1
  have hd1 := TDue.run acts' hT hdue htake hr'
  have hT1 := ClockInv.run (L := L) acts' hT hr'
  exact (hd1.iter hT1.inv.flush htake' hi).2 htime

/-- A subscriber subscribes to `a`, a message is published on it, and the default interval of 50 µs passes
before it is flushed. -/
example :
    let sub : PubSub.Message := ⟨⟨0, 9, PubSub.subPrefix ++ [0x61], 1, 0, 0⟩, []⟩
    let env := fun f => ({ tick := false, flushAns := [.ok 100, .ok 1], readyAns := [], closeAns := [], feed := f, now := 7 } : Env)
    let m : PubMsg := ⟨.none, ['a'], [1, 2]⟩
    ∃ t0 t t1 t' evs ev, Timed.new 8192 [.data (PubSub.encode sub)] (some 50000) 0 = .ok t0 ∧
      t0.run Lossy.strict [.iter (env .pending), .iter (env (.msg m)), .iter (env .pending)] = .ok (t, evs) ∧
      t.run Lossy.strict [.iter (env .pending), .advance 50000] = .ok (t1, [ev]) ∧
      t1.iter Lossy.strict (env .pending) = .ok (t', .idle) ∧
      (sentOf evs).length = 1 ∧ t1.s.wr.wire = [] ∧ (t1.s.wr.flush [.ok 100, .ok 1]).1 = .ok ∧
      t'.s.wr.wire = PubSub.encode ⟨⟨0, 1, [0x61], 7, 0, 2⟩, [1, 2]⟩ := by
  refine ⟨_, _, _, _, _, _, rfl, rfl, rfl, rfl, ?_, rfl, rfl, ?_⟩
  · decide
  · decide

end MsgRs.Props
