import Verif.Proofs.PubSession
import Verif.Spec.PubTimed
/-!
# A subscriber session flushes what it has sent
-/
namespace MsgRs.Pub
open MsgRs Spec

variable {L : Lossy}

/-- The session's invariant, and the next flush is at most one interval away. -/
structure ClockInv (L : Lossy) (period : Option Nat) (t : Timed) (evs : List Ev) : Prop where
  inv : Inv L t.s evs
  period : t.iv.map (·.period) = period
  next : ∀ iv, t.iv = some iv → iv.next ≤ t.now + iv.period

theorem Timed.iter_ok {t t' : Timed} {e : Env} {ev : Ev} (h : t.iter L e = .ok (t', ev)) :
    t.s.iter L { e with tick := t.shouldFlush.1 } = .ok (t'.s, ev) ∧ t'.iv = t.shouldFlush.2 ∧ t'.now = t.now ∧
      t'.ended = decide (ev = .ended) := by
  unfold Timed.iter at h
  rcases hs : t.shouldFlush with ⟨r, iv⟩
  rw [hs] at h
  simp only at h
  cases hi : t.s.iter L { e with tick := r } with
  | panic => rw [hi] at h; cases h
  | ok x =>
    obtain ⟨s, ev'⟩ := x
    rw [hi] at h
    cases h
    exact ⟨rfl, rfl, rfl, rfl⟩

theorem shouldFlush_cases (t : Timed) :
    (t.s.shouldFlush = false ∧ t.shouldFlush = (false, t.iv.map (·.reset t.now))) ∨
    (t.s.shouldFlush = true ∧ t.iv = none ∧ t.shouldFlush = (true, none)) ∨
    (t.s.shouldFlush = true ∧ ∃ iv, t.iv = some iv ∧ iv.next ≤ t.now ∧
      t.shouldFlush = (true, some { iv with next := iv.next + iv.period })) ∨
    (t.s.shouldFlush = true ∧ ∃ iv, t.iv = some iv ∧ t.now < iv.next ∧ t.shouldFlush = (false, some iv)) := by
  unfold Timed.shouldFlush
  cases hs : t.s.shouldFlush with
  | false => left; exact ⟨rfl, rfl⟩
  | true =>
    right
    rw [if_pos rfl]
    cases hf : t.iv with
    | none => left; exact ⟨rfl, rfl, rfl⟩
    | some iv =>
      right
      simp only [Interval.tick]
      by_cases h : iv.next ≤ t.now
      · left; refine ⟨trivial, iv, rfl, h, ?_⟩; rw [if_pos h]
      · right; refine ⟨trivial, iv, rfl, by omega, ?_⟩; rw [if_neg h]

theorem ClockInv.iter {period : Option Nat} {t t' : Timed} {e : Env} {ev : Ev} {evs : List Ev} (h : ClockInv L period t evs)
    (hi : t.iter L e = .ok (t', ev)) : ClockInv L period t' (evs ++ [ev]) := by
  obtain ⟨h1, h2, h3, -⟩ := Timed.iter_ok hi
  refine ⟨inv_step _ _ _ _ _ h.inv (iter_step h.inv.flush h1), ?_, ?_⟩
  · rw [h2, ← h.period]
    rcases shouldFlush_cases t with ⟨-, hq⟩ | ⟨-, hn, hq⟩ | ⟨-, iv, hn, -, hq⟩ | ⟨-, iv, hn, -, hq⟩
    · rw [hq]; cases t.iv <;> rfl
    · rw [hq, hn]
    · rw [hq, hn]; rfl
    · rw [hq, hn]
  · intro iv' hiv'
    rw [h2] at hiv'
    rw [h3]
    rcases shouldFlush_cases t with ⟨-, hq⟩ | ⟨-, hn, hq⟩ | ⟨-, iv, hn, hl, hq⟩ | ⟨-, iv, hn, -, hq⟩
    · rw [hq] at hiv'
      cases hf : t.iv with
      | none => rw [hf] at hiv'; cases hiv'
      | some iv => rw [hf] at hiv'; cases hiv'; exact Nat.le_refl _
    · rw [hq] at hiv'; cases hiv'
    · rw [hq] at hiv'; cases hiv'; simp only; omega
    · rw [hq] at hiv'; cases hiv'; exact h.next _ hn

theorem ClockInv.run {period : Option Nat} (acts : List TAct) {t t' : Timed} {evs evs' : List Ev} (h : ClockInv L period t evs)
    (hr : t.run L acts = .ok (t', evs')) : ClockInv L period t' (evs ++ evs') := by
  induction acts generalizing t evs evs' with
  | nil => cases hr; rw [List.append_nil]; exact h
  | cons a acts ih =>
    cases a with
    | advance dt =>
      simp only [Timed.run] at hr
      exact ih (t := { t with now := t.now + dt }) ⟨h.inv, h.period, fun iv hiv => by have := h.next iv hiv; simp only; omega⟩ hr
    | iter e =>
      simp only [Timed.run] at hr
      split at hr
      · exact ih h hr
      · cases hx : t.iter L e with
        | panic => rw [hx] at hr; cases hr
        | ok x =>
          obtain ⟨t1, ev⟩ := x
          rw [hx] at hr
          simp only [R.bind_ok, R.pure_eq] at hr
          cases hy : t1.run L acts with
          | panic => rw [hy] at hr; cases hr
          | ok y =>
            obtain ⟨t2, evs2⟩ := y
            rw [hy] at hr
            cases hr
            have := ih (h.iter hx) hy
            simpa using this

theorem ClockInv.new {boundary : Nat} {input : List ReadAns} {period : Option Nat} {now : Nat} {t : Timed}
    (h : Timed.new boundary input period now = .ok t) : ClockInv L period t [] := by
  unfold Timed.new at h
  cases period with
  | none => cases h; exact ⟨inv_new L boundary input, rfl, fun iv hi => by cases hi⟩
  | some p =>
    simp only at h
    cases h2 : Interval.new now p with
    | panic => rw [h2] at h; cases h
    | ok iv' =>
      rw [h2] at h
      cases h
      unfold Interval.new at h2
      split at h2
      · cases h2
      · cases h2
        exact ⟨inv_new L boundary input, rfl, (fun iv hi => by cases hi; exact Nat.le_add_right _ _)⟩

/-- The histories of a session with a clock are histories of the session. -/
theorem Timed.run_session (acts : List TAct) {t t' : Timed} {evs : List Ev} (he : t.ended = false)
    (hr : t.run L acts = .ok (t', evs)) : ∃ es, t.s.run L es = .ok (t'.s, evs) := by
  induction acts generalizing t evs with
  | nil => cases hr; exact ⟨[], rfl⟩
  | cons a acts ih =>
    cases a with
    | advance dt => simp only [Timed.run] at hr; exact ih (t := { t with now := t.now + dt }) he hr
    | iter e =>
      simp only [Timed.run] at hr
      rw [if_neg (by simp [he])] at hr
      cases hx : t.iter L e with
      | panic => rw [hx] at hr; cases hr
      | ok x =>
        obtain ⟨t1, ev⟩ := x
        rw [hx] at hr
        simp only [R.bind_ok, R.pure_eq] at hr
        cases hy : t1.run L acts with
        | panic => rw [hy] at hr; cases hr
        | ok y =>
          obtain ⟨t2, evs2⟩ := y
          rw [hy] at hr
          cases hr
          obtain ⟨k1, -, -, k4⟩ := Timed.iter_ok hx
          by_cases hev : ev = .ended
          · have hend : t1.ended = true := by rw [k4]; simp [hev]
            have stop : ∀ (as : List TAct) (u v : Timed) (evs : List Ev), u.ended = true → u.run L as = .ok (v, evs) →
                v.s = u.s ∧ evs = [] := by
              intro as
              induction as with
              | nil => intro u v evs _ hu; cases hu; exact ⟨rfl, rfl⟩
              | cons b as ih' =>
                intro u v evs hue hu
                cases b with
                | advance dt =>
                  simp only [Timed.run] at hu
                  exact ih' { u with now := u.now + dt } v evs hue hu
                | iter e' =>
                  simp only [Timed.run] at hu
                  rw [if_pos hue] at hu
                  exact ih' u v evs hue hu
            obtain ⟨s1, s2⟩ := stop acts t1 _ evs2 hend hy
            refine ⟨[{ e with tick := t.shouldFlush.1 }], ?_⟩
            simp only [Session.run, k1, R.bind_ok]
            rw [if_pos hev, s1, s2, hev]
            rfl
          · obtain ⟨es, hes⟩ := ih (t := t1) (by rw [k4]; simp [hev]) hy
            refine ⟨{ e with tick := t.shouldFlush.1 } :: es, ?_⟩
            simp only [Session.run, k1, R.bind_ok]
            rw [if_neg hev, hes]
            rfl

/-- An iteration once the connection is ready. -/
def Session.rest (L : Lossy) (s : Session) (e : Env) : R (Session × Ev) :=
  match s.pending with
  | some m =>
    .ok ({ s with pending := none, wr := s.wr.send (PubSub.encode m), shouldFlush := true,
                  bytesTx := s.bytesTx + m.size }, .sent m)
  | none =>
    match e.feed with
    | .msg m => do
      let s ← s.onOutgoing m e.now
      return (s, .took m e.now)
    | .lagged k => .ok (s, .lagged k)
    | .closed => .ok (s.close e, .ended)
    | .pending => do
      let (o, rd, input) ← s.rd.pollNext PubSub.codec s.input
      let s := { s with rd, input }
      match o with
      | .item m => return (s.onIncoming L m, .incoming m)
      | .err _ => return (s.close e, .ended)
      | .ended => return (s, .ended)
      | .pending => return (s, .idle)

theorem iter_rest (s : Session) (e : Env) : s.iter L e =
    if ((s.flushStep e).wr.ready e.readyAns).1 = .pending
    then .ok ({ s.flushStep e with wr := ((s.flushStep e).wr.ready e.readyAns).2 }, .blocked)
    else ({ s.flushStep e with wr := ((s.flushStep e).wr.ready e.readyAns).2 } : Session).rest L e := by
  unfold Session.iter
  simp only
  generalize s.flushStep e = q
  rcases hq : q.wr.ready e.readyAns with ⟨x, wr⟩
  cases x with
  | pending => rw [if_pos rfl]
  | ok => rw [if_neg (by simp)]; rfl
  | err => rw [if_neg (by simp)]; rfl

/-- What is on the wire stays there, and what is buffered remains to be flushed. -/
theorem rest_wire {q s' : Session} {e : Env} {ev : Ev} (hq : q.rest L e = .ok (s', ev)) :
    q.wr.wire <+: s'.wr.wire ∧ (q.shouldFlush = true → s'.shouldFlush = true) ∧
    (ev = .idle → q.pending = none ∧ s'.pending = none ∧ s'.wr = q.wr) ∧ ev ≠ .blocked := by
  have hcl : ∀ w : Writer, w.wire <+: (w.flush e.closeAns).2.wire := fun w => (Writer.flush_spec w e.closeAns).2.2.1
  have hinc : ∀ (q : Session) (m : PubSub.Message), (q.onIncoming L m).wr = q.wr ∧ (q.onIncoming L m).shouldFlush = q.shouldFlush := by
    intro q m
    unfold Session.onIncoming
    split <;> exact ⟨rfl, rfl⟩
  have hout : ∀ (q q' : Session) (m : PubMsg) (now : UInt64), q.onOutgoing m now = .ok q' → q'.wr = q.wr ∧ q'.shouldFlush = q.shouldFlush := by
    intro q q' m now hq
    unfold Session.onOutgoing at hq
    split at hq
    · cases hf : m.intoWire now q.seq with
      | panic => rw [hf] at hq; cases hq
      | ok f => rw [hf] at hq; cases hq; exact ⟨rfl, rfl⟩
    · cases hq; exact ⟨rfl, rfl⟩
  unfold Session.rest at hq
  cases hp : q.pending with
  | some m => rw [hp] at hq; cases hq; exact ⟨List.prefix_refl _, fun _ => rfl, (fun h => by cases h), (fun h => by cases h)⟩
  | none =>
    rw [hp] at hq
    simp only at hq
    cases hf : e.feed with
    | msg m =>
      rw [hf] at hq
      simp only at hq
      cases ho : q.onOutgoing m e.now with
      | panic => rw [ho] at hq; cases hq
      | ok q' =>
        rw [ho] at hq
        cases hq
        obtain ⟨k1, k2⟩ := hout q s' m e.now ho
        rw [k1, k2]
        exact ⟨List.prefix_refl _, id, (fun h => by cases h), (fun h => by cases h)⟩
    | lagged k => rw [hf] at hq; cases hq; exact ⟨List.prefix_refl _, id, (fun h => by cases h), (fun h => by cases h)⟩
    | closed => rw [hf] at hq; cases hq; exact ⟨hcl q.wr, id, (fun h => by cases h), (fun h => by cases h)⟩
    | pending =>
      rw [hf] at hq
      simp only at hq
      cases hp : q.rd.pollNext PubSub.codec q.input with
      | panic => rw [hp] at hq; cases hq
      | ok y =>
        obtain ⟨o, rd, input⟩ := y
        rw [hp] at hq
        simp only [R.bind_ok, R.pure_eq] at hq
        cases o with
        | item m =>
          simp only [R.ok.injEq, Prod.mk.injEq] at hq
          obtain ⟨rfl, rfl⟩ := hq
          refine ⟨?_, ?_, (fun h => by cases h), (fun h => by cases h)⟩
          · rw [(hinc _ m).1]; exact List.prefix_refl _
          · rw [(hinc _ m).2]; exact id
        | err x => cases hq; exact ⟨hcl q.wr, id, (fun h => by cases h), (fun h => by cases h)⟩
        | ended => cases hq; exact ⟨List.prefix_refl _, id, (fun h => by cases h), (fun h => by cases h)⟩
        | pending => cases hq; exact ⟨List.prefix_refl _, id, (fun _ => ⟨rfl, rfl, rfl⟩), (fun h => by cases h)⟩

theorem iter_wire {s s' : Session} {e : Env} {ev : Ev} (h : s.iter L e = .ok (s', ev)) :
    (s.flushStep e).wr.wire <+: s'.wr.wire ∧ ((s.flushStep e).shouldFlush = true → s'.shouldFlush = true) := by
  rw [iter_rest] at h
  have hr := (Writer.ready_spec (s.flushStep e).wr e.readyAns).2.2.1
  split at h
  · cases h; exact ⟨hr, id⟩
  · obtain ⟨k1, k2, -⟩ := rest_wire h
    exact ⟨List.IsPrefix.trans hr k1, k2⟩

theorem iter_keeps_total {s s' : Session} {e : Env} {ev : Ev} (hfl : s.shouldFlush = false → s.wr.buf = [])
    (h : s.iter L e = .ok (s', ev)) : s.wr.total <+: s'.wr.total := by
  cases iter_step hfl h with
  | sent hw _ => rw [Writer.send_total, hw]; exact List.prefix_append _ _
  | blocked hw => rw [hw]; exact List.prefix_refl _
  | skip hw => rw [hw]; exact List.prefix_refl _
  | take hw => rw [hw]; exact List.prefix_refl _
  | lagged hw => rw [hw]; exact List.prefix_refl _
  | closed hw => rw [hw]; exact List.prefix_refl _
  | incoming hw => rw [hw]; exact List.prefix_refl _
  | dead hw => rw [hw]; exact List.prefix_refl _
  | idle hw => rw [hw]; exact List.prefix_refl _

/-- `B` is on the wire, or a flush is to come at `T`. -/
def TDue (B : Bytes) (T : Nat) (t : Timed) : Prop :=
  B <+: t.s.wr.wire ∨ (B <+: t.s.wr.total ∧ t.s.shouldFlush = true ∧ ∀ iv, t.iv = some iv → iv.next ≤ T)

theorem TDue.iter {B : Bytes} {T : Nat} {t t' : Timed} {e : Env} {ev : Ev} (hd : TDue B T t)
    (hfl : t.s.shouldFlush = false → t.s.wr.buf = [])
    (ht : (t.s.wr.flush e.flushAns).1 = .ok) (hi : t.iter L e = .ok (t', ev)) :
    TDue B T t' ∧ (T ≤ t.now → B <+: t'.s.wr.wire) := by
  obtain ⟨h1, h2, h3, -⟩ := Timed.iter_ok hi
  have hw := iter_wire h1
  have hf := Writer.flush_spec t.s.wr e.flushAns
  have hkeep : t.s.wr.wire <+: (t.s.flushStep { e with tick := t.shouldFlush.1 }).wr.wire := by
    unfold Session.flushStep
    split
    · rcases hq : t.s.wr.flush e.flushAns with ⟨o, w⟩
      rw [hq] at hf
      cases o <;> exact hf.2.2.1
    · exact List.prefix_refl _
  rcases hd with hd | ⟨hd1, hd2, hd3⟩
  · have := List.IsPrefix.trans hd (List.IsPrefix.trans hkeep hw.1)
    exact ⟨.inl this, fun _ => this⟩
  · have flushed : t.shouldFlush.1 = true → B <+: t'.s.wr.wire := by
      intro hr
      refine List.IsPrefix.trans ?_ hw.1
      unfold Session.flushStep
      rw [if_pos (by simp [hd2, hr])]
      rcases hq : t.s.wr.flush e.flushAns with ⟨o, w⟩
      rw [hq] at hf ht
      simp only at ht
      subst ht
      simp only
      have hb := hf.2.2.2.1 rfl
      have htot := hf.1
      unfold Writer.total at htot
      rw [hb, List.append_nil] at htot
      simp only at htot
      rw [htot]
      exact hd1
    rcases shouldFlush_cases t with ⟨hs, hq⟩ | ⟨hs, hn, hq⟩ | ⟨hs, iv, hn, hl, hq⟩ | ⟨hs, iv, hn, hl, hq⟩
    · rw [hs] at hd2; cases hd2
    · have := flushed (by rw [hq]); exact ⟨.inl this, fun _ => this⟩
    · have := flushed (by rw [hq]); exact ⟨.inl this, fun _ => this⟩
    · have hT := hd3 iv hn
      refine ⟨.inr ⟨?_, ?_, ?_⟩, fun hle => by omega⟩
      · have hst := iter_keeps_total hfl h1
        exact List.IsPrefix.trans hd1 hst
      · apply hw.2
        unfold Session.flushStep
        rw [if_neg (by rw [hq]; simp)]
        exact hs
      · intro iv' hiv'
        rw [h2, hq] at hiv'
        cases hiv'
        exact hT

theorem TDue.run {B : Bytes} {T : Nat} {period : Option Nat} (acts : List TAct) {t t' : Timed} {evs evs' : List Ev}
    (h : ClockInv L period t evs) (hd : TDue B T t) (ht : Timed.Taking L t acts) (hr : t.run L acts = .ok (t', evs')) :
    TDue B T t' := by
  induction acts generalizing t evs evs' with
  | nil => cases hr; exact hd
  | cons a acts ih =>
    cases a with
    | advance dt =>
      simp only [Timed.run] at hr
      exact ih (t := { t with now := t.now + dt }) (evs := evs)
        ⟨h.inv, h.period, fun iv hiv => by have := h.next iv hiv; simp only; omega⟩ hd ht hr
    | iter e =>
      simp only [Timed.run] at hr
      simp only [Timed.Taking] at ht
      split at hr
      · rename_i hend
        rw [if_pos hend] at ht
        exact ih h hd ht.2 hr
      · rename_i hend
        rw [if_neg hend] at ht
        cases hx : t.iter L e with
        | panic => rw [hx] at hr; cases hr
        | ok x =>
          obtain ⟨t1, ev⟩ := x
          rw [hx] at hr
          simp only [R.bind_ok, R.pure_eq] at hr
          cases hy : t1.run L acts with
          | panic => rw [hy] at hr; cases hr
          | ok y =>
            obtain ⟨t2, evs2⟩ := y
            rw [hy] at hr
            cases hr
            exact ih (h.iter hx) (hd.iter h.inv.flush ht.1 hx).1 (ht.2 t1 ev hx) hy

/-- All sessions of a publisher keep their buffer limit. -/
theorem Timed.run_boundary (acts : List TAct) {t t' : Timed} {evs : List Ev} (hr : t.run L acts = .ok (t', evs)) :
    t'.s.wr.boundary = t.s.wr.boundary := by
  have one : ∀ {s s' : Session} {e : Env} {ev : Ev}, s.iter L e = .ok (s', ev) → s'.wr.boundary = s.wr.boundary := by
    intro s s' e ev h
    have hf : (s.flushStep e).wr.boundary = s.wr.boundary := by
      unfold Session.flushStep
      split
      · have hf := (Writer.flush_spec s.wr e.flushAns).2.1
        rcases hq : s.wr.flush e.flushAns with ⟨o, w⟩
        rw [hq] at hf
        cases o <;> exact hf
      · rfl
    have hrd := (Writer.ready_spec (s.flushStep e).wr e.readyAns).2.1
    rw [iter_rest] at h
    split at h
    · cases h; exact hrd.trans hf
    · have : ∀ q : Session, q.rest L e = .ok (s', ev) → s'.wr.boundary = q.wr.boundary := by
        intro q hq
        have hcl : ∀ w : Writer, (w.flush e.closeAns).2.boundary = w.boundary := fun w => (Writer.flush_spec w e.closeAns).2.1
        unfold Session.rest at hq
        cases hp : q.pending with
        | some m => rw [hp] at hq; cases hq; rfl
        | none =>
          rw [hp] at hq
          simp only at hq
          cases hf : e.feed with
          | msg m =>
            rw [hf] at hq
            simp only at hq
            unfold Session.onOutgoing at hq
            split at hq
            · cases hf : m.intoWire e.now q.seq with
              | panic => rw [hf] at hq; cases hq
              | ok f => rw [hf] at hq; cases hq; rfl
            · cases hq; rfl
          | lagged k => rw [hf] at hq; cases hq; rfl
          | closed => rw [hf] at hq; cases hq; exact hcl q.wr
          | pending =>
            rw [hf] at hq
            simp only at hq
            cases hp : q.rd.pollNext PubSub.codec q.input with
            | panic => rw [hp] at hq; cases hq
            | ok y =>
              obtain ⟨o, rd, input⟩ := y
              rw [hp] at hq
              simp only [R.bind_ok, R.pure_eq] at hq
              cases o with
              | item m =>
                simp only [R.ok.injEq, Prod.mk.injEq] at hq
                obtain ⟨rfl, rfl⟩ := hq
                unfold Session.onIncoming
                split <;> rfl
              | err x => cases hq; exact hcl q.wr
              | ended => cases hq; rfl
              | pending => cases hq; rfl
      exact (this _ h).trans (hrd.trans hf)
  induction acts generalizing t evs with
  | nil => cases hr; rfl
  | cons a acts ih =>
    cases a with
    | advance dt => simp only [Timed.run] at hr; exact ih (t := { t with now := t.now + dt }) hr
    | iter e =>
      simp only [Timed.run] at hr
      split at hr
      · exact ih hr
      · cases hx : t.iter L e with
        | panic => rw [hx] at hr; cases hr
        | ok x =>
          obtain ⟨t1, ev⟩ := x
          rw [hx] at hr
          simp only [R.bind_ok, R.pure_eq] at hr
          cases hy : t1.run L acts with
          | panic => rw [hy] at hr; cases hr
          | ok y =>
            obtain ⟨t2, evs2⟩ := y
            rw [hy] at hr
            cases hr
            exact (ih hy).trans (one (Timed.iter_ok hx).1)

end MsgRs.Pub
