import Verif.Model.SubSession
import Verif.Proofs.Writer
import Verif.Proofs.Track
import Verif.Proofs.Codecs
/-!
# A publisher session of a subscriber in small steps
-/
namespace MsgRs.Sub
open MsgRs

/-- Small steps of the session task while it runs. -/
inductive SStep (L : Lossy) : Session → Session → Prop where
  | write (s : Session) (wr : Writer) (fl : Bool) : s.over = false → wr.total = s.wr.total → s.wr.wire <+: wr.wire →
      wr.boundary = s.wr.boundary → SStep L s { s with wr, flush := fl }
  | readItem (s : Session) (m : PubSub.Message) (rd : Reader PubSub.State) (input : List ReadAns) (now : UInt64) :
      s.over = false → s.rd.pollNext PubSub.codec s.input = .ok (.item m, rd, input) →
      SStep L s (Session.onIncoming L { s with rd, input, polls := s.polls + 1 } m now)
  | readNone (s : Session) (o : FOut PubSub.Err PubSub.Message) (rd : Reader PubSub.State) (input : List ReadAns) :
      s.over = false → s.rd.pollNext PubSub.codec s.input = .ok (o, rd, input) → (∀ m, o ≠ .item m) →
      SStep L s { s with rd, input, polls := s.polls + 1 }
  | send (s : Session) (m : PubSub.Message) (ms : List PubSub.Message) : s.over = false → s.egress = m :: ms →
      s.wr.buf.length ≤ s.wr.boundary - 1 →
      SStep L s { s with wr := s.wr.send (PubSub.encode m), flush := true, sent := s.sent ++ [m], egress := ms }
  | lose (s : Session) (m : PubSub.Message) (ms : List PubSub.Message) : s.over = false → s.egress = m :: ms →
      s.wr.boundary ≤ s.wr.total.length →
      SStep L s { s with lost := s.lost ++ [m], egress := ms }
  | rotate (s : Session) (m : PubSub.Message) (ms : List PubSub.Message) : s.over = false → s.egress = m :: ms →
      s.wr.boundary ≤ s.wr.total.length →
      SStep L s { s with egress := ms ++ [m], rotated := s.rotated || !ms.isEmpty }
  | cmd (s : Session) (c : Cmd) (cs : List Cmd) (now : UInt64) (m : PubSub.Message) : s.over = false →
      s.cmds = c :: cs → c.msg now = .ok m →
      SStep L s { s with cmds := cs, handled := s.handled ++ [(now, c)], egress := s.egress ++ [m] }
  | overlong (s : Session) (c : Cmd) (cs : List Cmd) (now : UInt64) : s.over = false →
      s.cmds = c :: cs → c.msg now = .panic → SStep L s { s with cmds := cs, over := true, armed := false }
  | hungUp (s : Session) : s.over = false → s.cmds = [] → s.alive = false →
      SStep L s { s with over := true, armed := false }

inductive SSteps (L : Lossy) : Session → Session → Prop where
  | refl (s : Session) : SSteps L s s
  | step {s t u : Session} : SSteps L s t → SStep L t u → SSteps L s u

variable {L : Lossy}

theorem SStep.steps {s t : Session} (h : SStep L s t) : SSteps L s t := .step (.refl s) h

theorem SSteps.trans {s t u : Session} (h : SSteps L s t) (h' : SSteps L t u) : SSteps L s u := by
  induction h' with
  | refl => exact h
  | step _ hs ih => exact .step ih hs

theorem SSteps.induct {P : Session → Prop} (hp : ∀ s t, SStep L s t → P s → P t) {s t : Session}
    (h : SSteps L s t) (h0 : P s) : P t := by
  induction h with
  | refl => exact h0
  | step _ hs ih => exact hp _ _ hs ih

theorem sflushStep_steps (s : Session) (e : SEnv) (ho : s.over = false) :
    SSteps L s (s.flushStep e) ∧ (s.flushStep e).over = false := by
  unfold Session.flushStep
  split
  · have hf := Writer.flush_spec s.wr e.flushAns
    rcases hw : s.wr.flush e.flushAns with ⟨o, wr⟩
    rw [hw] at hf
    cases o
    · exact ⟨(SStep.write s wr s.flush ho hf.1 hf.2.2.1 hf.2.1).steps, ho⟩
    · exact ⟨(SStep.write s wr false ho hf.1 hf.2.2.1 hf.2.1).steps, ho⟩
    · exact ⟨(SStep.write s wr false ho hf.1 hf.2.2.1 hf.2.1).steps, ho⟩
  · exact ⟨.refl s, ho⟩

theorem sendLoop_egress (t : Session) (q : Bool) (x l : List PubSub.Message) (bs : List (List WriteAns)) :
    Session.sendLoop { t with egress := x } q l bs = Session.sendLoop t q l bs := by
  induction l generalizing t q bs with
  | nil => rfl
  | cons m l ih =>
    unfold Session.sendLoop
    simp only
    rcases t.wr.ready (bs.headD []) with ⟨o, wr⟩
    cases o
    · rfl
    · exact ih { t with wr := wr.send (PubSub.encode m), flush := true, sent := t.sent ++ [m] } true bs.tail
    · exact ih { t with wr, lost := t.lost ++ [m] } true bs.tail

theorem sendLoop_steps (ms : List PubSub.Message) (s : Session) (p : Bool) (as : List (List WriteAns))
    (ho : s.over = false) (hm : s.egress = ms) :
    SSteps L s (s.sendLoop p ms as).1 ∧ (s.sendLoop p ms as).1.over = false := by
  induction ms generalizing s p as with
  | nil =>
    unfold Session.sendLoop
    have : { s with egress := [] } = s := by rw [← hm]
    rw [this]
    exact ⟨.refl s, ho⟩
  | cons m ms ih =>
    unfold Session.sendLoop
    have hf := Writer.ready_spec s.wr (as.headD [])
    rcases hw : s.wr.ready (as.headD []) with ⟨o, wr⟩
    rw [hw] at hf
    have h1 : SStep L s { s with wr } := SStep.write s wr s.flush ho hf.1 hf.2.2.1 hf.2.1
    have hbd : o ≠ .ok → wr.boundary ≤ wr.total.length := by
      intro hne
      have hb : s.wr.boundary ≤ s.wr.buf.length := by
        unfold Writer.ready at hw
        split at hw
        · assumption
        · cases hw; exact absurd rfl hne
      rw [hf.1, hf.2.1]
      unfold Writer.total
      rw [List.length_append]
      omega
    cases o with
    | pending =>
      exact ⟨h1.steps.step (SStep.rotate { s with wr } m ms ho hm (hbd (by simp))), ho⟩
    | err =>
      have h2 := h1.steps.step (SStep.lose { s with wr } m ms ho hm (hbd (by simp)))
      obtain ⟨h3, h4⟩ := ih { s with wr, lost := s.lost ++ [m], egress := ms } true as.tail ho rfl
      rw [sendLoop_egress { s with wr, lost := s.lost ++ [m] } true ms ms as.tail] at h3 h4
      exact ⟨h2.trans h3, h4⟩
    | ok =>
      have h2 := h1.steps.step (SStep.send { s with wr } m ms ho hm (by
        have hok : (s.wr.ready (as.headD [])).1 = .ok := by rw [hw]
        have h2 : (s.wr.ready (as.headD [])).2 = wr := by rw [hw]
        rw [← h2]
        exact Writer.ready_ok_buf s.wr _ hok))
      obtain ⟨h3, h4⟩ := ih { s with wr := wr.send (PubSub.encode m), flush := true, sent := s.sent ++ [m], egress := ms } true as.tail ho rfl
      rw [sendLoop_egress { s with wr := wr.send (PubSub.encode m), flush := true, sent := s.sent ++ [m] } true ms ms as.tail] at h3 h4
      exact ⟨h2.trans h3, h4⟩

theorem iter_steps (s : Session) (e : SEnv) (ho : s.over = false) :
    ∃ t o, s.iter L e = .ok (t, o) ∧
      SSteps L s (if o = .ended then { t with over := true, armed := false } else t) ∧ t.over = false := by
  obtain ⟨h1, h1o⟩ := sflushStep_steps (L := L) s e ho
  unfold Session.iter
  generalize s.flushStep e = s1 at *
  obtain ⟨o, rd, input, hp⟩ : ∃ o rd input, s1.rd.pollNext PubSub.codec s1.input = .ok (o, rd, input) := by
    obtain ⟨ms, er, hd⟩ := Drains.exists PubSub.codec PubSub.inc s1.rd.st (s1.rd.buf ++ (dataOf s1.input ++ []))
    obtain ⟨o, r', as', hp, -⟩ := pollNext_track PubSub.inc PubSub.errStable s1.input s1.rd hd
    exact ⟨o, r', as', hp⟩
  simp only [hp, R.bind_ok, R.pure_eq]
  have key : (∀ m, o ≠ .item m) → SSteps L s { s1 with rd, input, polls := s1.polls + 1 } :=
    fun h => h1.step (SStep.readNone s1 o rd input h1o hp h)
  have late : (∀ m, o ≠ .item m) →
      ∃ t q, (if (Session.sendLoop { s1 with rd, input, polls := s1.polls + 1 } false s1.egress e.sendAns).2 = true
        then R.ok ((Session.sendLoop { s1 with rd, input, polls := s1.polls + 1 } false s1.egress e.sendAns).1, SOut.again)
        else R.ok ((Session.sendLoop { s1 with rd, input, polls := s1.polls + 1 } false s1.egress e.sendAns).1.cmdStep e)) = .ok (t, q) ∧
      SSteps L s (if q = .ended then { t with over := true, armed := false } else t) ∧ t.over = false := by
    intro h
    obtain ⟨h2, h2o⟩ := sendLoop_steps (L := L) s1.egress { s1 with rd, input, polls := s1.polls + 1 } false e.sendAns h1o rfl
    have h3 := (key h).trans h2
    generalize (Session.sendLoop { s1 with rd, input, polls := s1.polls + 1 } false s1.egress e.sendAns) = w at *
    obtain ⟨t, p⟩ := w
    simp only at h3 h2o ⊢
    cases p with
    | true => exact ⟨t, .again, rfl, by simpa using h3, h2o⟩
    | false =>
      simp only [Bool.false_eq_true, if_false]
      unfold Session.cmdStep
      cases hc : t.cmds with
      | cons c cs =>
        simp only
        cases hm : c.msg e.now with
        | panic => exact ⟨_, _, rfl, by simpa using h3.step (SStep.overlong t c cs e.now h2o hc hm), h2o⟩
        | ok m => exact ⟨_, _, rfl, by simpa using h3.step (SStep.cmd t c cs e.now m h2o hc hm), h2o⟩
      | nil =>
        simp only
        cases ha : t.alive with
        | true => exact ⟨_, _, rfl, by simpa using h3, h2o⟩
        | false => exact ⟨_, _, rfl, by simpa using h3.step (SStep.hungUp t h2o hc ha), h2o⟩
  cases o with
  | item m =>
    refine ⟨_, _, rfl, by simpa using h1.step (SStep.readItem s1 m rd input e.now h1o hp), ?_⟩
    unfold Session.onIncoming
    simp only
    split <;> exact h1o
  | err x => exact ⟨_, _, rfl, by simpa using key (by simp), h1o⟩
  | pending => simpa using late (by simp)
  | ended => simpa using late (by simp)

/-- Every action of a session task is a sequence of small steps. -/
theorem step_steps (s : Session) (e : SEnv) : SSteps L s (s.step L e) := by
  unfold Session.step
  cases ho : s.over with
  | true => exact .refl s
  | false =>
    obtain ⟨t, o, h1, h2, -⟩ := iter_steps (L := L) s e ho
    simp only [Bool.false_eq_true, if_false, h1]
    cases o <;> simpa using h2

end MsgRs.Sub
