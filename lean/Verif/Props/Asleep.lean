import Verif.Proofs.Asleep
import Verif.Props.Req
import Verif.Props.Rep
import Verif.Props.Sub
import Verif.Props.PubDrop
import Verif.Proofs.PubTimed
import Verif.Props.Stats
import Verif.Spec.SubRuns
/-!
# C90: tasks go to sleep only when there is nothing to do
-/
namespace MsgRs.Props
open MsgRs Spec

/-- C90, the connection of a subscriber: when its task returns `Pending`, the driver's commands have all been taken, the connection was read until it had nothing more to give (or is at its end),
everything queued for writing has been handed to it unless it just refused, and it has been flushed unless it just refused that. -/
theorem C90_subscriber_session (L : Lossy) (s t : Sub.Session) (e : Sub.SEnv) (h : s.iter L e = .ok (t, .pending)) :
    t.cmds = [] ∧ t.alive = true ∧
    (Dry PubSub.codec t.rd ∧ Asked s.input t.input ∨ s.rd.pollNext PubSub.codec s.input = .ok (.ended, t.rd, t.input)) ∧
    (t.egress = [] ∨ Refused (e.sendAns.headD []) t.wr) ∧
    (t.flush = true → ∃ w, s.wr.flush e.flushAns = (.pending, w)) := by
  obtain ⟨w, f, hfs, hfl⟩ : ∃ w f, s.flushStep e = { s with wr := w, flush := f } ∧ (f = true → ∃ w, s.wr.flush e.flushAns = (.pending, w)) := by
    unfold Sub.Session.flushStep
    split
    · rcases hq : s.wr.flush e.flushAns with ⟨o, w⟩
      cases o with
      | pending => exact ⟨w, s.flush, rfl, fun _ => ⟨w, rfl⟩⟩
      | ok => exact ⟨w, false, rfl, fun h => by cases h⟩
      | err => exact ⟨w, false, rfl, fun h => by cases h⟩
    · rename_i hf; exact ⟨s.wr, s.flush, rfl, fun h => absurd h hf⟩
  unfold Sub.Session.iter at h
  rw [hfs] at h
  simp only at h
  cases hp : s.rd.pollNext PubSub.codec s.input with
  | panic => rw [hp] at h; cases h
  | ok x =>
    obtain ⟨o, rd, input⟩ := x
    rw [hp] at h
    simp only [R.bind_ok, R.pure_eq] at h
    have key : ∀ s1 : Sub.Session, s1.cmds = s.cmds → s1.alive = s.alive → s1.rd = rd → s1.input = input → s1.flush = f →
        (if (s1.sendLoop false s1.egress e.sendAns).2 = true then (.ok ((s1.sendLoop false s1.egress e.sendAns).1, .again) : R (Sub.Session × Sub.SOut))
          else .ok ((s1.sendLoop false s1.egress e.sendAns).1.cmdStep e)) = .ok (t, .pending) →
        t.cmds = [] ∧ t.alive = true ∧ t.rd = rd ∧ t.input = input ∧ t.flush = f ∧ (t.egress = [] ∨ Refused (e.sendAns.headD []) t.wr) := by
      intro s1 h1 h2 h3 h4 h5 h6
      have prog : ∀ (l : List PubSub.Message) (x : Sub.Session) (as : List (List WriteAns)), (x.sendLoop true l as).2 = true := by
        intro l
        induction l with
        | nil => intros; rfl
        | cons m ms ih =>
          intro x as
          unfold Sub.Session.sendLoop
          rcases x.wr.ready (as.headD []) with ⟨o, w⟩
          cases o with
          | pending => rfl
          | ok => exact ih _ _
          | err => exact ih _ _
      have hl : (s1.sendLoop false s1.egress e.sendAns).2 = false → ∃ s2, (s1.sendLoop false s1.egress e.sendAns).1 = s2 ∧
          s2.cmds = s.cmds ∧ s2.alive = s.alive ∧ s2.rd = rd ∧ s2.input = input ∧ s2.flush = f ∧
          (s2.egress = [] ∨ Refused (e.sendAns.headD []) s2.wr) := by
        intro hpr
        refine ⟨_, rfl, ?_⟩
        cases he : s1.egress with
        | nil => exact ⟨h1, h2, h3, h4, h5, .inl rfl⟩
        | cons m ms =>
          rw [he] at hpr
          unfold Sub.Session.sendLoop at hpr ⊢
          rcases hq : s1.wr.ready (e.sendAns.headD []) with ⟨o, w'⟩
          rw [hq] at hpr
          cases o with
          | pending => exact ⟨h1, h2, h3, h4, h5, .inr (ready_refused hq)⟩
          | ok => simp only [prog] at hpr; cases hpr
          | err => simp only [prog] at hpr; cases hpr
      split at h6
      · cases h6
      · rename_i hpr
        obtain ⟨s2, k0, k1, k2, k3, k4, k5, k6⟩ := hl (by simpa using hpr)
        rw [k0] at h6
        unfold Sub.Session.cmdStep at h6
        cases hc : s2.cmds with
        | cons c cs =>
          simp only [hc] at h6
          cases hm : c.msg e.now <;> rw [hm] at h6 <;> cases h6
        | nil =>
          simp only [hc] at h6
          split at h6
          · rename_i ha; cases h6; exact ⟨hc, ha, k3, k4, k5, k6⟩
          · cases h6
    cases o with
    | item m => cases h
    | err x => cases h
    | pending =>
      obtain ⟨k1, k2, k3, k4, k5, k6⟩ := key { s with wr := w, flush := f, rd, input, polls := s.polls + 1 } rfl rfl rfl rfl rfl (by
        rw [← h])
      rw [k3, k4, k5]
      exact ⟨k1, k2, .inl (pollNext_pending s.input hp), k6, hfl⟩
    | ended =>
      obtain ⟨k1, k2, k3, k4, k5, k6⟩ := key { s with wr := w, flush := f, rd, input, polls := s.polls + 1 } rfl rfl rfl rfl rfl (by
        rw [← h])
      rw [k3, k4, k5]
      exact ⟨k1, k2, .inr rfl, k6, hfl⟩

/-- A connection that reads one message and half of another: the first iteration goes on, the second has nothing left to do. -/
example : ∃ s1 s2 : Sub.Session,
    (Sub.Session.new 100 ⟨[], [], [], []⟩ [.data (subA' ++ subA'.take 3), .pending, .data [1]]).iter Lossy.strict {} = .ok (s1, .again) ∧
    s1.iter Lossy.strict {} = .ok (s2, .pending) ∧ s2.input = [.data [1]] ∧ s2.got.length = 1 ∧ s2.rd.buf ≠ [] := by
  refine ⟨_, _, rfl, rfl, by decide +kernel, by decide +kernel, by decide +kernel⟩

theorem blocked_refused {L : Lossy} {s s' : Pub.Session} {e : Pub.Env} (h : s.iter L e = .ok (s', .blocked)) : Refused e.readyAns s'.wr := by
  unfold Pub.Session.iter at h
  simp only at h
  generalize s.flushStep e = s1 at h
  rcases hq : s1.wr.ready e.readyAns with ⟨o, w⟩
  rw [hq] at h
  have other : ∀ o : WOut, o ≠ .pending → (match (o, w) with
      | (.pending, wr) => (R.ok ({ s1 with wr }, .blocked) : R (Pub.Session × Pub.Ev))
      | (_, wr) =>
        match s1.pending with
        | some m => .ok ({ s1 with pending := none, wr := wr.send (PubSub.encode m), shouldFlush := true, bytesTx := s1.bytesTx + m.size }, .sent m)
        | none =>
          match e.feed with
          | .msg m => do
            let s ← { s1 with wr }.onOutgoing m e.now
            return (s, .took m e.now)
          | .lagged k => .ok ({ s1 with wr }, .lagged k)
          | .closed => .ok (({ s1 with wr } : Pub.Session).close e, .ended)
          | .pending => do
            let (o, rd, input) ← s1.rd.pollNext PubSub.codec s1.input
            let s := { s1 with wr, rd, input }
            match o with
            | .item m => return (s.onIncoming L m, .incoming m)
            | .err _ => return (s.close e, .ended)
            | .ended => return (s, .ended)
            | .pending => return (s, .idle)) ≠ .ok (s', .blocked) := by
    intro o ho hx
    have : ∀ x : R (Pub.Session × Pub.Ev), x = (match s1.pending with
        | some m => .ok ({ s1 with pending := none, wr := w.send (PubSub.encode m), shouldFlush := true, bytesTx := s1.bytesTx + m.size }, .sent m)
        | none =>
          match e.feed with
          | .msg m => do
            let s ← { s1 with wr := w }.onOutgoing m e.now
            return (s, .took m e.now)
          | .lagged k => .ok ({ s1 with wr := w }, .lagged k)
          | .closed => .ok (({ s1 with wr := w } : Pub.Session).close e, .ended)
          | .pending => do
            let (o, rd, input) ← s1.rd.pollNext PubSub.codec s1.input
            let s := { s1 with wr := w, rd, input }
            match o with
            | .item m => return (s.onIncoming L m, .incoming m)
            | .err _ => return (s.close e, .ended)
            | .ended => return (s, .ended)
            | .pending => return (s, .idle)) → x ≠ .ok (s', .blocked) := by
      intro x hx h
      rw [hx] at h
      cases hpd : s1.pending with
      | some m => rw [hpd] at h; cases h
      | none =>
        rw [hpd] at h
        simp only at h
        cases hf : e.feed with
        | msg m =>
          rw [hf] at h
          simp only at h
          generalize Pub.Session.onOutgoing _ m e.now = y at h
          cases y <;> cases h
        | lagged k => rw [hf] at h; cases h
        | closed => rw [hf] at h; cases h
        | pending =>
          rw [hf] at h
          simp only at h
          cases hp : s1.rd.pollNext PubSub.codec s1.input with
          | panic => rw [hp] at h; cases h
          | ok x =>
            obtain ⟨o, rd, input⟩ := x
            rw [hp] at h
            cases o <;> cases h
    refine this _ ?_ hx
    cases o with
    | pending => exact absurd rfl ho
    | ok => rfl
    | err => rfl
  cases o with
  | pending => cases h; exact ready_refused hq
  | ok => exact absurd h (other .ok (by simp))
  | err => exact absurd h (other .err (by simp))

theorem idle_flushed {L : Lossy} {s s' : Pub.Session} {e : Pub.Env} (hf : s.shouldFlush = false → s.wr.buf = []) (htick : e.tick = true)
    (h : s.iter L e = .ok (s', .idle)) : s'.wr.buf = [] ∨ (s.wr.flush e.flushAns).1 ≠ .ok := by
  rw [Pub.iter_rest] at h
  split at h
  · cases h
  · obtain ⟨-, -, k, -⟩ := Pub.rest_wire h
    obtain ⟨-, -, k⟩ := k rfl
    rw [k]
    simp only
    have hr := Writer.ready_spec (s.flushStep e).wr e.readyAns
    have hsp := Writer.flush_spec s.wr e.flushAns
    have key : (s.flushStep e).wr.buf = [] ∨ (s.wr.flush e.flushAns).1 ≠ .ok := by
      unfold Pub.Session.flushStep
      cases hs : s.shouldFlush with
      | false => simp only [Bool.false_and]; exact .inl (hf hs)
      | true =>
        simp only [htick, Bool.and_self, if_true]
        rcases hw : s.wr.flush e.flushAns with ⟨o, w⟩
        rw [hw] at hsp
        cases o with
        | ok => exact .inl (hsp.2.2.2.1 rfl)
        | pending => exact .inr (by simp)
        | err => exact .inr (by simp)
    refine key.imp (fun hz => ?_) id
    rw [hr.2.2.2 hz]
    exact hz

/-- C90, a session of a publisher, in the publisher's whole history: when its task returns `Pending` because it is idle, it has gone through everything published since it connected (taken, or
told how many it missed), has handed over what it took, the connection was read until it had nothing more to give, and, if it was time to flush (no flush interval, or it has elapsed), all bytes
are on the wire or the connection just did not take them. The only other way it returns `Pending` is that the connection just refused to take
bytes. -/
theorem C90_publisher_session (L : Lossy) (n : Nat) (acts₁ acts₂ : List Pub.Act) (i boundary : Nat) (input : List ReadAns)
    (hfresh : ((Pub.Sys.new n).run L acts₁).tasks i = none) (t : Pub.Task)
    (ht : ((Pub.Sys.new n).run L (acts₁ ++ .connect i boundary input :: acts₂)).tasks i = some t) (e : Pub.Env) :
    let t' := t.step L ((Pub.Sys.new n).run L (acts₁ ++ .connect i boundary input :: acts₂)).chan e
    (t'.evs = t.evs ++ [.idle] →
      (tookOf t'.evs).length + missedOf t'.evs = (published acts₂).length ∧ t'.sess.pending = none ∧
      sentOf t'.evs = due L [] 0 t'.evs ∧
      Dry PubSub.codec t'.sess.rd ∧ Asked t.sess.input t'.sess.input ∧
      (e.tick = true → t'.sess.wr.buf = [] ∨ (t.sess.wr.flush e.flushAns).1 ≠ .ok)) ∧
    (t'.evs = t.evs ++ [.blocked] → Refused e.readyAns t'.sess.wr) := by
  have h1 := Pub.sinv_run (L := L) acts₁ (Pub.sinv_new L n)
  rw [List.nil_append] at h1
  have h2 := Pub.sinv_act (L := L) h1 (.connect i boundary input)
  have hpub : published [Pub.Act.connect i boundary input] = [] := rfl
  rw [hpub, List.append_nil] at h2
  let t0 : Pub.Task := { next := ((Pub.Sys.new n).run L acts₁).chan.resubscribe, sess := Pub.Session.new boundary input }
  have ht0 : (((Pub.Sys.new n).run L acts₁).act L (.connect i boundary input)).tasks i = some t0 := by
    simp [Pub.Sys.act, hfresh, t0]
  have hn0 : t0.next = (published acts₁).length := by simp [t0, Bcast.resubscribe, h1.chan.tail]
  have hti : Pub.TInv L (published acts₁) (published acts₁).length t0 := by
    refine ⟨Pub.inv_new L boundary input, by omega, by omega, ?_, ?_, ?_⟩
    · simp [t0, tookOf]
    · simp only [hn0]; simp [t0, tookOf, missedOf]
    · simp [t0, replay, Bcast.resubscribe, h1.chan.tail]
  obtain ⟨t1, ht1, hT⟩ := Pub.task_persists (L := L) acts₂ h2 ht0 hti
  have h3 := Pub.sinv_run (L := L) acts₂ h2
  have hrun : (Pub.Sys.new n).run L (acts₁ ++ .connect i boundary input :: acts₂) =
      (((Pub.Sys.new n).run L acts₁).act L (.connect i boundary input)).run L acts₂ := by simp [Pub.Sys.run, List.foldl_append]
  rw [hrun] at ht ⊢
  rw [ht1] at ht
  cases ht
  generalize (((Pub.Sys.new n).run L acts₁).act L (.connect i boundary input)).run L acts₂ = s at *
  intro t'
  have hT' : Pub.TInv L _ _ t' := Pub.task_step h3.chan e hT
  have hstep : ∀ ev, t'.evs = t.evs ++ [ev] → ∃ s', t.sess.iter L { e with feed := Pub.feedOf s.chan t.next } = .ok (s', ev) ∧ t'.sess = s' ∧
      (ev = .idle → t'.next = t.next) := by
    intro ev hev
    have : t' = t.step L s.chan e := rfl
    rw [this] at hev ⊢
    unfold Pub.Task.step at hev ⊢
    split
    · rename_i ho
      rw [if_pos ho] at hev
      have := congrArg List.length hev
      simp at this
    · rename_i ho
      rw [if_neg ho] at hev
      cases hi : t.sess.iter L { e with feed := Pub.feedOf s.chan t.next } with
      | panic =>
        rw [hi] at hev
        have := congrArg List.length hev
        simp at this
      | ok x =>
        obtain ⟨s', ev'⟩ := x
        rw [hi] at hev
        have : ev' = ev := by simpa using List.append_cancel_left hev
        subst this
        exact ⟨s', rfl, rfl, fun h => by subst h; rfl⟩
  constructor
  · intro hev
    obtain ⟨s', h4, h5, h6⟩ := hstep _ hev
    have hst := Pub.iter_step hT.inv.flush h4
    have hfl := fun htick => idle_flushed (e := { e with feed := Pub.feedOf s.chan t.next }) hT.inv.flush htick h4
    rw [← h5] at hfl
    cases hst with
    | idle k1 k2 k3 k4 k5 =>
      have hr := s.chan.recv_eq h3.chan (next := t.next) (by rw [h3.chan.tail]; exact hT.cur.bound)
      have hlen : t.next = (published acts₁ ++ published acts₂).length := by
        have hb := hT.cur.bound
        by_cases hlt : t.next < (published acts₁ ++ published acts₂).length
        · rw [dif_pos hlt] at hr
          simp only [Pub.feedOf] at k4
          split at hr <;> (rw [hr] at k4; cases k4)
        · omega
      have hcount := hT'.cur.count
      rw [h6 rfl, hlen, List.length_append] at hcount
      have hdue := hT'.inv.due
      rw [h5] at hdue hfl ⊢
      simp only [k3, Option.toList_none, List.append_nil] at hdue
      obtain ⟨j1, j2⟩ := pollNext_pending _ k5
      exact ⟨by omega, k3, hdue, j1, j2, hfl⟩
  · intro hev
    obtain ⟨s', h4, h5, -⟩ := hstep _ hev
    rw [h5]
    exact blocked_refused (e := { e with feed := Pub.feedOf s.chan t.next }) h4

/-- The hypotheses are met: a subscriber of `a` that has got the message published is idle; one whose connection is busy is blocked. -/
example :
    let acts : List Pub.Act := [.step 0 dropEnv, .publish (msgA' 1), .step 0 dropEnv, .step 0 dropEnv]
    let s := (Pub.Sys.new 4).run Lossy.strict ([.connect 0 100 [.data subA', .pending]] ++ acts)
    ∃ t, s.tasks 0 = some t ∧ (t.step Lossy.strict s.chan dropEnv).evs = t.evs ++ [.idle] ∧ (tookOf t.evs).length = 1 := by
  refine ⟨_, rfl, by decide +kernel, by decide +kernel⟩

example :
    let acts : List Pub.Act := [.step 0 busyEnv, .publish (msgA' 1), .step 0 busyEnv, .step 0 busyEnv]
    let s := (Pub.Sys.new 4).run Lossy.strict ([.connect 0 10 [.data subA', .pending]] ++ acts)
    ∃ t, s.tasks 0 = some t ∧ (t.step Lossy.strict s.chan busyEnv).evs = t.evs ++ [.blocked] := by
  refine ⟨_, rfl, by decide +kernel⟩

/-- C90 (partial), a connection of a reply socket: when its part of the poll returns `Pending`, the connection was read until it had nothing more to give; the responses queued have been handed to it
unless it just refused; all bytes are on the wire unless it just did not take them; and unless a request was dropped by the application, no answered request is left. Missing: after a dropped request, answered ones are left (`C43_drop_delays_response_refuted`). -/
theorem C90_reply_connection_partial {A : Type} [DecidableEq A] (D : Decompressors) (max authn comp) (acts : List (Rep.Act A)) (d : Rep.Driver A)
    (h : (Rep.Driver.new max authn comp : Rep.Driver A).run D acts = .ok d) (p : Rep.Peer A) (hp : p ∈ d.peers)
    (e : Rep.PEnv) (p' : Rep.Peer A) (hi : p.iter d.comp d.slots d.next e = .ok (p', .pending)) :
    Dry ReqRep.codec p'.rd ∧ Asked p.input p'.input ∧ (p'.egress = [] ∨ Refused e.readyAns p'.wr) ∧
    (p'.wr.buf = [] ∨ (p.wr.flush e.flushAns).1 ≠ .ok) ∧
    ((∀ x id, (x, id) ∈ p.pend → d.slots x ≠ .dropped) → ∀ x id, (x, id) ∈ p'.pend → d.slots x = .waiting) := by
  have hd := Rep.run_reach max authn comp acts h
  obtain ⟨hc, hl⟩ := hd.peers p hp
  obtain ⟨p1, o1, g1, g2⟩ := Rep.iter_spec hc hl (hd.future _ (Nat.le_refl _)) e
  rw [hi] at g1
  cases g1
  have read : ∀ q : Rep.Peer A, q.rd = p.rd → q.input = p.input → ∀ pend queue, (({ q with pend, queue } : Rep.Peer A).readStep d.next = .ok (p', .pending)) →
      Dry ReqRep.codec p'.rd ∧ Asked p.input p'.input ∧ p'.wr = q.wr ∧ p'.egress = q.egress := by
    intro q h1 h2 pend queue h3
    unfold Rep.Peer.readStep at h3
    simp only [h1, h2] at h3
    cases hp : p.rd.pollNext ReqRep.codec p.input with
    | panic => rw [hp] at h3; cases h3
    | ok x =>
      obtain ⟨o, rd, input⟩ := x
      rw [hp] at h3
      simp only [R.bind_ok, R.pure_eq] at h3
      cases o with
      | item m => cases h3
      | err x => cases h3
      | ended => cases h3
      | pending =>
        cases h3
        obtain ⟨j1, j2⟩ := pollNext_pending _ hp
        exact ⟨j1, j2, rfl, rfl⟩
  have comp' : ∀ q : Rep.Peer A, q.rd = p.rd → q.input = p.input → q.completeStep d.comp d.slots d.next = .ok (p', .pending) →
      Dry ReqRep.codec p'.rd ∧ Asked p.input p'.input ∧ p'.wr = q.wr ∧ p'.egress = q.egress := by
    intro q h1 h2 h3
    unfold Rep.Peer.completeStep at h3
    rcases hq : Rep.popQueue d.slots q.pend q.queue with ⟨r, pend, queue⟩
    rw [hq] at h3
    rcases r with _ | ⟨x, _ | ⟨id, b⟩⟩
    · exact read q h1 h2 pend queue h3
    · exact read q h1 h2 pend queue h3
    · simp only at h3
      split at h3 <;> cases h3
  have hfl : (p.flushStep e).rd = p.rd ∧ (p.flushStep e).input = p.input := by
    unfold Rep.Peer.flushStep
    split
    · split <;> exact ⟨rfl, rfl⟩
    · exact ⟨rfl, rfl⟩
  have main : Dry ReqRep.codec p'.rd ∧ Asked p.input p'.input ∧ (p'.egress = [] ∨ Refused e.readyAns p'.wr) := by
    unfold Rep.Peer.iter at hi
    simp only at hi
    generalize p.flushStep e = q at hi hfl
    rcases hr : q.wr.ready e.readyAns with ⟨o, w⟩
    rw [hr] at hi
    cases o with
    | pending =>
      obtain ⟨k1, k2, k3, k4⟩ := comp' { q with wr := w } hfl.1 hfl.2 hi
      exact ⟨k1, k2, .inr (by rw [k3]; exact ready_refused hr)⟩
    | ok =>
      cases he : q.egress with
      | nil =>
        have hi' : ({ q with wr := w } : Rep.Peer A).completeStep d.comp d.slots d.next = .ok (p', .pending) := by
          simp only [he] at hi
          cases q
          simp only at he
          subst he
          exact hi
        obtain ⟨k1, k2, k3, k4⟩ := comp' { q with wr := w } hfl.1 hfl.2 hi'
        exact ⟨k1, k2, .inl (k4.trans he)⟩
      | cons m ms => rw [he] at hi; cases hi
    | err =>
      cases he : q.egress with
      | nil =>
        have hi' : ({ q with wr := w } : Rep.Peer A).completeStep d.comp d.slots d.next = .ok (p', .pending) := by
          simp only [he] at hi
          cases q
          simp only at he
          subst he
          exact hi
        obtain ⟨k1, k2, k3, k4⟩ := comp' { q with wr := w } hfl.1 hfl.2 hi'
        exact ⟨k1, k2, .inl (k4.trans he)⟩
      | cons m ms => rw [he] at hi; cases hi
  refine ⟨main.1, main.2.1, main.2.2, (Rep.iter_flushed hl (Rep.Bounded.run acts (fun p hp => by cases hp) h p hp) hi).imp (·.1) (·.2.2), fun hnd x id hx => ?_⟩
  refine (g2.idle rfl ?_).2 x (List.mem_map.2 ⟨(x, id), hx, rfl⟩)
  intro y hy
  obtain ⟨⟨y', id'⟩, hz, rfl⟩ := List.mem_map.1 hy
  exact hnd y' id' hz

theorem late_pending {s t : Req.State} {e : Req.Env} {c : Req.Chan} (h : s.lateStep e c = (t, .pending)) :
    ∃ wr : Writer, t.conn = .active { c with wr } ∧ wr.total = c.wr.total ∧ t.egress = s.egress ∧
      (t.closed = true → c.wr.flush e.closeAns = (.pending, wr)) := by
  unfold Req.State.lateStep at h
  obtain ⟨h1, h2, h3, h4, h5, h6, h7⟩ := Req.tickLoop_fields (s.now + 1) { s with conn := .active c }
  simp only at h
  generalize ({ s with conn := .active c } : Req.State).tickLoop (s.now + 1) = u at *
  simp only at h1 h7
  cases hq : u.queue with
  | cons x q => simp only [hq] at h; cases h
  | nil =>
    simp only [hq] at h
    split at h
    · rcases hw : c.wr.flush e.closeAns with ⟨o, wr⟩
      rw [hw] at h
      have := (Writer.flush_spec c.wr e.closeAns).1
      rw [hw] at this
      cases o with
      | pending => cases h; exact ⟨wr, rfl, this, h7, fun _ => rfl⟩
      | ok => cases h
      | err => cases h
    · rename_i hcl
      cases h
      exact ⟨c.wr, h1, rfl, h7, fun hx => absurd hx hcl⟩

theorem backoff_armed {b b' : Backoff} {now : Nat} {o : BOut} (hb : b.Ok 20000000 16) (h : b.poll now = .ok (o, b')) (ho : o ≠ .ended) :
    ∃ dl, b'.deadline = some dl ∧ now < dl := by
  rw [Backoff.poll_eq] at h
  have h' : ({ b with deadline := some (b.deadline.getD (now + b.cur)) } : Backoff).Ok 20000000 16 := ⟨hb.lim, hb.cur, hb.more⟩
  rcases Backoff.fire_spec (now := now) h' rfl with ⟨hlt, hf⟩ | ⟨-, -, hf⟩ | ⟨-, -, b2, hf⟩ | ⟨-, -, b2, hf, -, -, hd⟩
  · rw [hf] at h; cases h; exact ⟨_, rfl, hlt⟩
  · rw [hf] at h; cases h
  · rw [hf] at h; cases h; exact absurd rfl ho
  · rw [hf] at h
    cases h
    refine ⟨_, hd, ?_⟩
    have : 0 < 2 ^ (({ b with deadline := some (b.deadline.getD (now + b.cur)) } : Backoff).count + 1) := Nat.pow_pos (by omega)
    omega

/-- C90, the driver of a request socket that is connected: when it returns `Pending`, it has taken all requests from the socket, the connection was read until it had nothing more to give, everything
queued for writing has been handed to it unless it just refused, the next timeout check is set for later, and, if the socket was dropped, the connection just refused what is left to write. When it is not connected:
the timer for the next attempt is set for later, and the attempt in progress, if any, has not finished or was started right now (in which case the timer, `cx.waker().wake_by_ref()`, has it polled again at once). -/
theorem C90_request_driver (D : Decompressors) (opts comp) (s : Req.State) (h : ReqReach D opts comp s) (he : s.ended = false)
    (e : Req.Env) (t : Req.State) (hi : s.iter D e = .ok (t, .pending)) :
    (∀ c, t.conn = .active c → t.queue = [] ∧ t.now < t.checkIv.next ∧ Dry ReqRep.codec c.rd ∧
      (∀ c0, s.conn = .active c0 → s.connTask = false → Asked c0.input c.input) ∧
      (t.egress = [] ∨ ∃ w, Refused e.readyAns w ∧ w.total = c.wr.total) ∧
      (t.closed = true → ∃ w : Writer, w.flush e.closeAns = (.pending, c.wr))) ∧
    (∀ b, t.conn = .inactive b → (∃ dl, b.deadline = some dl ∧ t.now < dl) ∧
      (t.connTask = true → Req.taskResult opts.token e.task = .ok none ∨ ∃ (b0 : Backoff) (dur : Nat), b0.poll s.now = .ok (.item dur, b))) := by
  have hinv := h.inv
  obtain ⟨u, hu, hr⟩ := Req.iter_rest hi
  have hinvu : Req.Inv D u := ((Req.flushStep_steps s e he).trans (Req.taskStep_steps _ u e ((Req.flushStep_ended s e).1.trans he) hu)).inv hinv
  have hue : u.ended = false := by rw [(Req.taskStep_ended _ _ e hu).1, (Req.flushStep_ended s e).1, he]
  obtain ⟨k1, k2, k3, k4, k5, k6, k7, k8⟩ := flushStep_same s e
  refine ⟨?_, ?_⟩
  · intro c hc
    obtain ⟨q1, q2⟩ := Req.iter_pending hinv he hi hc
    unfold Req.State.rest at hr
    cases hcn : u.conn with
    | inactive b =>
      simp only [hcn] at hr
      cases hb : b.poll u.now with
      | panic => rw [hb] at hr; cases hr
      | ok r =>
        obtain ⟨x, b'⟩ := r
        rw [hb] at hr
        cases x with
        | pending => cases hr; cases hc
        | item d => cases hr; rw [Req.State.retry_eq] at hc; cases hc
        | ended => cases hr
    | active c1 =>
      simp only [hcn] at hr
      cases hp : c1.rd.pollNext ReqRep.codec c1.input with
      | panic => rw [hp] at hr; cases hr
      | ok r =>
        obtain ⟨x, rd, input⟩ := r
        rw [hp] at hr
        simp only [R.bind_ok, R.pure_eq] at hr
        cases x with
        | item m => cases hr
        | err x => cases hr
        | ended => cases hr
        | pending =>
          obtain ⟨j1, j2⟩ := pollNext_pending _ hp
          simp only [R.ok.injEq] at hr
          have hask : ∀ c0, s.conn = .active c0 → s.connTask = false → c1.input = c0.input := by
            intro c0 hc0 hct
            obtain ⟨wr, hwr⟩ := k8 c0 hc0
            unfold Req.State.taskStep at hu
            rw [k4, hct] at hu
            simp only [Bool.false_eq_true, if_false, R.ok.injEq] at hu
            rw [← hu, hwr] at hcn
            cases hcn
            rfl
          have fin : ∀ w, (u.lateStep e { c1 with rd, input, polls := c1.polls + 1, wr := w } = (t, .pending)) →
              (u.egress = [] ∨ Refused e.readyAns w) →
              t.queue = [] ∧ t.now < t.checkIv.next ∧ Dry ReqRep.codec c.rd ∧
                (∀ c0, s.conn = .active c0 → s.connTask = false → Asked c0.input c.input) ∧
                (t.egress = [] ∨ ∃ w, Refused e.readyAns w ∧ w.total = c.wr.total) ∧
                (t.closed = true → ∃ w : Writer, w.flush e.closeAns = (.pending, c.wr)) := by
            intro w hl hw
            obtain ⟨wr, g1, g2, g3, g4⟩ := late_pending hl
            rw [hc] at g1
            cases g1
            refine ⟨q1, q2, j1, fun c0 h0 h1 => hask c0 h0 h1 ▸ j2, ?_, fun hcl => ⟨_, g4 hcl⟩⟩
            rcases hw with hw | hw
            · exact .inl (g3.trans hw)
            · exact .inr ⟨w, hw, g2.symm⟩
          unfold Req.State.writeStep at hr
          simp only at hr
          rcases hq : c1.wr.ready e.readyAns with ⟨o, w⟩
          rw [hq] at hr
          cases o with
          | pending => exact fin w hr (.inr (ready_refused hq))
          | ok =>
            cases he : u.egress with
            | nil => rw [he] at hr; exact fin w hr (.inl he)
            | cons m ms => rw [he] at hr; cases hr
          | err =>
            cases he : u.egress with
            | nil => rw [he] at hr; exact fin w hr (.inl he)
            | cons m ms => rw [he] at hr; cases hr
  · intro b hb
    have hnow : u.now = s.now := (Req.taskStep_ended _ _ e hu).2.trans (Req.flushStep_ended s e).2
    unfold Req.State.rest at hr
    cases hcn : u.conn with
    | active c1 =>
      simp only [hcn] at hr
      cases hp : c1.rd.pollNext ReqRep.codec c1.input with
      | panic => rw [hp] at hr; cases hr
      | ok r =>
        obtain ⟨x, rd, input⟩ := r
        rw [hp] at hr
        simp only [R.bind_ok, R.pure_eq] at hr
        cases x with
        | item m => cases hr
        | err x => cases hr
        | ended => cases hr
        | pending =>
          simp only [R.ok.injEq] at hr
          have fin : ∀ w, (u.lateStep e { c1 with rd, input, polls := c1.polls + 1, wr := w } = (t, .pending)) → False := by
            intro w hl
            obtain ⟨wr, g1, -⟩ := late_pending hl
            rw [hb] at g1
            cases g1
          unfold Req.State.writeStep at hr
          simp only at hr
          rcases hq : c1.wr.ready e.readyAns with ⟨o, w⟩
          rw [hq] at hr
          cases o with
          | pending => exact (fin w hr).elim
          | ok =>
            cases he : u.egress with
            | nil => rw [he] at hr; exact (fin w hr).elim
            | cons m ms => rw [he] at hr; cases hr
          | err =>
            cases he : u.egress with
            | nil => rw [he] at hr; exact (fin w hr).elim
            | cons m ms => rw [he] at hr; cases hr
    | inactive b0 =>
      have hok := (hinvu.back hue).1 b0 hcn
      simp only [hcn] at hr
      cases hbp : b0.poll u.now with
      | panic => rw [hbp] at hr; cases hr
      | ok r =>
        obtain ⟨x, b'⟩ := r
        rw [hbp] at hr
        cases x with
        | ended => cases hr
        | item d =>
          cases hr; rw [Req.State.retry_eq] at hb ⊢
          cases hb
          exact ⟨backoff_armed hok hbp (by simp), fun _ => .inr ⟨b0, d, hnow ▸ hbp⟩⟩
        | pending =>
          cases hr
          cases hb
          refine ⟨backoff_armed hok hbp (by simp), fun hct => .inl ?_⟩
          simp only at hct
          unfold Req.State.taskStep at hu
          split at hu
          · rw [k6, h.opts.1] at hu
            cases htr : Req.taskResult opts.token e.task with
            | panic => rw [htr] at hu; cases hu
            | ok r =>
              rw [htr] at hu
              rcases r with _ | _ | ⟨via, input⟩
              · rfl
              · cases hu; cases hct
              · cases hu; cases hct
          · rename_i hc
            cases hu
            exact absurd hct hc

/-- The hypotheses are met: a client that has sent a request and got no response yet. -/
example (D : Decompressors) :
    let c : Conn Nat := ⟨1, some 1, ⟨[.data (reqBytes 5 [1]), .pending, .data (reqBytes 6 [2])], [], [], []⟩⟩
    let e : Rep.PEnv := ⟨[.ok 100, .ok 1], []⟩
    let acts : List (Rep.Act Nat) := [.accept c, .ready 0 true, .peer 0 e, .recv]
    ∃ d p p', (Rep.Driver.new none none none : Rep.Driver Nat).run D acts = .ok d ∧ d.peers = [p] ∧
      p.iter d.comp d.slots d.next e = .ok (p', .pending) ∧ p'.pend.map (·.1) = [0] ∧ p'.input = [.data (reqBytes 6 [2])] := by
  refine ⟨_, _, _, rfl, rfl, rfl, rfl, rfl⟩

/-- A connected driver that has written a request and waits for the response, and an unconnected one that waits for its timer. -/
example : reqAfter [.iter {}, .request [1], .advance 20000000, .iter {}, .iter { task := some (some ⟨[.pending, .pending, .pending, .pending, .data [9]], [], [], []⟩) },
      .iter {}, .iter {}] [] (fun s _ => !s.ended && (match s.iter noDec {} with
        | .ok (t, .pending) => (match t.conn with | .active c => c.input == [.data [9]] && !t.pending.isEmpty | _ => false)
        | _ => false)) = true := by decide +kernel

example : reqAfter [.iter {}, .request [1]] [] (fun s _ => !s.ended && (match s.iter noDec {} with
        | .ok (t, .pending) => (match t.conn with | .inactive b => b.deadline == some 20000000 && !t.queue.isEmpty | _ => false)
        | _ => false)) = true := by decide +kernel

/-- A publisher for which there is nothing to do: gone; connected, with nothing queued from its connection, which will wake the driver; or to be retried later. -/
def Quiet {A : Type} [DecidableEq A] (d : Sub.Driver A) (x : A) : Prop :=
  Sub.lookup x d.pubs = none ∨
  (∃ u, Sub.lookup x d.pubs = some (.active u) ∧ ∀ s : Sub.Session, d.sessions[u]? = some s → s.toDriver = [] ∧ s.armed = true) ∨
  (∃ b dl, Sub.lookup x d.pubs = some (.inactive b) ∧ b.deadline = some dl ∧ d.now < dl)

theorem lookup_upd {A β : Type} [DecidableEq A] (a x : A) (v : β) (l : List (A × β)) :
    Sub.lookup x (l.map fun y => if y.1 = a then (a, v) else y) = if x = a then (Sub.lookup a l).map (fun _ => v) else Sub.lookup x l := by
  induction l with
  | nil => simp [Sub.lookup]
  | cons y l ih =>
    obtain ⟨y, w⟩ := y
    simp only [List.map_cons]
    by_cases hy : y = a
    · subst hy
      simp only [if_true, Sub.lookup]
      by_cases hx : x = y
      · subst hx; simp
      · have hx' : ¬y = x := fun h => hx h.symm
        rw [if_neg hx', ih, if_neg hx, if_neg hx, if_neg hx']
    · rw [if_neg hy]
      simp only [Sub.lookup]
      by_cases hx : y = x
      · subst hx; simp [hy]
      · rw [if_neg hx, if_neg hx, ih]
        simp [hy]

theorem pollPub_quiet {A : Type} [DecidableEq A] {D : Decompressors} {d t : Sub.Driver A} {a : A} (h : d.pollPub D a = .ok (t, false)) :
    d.fates.length ≤ t.fates.length ∧ t.now = d.now ∧ t.cmdq = d.cmdq ∧ t.tasks = d.tasks ∧ t.opts = d.opts ∧
    (∀ x, Sub.lookup x d.pubs = none → Sub.lookup x t.pubs = none) ∧
    (t.fates.length = d.fates.length → Quiet t a ∧ ∀ x, Quiet d x → Quiet t x) := by
  unfold Sub.Driver.pollPub at h
  cases hl : Sub.lookup a d.pubs with
  | none =>
    simp only [hl] at h
    cases h
    exact ⟨Nat.le_refl _, rfl, rfl, rfl, rfl, fun _ h => h, fun _ => ⟨.inl hl, fun _ h => h⟩⟩
  | some st =>
    cases st with
    | active u =>
      simp only [hl] at h
      cases hs : d.sessions[u]? with
      | none =>
        simp only [hs] at h
        cases h
        exact ⟨Nat.le_refl _, rfl, rfl, rfl, rfl, fun _ h => h, fun _ => ⟨.inr (.inl ⟨u, hl, fun s h => by rw [hs] at h; cases h⟩), fun _ h => h⟩⟩
      | some s =>
        simp only [hs] at h
        unfold Sub.Session.driverRecv at h
        cases hd : s.toDriver with
        | cons m ms =>
          simp only [hd] at h
          cases hm : tryDecompress D m.ctype m.payload with
          | none =>
            rw [hm] at h
            cases h
            refine ⟨by simp, rfl, rfl, rfl, rfl, fun _ h => h, fun hf => ?_⟩
            simp at hf
          | some b => rw [hm] at h; cases h
        | nil =>
          simp only [hd] at h
          split at h
          · rename_i heq
            split at heq <;> cases heq
          · cases h
          · rename_i s' heq
            split at heq
            · cases heq
            · cases heq
              cases h
              have key : ∀ v (x : Sub.Session), (d.sessions.set u { s with toDriver := [], armed := true })[v]? = some x →
                  (v = u → x.toDriver = [] ∧ x.armed = true) ∧ (v ≠ u → d.sessions[v]? = some x) := by
                intro v x hx
                rw [List.getElem?_set] at hx
                by_cases hv : u = v
                · subst hv
                  rw [if_pos rfl] at hx
                  split at hx
                  · cases hx; exact ⟨fun _ => ⟨rfl, rfl⟩, fun h => absurd rfl h⟩
                  · cases hx
                · rw [if_neg hv] at hx
                  exact ⟨fun h => absurd h.symm hv, fun _ => hx⟩
              refine ⟨Nat.le_refl _, rfl, rfl, rfl, rfl, fun _ h => h, fun _ => ⟨.inr (.inl ⟨u, hl, fun x hx => (key u x hx).1 rfl⟩), fun x hq => ?_⟩⟩
              rcases hq with hq | ⟨v, hv, hq⟩ | hq
              · exact .inl hq
              · refine .inr (.inl ⟨v, hv, fun y hy => ?_⟩)
                by_cases hvu : v = u
                · exact (key v y hy).1 hvu
                · exact hq y ((key v y hy).2 hvu)
              · exact .inr (.inr hq)
    | inactive b =>
      simp only [hl] at h
      cases hb : b.poll d.now with
      | panic => rw [hb] at h; cases h
      | ok r =>
        obtain ⟨o, b'⟩ := r
        rw [hb] at h
        simp only [R.bind_ok, R.pure_eq] at h
        cases o with
        | item _ => cases h
        | pending =>
          cases h
          have harm : ∃ dl, b'.deadline = some dl ∧ d.now < dl := by
            rw [Backoff.poll_eq] at hb
            unfold Backoff.fire at hb
            split at hb
            · split at hb
              · cases hb
              · simp only at hb
                split at hb <;> cases hb
            · rename_i hlt
              cases hb
              exact ⟨_, rfl, Nat.lt_of_not_le hlt⟩
          obtain ⟨dl, h1, h2⟩ := harm
          have hlk : ∀ x, Sub.lookup x (d.pubs.map fun y => if y.1 = a then (a, .inactive b') else y) =
              if x = a then some (.inactive b') else Sub.lookup x d.pubs := by
            intro x; rw [lookup_upd, hl]; rfl
          refine ⟨Nat.le_refl _, rfl, rfl, rfl, rfl, fun x hx => ?_, fun _ => ⟨.inr (.inr ⟨b', dl, by rw [hlk, if_pos rfl], h1, h2⟩), fun x hq => ?_⟩⟩
          · rw [hlk]
            by_cases hxa : x = a
            · subst hxa; rw [hl] at hx; cases hx
            · rw [if_neg hxa]; exact hx
          · by_cases hxa : x = a
            · subst hxa; exact .inr (.inr ⟨b', dl, by rw [hlk, if_pos rfl], h1, h2⟩)
            · unfold Quiet; rw [hlk, if_neg hxa]; exact hq
        | ended =>
          cases h
          have hlk : ∀ x, Sub.lookup x (Sub.erase a (d.pubs.map fun y => if y.1 = a then (a, .inactive b') else y)) = if x = a then none else Sub.lookup x d.pubs := by
            intro x
            by_cases hxa : x = a
            · subst hxa; rw [if_pos rfl, Sub.lookup_erase_self]
            · rw [if_neg hxa, Sub.lookup_erase_ne hxa, lookup_upd, if_neg hxa]
          refine ⟨Nat.le_refl _, rfl, rfl, rfl, rfl, fun x hx => ?_, fun _ => ⟨.inl (by rw [hlk, if_pos rfl]), fun x hq => ?_⟩⟩
          · rw [hlk]; split
            · rfl
            · exact hx
          · by_cases hxa : x = a
            · exact .inl (by rw [hlk, if_pos hxa])
            · unfold Quiet; rw [hlk, if_neg hxa]; exact hq

theorem pollPublishers_quiet {A : Type} [DecidableEq A] {D : Decompressors} : ∀ (l : List A) {d t : Sub.Driver A} (_ : d.pollPublishers D l = .ok (t, false)),
    d.fates.length ≤ t.fates.length ∧ t.now = d.now ∧ t.cmdq = d.cmdq ∧ t.tasks = d.tasks ∧ t.opts = d.opts ∧
    (∀ x, Sub.lookup x d.pubs = none → Sub.lookup x t.pubs = none) ∧
    (t.fates.length = d.fates.length → (∀ x ∈ l, Quiet t x) ∧ ∀ x, Quiet d x → Quiet t x) := by
  intro l
  induction l with
  | nil =>
    intro d t h
    cases h
    exact ⟨Nat.le_refl _, rfl, rfl, rfl, rfl, fun _ h => h, fun _ => ⟨fun x h => (by cases h), fun _ h => h⟩⟩
  | cons a l ih =>
    intro d t h
    unfold Sub.Driver.pollPublishers at h
    cases h1 : d.pollPub D a with
    | panic => rw [h1] at h; cases h
    | ok x =>
      obtain ⟨d1, p⟩ := x
      rw [h1] at h
      simp only [R.bind_ok, R.pure_eq] at h
      cases h2 : d1.pollPublishers D l with
      | panic => rw [h2] at h; cases h
      | ok x =>
        obtain ⟨d2, q⟩ := x
        rw [h2] at h
        simp only [R.bind_ok, R.ok.injEq, Prod.mk.injEq, Bool.or_eq_false_iff] at h
        obtain ⟨rfl, rfl, rfl⟩ := h
        obtain ⟨a1, a2, a3, a4, a5, a6, a7⟩ := pollPub_quiet h1
        obtain ⟨b1, b2, b3, b4, b5, b6, b7⟩ := ih h2
        refine ⟨Nat.le_trans a1 b1, b2.trans a2, b3.trans a3, b4.trans a4, b5.trans a5, fun x hx => b6 x (a6 x hx), fun hf => ?_⟩
        obtain ⟨c1, c2⟩ := a7 (by omega)
        obtain ⟨e1, e2⟩ := b7 (by omega)
        refine ⟨fun x hx => ?_, fun x hx => e2 x (c2 x hx)⟩
        rcases List.mem_cons.1 hx with rfl | hx
        · exact e2 _ c1
        · exact e1 _ hx

/-- C90 (partial), the driver of a subscriber: when it returns `Pending` it has taken all commands; unless a message failed to decompress in that very poll, every publisher is either connected, with nothing
queued from its connection (which will wake the driver when it has something), or has its next attempt set for later; and if a connection attempt has finished, it panicked.
Missing: a message that fails to decompress leaves the rest of that publisher's queue unread (`C53_stalls_refuted`), and after an attempt that panicked the driver does not look at the other attempts. -/
theorem C90_subscriber_driver_partial {A : Type} [DecidableEq A] (D : Decompressors) (d t : Sub.Driver A) (e : Sub.Env A) (h : d.iter D e = .ok (t, .pending))
    (hall : ∀ x, Sub.lookup x d.pubs ≠ none → x ∈ e.order) :
    t.cmdq = [] ∧
    (t.tasks = d.tasks ∨ ∃ i out, e.join = some (i, out) ∧ Sub.taskResult d.opts.token out = .panic) ∧
    (t.fates.length = d.fates.length →
      (∀ x u, Sub.lookup x t.pubs = some (.active u) → ∀ s : Sub.Session, t.sessions[u]? = some s → s.toDriver = [] ∧ s.armed = true) ∧
      (∀ x b, Sub.lookup x t.pubs = some (.inactive b) → ∃ dl, b.deadline = some dl ∧ t.now < dl)) := by
  unfold Sub.Driver.iter at h
  cases h1 : d.pollPublishers D e.order with
  | panic => rw [h1] at h; cases h
  | ok x =>
    obtain ⟨d1, p⟩ := x
    rw [h1] at h
    simp only [R.bind_ok, R.pure_eq] at h
    cases p with
    | true => cases h
    | false =>
      obtain ⟨a1, a2, a3, a4, a5, a6, a7⟩ := pollPublishers_quiet _ h1
      simp only [Bool.false_eq_true, if_false] at h
      cases hq : d1.cmdq with
      | cons c q => simp only [hq] at h; cases h
      | nil =>
        simp only [hq, R.ok.injEq] at h
        obtain ⟨tk, ks, ht, hj⟩ : ∃ tk ks, t = { d1 with tasks := tk, keys := ks } ∧
            (tk = d1.tasks ∨ ∃ i out, e.join = some (i, out) ∧ Sub.taskResult d1.opts.token out = .panic) := by
          unfold Sub.Driver.joinStep at h
          cases hj : e.join with
          | none => rw [hj] at h; cases h; exact ⟨_, _, rfl, .inl rfl⟩
          | some x =>
            obtain ⟨i, out⟩ := x
            rw [hj] at h
            simp only at h
            cases ha : d1.tasks[i]? with
            | none => rw [ha] at h; cases h; exact ⟨_, _, rfl, .inl rfl⟩
            | some a =>
              rw [ha] at h
              simp only at h
              cases hr : Sub.taskResult d1.opts.token out with
              | panic => rw [hr] at h; cases h; exact ⟨_, _, rfl, .inr ⟨i, out, rfl, hr⟩⟩
              | ok r =>
                rw [hr] at h
                rcases r with _ | _ | ⟨via, input⟩
                · cases h; exact ⟨_, _, rfl, .inl rfl⟩
                · cases h
                · cases h
        subst ht
        refine ⟨hq, ?_, fun hf => ?_⟩
        · rcases hj with hj | hj
          · exact .inl (hj.trans a4)
          · rw [a5] at hj; exact .inr hj
        · obtain ⟨c1, -⟩ := a7 hf
          have quiet : ∀ x, Quiet d1 x := by
            intro x
            by_cases hx : Sub.lookup x d.pubs = none
            · exact .inl (a6 x hx)
            · exact c1 x (hall x hx)
          refine ⟨fun x u hx s hs => ?_, fun x b hx => ?_⟩
          · simp only at hx hs
            rcases quiet x with hq | ⟨v, hv, hq⟩ | ⟨b, dl, hv, -⟩
            · rw [hx] at hq; cases hq
            · rw [hx] at hv; cases hv; exact hq s hs
            · rw [hx] at hv; cases hv
          · simp only at hx
            rcases quiet x with hq | ⟨v, hv, hq⟩ | ⟨b', dl, hv, h3, h4⟩
            · rw [hx] at hq; cases hq
            · rw [hx] at hv; cases hv
            · rw [hx] at hv; cases hv; exact ⟨dl, h3, h4⟩

/-- A subscriber with two publishers, one connected and one not: its driver has nothing to do. -/
example : after {} [.call (.tryConnect 7), .iter { order := [] }, .iter { order := [7], join := some (0, .connected ⟨[.data (msgA 0 5), .pending], [], [], []⟩) }, .call (.tryConnect 8), .iter { order := [7] },
      .session 0 eager, .session 0 eager, .iter { order := [7, 8] }]
    (fun d => d.inbox.length == 1 && (match d.iter noDec { order := [7, 8] } with
      | .ok (t, .pending) => (match Sub.lookup 7 t.pubs, Sub.lookup 8 t.pubs with | some (.active 0), some (.inactive _) => t.fates.length == d.fates.length | _, _ => false)
      | _ => false)) = true := by decide +kernel

end MsgRs.Props
