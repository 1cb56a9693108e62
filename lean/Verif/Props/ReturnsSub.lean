import Verif.Props.Sub
import Verif.Proofs.SubReturns
import Verif.Proofs.PubSession
/-!
# Properties C74 and C75 for the subscriber socket
-/
namespace MsgRs.Props
open MsgRs

section Sub
open MsgRs.Sub
variable {A : Type} [DecidableEq A]

/-- C75: the subscriber socket's driver never panics, whatever publishers send, in every history, if the initial
backoff doubled 16 times still is a `Duration`. -/
theorem C75_subscriber_no_panic (L : Lossy) (D : Decompressors) (opts : Options) (now : Nat) (acts : List (Act A))
    (d : Driver A) (h0 : Driver.new opts now = .ok d) (hb : opts.initialBackoff * 2 ^ 16 ≤ Duration.max) :
    d.run L D acts ≠ .panic := by
  unfold Driver.new at h0
  split at h0
  · cases h0
  · cases h0
    obtain ⟨d', h, -⟩ := run_binv (L := L) (D := D) acts (d := { opts, now }) (fun a b h => by cases h) hb
    rw [h]
    simp

/-- The environment of one iteration of the driver: what others do before it (sessions, the user, the clock), and its
own. -/
abbrev Turn (A : Type) := List (Act A) × Env A

/-- C74 for the subscriber's driver: a poll returns after finitely many iterations, and does not panic, whatever the
connection tasks do and in whatever order the maps are iterated, in every reachable state; also when its sessions run,
the user calls the socket and time passes meanwhile, as long as this does not go on for ever. -/
theorem C74_subscriber_driver_returns (L : Lossy) (D : Decompressors) (opts : Options) (now : Nat) (acts : List (Act A))
    (d0 d : Driver A) (h0 : Driver.new opts now = .ok d0) (h : d0.run L D acts = .ok d)
    (hb : opts.initialBackoff * 2 ^ 16 ≤ Duration.max) (es : Nat → Turn A)
    (hf : ∃ n, ∀ k, n ≤ k → (es k).1 = []) :
    Spec.Returns (fun d (e : Turn A) => do (← d.run L D e.1).iter D e.2) (· = .again) d es := by
  have hd : DInv L D d := DInv.steps (run_steps acts d0 d h) (DInv.init h0)
  have hbi : BInv d ∧ d.opts = opts := by
    unfold Driver.new at h0
    split at h0
    · cases h0
    · cases h0
      obtain ⟨d', h', h1, h2⟩ := run_binv (L := L) (D := D) acts (d := { opts, now }) (fun a b h => by cases h) hb
      rw [h] at h'
      cases h'
      exact ⟨h1, h2⟩
  clear h h0
  have step : ∀ d : Driver A, DInv L D d → BInv d ∧ d.opts = opts → ∀ e : Turn A, ∃ d1 d2 o,
      d.run L D e.1 = .ok d1 ∧ d1.iter D e.2 = .ok (d2, o) ∧ (DInv L D d1 ∧ BInv d1) ∧
      DInv L D d2 ∧ BInv d2 ∧ d2.opts = opts := by
    rintro d hd ⟨h1, h2⟩ e
    obtain ⟨d1, k1, k2, k3⟩ := run_binv (L := L) (D := D) e.1 h1 (by rw [h2]; exact hb)
    obtain ⟨d2, o, k4, k5, k6⟩ := iter_binv (D := D) k2 (by rw [k3, h2]; exact hb) e.2
    have i1 := hd.steps (run_steps e.1 d d1 k1)
    exact ⟨d1, d2, o, k1, k4, ⟨i1, k2⟩, i1.steps (diter_steps d1 d2 e.2 o k4), k5, by rw [k6, k3, h2]⟩
  obtain ⟨n, hf⟩ := hf
  induction n generalizing d es with
  | succ n ih =>
    obtain ⟨d1, d2, o, k1, k2, -, k3, k4⟩ := step d hd hbi (es 0)
    exact returns_step (t := d2) (o := o) (by rw [k1]; exact k2) fun _ =>
      ih d2 (fun n => es (n + 1)) k3 k4 fun k hk => hf (k + 1) (by omega)
  | zero =>
    refine returns_of_lex (fun d => DInv L D d ∧ BInv d ∧ d.opts = opts) (fun d => d.cmdq.length) Driver.work
      (fun e : Turn A => e.1 = []) ?_ d ⟨hd, hbi⟩ es fun k => hf k (by omega)
    rintro d e ⟨h1, h2⟩ he
    obtain ⟨d1, d2, o, k1, k2, -, k3, k4⟩ := step d h1 h2 e
    refine ⟨d2, o, by rw [k1]; exact k2, fun ho => ⟨⟨k3, k4⟩, ?_⟩⟩
    rw [he] at k1
    cases k1
    subst ho
    exact iter_work h1 h2.1 (by rw [h2.2]; exact hb) k2

/-- Its hypotheses are met: two connect commands, one attempt that succeeds; the poll handles both commands, the new
connection and returns. The socket is configured with the default backoff. -/
example : after {} [.call (.connect 5)] (fun d =>
    decide (d.opts.initialBackoff * 2 ^ 16 ≤ Duration.max) &&
    match Spec.poll (fun d (e : Turn Nat) => do (← d.run Lossy.strict noDec e.1).iter noDec e.2) (· = .again) d
        [([.call (.connect 6)], ⟨[], [], none⟩), ([], ⟨[], [], none⟩), ([], ⟨[5, 6], [], conn []⟩), ([], ⟨[5, 6], [], none⟩),
         ([], ⟨[5, 6], [], none⟩)] with
    | .ok (d, some Out.pending) => decide (d.keys = [6]) && decide (d.sessions.length = 1)
    | _ => false) = true := by decide +kernel

theorem sendLoop_work (ms : List PubSub.Message) (s : Session) (p : Bool) (as : List (List WriteAns)) :
    (s.sendLoop p ms as).1.cmds = s.cmds ∧ (s.sendLoop p ms as).1.rd = s.rd ∧ (s.sendLoop p ms as).1.input = s.input ∧
    (s.sendLoop p ms as).1.egress.length ≤ ms.length ∧
    ((s.sendLoop p ms as).2 = true → p = true ∨ (s.sendLoop p ms as).1.egress.length < ms.length) := by
  induction ms generalizing s p as with
  | nil => simp [Session.sendLoop]
  | cons m ms ih =>
    unfold Session.sendLoop
    rcases s.wr.ready (as.headD []) with ⟨o, wr⟩
    cases o with
    | pending => simp
    | ok =>
      obtain ⟨h1, h2, h3, h4, -⟩ := ih { s with wr := wr.send (PubSub.encode m), flush := true, sent := s.sent ++ [m] } true as.tail
      exact ⟨h1, h2, h3, by simp only [List.length_cons]; omega, fun _ => .inr (by simp only [List.length_cons]; omega)⟩
    | err =>
      obtain ⟨h1, h2, h3, h4, -⟩ := ih { s with wr, lost := s.lost ++ [m] } true as.tail
      exact ⟨h1, h2, h3, by simp only [List.length_cons]; omega, fun _ => .inr (by simp only [List.length_cons]; omega)⟩

/-- C74 for a subscriber's session task: a poll returns after finitely many iterations, whatever the connection and
the clock do, in every state. -/
theorem C74_subscriber_session_returns (L : Lossy) (s : Session) (es : Nat → SEnv) :
    Spec.Returns (Session.iter L) (· = .again) s es := by
  refine returns_of_measure (fun _ => True)
    (fun s => s.rd.pot PubSub.meas s.input + 2 * s.cmds.length + s.egress.length) (fun _ => True) ?_ s trivial es fun _ => trivial
  rintro s e - -
  have hf : ∃ wr fl, s.flushStep e = { s with wr, flush := fl } := by
    unfold Session.flushStep
    split
    · split <;> exact ⟨_, _, rfl⟩
    · exact ⟨_, _, rfl⟩
  obtain ⟨wr, fl, hf⟩ := hf
  unfold Session.iter
  rw [hf]
  simp only
  obtain ⟨⟨o, rd, input⟩, hp⟩ := MsgRs.pollNext_total PubSub.inc.total s.rd s.input
  obtain ⟨p1, p2⟩ := pollNext_pot PubSub.sized s.input s.rd hp
  rw [hp]
  simp only [R.bind_ok, R.pure_eq]
  have late : ∃ t q, (if (Session.sendLoop { s with wr, flush := fl, rd, input, polls := s.polls + 1 } false s.egress e.sendAns).2 = true
        then R.ok ((Session.sendLoop { s with wr, flush := fl, rd, input, polls := s.polls + 1 } false s.egress e.sendAns).1, SOut.again)
        else R.ok ((Session.sendLoop { s with wr, flush := fl, rd, input, polls := s.polls + 1 } false s.egress e.sendAns).1.cmdStep e)) = .ok (t, q) ∧
      (q = .again → True ∧ t.rd.pot PubSub.meas t.input + 2 * t.cmds.length + t.egress.length <
        s.rd.pot PubSub.meas s.input + 2 * s.cmds.length + s.egress.length) := by
    obtain ⟨w1, w2, w3, w4, w5⟩ := sendLoop_work s.egress { s with wr, flush := fl, rd, input, polls := s.polls + 1 } false e.sendAns
    generalize (Session.sendLoop { s with wr, flush := fl, rd, input, polls := s.polls + 1 } false s.egress e.sendAns) = w at *
    obtain ⟨t, b⟩ := w
    simp only at w1 w2 w3 w4 w5 ⊢
    cases b with
    | true =>
      refine ⟨t, .again, rfl, fun _ => ⟨trivial, ?_⟩⟩
      have := (w5 rfl).resolve_left (by simp)
      rw [w1, w2, w3]
      omega
    | false =>
      simp only [Bool.false_eq_true, if_false]
      unfold Session.cmdStep
      cases hc : t.cmds with
      | nil =>
        simp only
        split <;> exact ⟨_, _, rfl, fun h => by cases h⟩
      | cons c cs =>
        simp only
        split
        · exact ⟨_, _, rfl, fun h => by cases h⟩
        · refine ⟨_, _, rfl, fun _ => ⟨trivial, ?_⟩⟩
          simp only [List.length_append, List.length_cons, List.length_nil]
          rw [w2, w3]
          rw [← w1, hc]
          simp only [List.length_cons]
          omega
  cases o with
  | item m =>
    refine ⟨_, _, rfl, fun _ => ⟨trivial, ?_⟩⟩
    have := p2 (by simp)
    unfold Session.onIncoming
    simp only
    split <;> simp only <;> omega
  | err x =>
    refine ⟨_, _, rfl, fun _ => ⟨trivial, ?_⟩⟩
    have := p2 (by simp)
    simp only
    omega
  | pending => exact late
  | ended => exact late

/-- A case: the session takes a subscription from its queue, hands the message to the connection, flushes it and
rests. -/
example : ∃ t : Session, Spec.poll (Session.iter Lossy.strict) (· = .again)
    { Session.new 8192 ⟨[], [], [], []⟩ [] with cmds := [.subscribe ['a']] } [eager, eager, eager, eager] = .ok (t, some .pending) ∧
    t.sent.length = 1 := by
  refine ⟨_, rfl, rfl⟩

end Sub
end MsgRs.Props
