import Verif.Props.Pub
import Verif.Model.PubDriver
import Verif.Proofs.Returns
/-!
# Property C74 for the publisher's sessions
-/
namespace MsgRs.Props
open MsgRs

section Pub
open MsgRs.Pub

theorem step_flush {L : Lossy} {s t : Session} {e : Env} {ev : Ev} (h : Step L s e t ev) :
    ev ≠ .ended → t.shouldFlush = false → t.wr.buf = [] := by
  intro hne
  cases h <;> first | assumption | (intro hx; cases hx) | exact absurd rfl hne

/-- C74 for a publisher's session task: as long as the topics of what is published fit on the wire, and publishing
pauses, a poll of a session returns after finitely many iterations (and does not panic), in every reachable state,
whatever the connection and the clock do. -/
theorem C74_publisher_session_returns (L : Lossy) (boundary : Nat) (input : List ReadAns) (es0 : List Env)
    (s : Session) (evs : List Ev) (hrun : (Session.new boundary input).run L es0 = .ok (s, evs)) (es : Nat → Env)
    (hm : ∀ n m, (es n).feed = .msg m → (utf8 m.topic).length ≤ 65535)
    (hf : ∃ n, ∀ k, n ≤ k → (es k).feed = .pending ∨ (es k).feed = .closed) :
    Spec.Returns (Session.iter L) (fun ev => ev ≠ .blocked ∧ ev ≠ .idle ∧ ev ≠ .ended) s es := by
  have hfl := (run_inv hrun).flush
  clear hrun
  obtain ⟨n, hf⟩ := hf
  induction n generalizing s es with
  | succ n ih =>
    obtain ⟨⟨t, ev⟩, hit⟩ := iter_total (L := L) s (es 0) (hm 0)
    refine returns_step hit fun ha => ih t (fun n => es (n + 1)) (fun n m => hm (n + 1) m)
      (step_flush (iter_step hfl hit) ha.2.2) fun k hk => hf (k + 1) (by omega)
  | zero =>
    refine returns_of_measure (fun s => s.shouldFlush = false → s.wr.buf = [])
      (fun s => s.rd.pot PubSub.meas s.input + if s.pending.isSome then 1 else 0)
      (fun e => e.feed = .pending ∨ e.feed = .closed) ?_ s hfl es (fun k => hf k (by omega))
    intro s e hfl he
    obtain ⟨⟨t, ev⟩, hit⟩ := iter_total (L := L) s e (fun m hm => by rcases he with he | he <;> rw [he] at hm <;> cases hm)
    refine ⟨t, ev, hit, ?_⟩
    rintro ⟨h1, h2, h3⟩
    have hs := iter_step hfl hit
    refine ⟨step_flush hs h3, ?_⟩
    cases hs with
    | blocked => exact absurd rfl h1
    | idle => exact absurd rfl h2
    | dead => exact absurd rfl h3
    | closed => exact absurd rfl h3
    | sent _ hp => simp [hp]
    | skip _ _ _ hx _ => rcases he with he | he <;> rw [he] at hx <;> cases hx
    | take _ _ _ hx _ => rcases he with he | he <;> rw [he] at hx <;> cases hx
    | lagged _ _ _ hx => rcases he with he | he <;> rw [he] at hx <;> cases hx
    | incoming _ _ hp _ hr =>
      have := (pollNext_pot PubSub.sized _ _ hr).2 (by simp)
      simp [hp]
      omega

/-- A case: a message is skipped, a lag is reported, then there is nothing left to do. -/
example (L : Lossy) : ∃ t, Spec.poll (Session.iter L) (fun ev => ev ≠ .blocked ∧ ev ≠ .idle ∧ ev ≠ .ended)
    (Session.new 8192 [])
    [⟨true, [], [], [], .msg (PubMsg.new [] [1]), 0⟩, ⟨true, [], [], [], .lagged 3, 0⟩,
     ⟨true, [], [], [], .pending, 0⟩] = .ok (t, some .idle) := ⟨_, rfl⟩

/-- One iteration of the publisher driver's loop, and whether it went into one of the branches that `continue`
(pub/driver.rs:86,108,117,127). -/
def pubIter {A : Type} (d : Driver A) (e : DEnv A) : R (Driver A × Bool) :=
  .ok (d.iter e, (d.stepJoin e).2 || ((d.stepJoin e).1.stepConn e).2 || (((d.stepJoin e).1.stepConn e).1.stepAccept e).2)

/-- C74 for the publisher's driver: a poll returns after finitely many iterations, in every state, whatever the
connections and the authentication do, as long as the listener does not report new connections for ever. -/
theorem C74_publisher_driver_returns {A : Type} (d : Driver A) (es : Nat → DEnv A)
    (hf : ∃ n, ∀ k, n ≤ k → (es k).accept = none) : Spec.Returns pubIter (· = true) d es := by
  obtain ⟨n, hf⟩ := hf
  induction n generalizing d es with
  | succ n ih =>
    exact returns_step (iter := pubIter) (s := d) (es := es) rfl fun _ => ih _ (fun n => es (n + 1)) fun k hk => hf (k + 1) (by omega)
  | zero =>
    refine returns_of_measure (fun _ => True) (fun d => 2 * d.connTasks.length + d.authTasks.length)
      (fun e => e.accept = none) ?_ d trivial es fun k => hf k (by omega)
    rintro d e - he
    refine ⟨_, _, rfl, fun ha => ⟨trivial, ?_⟩⟩
    have hlen : ∀ (l : List (Conn A)) i c, l[i]? = some c → (l.eraseIdx i).length + 1 = l.length := by
      intro l i c h
      have : i < l.length := by
        rcases Nat.lt_or_ge i l.length with h' | h'
        · exact h'
        · rw [List.getElem?_eq_none h'] at h; cases h
      rw [List.length_eraseIdx_of_lt this]
      omega
    have hj : (d.stepJoin e).1.connTasks = d.connTasks ∧ (d.stepJoin e).1.authTasks.length ≤ d.authTasks.length ∧
        ((d.stepJoin e).2 = true → (d.stepJoin e).1.authTasks.length < d.authTasks.length) := by
      unfold Driver.stepJoin
      split
      · split
        · simp
        · rename_i i f _ _ c hc
          have := hlen _ _ _ hc
          simp only
          split <;> refine ⟨rfl, ?_, fun h => ?_⟩ <;> first | (simp only; omega) | cases h | exact Nat.le_refl _
      · simp
    have hc : ∀ d : Driver A, 2 * (d.stepConn e).1.connTasks.length + (d.stepConn e).1.authTasks.length ≤
          2 * d.connTasks.length + d.authTasks.length ∧
        ((d.stepConn e).2 = true → 2 * (d.stepConn e).1.connTasks.length + (d.stepConn e).1.authTasks.length <
          2 * d.connTasks.length + d.authTasks.length) := by
      intro d
      unfold Driver.stepConn
      split
      · simp
      · split
        · simp
        · rename_i i ok _ _ c hc
          have := hlen _ _ _ hc
          have hin : ∀ d : Driver A, (d.onIncoming c).1.connTasks = d.connTasks ∧
              (d.onIncoming c).1.authTasks.length ≤ d.authTasks.length + 1 := by
            intro d
            unfold Driver.onIncoming
            split
            · exact ⟨rfl, by simp⟩
            · split
              · exact ⟨rfl, by simp⟩
              · exact ⟨rfl, by simp⟩
          obtain ⟨k1, k2⟩ := hin { d with connTasks := d.connTasks.eraseIdx i }
          simp only at k1 k2
          cases ok with
          | false => simp only [Bool.false_eq_true, if_false]; exact ⟨by omega, fun _ => by omega⟩
          | true =>
            simp only [if_true]
            generalize ({ d with connTasks := d.connTasks.eraseIdx i } : Driver A).onIncoming c = w at *
            obtain ⟨w, b⟩ := w
            simp only at k1 k2
            cases b <;> simp only <;> rw [k1] <;> exact ⟨by omega, fun _ => by omega⟩
    have hac : ∀ d : Driver A, d.stepAccept e = (d, false) := by
      intro d; unfold Driver.stepAccept; rw [he]
    simp only [hac, Bool.or_false] at ha
    unfold Driver.iter
    rcases h1 : d.stepJoin e with ⟨d1, b1⟩
    rw [h1] at ha hj
    obtain ⟨j1, j2, j3⟩ := hj
    obtain ⟨c1, c2⟩ := hc d1
    cases b1 with
    | true => have := j3 rfl; simp only at j1 this ⊢; rw [j1]; omega
    | false =>
      simp only [Bool.false_or] at ha
      rcases h2 : d1.stepConn e with ⟨d2, b2⟩
      rw [h2] at ha c1 c2
      simp only at ha
      subst ha
      have := c2 rfl
      simp only [h2] at j1 j2 this ⊢
      rw [j1] at this
      omega

end Pub
end MsgRs.Props
