import Verif.Proofs.PubSys
/-!
# Sessions of a publisher whose socket was dropped
-/
namespace MsgRs.Pub
open MsgRs Spec

/-- A connection that takes up to `n` bytes in one write and then flushes empties a buffer of that size. -/
theorem flush_all (w : Writer) {as rest : List WriteAns} {n : Nat} (has : as = .ok n :: .ok 1 :: rest) (hn : w.buf.length ≤ n) (h0 : 0 < n) :
    (w.flush as).2.buf = [] := by
  subst has
  simp only [Writer.flush]
  split
  · rename_i he; simpa using he
  · rw [if_neg (by omega)]
    have h1 : w.buf.drop n = [] := List.drop_eq_nil_of_le hn
    simp [h1]

/-- Ending because the channel is closed: the last thing done to the connection is one attempt to flush it. -/
theorem iter_closed {L : Lossy} {s s' : Session} {e : Env} (h : s.iter L e = .ok (s', .ended)) (hf : e.feed = .closed) :
    ∃ w, w.total = s.wr.total ∧ s'.wr = (Writer.flush w e.closeAns).2 := by
  obtain ⟨w, b, hs, hw, -⟩ := flushStep_spec s e
  unfold Session.iter at h
  rw [hs] at h
  have hr := Writer.ready_spec w e.readyAns
  simp only at h
  rcases hq : w.ready e.readyAns with ⟨o, w'⟩
  rw [hq] at h hr
  have fin : ∀ (x : R (Session × Ev)), x = (match s.pending with
      | some m => (R.ok ({ s with pending := none, wr := Writer.send w' (PubSub.encode m), shouldFlush := true, bytesTx := s.bytesTx + m.size }, Ev.sent m) : R (Session × Ev))
      | none => .ok (({ s with wr := w', shouldFlush := b } : Session).close e, .ended)) → x = .ok (s', .ended) → s'.wr = (Writer.flush w' e.closeAns).2 := by
    intro x hx hy
    rw [hx] at hy
    cases hp : s.pending with
    | some m => rw [hp] at hy; cases hy
    | none => rw [hp] at hy; cases hy; rfl
  refine ⟨w', hr.1.trans hw, ?_⟩
  cases o with
  | pending => cases h
  | ok => simp only [hf] at h; exact fin _ rfl (by rw [← h]; cases s.pending <;> rfl)
  | err => simp only [hf] at h; exact fin _ rfl (by rw [← h]; cases s.pending <;> rfl)

/-- What is left to do for a session: messages to take and to write. -/
def Task.left (log : List PubMsg) (t : Task) : Nat := 2 * (log.length - t.next) + t.sess.pending.toList.length

/-- One iteration of a session of a dropped publisher. -/
theorem step_closed {L : Lossy} {b : Bcast PubMsg} {log n0} (hb : b.Holds log) (hc : b.closed = true) {t : Task} (e : Env)
    (h : TInv L log n0 t) (ho : t.over = false) (hm : ∀ m ∈ log, (utf8 m.topic).length ≤ 65535) :
    (∃ ev, (t.step L b e).evs = t.evs ++ [ev] ∧ (t.step L b e).over = false ∧
      (ev = .blocked ∧ (t.step L b e).left log = t.left log ∨ (t.step L b e).left log < t.left log)) ∨
    ((t.step L b e).evs = t.evs ++ [.ended] ∧ (t.step L b e).over = true ∧ (t.step L b e).next = log.length ∧
      (t.step L b e).sess.pending = none ∧
      ((∃ n as, e.closeAns = .ok n :: .ok 1 :: as ∧ (t.step L b e).sess.wr.total.length ≤ n ∧ 0 < n) → (t.step L b e).sess.wr.buf = [])) := by
  obtain ⟨hinv, hcur⟩ := h
  have hbound : t.next ≤ b.tail := by rw [hb.tail]; exact hcur.bound
  have hle := hcur.bound
  have hr := b.recv_eq hb hbound
  have hcap : 0 < b.slots.length := hb.pos
  obtain ⟨⟨s', ev⟩, hi⟩ := iter_total (L := L) t.sess { e with feed := feedOf b t.next } (by
    intro m hf
    apply hm
    simp only [feedOf] at hf
    by_cases hlt : t.next < log.length
    · rw [dif_pos hlt] at hr
      split at hr
      · rw [hr] at hf; simp only at hf; cases hf; exact List.getElem_mem _
      · rw [hr] at hf; cases hf
    · rw [dif_neg hlt] at hr
      rw [hr] at hf; simp [hc] at hf)
  have hst := iter_step hinv.flush hi
  have hpres := inv_step _ _ _ _ _ hinv hst
  unfold Task.step
  rw [if_neg (by simp [ho]), hi]
  simp only [Task.left]
  generalize hfe : feedOf b t.next = fd at hst hi
  simp only [feedOf] at hfe
  have hnp : fd ≠ .pending := by
    intro hx
    subst hx
    by_cases hlt : t.next < log.length
    · rw [dif_pos hlt] at hr
      split at hr <;> (rw [hr] at hfe; cases hfe)
    · rw [dif_neg hlt] at hr
      rw [hr] at hfe; simp [hc] at hfe
  have htook : ∀ m, fd = .msg m → t.next < log.length ∧ (b.recv t.next).2 = t.next + 1 := by
    intro m hx
    subst hx
    by_cases hlt : t.next < log.length
    · rw [dif_pos hlt] at hr
      split at hr
      · exact ⟨hlt, by rw [hr]⟩
      · rw [hr] at hfe; cases hfe
    · rw [dif_neg hlt] at hr
      rw [hr] at hfe; simp [hc] at hfe
  have hclosed : fd = .closed → t.next = log.length := by
    intro hx
    subst hx
    by_cases hlt : t.next < log.length
    · rw [dif_pos hlt] at hr
      split at hr <;> (rw [hr] at hfe; cases hfe)
    · omega
  cases hst with
  | blocked h1 h2 => exact .inl ⟨_, rfl, by simp, .inl ⟨rfl, rfl⟩⟩
  | sent h1 h2 => exact .inl ⟨_, rfl, by simp, .inr (by simp [h2])⟩
  | skip h1 h2 h3 h4 h5 =>
    obtain ⟨k1, k2⟩ := htook _ h4
    exact .inl ⟨_, rfl, by simp, .inr (by simp only [h3, k2, Option.toList_none, List.length_nil]; omega)⟩
  | take h1 h2 h3 h4 h5 h6 =>
    obtain ⟨k1, k2⟩ := htook _ h4
    exact .inl ⟨_, rfl, by simp, .inr (by simp only [h3, k2, Option.toList_none, Option.toList_some, List.length_nil, List.length_cons]; omega)⟩
  | @lagged w bb k h1 h2 h3 h4 =>
    simp only at h4
    subst h4
    refine .inl ⟨_, rfl, by simp, .inr ?_⟩
    by_cases hlt : t.next < log.length
    · rw [dif_pos hlt] at hr
      split at hr
      · rw [hr] at hfe; cases hfe
      · rw [hr]
        simp only [h3, Option.toList_none, List.length_nil]
        omega
    · rw [dif_neg hlt] at hr
      rw [hr] at hfe; simp [hc] at hfe
  | @closed w bb h1 h2 h3 h4 =>
    simp only at h4
    refine .inr ⟨rfl, by simp, hclosed h4, h3, ?_⟩
    rintro ⟨n, as, k1, k2, k3⟩
    obtain ⟨w0, j1, j2⟩ := iter_closed hi h4
    simp only at j2 k1 k2 ⊢
    rw [j2]
    refine flush_all w0 k1 ?_ k3
    have : w0.buf.length ≤ w0.total.length := by simp [Writer.total]
    rw [j1, ← h1] at this
    omega
  | incoming h1 h2 h3 h4 => exact absurd h4 hnp
  | dead h1 h2 h3 h4 => exact absurd h4 hnp
  | idle h1 h2 h3 h4 => exact absurd h4 hnp

end MsgRs.Pub
