import Verif.Proofs.PubSession
import Verif.Proofs.Broadcast
import Verif.Spec.PubSys
/-!
# A publisher with its sessions, over every history
-/
namespace MsgRs.Pub
open MsgRs Spec

/-- What one session has taken from the channel, relative to the log. -/
structure Cursor (log : List PubMsg) (n0 : Nat) (next : Nat) (evs : List Ev) : Prop where
  start : n0 ≤ next
  bound : next ≤ log.length
  sub : (tookOf evs).Sublist ((log.take next).drop n0)
  count : (tookOf evs).length + missedOf evs + n0 = next
  walk : replay log n0 evs = some next

theorem replay_append (log : List PubMsg) (a b : List Ev) (p : Nat) :
    replay log p (a ++ b) = (replay log p a).bind (fun q => replay log q b) := by
  induction a generalizing p with
  | nil => rfl
  | cons ev a ih =>
    cases ev <;> simp only [List.cons_append, replay, ih]
    split <;> rfl

theorem replay_mono {log log' : List PubMsg} (hp : log <+: log') (evs : List Ev) :
    ∀ p q, replay log p evs = some q → replay log' p evs = some q := by
  induction evs with
  | nil => exact fun p q h => h
  | cons ev evs ih =>
    intro p q h
    cases ev with
    | took m n =>
      simp only [replay] at h ⊢
      split at h
      · rename_i hm
        obtain ⟨t, rfl⟩ := hp
        have hlt : p < log.length := by
          rcases Nat.lt_or_ge p log.length with h1 | h1
          · exact h1
          · rw [List.getElem?_eq_none h1] at hm; cases hm
        rw [List.getElem?_append_left hlt, if_pos hm]
        exact ih _ _ h
      · cases h
    | _ => exact ih _ _ h

theorem cursor_mono {log log' : List PubMsg} {n0 next evs} (h : Cursor log n0 next evs)
    (hp : log <+: log') : Cursor log' n0 next evs := by
  obtain ⟨h1, h2, h3, h4, h5⟩ := h
  have h6 := replay_mono hp _ _ _ h5
  obtain ⟨t, rfl⟩ := hp
  refine ⟨h1, by simp; omega, ?_, h4, h6⟩
  rw [List.take_append_of_le_length h2]; exact h3

theorem took_snoc (evs : List Ev) (ev : Ev) : tookOf (evs ++ [ev]) = tookOf evs ++ tookOf [ev] := by
  simp [tookOf]

theorem missed_snoc (evs : List Ev) (ev : Ev) : missedOf (evs ++ [ev]) = missedOf evs + missedOf [ev] := by
  simp [missedOf]

/-- Invariant of one task. -/
structure TInv (L : Lossy) (log : List PubMsg) (n0 : Nat) (t : Task) : Prop where
  inv : Inv L t.sess t.evs
  cur : Cursor log n0 t.next t.evs

theorem step_feed {L : Lossy} {s s' : Session} {e : Env} {ev : Ev} (h : Step L s e s' ev) :
    (∀ m n, ev = .took m n → e.feed = .msg m) ∧ (∀ k, ev = .lagged k → e.feed = .lagged k) := by
  cases h with
  | skip _ _ _ h => exact ⟨fun m n he => (by cases he; exact h), fun k he => (by cases he)⟩
  | take _ _ _ h => exact ⟨fun m n he => (by cases he; exact h), fun k he => (by cases he)⟩
  | lagged _ _ _ h => exact ⟨fun m n he => (by cases he), fun k he => (by cases he; exact h)⟩
  | _ => exact ⟨fun m n he => (by cases he), fun k he => (by cases he)⟩

theorem task_step {L : Lossy} {b : Bcast PubMsg} {log n0} (hb : b.Holds log) {t : Task} (e : Env)
    (h : TInv L log n0 t) : TInv L log n0 (t.step L b e) := by
  obtain ⟨hinv, hcur⟩ := h
  unfold Task.step
  split
  · exact ⟨hinv, hcur⟩
  · rcases hi : t.sess.iter L { e with feed := feedOf b t.next } with ⟨s', ev⟩ | _
    · simp only
      have hst := iter_step hinv.flush hi
      have hf := step_feed hst
      refine ⟨inv_step _ _ _ _ _ hinv hst, ?_⟩
      have hbound : t.next ≤ b.tail := by rw [hb.tail]; exact hcur.bound
      have hr := b.recv_eq hb hbound
      have other : (∀ m n, ev ≠ .took m n) → (∀ k, ev ≠ .lagged k) → tookOf [ev] = [] ∧ missedOf [ev] = 0 := by
        intro h1 h2
        cases ev <;> simp_all [tookOf, missedOf]
      cases hev : ev with
      | took m n =>
        simp only
        have hfeed := hf.1 m n hev
        simp only [feedOf] at hfeed
        by_cases hlt : t.next < log.length
        · rw [dif_pos hlt] at hr
          split at hr
          · rw [hr] at hfeed ⊢
            simp only at hfeed ⊢
            cases hfeed
            obtain ⟨c1, c2, c3, c4, c5⟩ := hcur
            refine ⟨by omega, hlt, ?_, ?_, by
              rw [replay_append, c5]; simp [replay, List.getElem?_eq_getElem hlt]⟩
            · rw [took_snoc]
              have : tookOf [Ev.took log[t.next] n] = [log[t.next]] := rfl
              rw [this, List.take_add_one, List.getElem?_eq_getElem hlt]
              simp only [Option.toList]
              rw [List.drop_append_of_le_length (by simp; omega)]
              exact List.Sublist.append c3 (List.Sublist.refl _)
            · rw [took_snoc, missed_snoc]
              have h1 : tookOf [Ev.took log[t.next] n] = [log[t.next]] := rfl
              have h2 : missedOf [Ev.took log[t.next] n] = 0 := rfl
              rw [h1, h2]; simp; omega
          · rw [hr] at hfeed; simp at hfeed
        · rw [dif_neg hlt] at hr
          rw [hr] at hfeed
          cases hc : b.closed <;> simp [hc] at hfeed
      | lagged k =>
        simp only
        have hfeed := hf.2 k hev
        simp only [feedOf] at hfeed
        by_cases hlt : t.next < log.length
        · rw [dif_pos hlt] at hr
          split at hr
          · rw [hr] at hfeed; simp at hfeed
          · rename_i hgap
            rw [hr] at hfeed ⊢
            simp only at hfeed ⊢
            cases hfeed
            obtain ⟨c1, c2, c3, c4, c5⟩ := hcur
            refine ⟨by omega, by omega, ?_, ?_, by
              rw [replay_append, c5]; simp [replay]; omega⟩
            · rw [took_snoc]
              have : tookOf [Ev.lagged (log.length - b.slots.length - t.next)] = [] := rfl
              rw [this, List.append_nil]
              refine c3.trans ?_
              have : log.take t.next <+: log.take (log.length - b.slots.length) :=
                List.take_prefix_take_left (by omega)
              exact this.sublist.drop n0
            · rw [took_snoc, missed_snoc]
              have h1 : tookOf [Ev.lagged (log.length - b.slots.length - t.next)] = [] := rfl
              have h2 : missedOf [Ev.lagged (log.length - b.slots.length - t.next)]
                = log.length - b.slots.length - t.next := by simp [missedOf]
              rw [h1, h2]; simp; omega
        · rw [dif_neg hlt] at hr
          rw [hr] at hfeed
          cases hc : b.closed <;> simp [hc] at hfeed
      | _ =>
        simp only
        obtain ⟨c1, c2, c3, c4, c5⟩ := hcur
        refine ⟨c1, c2, ?_, ?_, by rw [replay_append, c5]; simp [replay]⟩
        · rw [took_snoc]; simpa [tookOf] using c3
        · rw [took_snoc, missed_snoc]; simpa [tookOf, missedOf] using c4
    · exact ⟨hinv, hcur⟩

theorem lag_exact {L : Lossy} {b : Bcast PubMsg} {log n0} {n : Nat} (hb : b.Holds log)
    (hcap : b.slots.length = nextPow2 n) {t : Task} {e : Env}
    (hinv : Inv L t.sess t.evs) (hcur : Cursor log n0 t.next t.evs) {k}
    (hk : (t.step L b e).evs = t.evs ++ [.lagged k]) :
    t.next + n < log.length ∧ (t.step L b e).next + nextPow2 n = log.length ∧
      (t.step L b e).next = t.next + k ∧ 0 < k := by
  have hle := (Bcast.le_nextPow2 n).1
  unfold Task.step at hk ⊢
  split
  · rename_i ho
    rw [if_pos ho] at hk
    have := congrArg List.length hk
    simp at this
  · rename_i ho
    rw [if_neg ho] at hk
    rcases hi : t.sess.iter L { e with feed := feedOf b t.next } with ⟨s', ev⟩ | _
    · rw [hi] at hk
      simp only at hk ⊢
      have hev : ev = .lagged k := by
        have := List.append_cancel_left hk
        simpa using this
      subst hev
      have hfeed := (step_feed (iter_step hinv.flush hi)).2 k rfl
      have hr := b.recv_eq hb (next := t.next) (by rw [hb.tail]; exact hcur.bound)
      simp only [feedOf] at hfeed
      by_cases hlt : t.next < log.length
      · rw [dif_pos hlt] at hr
        split at hr
        · rw [hr] at hfeed; simp at hfeed
        · rename_i hgap
          rw [hr] at hfeed ⊢
          simp only [FeedAns.lagged.injEq] at hfeed ⊢
          rw [hcap] at hgap hfeed ⊢
          omega
      · rw [dif_neg hlt] at hr
        rw [hr] at hfeed
        cases hc : b.closed <;> simp [hc] at hfeed
    · rw [hi] at hk
      have := congrArg List.length hk
      simp at this

/-- Walking through an extended log from the end of its first part. -/
theorem replay_shift (a b : List PubMsg) (evs : List Ev) : ∀ p,
    replay b p evs = (replay (a ++ b) (a.length + p) evs).map (· - a.length) := by
  induction evs with
  | nil => intro p; simp [replay]
  | cons ev evs ih =>
    intro p
    cases ev with
    | took m n =>
      simp only [replay]
      have : (a ++ b)[a.length + p]? = b[p]? := by
        rw [List.getElem?_append_right (by omega)]; congr 1; omega
      rw [this]
      split
      · exact ih (p + 1)
      · rfl
    | lagged k =>
      simp only [replay]
      rw [ih (p + k), Nat.add_assoc]
    | _ => exact ih p

/-- Without losses the messages taken are consecutive. -/
theorem replay_took (log : List PubMsg) (evs : List Ev) : ∀ p q, replay log p evs = some q →
    missedOf evs = 0 → tookOf evs = (log.drop p).take (tookOf evs).length := by
  induction evs with
  | nil => intro p q _ _; simp [tookOf]
  | cons ev evs ih =>
    intro p q h hm
    cases ev with
    | took m n =>
      simp only [replay] at h
      split at h
      · rename_i hp
        have hm' : missedOf evs = 0 := by simpa [missedOf] using hm
        have := ih _ _ h hm'
        have e : tookOf (Ev.took m n :: evs) = m :: tookOf evs := rfl
        have hlt : p < log.length := by
          rcases Nat.lt_or_ge p log.length with h1 | h1
          · exact h1
          · rw [List.getElem?_eq_none h1] at hp; cases hp
        rw [List.getElem?_eq_getElem hlt] at hp
        rw [e, List.drop_eq_getElem_cons hlt, List.length_cons, List.take_succ_cons, ← this]
        simp at hp; rw [hp]
      · cases h
    | lagged k =>
      simp only [replay] at h
      have : k = 0 ∧ missedOf evs = 0 := by
        simp only [missedOf, List.map_cons, List.sum_cons] at hm ⊢
        omega
      obtain ⟨rfl, hm'⟩ := this
      exact ih _ _ h hm'
    | _ => exact ih _ _ h (by simpa [missedOf] using hm)

/-- Invariant of the whole publisher. -/
structure SInv (L : Lossy) (n : Nat) (log : List PubMsg) (s : Sys) : Prop where
  chan : s.chan.Holds log
  cap : s.chan.slots.length = nextPow2 n
  tasks : ∀ i t, s.tasks i = some t → ∃ n0, TInv L log n0 t

theorem sinv_new (L : Lossy) (n : Nat) : SInv L n [] (Sys.new n) :=
  ⟨Bcast.holds_new n, Bcast.new_length n, fun i t h => by simp [Sys.new] at h⟩

theorem sinv_act {L : Lossy} {n log} {s : Sys} (h : SInv L n log s) (a : Act) :
    SInv L n (log ++ published [a]) (s.act L a) := by
  obtain ⟨h1, h2, h3⟩ := h
  cases a with
  | publish m =>
    refine ⟨Bcast.holds_send h1 m, by simp [Sys.act, Bcast.send, h2], ?_⟩
    intro i t ht
    obtain ⟨n0, hi, hc⟩ := h3 i t ht
    exact ⟨n0, hi, cursor_mono hc (List.prefix_append _ _)⟩
  | connect i bd input =>
    simp only [Sys.act]
    have : log ++ published [Act.connect i bd input] = log := by simp [published]
    rw [this]
    split
    · exact ⟨h1, h2, h3⟩
    · refine ⟨h1, h2, ?_⟩
      intro j t ht
      simp only at ht
      split at ht
      · cases ht
        refine ⟨log.length, inv_new L bd input, ?_, ?_, ?_, ?_, by simp [replay, Bcast.resubscribe, h1.tail]⟩
        · simp [Bcast.resubscribe, h1.tail]
        · simp [Bcast.resubscribe, h1.tail]
        · simp [tookOf]
        · simp [tookOf, missedOf, Bcast.resubscribe, h1.tail]
      · exact h3 j t ht
  | step i e =>
    have : log ++ published [Act.step i e] = log := by simp [published]
    rw [this]
    refine ⟨h1, h2, ?_⟩
    intro j t ht
    simp only [Sys.act] at ht
    split at ht
    · rename_i hji
      cases hti : s.tasks i with
      | none => simp [hti] at ht
      | some t0 =>
        simp only [hti, Option.map_some, Option.some.injEq] at ht
        obtain ⟨n0, ht0⟩ := h3 i t0 hti
        exact ⟨n0, ht ▸ task_step h1 e ht0⟩
    · exact h3 j t ht
  | drop =>
    have : log ++ published [Act.drop] = log := by simp [published]
    rw [this]
    exact ⟨Bcast.holds_close h1, h2, h3⟩

theorem published_append (a b : List Act) : published (a ++ b) = published a ++ published b := by
  simp [published]

theorem sinv_run {L : Lossy} {n} (acts : List Act) {log} {s : Sys} (h : SInv L n log s) :
    SInv L n (log ++ published acts) (s.run L acts) := by
  induction acts generalizing s log with
  | nil => simpa [Sys.run, published] using h
  | cons a acts ih =>
    have := ih (sinv_act h a)
    rw [List.append_assoc, ← published_append] at this
    exact this

/-- The start position of a session stays what it was. -/
theorem task_persists {L : Lossy} {n} (acts : List Act) {log n0 i t} {s : Sys} (h : SInv L n log s)
    (ht : s.tasks i = some t) (hn : TInv L log n0 t) :
    ∃ t', (s.run L acts).tasks i = some t' ∧ TInv L (log ++ published acts) n0 t' := by
  induction acts generalizing s log t with
  | nil => exact ⟨t, ht, by simpa [published] using hn⟩
  | cons a acts ih =>
    have hs := sinv_act (L := L) h a
    have step : ∃ t', (s.act L a).tasks i = some t' ∧ TInv L (log ++ published [a]) n0 t' := by
      cases a with
      | publish m => exact ⟨t, ht, hn.inv, cursor_mono hn.cur (List.prefix_append _ _)⟩
      | drop => exact ⟨t, ht, by simpa [published] using hn⟩
      | connect j bd input =>
        refine ⟨t, ?_, by simpa [published] using hn⟩
        simp only [Sys.act]
        split
        · exact ht
        · rename_i hj
          simp only
          split
          · subst_vars; rw [hj] at ht; cases ht
          · exact ht
      | step j e =>
        simp only [Sys.act]
        by_cases he : i = j
        · subst he
          exact ⟨t.step L s.chan e, by simp [ht], by simpa [published] using task_step h.chan e hn⟩
        · exact ⟨t, by simp [he, ht], by simpa [published] using hn⟩
    obtain ⟨t1, h1, h2⟩ := step
    obtain ⟨t', h3, h4⟩ := ih hs h1 h2
    rw [List.append_assoc, ← published_append] at h4
    exact ⟨t', h3, h4⟩

/-- Two publishers that agree on the channel and on session `i` keep agreeing, whatever the other sessions do. -/
theorem independent {L : Lossy} (i : Nat) (acts : List Act) {s s' : Sys} (hc : s.chan = s'.chan)
    (ht : s.tasks i = s'.tasks i) :
    (s.run L acts).chan = (s'.run L (acts.filter (concerns i))).chan ∧
    (s.run L acts).tasks i = (s'.run L (acts.filter (concerns i))).tasks i := by
  induction acts generalizing s s' with
  | nil => exact ⟨hc, ht⟩
  | cons a acts ih =>
    have eqstep : concerns i a = true → (s.act L a).chan = (s'.act L a).chan ∧
        (s.act L a).tasks i = (s'.act L a).tasks i := by
      intro h
      cases a with
      | publish m => exact ⟨by simp [Sys.act, hc], ht⟩
      | drop => exact ⟨by simp [Sys.act, hc], ht⟩
      | connect j bd input =>
        simp only [concerns, decide_eq_true_eq] at h
        subst h
        simp only [Sys.act, ht]
        cases hti : s'.tasks j with
        | none => simp [hc]
        | some t => simp [hc, ht, hti]
      | step j e =>
        simp only [concerns, decide_eq_true_eq] at h
        subst h
        simp [Sys.act, hc, ht]
    have skip : concerns i a = false → (s.act L a).chan = s.chan ∧ (s.act L a).tasks i = s.tasks i := by
      intro h
      cases a with
      | publish m => cases h
      | drop => cases h
      | connect j bd input =>
        simp only [concerns, decide_eq_false_iff_not] at h
        simp only [Sys.act]
        split
        · exact ⟨rfl, rfl⟩
        · exact ⟨rfl, by simp [Ne.symm h]⟩
      | step j e =>
        simp only [concerns, decide_eq_false_iff_not] at h
        simp [Sys.act, Ne.symm h]
    cases hca : concerns i a with
    | true =>
      rw [List.filter_cons_of_pos hca]
      exact ih (eqstep hca).1 (eqstep hca).2
    | false =>
      rw [List.filter_cons_of_neg (by simp [hca])]
      exact ih ((skip hca).1.trans hc) ((skip hca).2.trans ht)

end MsgRs.Pub
