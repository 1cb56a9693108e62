import Verif.Proofs.PubSys
import Verif.Proofs.Codecs
/-!
# Sessions of a publisher that are not ended by what is published
-/
namespace MsgRs.Pub
open MsgRs Spec

/-- The beginning of a byte string that decodes without error decodes without error. -/
theorem drains_prefix {σ ε μ : Type} {c : Codec σ ε μ} (hi : c.Incremental) {s : σ} {b : Bytes} {ms : List μ} {o : Option ε}
    (h : Drains c s b ms o) (ho : o = none) : ∀ x y, b = x ++ y → ∃ ms', Drains c s x ms' none := by
  induction h with
  | @more s b s' b' h =>
    rintro x y rfl
    obtain ⟨⟨o, s1, b1⟩, h1⟩ := hi.total s x
    cases o with
    | more => exact ⟨[], .more h1⟩
    | item m => rw [hi.item_mono y h1] at h; cases h
    | err e => obtain ⟨s2, b2, h2⟩ := hi.err_mono y h1; rw [h2] at h; cases h
  | err h => cases ho
  | @item s b m s' b' ms e h hd ih =>
    rintro x y rfl
    obtain ⟨⟨o, s1, b1⟩, h1⟩ := hi.total s x
    cases o with
    | more => exact ⟨[], .more h1⟩
    | item m' =>
      rw [hi.item_mono y h1] at h
      cases h
      obtain ⟨ms', h2⟩ := ih ho b1 y rfl
      exact ⟨m :: ms', .item h1 h2⟩
    | err e => obtain ⟨s2, b2, h2⟩ := hi.err_mono y h1; rw [h2] at h; cases h

/-- A session that is running and whose connection is open and sends proper frames only. -/
structure Healthy (t : Task) : Prop where
  over : t.over = false
  good : t.sess.rd.Good PubSub.codec
  open_ : OpenAns t.sess.input
  proper : ∃ ms, Drains PubSub.codec t.sess.rd.st (t.sess.rd.buf ++ dataOf t.sess.input) ms none

theorem healthy_new {boundary next : Nat} {input : List ReadAns} {ms : List PubSub.Message} (ho : OpenAns input)
    (hd : Drains PubSub.codec PubSub.codec.init (dataOf input) ms none) : Healthy { next, sess := Session.new boundary input } where
  over := rfl
  good := new_good _ PubSub.decode_nil
  open_ := ho
  proper := ⟨ms, hd⟩

/-- Reading from a healthy connection. -/
theorem healthy_read {t : Task} (h : Healthy t) {o : FOut PubSub.Err PubSub.Message} {rd : Reader PubSub.State} {input : List ReadAns}
    (hp : t.sess.rd.pollNext PubSub.codec t.sess.input = .ok (o, rd, input)) :
    (o = .pending ∨ ∃ m, o = .item m) ∧ rd.Good PubSub.codec ∧ OpenAns input ∧
      ∃ ms, Drains PubSub.codec rd.st (rd.buf ++ dataOf input) ms none := by
  obtain ⟨ms, hd⟩ := h.proper
  rcases pollNext_open PubSub.inc t.sess.input h.open_ h.good hd with ⟨m', ms', r', as', g1, g2, g3, g4, g5, g6⟩ |
      ⟨e', r', as', -, g1, -⟩ | ⟨r', as', g1, g2, g3, g4, g5⟩
  · rw [hp] at g2; cases g2
    exact ⟨.inr ⟨_, rfl⟩, g3, g4, _, g6⟩
  · cases g1
  · rw [hp] at g1; cases g1
    exact ⟨.inl rfl, g2, g3, _, g5⟩

/-- One iteration of a healthy session, nothing too long having been published and the socket being there. -/
theorem healthy_step {L : Lossy} {b : Bcast PubMsg} {log n0} (hb : b.Holds log) (hc : b.closed = false) {t : Task} (e : Env)
    (h : TInv L log n0 t) (hm : ∀ m ∈ log, (utf8 m.topic).length ≤ 65535) (hh : Healthy t) : Healthy (t.step L b e) := by
  obtain ⟨hinv, hcur⟩ := h
  have hr := b.recv_eq hb (next := t.next) (by rw [hb.tail]; exact hcur.bound)
  have hfeed : feedOf b t.next ≠ .closed ∧ ∀ m, feedOf b t.next = .msg m → m ∈ log := by
    simp only [feedOf]
    by_cases hlt : t.next < log.length
    · rw [dif_pos hlt] at hr
      split at hr
      · rw [hr]; exact ⟨by simp, fun m hx => by cases hx; exact List.getElem_mem _⟩
      · rw [hr]; exact ⟨by simp, fun m hx => by cases hx⟩
    · rw [dif_neg hlt] at hr
      rw [hr]; simp [hc]
  obtain ⟨⟨s', ev⟩, hi⟩ := iter_total (L := L) t.sess { e with feed := feedOf b t.next } (fun m hf => hm m (hfeed.2 m hf))
  have hst := iter_step hinv.flush hi
  unfold Task.step
  rw [if_neg (by simp [hh.over]), hi]
  cases hst with
  | closed h1 h2 h3 h4 => exact absurd h4 hfeed.1
  | dead h1 h2 h3 h4 h5 h6 =>
    rcases (healthy_read hh h5).1 with rfl | ⟨m, rfl⟩
    · rcases h6 with h6 | ⟨x, h6⟩ <;> cases h6
    · rcases h6 with h6 | ⟨x, h6⟩ <;> cases h6
  | incoming h1 h2 h3 h4 h5 =>
    obtain ⟨-, k1, k2, k3⟩ := healthy_read hh h5
    exact ⟨by simp, k1, k2, k3⟩
  | idle h1 h2 h3 h4 h5 =>
    obtain ⟨-, k1, k2, k3⟩ := healthy_read hh h5
    exact ⟨by simp, k1, k2, k3⟩
  | _ => exact ⟨by simp, hh.good, hh.open_, hh.proper⟩

/-- The socket is there until it is dropped. -/
theorem act_open {L : Lossy} {s : Sys} (hc : s.chan.closed = false) {a : Act} (ha : a ≠ .drop) : (s.act L a).chan.closed = false := by
  cases a with
  | publish m => exact hc
  | connect i bd input => simp only [Sys.act]; split <;> exact hc
  | step i e => exact hc
  | drop => exact absurd rfl ha

theorem healthy_run {L : Lossy} {n} (acts : List Act) {log i t} {s : Sys} (h : SInv L n log s) (hc : s.chan.closed = false)
    (hm : ∀ m ∈ log ++ published acts, (utf8 m.topic).length ≤ 65535) (hd : .drop ∉ acts)
    (ht : s.tasks i = some t) (hh : Healthy t) : ∃ t', (s.run L acts).tasks i = some t' ∧ Healthy t' := by
  induction acts generalizing s log t with
  | nil => exact ⟨t, ht, hh⟩
  | cons a acts ih =>
    have hs := sinv_act (L := L) h a
    have hc' := act_open (L := L) hc (a := a) (fun hx => hd (by simp [hx]))
    have step : ∃ t', (s.act L a).tasks i = some t' ∧ Healthy t' := by
      cases a with
      | publish m => exact ⟨t, ht, hh⟩
      | drop => exact ⟨t, ht, hh⟩
      | connect j bd input =>
        refine ⟨t, ?_, hh⟩
        simp only [Sys.act]
        split
        · exact ht
        · rename_i hj
          simp only
          split
          · subst_vars; rw [hj] at ht; cases ht
          · exact ht
      | step j e =>
        simp only [Sys.act]
        by_cases he : i = j
        · subst he
          obtain ⟨n0, hn⟩ := h.tasks i t ht
          exact ⟨t.step L s.chan e, by simp [ht],
            healthy_step h.chan hc e hn (fun m hx => hm m (List.mem_append_left _ hx)) hh⟩
        · exact ⟨t, by simp [he, ht], hh⟩
    obtain ⟨t1, h1, h2⟩ := step
    refine ih hs hc' ?_ (fun hx => hd (List.mem_cons_of_mem _ hx)) h1 h2
    rw [List.append_assoc, ← published_append]
    exact hm

end MsgRs.Pub
