import Verif.Proofs.PubSys
import Verif.Proofs.SubTold
import Verif.Spec.EndToEnd
/-!
# A publisher session and a subscriber session at the two ends of a connection
-/
namespace MsgRs.Pub
open MsgRs Spec

theorem run_snoc {L : Lossy} {es : List Env} {e : Env} {s' : Session} {ev : Ev} :
    ∀ {s0 s : Session} {evs : List Ev}, s0.run L es = .ok (s, evs) → Ev.ended ∉ evs → s.iter L e = .ok (s', ev) →
      s0.run L (es ++ [e]) = .ok (s', evs ++ [ev]) := by
  induction es with
  | nil =>
    intro s0 s evs h hn hi
    simp only [Session.run] at h
    cases h
    simp only [List.nil_append, Session.run, hi, R.bind_ok, R.pure_eq]
    by_cases he : ev = .ended
    · rw [if_pos he, he]
    · rw [if_neg he]
  | cons e0 es ih =>
    intro s0 s evs h hn hi
    simp only [Session.run, List.cons_append] at h ⊢
    cases h0 : s0.iter L e0 with
    | panic => rw [h0] at h; cases h
    | ok x =>
      obtain ⟨s1, ev1⟩ := x
      rw [h0] at h
      simp only [R.bind_ok, R.pure_eq] at h ⊢
      by_cases he : ev1 = .ended
      · rw [if_pos he] at h; cases h; simp at hn
      · rw [if_neg he] at h ⊢
        cases h1 : s1.run L es with
        | panic => rw [h1] at h; cases h
        | ok x =>
          obtain ⟨s2, evs2⟩ := x
          rw [h1] at h
          simp only [R.bind_ok] at h
          cases h
          rw [ih h1 (fun hm => hn (List.mem_cons_of_mem _ hm)) hi]
          rfl

/-- The task of a session of a publisher is a history of that session. -/
structure TaskRun (L : Lossy) (boundary : Nat) (input : List ReadAns) (t : Task) : Prop where
  run : ∃ es, (Session.new boundary input).run L es = .ok (t.sess, t.evs)
  live : t.over = false → Ev.ended ∉ t.evs

theorem TaskRun.step {L : Lossy} {boundary input t} (h : TaskRun L boundary input t) (b : Bcast PubMsg) (e : Env) :
    TaskRun L boundary input (t.step L b e) := by
  obtain ⟨⟨es, hr⟩, hl⟩ := h
  unfold Task.step
  cases ho : t.over with
  | true => exact ⟨⟨es, hr⟩, fun h => by rw [if_pos rfl] at h; rw [ho] at h; cases h⟩
  | false =>
    rw [if_neg (by simp)]
    rcases hi : t.sess.iter L { e with feed := feedOf b t.next } with ⟨s', ev⟩ | _
    · refine ⟨⟨_, run_snoc hr (hl ho) hi⟩, fun h => ?_⟩
      simp only [decide_eq_false_iff_not] at h
      simp only [List.mem_append, List.mem_singleton, not_or]
      exact ⟨hl ho, fun h' => h h'.symm⟩
    · exact ⟨⟨es, hr⟩, fun h => by cases h⟩

theorem task_run {L : Lossy} {boundary input i} (acts : List Act) : ∀ {s : Sys} {t : Task}, s.tasks i = some t →
    TaskRun L boundary input t → ∃ t', (s.run L acts).tasks i = some t' ∧ TaskRun L boundary input t' := by
  induction acts with
  | nil => exact fun {s t} ht h => ⟨t, ht, h⟩
  | cons a acts ih =>
    intro s t ht h
    have : ∃ t', (s.act L a).tasks i = some t' ∧ TaskRun L boundary input t' := by
      cases a with
      | publish m => exact ⟨t, ht, h⟩
      | drop => exact ⟨t, ht, h⟩
      | connect j bd inp =>
        refine ⟨t, ?_, h⟩
        simp only [Sys.act]
        split
        · exact ht
        · rename_i hj
          simp only
          split
          · subst_vars; rw [hj] at ht; cases ht
          · exact ht
      | step j e =>
        simp only [Sys.act]
        by_cases he : i = j
        · subst he
          exact ⟨t.step L s.chan e, by simp [ht], h.step s.chan e⟩
        · exact ⟨t, by simp [he, ht], h⟩
    obtain ⟨t1, h1, h2⟩ := this
    exact ih h1 h2

theorem sys_task_run {L : Lossy} {n : Nat} {acts₁ acts₂ : List Act} {i boundary : Nat} {input : List ReadAns} {t : Task}
    (hfresh : ((Sys.new n).run L acts₁).tasks i = none)
    (ht : ((Sys.new n).run L (acts₁ ++ .connect i boundary input :: acts₂)).tasks i = some t) :
    ∃ es, (Session.new boundary input).run L es = .ok (t.sess, t.evs) := by
  have h0 : (((Sys.new n).run L acts₁).act L (.connect i boundary input)).tasks i =
      some { next := ((Sys.new n).run L acts₁).chan.resubscribe, sess := Session.new boundary input } := by
    simp [Sys.act, hfresh]
  obtain ⟨t', h1, h2⟩ := task_run (L := L) (boundary := boundary) (input := input) acts₂ h0 ⟨⟨[], rfl⟩, fun _ => by simp⟩
  have h3 : ((Sys.new n).run L (acts₁ ++ .connect i boundary input :: acts₂)).tasks i = some t' := by
    simpa [Sys.run, List.foldl_append] using h1
  rw [h3] at ht
  cases ht
  exact h2.run

/-- A frame that is due was taken from the feed while its topic was subscribed. -/
theorem mem_due {L : Lossy} {f : PubSub.Message} (evs : List Ev) : ∀ {ops : List Op} {k : Nat}, f ∈ due L ops k evs →
    ∃ evs₁ m now j evs₂, evs = evs₁ ++ .took m now :: evs₂ ∧ f = frame j m now ∧
      Trie.contains (filterAfter (ops ++ opsOf L evs₁)) m.topic = true := by
  induction evs with
  | nil => intro ops k h; simp [due] at h
  | cons ev evs ih =>
    intro ops k h
    cases ev with
    | took m now =>
      simp only [due] at h
      have step : ∀ {k'}, f ∈ due L ops k' evs → ∃ evs₁ m' now' j evs₂, Ev.took m now :: evs = evs₁ ++ .took m' now' :: evs₂ ∧
          f = frame j m' now' ∧ Trie.contains (filterAfter (ops ++ opsOf L evs₁)) m'.topic = true := by
        intro k' h
        obtain ⟨a, m', n', j, b, rfl, h2, h3⟩ := ih h
        exact ⟨.took m now :: a, m', n', j, b, rfl, h2, h3⟩
      split at h
      · rename_i hc
        rcases List.mem_cons.1 h with rfl | h
        · exact ⟨[], m, now, k, evs, rfl, rfl, by simpa [opsOf] using hc⟩
        · exact step h
      · exact step h
    | incoming x =>
      simp only [due] at h
      obtain ⟨a, m', n', j, b, rfl, h2, h3⟩ := ih h
      refine ⟨.incoming x :: a, m', n', j, b, rfl, h2, ?_⟩
      have : opsOf L (Ev.incoming x :: a) = (controlOp L x).toList ++ opsOf L a := by
        simp only [opsOf, List.filterMap_cons]
        cases controlOp L x <;> rfl
      rw [this, ← List.append_assoc]
      exact h3
    | _ =>
      simp only [due] at h
      obtain ⟨a, m', n', j, b, rfl, h2, h3⟩ := ih h
      exact ⟨_ :: a, m', n', j, b, rfl, h2, by simpa [opsOf] using h3⟩

/-- The messages the frames due stand for were taken from the feed, in order. -/
theorem due_map {L : Lossy} {β : Type} (F : PubSub.Message → Option β) (G : PubMsg → Option β)
    (hFG : ∀ k m now, F (frame k m now) = G m) (evs : List Ev) : ∀ (ops : List Op) (k : Nat),
    ((due L ops k evs).filterMap F).Sublist ((tookOf evs).filterMap G) := by
  induction evs with
  | nil => intro ops k; exact List.Sublist.refl _
  | cons ev evs ih =>
    intro ops k
    cases ev with
    | took m now =>
      have e : tookOf (Ev.took m now :: evs) = m :: tookOf evs := rfl
      rw [e]
      simp only [due]
      split
      · rw [List.filterMap_cons, List.filterMap_cons, hFG]
        cases G m with
        | none => exact ih _ _
        | some b => exact (ih _ _).cons_cons b
      · rw [List.filterMap_cons]
        cases G m with
        | none => exact ih _ _
        | some b => exact (ih _ _).cons b
    | incoming x => exact ih _ _
    | _ => exact ih _ _

end MsgRs.Pub

namespace MsgRs.Sub
open MsgRs

/-- The control frames a session handed to its connection. -/
theorem sent_frames {L : Lossy} {s : Session} (hi : SInv L s) :
    ∃ S : List (UInt64 × Spec.Op × PubSub.Message), (∀ x ∈ S, Spec.controlFrame x.1 x.2.1 = .ok x.2.2) ∧
      S.map (·.2.2) = s.sent ∧ s.wr.wire ++ s.wr.buf = S.flatMap (fun x => PubSub.encode x.2.2) ∧
      ∀ x ∈ S, ∃ c ∈ s.offered, c.op = x.2.1 := by
  obtain ⟨H, h1, h2, h3⟩ := handled_frames hi
  have hsub : ∀ m ∈ s.sent, ∃ x ∈ H, x.2.2 = m := by
    intro m hm
    have : m ∈ s.handledMsgs := hi.perm.subset (by simp [hm])
    rw [← h2] at this
    obtain ⟨x, hx, rfl⟩ := List.mem_map.1 this
    exact ⟨x, hx, rfl⟩
  have hex : ∀ l : List PubSub.Message, (∀ m ∈ l, ∃ x ∈ H, x.2.2 = m) →
      ∃ S : List (UInt64 × Spec.Op × PubSub.Message), (∀ x ∈ S, x ∈ H) ∧ S.map (·.2.2) = l := by
    intro l
    induction l with
    | nil => exact fun _ => ⟨[], by simp, rfl⟩
    | cons m l ih =>
      intro hl
      obtain ⟨S, g1, g2⟩ := ih fun y hy => hl y (List.mem_cons_of_mem _ hy)
      obtain ⟨x, hx, rfl⟩ := hl m List.mem_cons_self
      exact ⟨x :: S, fun y hy => (List.mem_cons.1 hy).elim (fun h => h ▸ hx) (g1 y), by simp [g2]⟩
  obtain ⟨S, g1, g2⟩ := hex s.sent hsub
  refine ⟨S, fun x hx => h1 x (g1 x hx), g2, ?_, ?_⟩
  · have := hi.wire
    unfold Writer.total at this
    rw [this, ← g2, List.flatMap_map]
  · intro x hx
    have : x.2.1 ∈ H.map (·.2.1) := List.mem_map.2 ⟨x, g1 x hx, rfl⟩
    rw [h3] at this
    obtain ⟨y, hy, hyx⟩ := List.mem_map.1 this
    refine ⟨y.2, hi.offered.subset (hi.queuedPre.subset (List.mem_map.2 ⟨y, hy, rfl⟩)), hyx⟩

end MsgRs.Sub
