import Verif.Proofs.SubDeliver
import Verif.Spec.PubSession
/-!
# What later history adds to a session of the subscriber
-/
namespace MsgRs.Sub
open MsgRs

variable {A : Type} [DecidableEq A] {L : Lossy} {D : Decompressors}

/-- `t` is a later state of the session `s`; the commands accepted since are among `N`. -/
structure SGrow (L : Lossy) (N : List Spec.Op) (s t : Session) : Prop where
  sent : s.sent <+: t.sent
  lost : s.lost <+: t.lost
  handled : s.handled <+: t.handled
  queued : ∃ q, t.queued = s.queued ++ q ∧ ∀ c ∈ q, Cmd.op c ∈ N
  got : ∃ g x, t.got = s.got ++ g ∧ t.fwd = s.fwd ++ x ∧ ∀ y ∈ x, y ∈ g.map (TopicMsg.ofWire L)

theorem SGrow.refl (N : List Spec.Op) (s : Session) : SGrow L N s s :=
  ⟨List.prefix_rfl, List.prefix_rfl, List.prefix_rfl, ⟨[], by simp⟩, ⟨[], [], by simp⟩⟩

theorem SGrow.trans {N N' : List Spec.Op} {s t u : Session} (h : SGrow L N s t) (g : SGrow L N' t u) (hn : ∀ o ∈ N, o ∈ N') : SGrow L N' s u := by
  obtain ⟨q, h1, h2⟩ := h.queued
  obtain ⟨q', g1, g2⟩ := g.queued
  obtain ⟨a, x, k1, k2, k3⟩ := h.got
  obtain ⟨a', x', j1, j2, j3⟩ := g.got
  refine ⟨h.sent.trans g.sent, h.lost.trans g.lost, h.handled.trans g.handled, ⟨q ++ q', by rw [g1, h1, List.append_assoc], ?_⟩,
    ⟨a ++ a', x ++ x', by rw [j1, k1, List.append_assoc], by rw [j2, k2, List.append_assoc], ?_⟩⟩
  · intro c hc
    rcases List.mem_append.1 hc with h | h
    · exact hn _ (h2 c h)
    · exact g2 c h
  · intro y hy
    rw [List.map_append]
    rcases List.mem_append.1 hy with h | h
    · exact List.mem_append.2 (.inl (k3 y h))
    · exact List.mem_append.2 (.inr (j3 y h))

theorem SGrow.step {s t : Session} (h : SStep L s t) (N : List Spec.Op) : SGrow L N s t := by
  have r := SGrow.refl (L := L) N s
  cases h with
  | readItem m rd input now ho hp =>
    simp only [Session.onIncoming]
    split
    · exact ⟨r.sent, r.lost, r.handled, r.queued, ⟨[m], [TopicMsg.ofWire L m], rfl, rfl, by simp⟩⟩
    · exact ⟨r.sent, r.lost, r.handled, r.queued, ⟨[m], [], rfl, by simp, by simp⟩⟩
  | send m ms ho he hb => exact ⟨List.prefix_append _ _, r.lost, r.handled, r.queued, r.got⟩
  | lose m ms ho he hb => exact ⟨r.sent, List.prefix_append _ _, r.handled, r.queued, r.got⟩
  | cmd c cs now m ho hc hm => exact ⟨r.sent, r.lost, List.prefix_append _ _, r.queued, r.got⟩
  | _ => exact ⟨r.sent, r.lost, r.handled, r.queued, r.got⟩

theorem SGrow.offer (s : Session) (c : Cmd) {N : List Spec.Op} (hc : c.op ∈ N) : SGrow L N s (s.offer c).2 := by
  have r := SGrow.refl (L := L) N s
  unfold Session.offer
  repeat' split
  · exact ⟨r.sent, r.lost, r.handled, r.queued, r.got⟩
  · exact ⟨r.sent, r.lost, r.handled, ⟨[c], rfl, by simpa using hc⟩, r.got⟩
  · exact ⟨r.sent, r.lost, r.handled, r.queued, r.got⟩

/-- Every session of `d` is still there in `e`, and has grown. -/
def DGrow (L : Lossy) (N : List Spec.Op) (d e : Driver A) : Prop :=
  ∀ (u : Nat) (s : Session), d.sessions[u]? = some s → ∃ t, e.sessions[u]? = some t ∧ SGrow L N s t

theorem DGrow.of_eq {N : List Spec.Op} {d e : Driver A} (h : e.sessions = d.sessions) : DGrow L N d e :=
  fun _ s hs => ⟨s, by rw [h]; exact hs, .refl N s⟩

theorem DGrow.trans {N N' : List Spec.Op} {d e f : Driver A} (h : DGrow L N d e) (g : DGrow L N' e f) (hn : ∀ o ∈ N, o ∈ N') : DGrow L N' d f := by
  intro u s hs
  obtain ⟨t, h1, h2⟩ := h u s hs
  obtain ⟨w, g1, g2⟩ := g u t h1
  exact ⟨w, g1, h2.trans g2 hn⟩

theorem DGrow.set {N : List Spec.Op} {d e : Driver A} {v : Nat} {s s' : Session} (hv : d.sessions[v]? = some s)
    (he : e.sessions = d.sessions.set v s') (h : SGrow L N s s') : DGrow L N d e := by
  intro u w hw
  rw [he]
  by_cases huv : u = v
  · subst huv
    rw [hv] at hw; cases hw
    exact ⟨s', by simp [(List.getElem?_eq_some_iff.1 hv).1], h⟩
  · exact ⟨w, by simp [Ne.symm huv, hw], .refl N w⟩

theorem DGrow.hangUp (N : List Spec.Op) (d e : Driver A) (a : A) (he : e.sessions = (d.hangUp a).sessions) : DGrow L N d e := by
  intro u s hs
  rw [he, hangUp_get, hs]
  refine ⟨_, rfl, ?_⟩
  have r := SGrow.refl (L := L) N s
  split
  · exact ⟨r.sent, r.lost, r.handled, r.queued, r.got⟩
  · exact r

theorem DGrow.reset (N : List Spec.Op) (d : Driver A) (a : A) : DGrow L N d (d.resetPublisher a) :=
  .hangUp N d _ a (by rw [reset_eq])

theorem DGrow.tell {N : List Spec.Op} (c : Cmd) (hc : c.op ∈ N) (l : List (A × PState)) (d0 d : Driver A) (h : DGrow L N d0 d) : DGrow L N d0 (d.tell c l) :=
  tell_induct (P := fun e => DGrow L N d0 e) c (fun _ _ s h hu => h.trans (.set hu rfl (.offer s c hc)) (fun _ h => h))
    (fun d a h => h.trans (.reset N d a) (fun _ h => h)) l d h

theorem DGrow.command (d : Driver A) (c : Command A) {N : List Spec.Op} (hc : ∀ o, c.op = some o → o ∈ N) : DGrow L N d (d.onCommand c) := by
  cases c with
  | shutdown => exact .of_eq rfl
  | subscribe t =>
    show DGrow L N d (d.subscribe t)
    unfold Driver.subscribe
    split
    · exact .of_eq rfl
    · exact .tell _ (hc _ rfl) _ _ _ (.of_eq rfl)
  | unsubscribe t =>
    show DGrow L N d (d.unsubscribe t)
    unfold Driver.unsubscribe
    split
    · exact .tell _ (hc _ rfl) _ _ _ (.of_eq rfl)
    · exact .of_eq rfl
  | connect a =>
    simp only [Driver.onCommand]
    split
    · exact .of_eq rfl
    · refine DGrow.trans (N := N) (e := d.connect a) (.of_eq ?_) (.reset N _ a) (fun _ h => h)
      unfold Driver.connect; split <;> rfl
  | disconnect a =>
    simp only [Driver.onCommand]
    split
    · exact .hangUp N d _ a rfl
    · exact .of_eq rfl

/-- One step. -/
theorem DStep.sgrow {d e : Driver A} (h : DStep L D d e) :
    ∃ later, e.processed = d.processed ++ later ∧ DGrow L (later.filterMap Command.op) d e := by
  have base : ∀ e : Driver A, e.processed = d.processed → e.sessions = d.sessions → ∃ later, e.processed = d.processed ++ later ∧ DGrow L (later.filterMap Command.op) d e :=
    fun e h1 h2 => ⟨[], by simp [h1], .of_eq h2⟩
  cases h with
  | session u s s' hu hs => exact ⟨[], by simp, .set hu rfl (.step hs _)⟩
  | command c q hq =>
    refine ⟨[c], (onCommand_same _ c).1, ?_⟩
    refine DGrow.trans (N := [c].filterMap Command.op) (e := { d with cmdq := q, processed := d.processed ++ [c] }) (.of_eq rfl) (.command _ c ?_) (fun _ h => h)
    intro o ho
    simp [ho]
  | take a u s t ms payload hl hu ht hd =>
    have r := SGrow.refl (L := L) [] s
    refine ⟨[], ?_, .set hu (s' := { s with toDriver := ms }) ?_ ⟨r.sent, r.lost, r.handled, r.queued, r.got⟩⟩
    all_goals
      unfold Driver.deliver
      simp only
      repeat' split
    all_goals simp
  | skip a u s t ms hl hu ht hd =>
    have r := SGrow.refl (L := L) [] s
    exact ⟨[], by simp, .set hu (s' := { s with toDriver := ms }) rfl ⟨r.sent, r.lost, r.handled, r.queued, r.got⟩⟩
  | lost a u s hl hu ht ho => exact ⟨[], by rw [reset_eq]; simp, .reset _ d a⟩
  | arm a u s hl hu ht ho =>
    have r := SGrow.refl (L := L) [] s
    exact ⟨[], by simp, .set hu (s' := { s with armed := true }) rfl ⟨r.sent, r.lost, r.handled, r.queued, r.got⟩⟩
  | retry a b hl => exact base _ (by unfold Driver.connect; split <;> rfl) (by unfold Driver.connect; split <;> rfl)
  | joinOk i a order out via input ht hr =>
    refine ⟨[], by rw [(onConnection_same _ order a via input).1]; simp, ?_⟩
    unfold Driver.onConnection
    split
    · exact .of_eq rfl
    · intro v s hs
      have hlt := (List.getElem?_eq_some_iff.1 hs).1
      exact ⟨s, by simp only; rw [List.getElem?_append_left hlt]; exact hs, .refl _ s⟩
  | _ => exact base _ rfl rfl

theorem DSteps.sgrow {d e : Driver A} (h : DSteps L D d e) :
    ∃ later, e.processed = d.processed ++ later ∧ DGrow L (later.filterMap Command.op) d e := by
  induction h with
  | refl => exact ⟨[], by simp, .of_eq rfl⟩
  | step _ hs ih =>
    obtain ⟨l, h1, h2⟩ := ih
    obtain ⟨l', g1, g2⟩ := hs.sgrow
    refine ⟨l ++ l', by rw [g1, h1, List.append_assoc], ?_⟩
    rw [List.filterMap_append]
    refine h2.trans (N' := l.filterMap Command.op ++ l'.filterMap Command.op) (fun u s hs => ?_) (fun o ho => List.mem_append.2 (.inl ho))
    obtain ⟨t, k1, k2⟩ := g2 u s hs
    exact ⟨t, k1, (SGrow.refl _ s).trans k2 (fun o ho => ho) |>.trans (SGrow.refl _ t) (fun o ho => List.mem_append.2 (.inr ho))⟩

/-- The messages taken from the sessions are only added to. -/
theorem DSteps.fates {d e : Driver A} (h : DSteps L D d e) : d.fates <+: e.fates := by
  induction h with
  | refl => exact List.prefix_rfl
  | @step e f _ hs ih =>
    refine ih.trans ?_
    cases hs with
    | command c q hq => rw [(onCommand_same _ c).2.2.2.2.2.2.2.1]; exact List.prefix_rfl
    | take a u s t ms payload hl hu ht hd =>
      unfold Driver.deliver
      simp only
      repeat' split
      all_goals exact List.prefix_append _ _
    | skip a u s t ms hl hu ht hd => exact List.prefix_append _ _
    | lost a u s hl hu ht ho => rw [reset_eq]; exact List.prefix_rfl
    | retry a b hl => unfold Driver.connect; split <;> exact List.prefix_rfl
    | joinOk i a order out via input ht hr => rw [(onConnection_same _ order a via input).2.2.2.2.2.2.2.1]; exact List.prefix_rfl
    | _ => exact List.prefix_rfl

/-- The control frames a session has sent since it had none left to send come from commands accepted since. -/
theorem SGrow.frames {N : List Spec.Op} {s t : Session} (h : SGrow L N s t) (hs : SInv L s) (ht : SInv L t) (ho : s.over = false)
    (hc : s.cmds = []) (he : s.egress = []) :
    ∃ S : List (UInt64 × Spec.Op × PubSub.Message), (∀ x ∈ S, Spec.controlFrame x.1 x.2.1 = .ok x.2.2) ∧
      t.wr.wire ++ t.wr.buf = s.wr.wire ++ s.wr.buf ++ S.flatMap (fun x => PubSub.encode x.2.2) ∧ ∀ x ∈ S, x.2.1 ∈ N := by
  obtain ⟨S1, h1⟩ := h.sent
  obtain ⟨l1, h2⟩ := h.lost
  obtain ⟨h3, h4⟩ := h.handled
  obtain ⟨q, h5, h6⟩ := h.queued
  have hq : h3.map (·.2) <+: q := by
    have k1 := ht.queuedPre
    have k2 := hs.queued ho
    rw [hc, List.append_nil] at k2
    rw [h5, ← h4, k2, List.map_append] at k1
    exact (List.prefix_append_right_inj _).1 k1
  have hmem : ∀ m ∈ S1, ∃ x ∈ h3, x.2.msg x.1 = .ok m := by
    have p1 := hs.perm
    have p2 := ht.perm
    have e1 : t.handledMsgs = s.handledMsgs ++ ({ s with handled := h3 } : Session).handledMsgs := by
      unfold Session.handledMsgs; rw [← h4, List.filterMap_append]
    rw [he, List.append_nil] at p1
    rw [e1, ← h1, ← h2] at p2
    have p3 := (p1.append_right _).trans p2.symm
    intro m hm
    have p4 : (({ s with handled := h3 } : Session).handledMsgs).Perm (S1 ++ l1 ++ t.egress) := by
      rw [List.perm_iff_count] at p3 ⊢
      intro a
      have := p3 a
      simp only [List.count_append] at this ⊢
      omega
    have := p4.symm.subset (a := m) (by simp [hm])
    obtain ⟨x, hx, hxm⟩ := List.mem_filterMap.1 this
    refine ⟨x, hx, ?_⟩
    split at hxm
    · rename_i m' hm'; cases hxm; exact hm'
    · cases hxm
  have hex : ∀ l : List PubSub.Message, (∀ m ∈ l, ∃ x ∈ h3, x.2.msg x.1 = .ok m) →
      ∃ S : List (UInt64 × Spec.Op × PubSub.Message), (∀ x ∈ S, Spec.controlFrame x.1 x.2.1 = .ok x.2.2 ∧ x.2.1 ∈ N) ∧ S.map (·.2.2) = l := by
    intro l
    induction l with
    | nil => exact fun _ => ⟨[], by simp, rfl⟩
    | cons m l ih =>
      intro hl
      obtain ⟨S, g1, g2⟩ := ih fun y hy => hl y (List.mem_cons_of_mem _ hy)
      obtain ⟨x, hx, hxm⟩ := hl m List.mem_cons_self
      refine ⟨(x.1, x.2.op, m) :: S, ?_, by simp [g2]⟩
      intro y hy
      rcases List.mem_cons.1 hy with rfl | hy
      · refine ⟨?_, h6 x.2 (hq.subset (List.mem_map.2 ⟨x, hx, rfl⟩))⟩
        obtain ⟨now, c⟩ := x
        cases c <;> exact hxm
      · exact g1 y hy
  obtain ⟨S, g1, g2⟩ := hex S1 hmem
  refine ⟨S, fun x hx => (g1 x hx).1, ?_, fun x hx => (g1 x hx).2⟩
  have w1 := hs.wire
  have w2 := ht.wire
  unfold Writer.total at w1 w2
  rw [w1, w2, ← h1, List.flatMap_append, ← g2, List.flatMap_map]

end MsgRs.Sub
