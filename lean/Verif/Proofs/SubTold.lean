import Verif.Proofs.SubDrain
import Verif.Spec.PubSession
/-!
# What the connected publishers are told
-/
namespace MsgRs.Sub
open MsgRs

theorem perm_map_lift {α β : Type} {f : α → β} (l : List β) (H : List α) (h : l.Perm (H.map f)) :
    ∃ H' : List α, H'.Perm H ∧ H'.map f = l := by
  induction l generalizing H with
  | nil =>
    have : H.map f = [] := h.nil_eq.symm
    rw [List.map_eq_nil_iff] at this
    exact ⟨[], by rw [this], rfl⟩
  | cons a l ih =>
    have hm : a ∈ H.map f := h.subset List.mem_cons_self
    obtain ⟨x, hx, rfl⟩ := List.mem_map.1 hm
    obtain ⟨p, q, rfl⟩ := List.append_of_mem hx
    have h2 : l.Perm ((p ++ q).map f) := by
      rw [List.map_append, List.map_cons] at h
      have := h.trans List.perm_middle
      rw [List.map_append]
      exact this.cons_inv
    obtain ⟨H', h3, h4⟩ := ih _ h2
    exact ⟨x :: H', (h3.cons x).trans List.perm_middle.symm, by simp [h4]⟩

theorem Cmd.msg_control (c : Cmd) (now : UInt64) : c.msg now = Spec.controlFrame now c.op := by cases c <;> rfl

/-- The commands handled, with their frames. -/
theorem handled_frames {L : Lossy} {s : Session} (hi : SInv L s) :
    ∃ H : List (UInt64 × Spec.Op × PubSub.Message), (∀ x ∈ H, Spec.controlFrame x.1 x.2.1 = .ok x.2.2) ∧
      H.map (·.2.2) = s.handledMsgs ∧ H.map (·.2.1) = s.handled.map (fun x => x.2.op) := by
  have hm := hi.msgs
  unfold Session.handledMsgs
  generalize s.handled = l at hm
  induction l with
  | nil => exact ⟨[], by simp, rfl, rfl⟩
  | cons x l ih =>
    obtain ⟨H, h1, h2, h3⟩ := ih (fun y hy => hm y (List.mem_cons_of_mem _ hy))
    obtain ⟨m, h4⟩ := hm x List.mem_cons_self
    refine ⟨(x.1, x.2.op, m) :: H, ?_, ?_, ?_⟩
    · intro y hy
      rcases List.mem_cons.1 hy with rfl | hy
      · rw [← Cmd.msg_control]; exact h4
      · exact h1 y hy
    · simp only [List.map_cons, List.filterMap_cons, h4, h2]
    · simp [h3]

/-- Without unsubscribing, the order does not matter. -/
theorem active_subs_only (ops : List Spec.Op) (h : ∀ t, Spec.Op.unsub t ∉ ops) (t : Str) :
    Spec.active ops t = decide (Spec.Op.sub t ∈ ops) := by
  cases ha : Spec.active ops t with
  | true => exact (decide_eq_true (active_mem ops t ha)).symm
  | false =>
    symm
    refine decide_eq_false fun hm => ?_
    have : ∀ (l : List Spec.Op), (∀ t, Spec.Op.unsub t ∉ l) → ∀ b : Bool, (b = true ∨ Spec.Op.sub t ∈ l) →
        l.foldl (fun b op => match op with
          | .sub q => if q = t then true else b
          | .unsub q => if q = t then false else b) b = true := by
      intro l
      induction l with
      | nil => intro _ b hb; rcases hb with hb | hb; · exact hb
               · cases hb
      | cons x l ih =>
        intro hu b hb
        simp only [List.foldl_cons]
        refine ih (fun t ht => hu t (List.mem_cons_of_mem _ ht)) _ ?_
        cases x with
        | unsub q => exact absurd List.mem_cons_self (hu q)
        | sub q =>
          simp only
          by_cases hq : q = t
          · exact .inl (by simp [hq])
          · rcases hb with hb | hb
            · exact .inl (by simp [hq, hb])
            · rcases List.mem_cons.1 hb with hb | hb
              · cases hb; exact absurd rfl hq
              · exact .inr hb
    have := this ops h false (.inr hm)
    have h2 : Spec.active ops t = true := this
    rw [ha] at h2
    cases h2

/-- A run of iterations of session `u` only. -/
theorem run_session {A : Type} [DecidableEq A] {L : Lossy} {D : Decompressors} (es : List SEnv) (d : Driver A) (u : Nat)
    (s : Session) (hs : d.sessions[u]? = some s) :
    ∃ e, d.run L D (es.map (Act.session u)) = .ok e ∧ e.sessions[u]? = some (es.foldl (Session.step L) s) ∧
      e.pubs = d.pubs ∧ e.processed = d.processed ∧ e.topics = d.topics := by
  induction es generalizing d s with
  | nil => exact ⟨d, rfl, hs, rfl, rfl, rfl⟩
  | cons x es ih =>
    have hset : (d.sessions.set u (s.step L x))[u]? = some (s.step L x) := by
      simp [(List.getElem?_eq_some_iff.1 hs).1]
    obtain ⟨e, h1, h2, h3, h4, h5⟩ := ih { d with sessions := d.sessions.set u (s.step L x), woken := d.woken || (s.armed && !(s.step L x).armed) } (s.step L x) hset
    refine ⟨e, ?_, h2, h3, h4, h5⟩
    simp only [List.map_cons, Driver.run, Driver.act, hs]
    exact h1

end MsgRs.Sub

namespace MsgRs.Sub
open MsgRs
variable {A : Type} [DecidableEq A] {L : Lossy} {D : Decompressors}

/-- The sessions of the active publishers in a list. -/
def idxs (l : List (A × PState)) : List Nat := l.filterMap fun x => match x.2 with
  | .active u => some u
  | .inactive _ => none

theorem hangUp_offered' (d : Driver A) (a : A) (u : Nat) (s : Session) (h : d.sessions[u]? = some s) :
    ∃ s', (d.hangUp a).sessions[u]? = some s' ∧ s'.offered = s.offered := by
  rw [hangUp_get, h]
  simp only [Option.map_some]
  split
  · exact ⟨_, rfl, rfl⟩
  · exact ⟨_, rfl, rfl⟩

/-- Telling everybody offers the command at most once to each session. -/
theorem tell_offered (c : Cmd) (l : List (A × PState)) (d : Driver A) (hn : (idxs l).Nodup) (u : Nat) (s : Session)
    (hs : d.sessions[u]? = some s) :
    ∃ s', (d.tell c l).sessions[u]? = some s' ∧
      (s'.offered = s.offered ∨ (u ∈ idxs l ∧ s'.offered = s.offered ++ [c])) := by
  induction l generalizing d s with
  | nil => exact ⟨s, hs, .inl rfl⟩
  | cons x l ih =>
    obtain ⟨a, st⟩ := x
    cases st with
    | inactive b =>
      unfold Driver.tell
      exact ih d hn s hs
    | active v =>
      have hidx : idxs ((a, PState.active v) :: l) = v :: idxs l := rfl
      rw [hidx] at hn ⊢
      rw [List.nodup_cons] at hn
      cases hv : d.sessions[v]? with
      | none =>
        unfold Driver.tell
        simp only [hv]
        obtain ⟨s', h1, h2⟩ := ih d hn.2 s hs
        exact ⟨s', h1, h2.imp_right fun h => ⟨List.mem_cons_of_mem _ h.1, h.2⟩⟩
      | some sv =>
        rw [tell_cons d c a v sv l hv]
        have h1 : ∃ s1, (d.tellOne c a v sv).sessions[u]? = some s1 ∧
            ((u = v ∧ s1.offered = s.offered ++ [c]) ∨ (u ≠ v ∧ s1.offered = s.offered)) := by
          have hset : ∃ s1, (d.sessions.set v (sv.offer c).2)[u]? = some s1 ∧
              ((u = v ∧ s1.offered = s.offered ++ [c]) ∨ (u ≠ v ∧ s1.offered = s.offered)) := by
            by_cases huv : u = v
            · subst huv
              rw [hs] at hv; cases hv
              exact ⟨_, by simp [(List.getElem?_eq_some_iff.1 hs).1], .inl ⟨rfl, offer_offered s c⟩⟩
            · exact ⟨s, by simp [Ne.symm huv, hs], .inr ⟨huv, rfl⟩⟩
          unfold Driver.tellOne
          split
          · obtain ⟨s1, k1, k2⟩ := hset
            obtain ⟨s2, k3, k4⟩ := hangUp_offered' { d with sessions := d.sessions.set v (sv.offer c).2 } a u s1 k1
            refine ⟨s2, ?_, by rw [k4]; exact k2⟩
            rw [reset_eq]
            exact k3
          · exact hset
        obtain ⟨s1, k1, k2⟩ := h1
        obtain ⟨s', g1, g2⟩ := ih (d.tellOne c a v sv) hn.2 s1 k1
        refine ⟨s', g1, ?_⟩
        rcases k2 with ⟨rfl, k2⟩ | ⟨-, k2⟩
        · rcases g2 with g2 | ⟨g2, -⟩
          · exact .inr ⟨List.mem_cons_self, g2.trans k2⟩
          · exact absurd g2 hn.1
        · rw [k2] at g2
          exact g2.imp_right fun h => ⟨List.mem_cons_of_mem _ h.1, h.2⟩

theorem idxs_nodup {d : Driver A} (hi : DInv L D d) : (idxs d.pubs).Nodup := by
  have key : ∀ l : List (A × PState), (l.map (·.1)).Nodup → (∀ x ∈ l, x ∈ d.pubs) → (idxs l).Nodup := by
    intro l
    induction l with
    | nil => intro _ _; exact List.nodup_nil
    | cons x l ih =>
      intro hn hm
      obtain ⟨a, st⟩ := x
      rw [List.map_cons, List.nodup_cons] at hn
      have h2 := ih hn.2 (fun y hy => hm y (List.mem_cons_of_mem _ hy))
      cases st with
      | inactive b => exact h2
      | active v =>
        show (v :: idxs l).Nodup
        refine List.nodup_cons.2 ⟨fun hv => ?_, h2⟩
        obtain ⟨⟨b, st⟩, hy1, hy2⟩ := List.mem_filterMap.1 hv
        cases st with
        | inactive k => cases hy2
        | active w =>
          cases hy2
          have e1 := (hi.act a v (lookup_of_mem hi.nodup (hm _ List.mem_cons_self))).1
          have e2 := (hi.act b v (lookup_of_mem hi.nodup (hm _ (List.mem_cons_of_mem _ hy1)))).1
          rw [e1] at e2
          cases e2
          exact hn.1 (List.mem_map.2 ⟨_, hy1, rfl⟩)
  exact key d.pubs hi.nodup (fun _ h => h)

/-- What a step of the driver adds to what session `u` was offered. -/
theorem offered_step {d e : Driver A} (hi : DInv L D d) (h : DStep L D d e) (u : Nat) (s : Session)
    (hs : d.sessions[u]? = some s) :
    ∃ s' extra new, e.sessions[u]? = some s' ∧ s'.offered = s.offered ++ extra ∧ e.processed = d.processed ++ new ∧
      (extra.map Cmd.op).Sublist (new.filterMap Command.op) := by
  have same : ∀ (e : Driver A), e.sessions = d.sessions → e.processed = d.processed →
      ∃ s' extra new, e.sessions[u]? = some s' ∧ s'.offered = s.offered ++ extra ∧ e.processed = d.processed ++ new ∧
      (extra.map Cmd.op).Sublist (new.filterMap Command.op) := by
    intro e h1 h2
    exact ⟨s, [], [], by rw [h1]; exact hs, (List.append_nil _).symm, by rw [h2, List.append_nil], List.Sublist.refl _⟩
  have upd : ∀ (e : Driver A) (v : Nat) (t t' : Session), d.sessions[v]? = some t → t'.offered = t.offered →
      e.sessions = d.sessions.set v t' → e.processed = d.processed →
      ∃ s' extra new, e.sessions[u]? = some s' ∧ s'.offered = s.offered ++ extra ∧ e.processed = d.processed ++ new ∧
      (extra.map Cmd.op).Sublist (new.filterMap Command.op) := by
    intro e v t t' hv ht h1 h2
    by_cases huv : u = v
    · subst huv
      rw [hs] at hv; cases hv
      exact ⟨t', [], [], by rw [h1]; simp [(List.getElem?_eq_some_iff.1 hs).1], by rw [ht, List.append_nil],
        by rw [h2, List.append_nil], List.Sublist.refl _⟩
    · exact ⟨s, [], [], by rw [h1]; simp [Ne.symm huv, hs], (List.append_nil _).symm, by rw [h2, List.append_nil], List.Sublist.refl _⟩
  have hang : ∀ (e d1 : Driver A) (a : A) (new : List (Command A)), d1.sessions = d.sessions →
      e.sessions = (d1.hangUp a).sessions → e.processed = d.processed ++ new →
      ∃ s' extra new, e.sessions[u]? = some s' ∧ s'.offered = s.offered ++ extra ∧ e.processed = d.processed ++ new ∧
      (extra.map Cmd.op).Sublist (new.filterMap Command.op) := by
    intro e d1 a new h0 h1 h2
    obtain ⟨s', k1, k2⟩ := hangUp_offered' d1 a u s (by rw [h0]; exact hs)
    exact ⟨s', [], new, by rw [h1]; exact k1, by rw [k2, List.append_nil], h2, List.nil_sublist _⟩
  cases h with
  | time dt => exact same _ rfl rfl
  | wake w => exact same _ rfl rfl
  | start hc => exact same _ rfl rfl
  | push c hc hl => exact same _ rfl rfl
  | recv m ms hc hm => exact same _ rfl rfl
  | drop hc => exact same _ rfl rfl
  | session v t t' hv ht => exact upd _ v t t' hv ht.offered rfl rfl
  | take a v t m ms payload hl hv ht hd =>
    refine upd _ v t { t with toDriver := ms } hv rfl ?_ ?_
    · unfold Driver.deliver; simp only; repeat' split
      all_goals rfl
    · unfold Driver.deliver; simp only; repeat' split
      all_goals rfl
  | skip a v t m ms hl hv ht hd => exact upd _ v t { t with toDriver := ms } hv rfl rfl rfl
  | lost a v t hl hv ht ho =>
    rw [reset_eq]
    exact hang _ d a [] rfl rfl (by rw [List.append_nil])
  | arm a v t hl hv ht ho => exact upd _ v t { t with armed := true } hv rfl rfl rfl
  | backoff a b b' o hl hp => exact same _ rfl rfl
  | retry a b hl => unfold Driver.connect; split <;> exact same _ rfl rfl
  | terminate a b hl => exact same _ rfl rfl
  | joinPanic i a ht => exact same _ rfl rfl
  | joinFail i a ht => exact same _ rfl rfl
  | joinOk i a order out via input ht hr =>
    unfold Driver.onConnection
    split
    · exact same _ rfl rfl
    · refine ⟨s, [], [], ?_, (List.append_nil _).symm, (List.append_nil _).symm, List.Sublist.refl _⟩
      simp only
      rw [List.getElem?_append_left (List.getElem?_eq_some_iff.1 hs).1]
      exact hs
  | command c q hq =>
    have told : ∀ (d1 : Driver A) (k : Cmd), d1.sessions = d.sessions → d1.pubs = d.pubs →
        d1.processed = d.processed ++ [c] → c.op = some k.op →
        ∃ s' extra new, (d1.tell k d.pubs).sessions[u]? = some s' ∧ s'.offered = s.offered ++ extra ∧
          (d1.tell k d.pubs).processed = d.processed ++ new ∧ (extra.map Cmd.op).Sublist (new.filterMap Command.op) := by
      intro d1 k h1 h2 h3 h4
      obtain ⟨s', k1, k2⟩ := tell_offered k d.pubs d1 (idxs_nodup hi) u s (by rw [h1]; exact hs)
      have hp : (d1.tell k d.pubs).processed = d.processed ++ [c] := by
        rw [← h3]
        exact tell_induct (P := fun x => x.processed = d1.processed) k
          (fun _ _ _ h _ => h) (fun x a h => by rw [reset_eq]; exact h) _ _ rfl
      rcases k2 with k2 | ⟨-, k2⟩
      · exact ⟨s', [], [c], k1, by rw [k2, List.append_nil], hp, List.nil_sublist _⟩
      · refine ⟨s', [k], [c], k1, k2, hp, ?_⟩
        simp [h4]
    have idle : ∀ e : Driver A, e.sessions = d.sessions → e.processed = d.processed ++ [c] →
        ∃ s' extra new, e.sessions[u]? = some s' ∧ s'.offered = s.offered ++ extra ∧ e.processed = d.processed ++ new ∧
        (extra.map Cmd.op).Sublist (new.filterMap Command.op) := by
      intro e h1 h2
      exact ⟨s, [], [c], by rw [h1]; exact hs, (List.append_nil _).symm, h2, List.nil_sublist _⟩
    cases c with
    | subscribe t =>
      simp only [Driver.onCommand, Driver.subscribe]
      split
      · exact idle _ rfl rfl
      · exact told _ _ rfl rfl rfl rfl
    | unsubscribe t =>
      simp only [Driver.onCommand, Driver.unsubscribe]
      split
      · exact told _ _ rfl rfl rfl rfl
      · exact idle _ rfl rfl
    | connect a =>
      simp only [Driver.onCommand]
      split
      · exact idle _ rfl rfl
      · rw [reset_eq]
        refine hang _ (Driver.connect { d with cmdq := q, processed := d.processed ++ [.connect a] } a) a [.connect a] ?_ rfl ?_
        · unfold Driver.connect; split <;> rfl
        · simp only
          unfold Driver.connect; split <;> rfl
    | disconnect a =>
      simp only [Driver.onCommand]
      split
      · exact hang _ { d with cmdq := q, processed := d.processed ++ [.disconnect a] } a [.disconnect a] rfl rfl (by rw [hangUp_eq])
      · exact idle _ rfl rfl
    | shutdown => exact idle _ rfl rfl

theorem offered_steps {d e : Driver A} (hi : DInv L D d) (h : DSteps L D d e) (u : Nat) (s : Session)
    (hs : d.sessions[u]? = some s) :
    ∃ s' extra new, e.sessions[u]? = some s' ∧ s'.offered = s.offered ++ extra ∧ e.processed = d.processed ++ new ∧
      (extra.map Cmd.op).Sublist (new.filterMap Command.op) := by
  induction h with
  | refl => exact ⟨s, [], [], hs, (List.append_nil _).symm, (List.append_nil _).symm, List.Sublist.refl _⟩
  | step h1 h2 ih =>
    obtain ⟨s1, x1, n1, g1, g2, g3, g4⟩ := ih
    obtain ⟨s2, x2, n2, k1, k2, k3, k4⟩ := offered_step (hi.steps h1) h2 u s1 g1
    refine ⟨s2, x1 ++ x2, n1 ++ n2, k1, by rw [k2, g2, List.append_assoc], by rw [k3, g3, List.append_assoc], ?_⟩
    rw [List.map_append, List.filterMap_append]
    exact g4.append k4

end MsgRs.Sub
