import Verif.Proofs.SubGrow
/-!
# Connections to one publisher succeed one another
-/
namespace MsgRs.Sub
open MsgRs

variable {A : Type} [DecidableEq A] {L : Lossy} {D : Decompressors}

/-- What was taken from the connections to one address was taken in the order of the connections, and no
connection to it is newer than the established one. -/
structure OInv (d : Driver A) : Prop where
  sorted : d.fates.Pairwise fun x y => d.addrs[x.1]? = d.addrs[y.1]? → x.1 ≤ y.1
  last : ∀ a u, lookup a d.pubs = some (.active u) → ∀ v, d.addrs[v]? = some a → v ≤ u

/-- No publisher becomes active. -/
def Calm (d e : Driver A) : Prop :=
  e.fates = d.fates ∧ e.addrs = d.addrs ∧ ∀ a u, lookup a e.pubs = some (.active u) → lookup a d.pubs = some (.active u)

theorem Calm.refl (d : Driver A) : Calm d d := ⟨rfl, rfl, fun _ _ h => h⟩
theorem Calm.trans {d e f : Driver A} (h : Calm d e) (g : Calm e f) : Calm d f :=
  ⟨g.1.trans h.1, g.2.1.trans h.2.1, fun a u x => h.2.2 a u (g.2.2 a u x)⟩

theorem hangUp_calm (d : Driver A) (a : A) : Calm d (d.hangUp a) := by
  unfold Driver.hangUp
  split
  · split <;> exact .refl d
  · exact .refl d

theorem reset_calm (d : Driver A) (a : A) : Calm d (d.resetPublisher a) := by
  refine (hangUp_calm d a).trans ⟨rfl, rfl, ?_⟩
  intro b u hb
  simp only [Driver.resetPublisher] at hb
  by_cases hab : b = a
  · subst hab; rw [lookup_insert_self] at hb; cases hb
  · rw [lookup_insert_ne hab] at hb; exact hb

theorem connect_calm (d : Driver A) (a : A) : Calm d (d.connect a) := by
  unfold Driver.connect; split <;> exact .refl d

theorem tell_calm (c : Cmd) (l : List (A × PState)) (d0 d : Driver A) (h : Calm d0 d) : Calm d0 (d.tell c l) :=
  tell_induct (P := fun e => Calm d0 e) c (fun _ _ _ h _ => h.trans ⟨rfl, rfl, fun _ _ h => h⟩)
    (fun d a h => h.trans (reset_calm d a)) l d h

theorem command_calm (d : Driver A) (c : Command A) : Calm d (d.onCommand c) := by
  cases c with
  | shutdown => exact .refl d
  | subscribe t =>
    show Calm d (d.subscribe t)
    unfold Driver.subscribe
    split
    · exact .refl d
    · exact tell_calm _ _ _ _ ⟨rfl, rfl, fun _ _ h => h⟩
  | unsubscribe t =>
    show Calm d (d.unsubscribe t)
    unfold Driver.unsubscribe
    split
    · exact tell_calm _ _ _ _ ⟨rfl, rfl, fun _ _ h => h⟩
    · exact .refl d
  | connect a =>
    simp only [Driver.onCommand]
    split
    · exact .refl d
    · exact (connect_calm d a).trans (reset_calm _ a)
  | disconnect a =>
    simp only [Driver.onCommand]
    split
    · refine (hangUp_calm d a).trans ⟨rfl, rfl, ?_⟩
      intro b u hb
      simp only at hb
      by_cases hab : b = a
      · subst hab; rw [lookup_erase_self] at hb; cases hb
      · rw [lookup_erase_ne hab] at hb; exact hb
    · exact .refl d

/-- What a step does to what was taken, to the connections and to the established ones. -/
inductive Kind (d e : Driver A) : Prop
  | calm : Calm d e → Kind d e
  | took (b : A) (u : Nat) (t : TopicMsg) (f : Fate) : lookup b d.pubs = some (.active u) → e.fates = d.fates ++ [(u, t, f)] → e.addrs = d.addrs →
      e.pubs = d.pubs → Kind d e
  | join (b : A) : e.fates = d.fates → e.addrs = d.addrs ++ [b] → e.pubs = insert b (.active d.sessions.length) d.pubs → Kind d e

theorem DStep.kind {d e : Driver A} (h : DStep L D d e) : Kind d e := by
  cases h with
  | command c q hq => exact .calm (Calm.trans (e := { d with cmdq := q, processed := d.processed ++ [c] }) ⟨rfl, rfl, fun _ _ h => h⟩ (command_calm _ c))
  | take a u s t ms payload hl hu ht hd =>
    unfold Driver.deliver
    simp only
    repeat' split
    all_goals exact .took a u t _ hl rfl rfl rfl
  | skip a u s t ms hl hu ht hd => exact .took a u t _ hl rfl rfl rfl
  | lost a u s hl hu ht ho' => exact .calm (reset_calm d a)
  | backoff a b b' o hl hp =>
    refine .calm ⟨rfl, rfl, ?_⟩
    intro x u hx
    simp only [lookup_update] at hx
    split at hx
    · rename_i hxa
      subst hxa
      rw [hl] at hx
      cases hx
    · exact hx
  | retry a b hl => exact .calm (connect_calm d a)
  | terminate a b hl =>
    refine .calm ⟨rfl, rfl, ?_⟩
    intro x u hx
    simp only at hx
    by_cases hxa : x = a
    · subst hxa; rw [lookup_erase_self] at hx; cases hx
    · rw [lookup_erase_ne hxa] at hx; exact hx
  | joinOk i a order out via input ht hr =>
    unfold Driver.onConnection
    split
    · exact .calm ⟨rfl, rfl, fun _ _ h => h⟩
    · exact .join a rfl rfl rfl
  | _ => exact .calm ⟨rfl, rfl, fun _ _ h => h⟩

theorem OInv.step (d e : Driver A) (h : DStep L D d e) (hi : DInv L D d) (ho : OInv d) : OInv e := by
  cases h.kind with
  | calm c =>
    obtain ⟨c1, c2, c3⟩ := c
    refine ⟨by rw [c1, c2]; exact ho.sorted, ?_⟩
    intro a u hu v hv
    rw [c2] at hv
    exact ho.last a u (c3 a u hu) v hv
  | took b u t f hl h1 h2 h3 =>
    refine ⟨?_, by rw [h2, h3]; exact ho.last⟩
    rw [h1, h2, List.pairwise_append]
    refine ⟨ho.sorted, List.pairwise_singleton _ _, ?_⟩
    intro x hx y hy hxy
    simp only [List.mem_singleton] at hy
    subst hy
    exact ho.last b u hl x.1 (by rw [hxy]; exact (hi.act b u hl).1)
  | join b h1 h2 h3 =>
    rw [← hi.len] at h3
    have old : ∀ x ∈ d.fates, e.addrs[x.1]? = d.addrs[x.1]? := fun x hx => by
      rw [h2]; exact List.getElem?_append_left (by rw [hi.len]; exact hi.fateLt x hx)
    refine ⟨?_, ?_⟩
    · rw [h1]
      refine ho.sorted.imp_of_mem ?_
      intro x y hx hy hxy
      rw [old x hx, old y hy]
      exact hxy
    · intro a u hu v hv
      rw [h3] at hu
      have hlt := (List.getElem?_eq_some_iff.1 hv).1
      rw [h2] at hlt hv
      rw [List.length_append, List.length_singleton] at hlt
      by_cases hab : a = b
      · subst hab
        rw [lookup_insert_self] at hu
        cases hu
        omega
      · rw [lookup_insert_ne hab] at hu
        by_cases hv' : v < d.addrs.length
        · rw [List.getElem?_append_left hv'] at hv
          exact ho.last a u hu v hv
        · have : v = d.addrs.length := by omega
          subst this
          simp at hv
          exact absurd hv.symm hab

/-- Once no connection to `a` older than number `n` is established, nothing is taken from older ones any more. -/
theorem DSteps.past {d e : Driver A} (h : DSteps L D d e) (hi : DInv L D d) (a : A) (n : Nat) (hn : n ≤ d.addrs.length)
    (hk : ∀ v, lookup a d.pubs = some (.active v) → n ≤ v) :
    ∃ new, e.fates = d.fates ++ new ∧ (∀ x ∈ new, e.addrs[x.1]? = some a → n ≤ x.1) ∧ n ≤ e.addrs.length ∧
      ∀ v, lookup a e.pubs = some (.active v) → n ≤ v := by
  induction h with
  | refl => exact ⟨[], by simp, by simp, hn, hk⟩
  | @step e f h' hs ih =>
    obtain ⟨new, g1, g2, g3, g4⟩ := ih
    have he := DInv.steps h' hi
    cases hs.kind with
    | calm c =>
      obtain ⟨c1, c2, c3⟩ := c
      exact ⟨new, c1.trans g1, by rw [c2]; exact g2, by rw [c2]; exact g3, fun v hv => g4 v (c3 a v hv)⟩
    | took b u t y hl h1 h2 h3 =>
      refine ⟨new ++ [(u, t, y)], by rw [h1, g1, List.append_assoc], ?_, by rw [h2]; exact g3, by rw [h3]; exact g4⟩
      intro x hx hxa
      rw [h2] at hxa
      rcases List.mem_append.1 hx with hx | hx
      · exact g2 x hx hxa
      · simp only [List.mem_singleton] at hx
        subst hx
        have : b = a := by
          have hb := (he.act b u hl).1
          simp only at hxa
          rw [hb] at hxa
          exact Option.some.inj hxa
        subst this
        exact g4 u hl
    | join b h1 h2 h3 =>
      rw [← he.len] at h3
      refine ⟨new, h1.trans g1, ?_, by rw [h2, List.length_append]; omega, ?_⟩
      · intro x hx hxa
        refine g2 x hx ?_
        rw [h2, List.getElem?_append_left] at hxa
        · exact hxa
        · rw [he.len]; exact he.fateLt x (by rw [g1]; exact List.mem_append.2 (.inr hx))
      · intro v hv
        rw [h3] at hv
        by_cases hab : a = b
        · subst hab
          rw [lookup_insert_self] at hv
          cases hv
          exact g3
        · rw [lookup_insert_ne hab] at hv
          exact g4 v hv

theorem OInv.steps {d e : Driver A} (h : DSteps L D d e) (hi : DInv L D d) (ho : OInv d) : OInv e := by
  induction h with
  | refl => exact ho
  | step h' hs ih => exact OInv.step _ _ hs (DInv.steps h' hi) ih

theorem OInv.init {opts : Options} {now : Nat} {d : Driver A} (h : (Driver.new opts now : R (Driver A)) = .ok d) : OInv d := by
  unfold Driver.new at h
  split at h
  · cases h
  · cases h
    exact ⟨List.Pairwise.nil, by intro a u hu; cases hu⟩

theorem Reach.order {d : Driver A} (h : Reach L D d) : OInv d := by
  obtain ⟨opts, now, d0, acts, h0, h1⟩ := h
  exact (OInv.init h0).steps (run_steps acts d0 d h1) (DInv.init h0)

end MsgRs.Sub
