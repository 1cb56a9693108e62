import Verif.Proofs.SubRetry
/-!
# The subscriber's timers
-/
namespace MsgRs.Sub
open MsgRs
variable {A : Type} [DecidableEq A] {L : Lossy} {D : Decompressors}

/-- No timer is set for later than its delay. -/
def Timely (d : Driver A) : Prop :=
  ∀ x b t, lookup x d.pubs = some (.inactive b) → b.deadline = some t → t ≤ d.now + b.cur

theorem command_inactive (d : Driver A) (c : Command A) (x : A) (b : Backoff)
    (h : lookup x (d.onCommand c).pubs = some (.inactive b)) :
    lookup x d.pubs = some (.inactive b) ∨ b.deadline = none := by
  have hreset : ∀ (e : Driver A) a, lookup x (e.resetPublisher a).pubs = some (.inactive b) →
      lookup x e.pubs = some (.inactive b) ∨ b.deadline = none := by
    intro e a h
    rw [reset_eq] at h
    simp only at h
    by_cases hxa : x = a
    · subst hxa; rw [lookup_insert_self] at h; cases h; exact .inr rfl
    · rw [lookup_insert_ne hxa] at h; exact .inl h
  have htell : ∀ c l (e : Driver A), lookup x (e.tell c l).pubs = some (.inactive b) →
      lookup x e.pubs = some (.inactive b) ∨ b.deadline = none := by
    intro c l e
    refine tell_induct (P := fun f => lookup x f.pubs = some (.inactive b) →
      lookup x e.pubs = some (.inactive b) ∨ b.deadline = none) c (fun _ _ _ h _ => h) ?_ l e .inl
    intro f a hf h
    rcases hreset f a h with h | h
    · exact hf h
    · exact .inr h
  cases c with
  | shutdown => exact .inl h
  | subscribe t =>
    simp only [Driver.onCommand, Driver.subscribe] at h
    split at h
    · exact .inl h
    · exact htell _ _ { d with topics := d.topics ++ [t] } h
  | unsubscribe t =>
    simp only [Driver.onCommand, Driver.unsubscribe] at h
    split at h
    · exact htell _ _ { d with topics := d.topics.filter (· ≠ t) } h
    · exact .inl h
  | connect a =>
    simp only [Driver.onCommand] at h
    split at h
    · exact .inl h
    · rcases hreset _ a h with h | h
      · unfold Driver.connect at h
        split at h <;> exact .inl h
      · exact .inr h
  | disconnect a =>
    simp only [Driver.onCommand] at h
    split at h
    · rw [hangUp_eq] at h
      simp only at h
      by_cases hxa : x = a
      · subst hxa; rw [lookup_erase_self] at h; cases h
      · rw [lookup_erase_ne hxa] at h; exact .inl h
    · exact .inl h

theorem poll_timely {b b' : Backoff} {now : Nat} {o : BOut} (hb : b.poll now = .ok (o, b'))
    (h : ∀ t, b.deadline = some t → t ≤ now + b.cur) : ∀ t, b'.deadline = some t → t ≤ now + b'.cur := by
  have h0 : b.deadline.getD (now + b.cur) ≤ now + b.cur := by
    cases hd : b.deadline with
    | none => exact Nat.le_refl _
    | some t => exact h t hd
  rw [Backoff.poll_eq] at hb
  unfold Backoff.fire at hb
  intro t ht
  split at hb
  · split at hb
    · cases hb
    · simp only at hb
      split at hb
      · cases hb; simp only at ht ⊢; cases ht; omega
      · cases hb; simp only at ht ⊢; cases ht; omega
  · cases hb; simp only at ht ⊢; cases ht; exact h0

theorem Timely.step (d e : Driver A) (hs : DStep L D d e) (h : Timely d) : Timely e := by
  cases hs with
  | time dt => intro x b t hx ht; have := h x b t hx ht; simp only; omega
  | command c q hq =>
    intro x b t hx ht
    rw [(command_now _ _).1]
    rcases command_inactive _ _ _ _ hx with hx | hx
    · exact h x b t hx ht
    · rw [hx] at ht; cases ht
  | take a u s tm ms payload hl hu ht' hd =>
    intro x b t hx ht
    refine Nat.le_trans (h x b t ?_ ht) ?_
    · unfold Driver.deliver at hx
      split at hx
      · exact hx
      · split at hx <;> exact hx
    · unfold Driver.deliver
      split
      · exact Nat.le_refl _
      · split <;> exact Nat.le_refl _
  | lost a u s hl hu ht' ho =>
    rw [reset_eq]
    intro x b t hx ht
    simp only at hx
    by_cases hxa : x = a
    · subst hxa; rw [lookup_insert_self] at hx; cases hx; cases ht
    · rw [lookup_insert_ne hxa] at hx; exact h x b t hx ht
  | backoff a b b' o hl hp =>
    intro x c t hx ht
    simp only at hx
    rw [lookup_update] at hx
    split at hx
    · rw [hl] at hx
      cases hx
      exact poll_timely hp (fun t ht => h a b t hl ht) t ht
    · exact h x c t hx ht
  | retry a b hl =>
    unfold Driver.connect
    split <;> exact h
  | terminate a b hl =>
    intro x c t hx ht
    simp only at hx
    by_cases hxa : x = a
    · subst hxa; rw [lookup_erase_self] at hx; cases hx
    · rw [lookup_erase_ne hxa] at hx; exact h x c t hx ht
  | joinOk i a order out via input ht' hr =>
    intro x b t hx ht
    rw [(onConnection_now _ _ _ _ _).1]
    unfold Driver.onConnection at hx
    split at hx
    · exact h x b t hx ht
    · simp only at hx
      by_cases hxa : x = a
      · subst hxa; rw [lookup_insert_self] at hx; cases hx
      · rw [lookup_insert_ne hxa] at hx; exact h x b t hx ht
  | _ => exact h

/-- The timer of `a`, if it waits for one, is set for later. -/
def Armed (a : A) (d : Driver A) : Prop := ∀ b, lookup a d.pubs = some (.inactive b) → ∃ t, b.deadline = some t ∧ d.now < t

theorem pollPub_armed {d d' : Driver A} {x a : A} (hp : d.pollPub D x = .ok (d', false)) (h : x = a ∨ Armed a d) : Armed a d' := by
  unfold Driver.pollPub at hp
  cases hl : lookup x d.pubs with
  | none =>
    rw [hl] at hp
    cases hp
    rcases h with rfl | h
    · intro b hb; rw [hl] at hb; cases hb
    · exact h
  | some st =>
    rw [hl] at hp
    cases st with
    | active u =>
      have h' : Armed a d := by
        rcases h with rfl | h
        · intro b hb; rw [hl] at hb; cases hb
        · exact h
      simp only at hp
      cases hu : d.sessions[u]? with
      | none => rw [hu] at hp; cases hp; exact h'
      | some s =>
        rw [hu] at hp
        simp only at hp
        rcases hr : s.driverRecv with ⟨o, s'⟩
        rw [hr] at hp
        rcases o with _ | (_ | t)
        · cases hp; exact h'
        · cases hp
        · simp only at hp
          split at hp
          · cases hp; exact h'
          · cases hp
    | inactive b =>
      simp only at hp
      cases hb : b.poll d.now with
      | panic => rw [hb] at hp; cases hp
      | ok y =>
        obtain ⟨o, b'⟩ := y
        rw [hb] at hp
        simp only [R.bind_ok, R.pure_eq] at hp
        cases o with
        | pending =>
          cases hp
          intro c hc
          simp only at hc
          rw [lookup_update] at hc
          split at hc
          · rename_i hax
            subst hax
            rw [hl] at hc
            cases hc
            rw [Backoff.poll_eq] at hb
            unfold Backoff.fire at hb
            split at hb
            · split at hb
              · cases hb
              · simp only at hb
                split at hb <;> cases hb
            · cases hb
              exact ⟨_, rfl, by simp only; omega⟩
          · rename_i hax
            rcases h with rfl | h
            · exact absurd rfl hax
            · exact h c hc
        | item dl => cases hp
        | ended =>
          cases hp
          intro c hc
          simp only at hc
          by_cases hax : a = x
          · subst hax; rw [lookup_erase_self] at hc; cases hc
          · rw [lookup_erase_ne hax, lookup_update, if_neg hax] at hc
            rcases h with rfl | h
            · exact absurd rfl hax
            · exact h c hc

theorem pollPublishers_armed {a : A} (order : List A) {d d' : Driver A} (hp : d.pollPublishers D order = .ok (d', false))
    (h : a ∈ order ∨ Armed a d) : Armed a d' := by
  induction order generalizing d with
  | nil =>
    simp only [Driver.pollPublishers] at hp
    cases hp
    rcases h with h | h
    · cases h
    · exact h
  | cons x xs ih =>
    simp only [Driver.pollPublishers] at hp
    cases h1 : d.pollPub D x with
    | panic => rw [h1] at hp; cases hp
    | ok y =>
      obtain ⟨d1, p1⟩ := y
      rw [h1] at hp
      simp only [R.bind_ok] at hp
      cases h2 : d1.pollPublishers D xs with
      | panic => rw [h2] at hp; cases hp
      | ok z =>
        obtain ⟨d2, p2⟩ := z
        rw [h2] at hp
        simp only [R.bind_ok, R.pure_eq, R.ok.injEq, Prod.mk.injEq, Bool.or_eq_false_iff] at hp
        obtain ⟨rfl, rfl, rfl⟩ := hp
        refine ih h2 ?_
        rcases h with h | h
        · rcases List.mem_cons.1 h with rfl | h
          · exact .inr (pollPub_armed h1 (.inl rfl))
          · exact .inl h
        · exact .inr (pollPub_armed h1 (.inr h))

theorem pollPub_tasks {d d' : Driver A} {x a : A} {p : Bool} (hp : d.pollPub D x = .ok (d', p)) (h : a ∈ d.tasks) : a ∈ d'.tasks := by
  unfold Driver.pollPub at hp
  split at hp
  · cases hp; exact h
  · split at hp
    · cases hp; exact h
    · split at hp
      · simp only at hp
        split at hp
        · cases hp; exact h
        · cases hp
          unfold Driver.deliver
          split
          · exact h
          · split <;> exact h
      · cases hp; rw [reset_eq]; exact h
      · cases hp; exact h
  · rename_i b _
    cases hb : b.poll d.now with
    | panic => rw [hb] at hp; cases hp
    | ok y =>
      obtain ⟨o, b'⟩ := y
      rw [hb] at hp
      simp only [R.bind_ok, R.pure_eq] at hp
      cases o with
      | pending => cases hp; exact h
      | item dl => cases hp; unfold Driver.connect; split <;> simp [h]
      | ended => cases hp; exact h

theorem pollPublishers_tasks {a : A} (order : List A) {d d' : Driver A} {p : Bool}
    (hp : d.pollPublishers D order = .ok (d', p)) (h : a ∈ d.tasks) : a ∈ d'.tasks := by
  induction order generalizing d p with
  | nil => simp only [Driver.pollPublishers] at hp; cases hp; exact h
  | cons x xs ih =>
    simp only [Driver.pollPublishers] at hp
    cases h1 : d.pollPub D x with
    | panic => rw [h1] at hp; cases hp
    | ok y =>
      obtain ⟨d1, p1⟩ := y
      rw [h1] at hp
      simp only [R.bind_ok] at hp
      cases h2 : d1.pollPublishers D xs with
      | panic => rw [h2] at hp; cases hp
      | ok z =>
        obtain ⟨d2, p2⟩ := z
        rw [h2] at hp
        simp only [R.bind_ok, R.pure_eq] at hp
        cases hp
        exact ih h2 (pollPub_tasks h1 h)

/-- What other publishers' turns leave alone. -/
theorem pollPub_elsewhere {d d' : Driver A} {x a : A} {p : Bool} (hp : d.pollPub D x = .ok (d', p)) (hxa : a ≠ x) :
    lookup a d'.pubs = lookup a d.pubs ∧ (a ∉ d.keys → a ∉ d'.keys) := by
  unfold Driver.pollPub at hp
  split at hp
  · cases hp; exact ⟨rfl, id⟩
  · split at hp
    · cases hp; exact ⟨rfl, id⟩
    · split at hp
      · simp only at hp
        split at hp
        · cases hp; exact ⟨rfl, id⟩
        · cases hp
          unfold Driver.deliver
          split
          · exact ⟨rfl, id⟩
          · split <;> exact ⟨rfl, id⟩
      · cases hp; rw [reset_eq]; exact ⟨lookup_insert_ne hxa _ _, id⟩
      · cases hp; exact ⟨rfl, id⟩
  · rename_i b _
    cases hb : b.poll d.now with
    | panic => rw [hb] at hp; cases hp
    | ok y =>
      obtain ⟨o, b'⟩ := y
      rw [hb] at hp
      simp only [R.bind_ok, R.pure_eq] at hp
      have hne : lookup a (d.pubs.map fun y => if y.1 = x then (x, PState.inactive b') else y) = lookup a d.pubs := by
        rw [lookup_update, if_neg hxa]
      cases o with
      | pending => cases hp; exact ⟨hne, id⟩
      | item dl =>
        cases hp
        unfold Driver.connect
        split
        · exact ⟨hne, id⟩
        · exact ⟨hne, fun h => by simp [h, hxa]⟩
      | ended => cases hp; exact ⟨by simp only [lookup_erase_ne hxa]; exact hne, id⟩

/-- A retry that is due starts an attempt. -/
theorem pollPublishers_due {a : A} {init : Nat} {b : Backoff} (hok : b.Ok init 16) (hc : b.count < 15) {t : Nat}
    (hb : b.deadline = some t) (order : List A) {d d' : Driver A} {p : Bool} (ht : t ≤ d.now) (hk : a ∉ d.keys)
    (hl : lookup a d.pubs = some (.inactive b)) (ha : a ∈ order)
    (hp : d.pollPublishers D order = .ok (d', p)) : a ∈ d'.tasks ∧ p = true := by
  induction order generalizing d p with
  | nil => cases ha
  | cons x xs ih =>
    simp only [Driver.pollPublishers] at hp
    cases h1 : d.pollPub D x with
    | panic => rw [h1] at hp; cases hp
    | ok y =>
      obtain ⟨d1, p1⟩ := y
      rw [h1] at hp
      simp only [R.bind_ok] at hp
      cases h2 : d1.pollPublishers D xs with
      | panic => rw [h2] at hp; cases hp
      | ok z =>
        obtain ⟨d2, p2⟩ := z
        rw [h2] at hp
        simp only [R.bind_ok, R.pure_eq] at hp
        cases hp
        by_cases hax : a = x
        · subst hax
          have : a ∈ d1.tasks ∧ p1 = true := by
            unfold Driver.pollPub at h1
            rw [hl] at h1
            simp only at h1
            cases hb' : b.poll d.now with
            | panic => rw [hb'] at h1; cases h1
            | ok y =>
              obtain ⟨o, b'⟩ := y
              rw [hb'] at h1
              simp only [R.bind_ok, R.pure_eq] at h1
              unfold Backoff.poll at hb'
              rw [hb] at hb'
              rcases Backoff.fire_spec (now := d.now) hok hb with ⟨h0, -⟩ | ⟨-, -, hf⟩ | ⟨-, h0, -⟩ | ⟨-, -, b2, hf, -⟩
              · omega
              · simp only at hb'; rw [hf] at hb'; cases hb'
              · omega
              · simp only at hb'
                rw [hf] at hb'
                cases hb'
                simp only at h1
                cases h1
                unfold Driver.connect
                simp [hk]
          exact ⟨pollPublishers_tasks xs h2 this.1, by simp [this.2]⟩
        · obtain ⟨k1, k2⟩ := pollPub_elsewhere h1 hax
          obtain ⟨m1, m2⟩ := ih (by rw [(pollPub_now h1).1]; exact ht) (k2 hk) (by rw [k1]; exact hl)
            ((List.mem_cons.1 ha).resolve_left hax) h2
          exact ⟨m1, by simp [m2]⟩

end MsgRs.Sub
