import Verif.Proofs.SubReturns
import Verif.Proofs.SubStay
import Verif.Spec.SubRetry
/-!
# The subscriber's retries
-/
namespace MsgRs.Sub
open MsgRs
variable {A : Type} [DecidableEq A] {L : Lossy} {D : Decompressors}

/-- `a` is not connected; since `T0`, when it became known, `n` retries were started. -/
structure RInv (T0 n : Nat) (a : A) (d : Driver A) : Prop where
  time : T0 ≤ d.now
  few : n ≤ 15
  st : lookup a d.pubs = none ∨ ∃ b, lookup a d.pubs = some (.inactive b) ∧ b.Ok d.opts.initialBackoff 16 ∧ n ≤ b.count ∧
    (b.deadline = none → b.count = 0) ∧ ∀ t, b.deadline = some t → T0 + d.opts.initialBackoff * (2 ^ (b.count + 1) - 1) ≤ t

/-- Nothing about `a` changes, or it is forgotten. -/
structure Quiet (a : A) (d d' : Driver A) : Prop where
  now : d'.now = d.now
  opts : d'.opts = d.opts
  pubs : lookup a d'.pubs = lookup a d.pubs ∨ lookup a d'.pubs = none
  tasks : a ∈ d'.tasks → a ∈ d.tasks

theorem RInv.quiet {T0 n : Nat} {a : A} {d d' : Driver A} (h : RInv T0 n a d) (q : Quiet a d d') : RInv T0 n a d' := by
  refine ⟨by rw [q.now]; exact h.time, h.few, ?_⟩
  rcases q.pubs with hp | hp
  · rw [hp, q.opts]; exact h.st
  · exact .inl hp

theorem Quiet.refl (a : A) (d : Driver A) : Quiet a d d := ⟨rfl, rfl, .inl rfl, id⟩

/-- Either nothing happens, or an attempt starts. -/
def Retry (T0 n : Nat) (a : A) (d d' : Driver A) : Prop :=
  (RInv T0 n a d' ∧ (a ∈ d'.tasks ↔ a ∈ d.tasks)) ∨
  (RInv T0 (n + 1) a d' ∧ a ∉ d.tasks ∧ a ∈ d'.tasks ∧ T0 + d.opts.initialBackoff * (2 ^ (n + 1) - 1) ≤ d.now)

theorem pow_step (i c : Nat) (T now t : Nat) (h1 : T + i * (2 ^ (c + 1) - 1) ≤ t) (h2 : t ≤ now) :
    T + i * (2 ^ (c + 1 + 1) - 1) ≤ now + i * 2 ^ (c + 1) := by
  have h3 : 2 ^ (c + 1 + 1) - 1 = (2 ^ (c + 1) - 1) + 2 ^ (c + 1) := by
    have : 0 < 2 ^ (c + 1) := Nat.pow_pos (by omega)
    rw [Nat.pow_succ 2 (c + 1)]
    omega
  rw [h3, Nat.mul_add]
  omega

theorem pollPub_retry {T0 n : Nat} {a x : A} {d d' : Driver A} {p : Bool} (h : RInv T0 n a d)
    (hp : d.pollPub D x = .ok (d', p)) : Retry T0 n a d d' ∧ d'.now = d.now ∧ d'.opts = d.opts ∧ d'.cmdq = d.cmdq := by
  unfold Driver.pollPub at hp
  cases hl : lookup x d.pubs with
  | none => rw [hl] at hp; cases hp; exact ⟨.inl ⟨h.quiet ⟨rfl, rfl, .inl rfl, id⟩, Iff.rfl⟩, rfl, rfl, rfl⟩
  | some st =>
    rw [hl] at hp
    cases st with
    | active u =>
      have hxa : a ≠ x := by
        rintro rfl
        rcases h.st with h0 | ⟨b, h0, -⟩ <;> rw [hl] at h0 <;> cases h0
      simp only at hp
      cases hu : d.sessions[u]? with
      | none => rw [hu] at hp; cases hp; exact ⟨.inl ⟨h.quiet ⟨rfl, rfl, .inl rfl, id⟩, Iff.rfl⟩, rfl, rfl, rfl⟩
      | some s =>
        rw [hu] at hp
        simp only at hp
        rcases hr : s.driverRecv with ⟨o, s'⟩
        rw [hr] at hp
        rcases o with _ | (_ | t)
        · cases hp; exact ⟨.inl ⟨h.quiet ⟨rfl, rfl, .inl rfl, id⟩, Iff.rfl⟩, rfl, rfl, rfl⟩
        · cases hp
          rw [reset_eq]
          exact ⟨.inl ⟨h.quiet ⟨rfl, rfl, .inl (lookup_insert_ne hxa _ _), id⟩, Iff.rfl⟩, rfl, rfl, rfl⟩
        · simp only at hp
          split at hp
          · cases hp; exact ⟨.inl ⟨h.quiet ⟨rfl, rfl, .inl rfl, id⟩, Iff.rfl⟩, rfl, rfl, rfl⟩
          · cases hp
            unfold Driver.deliver
            split
            · exact ⟨.inl ⟨h.quiet ⟨rfl, rfl, .inl rfl, id⟩, Iff.rfl⟩, rfl, rfl, rfl⟩
            · split
              · exact ⟨.inl ⟨h.quiet ⟨rfl, rfl, .inl rfl, id⟩, Iff.rfl⟩, rfl, rfl, rfl⟩
              · exact ⟨.inl ⟨h.quiet ⟨rfl, rfl, .inl rfl, id⟩, Iff.rfl⟩, rfl, rfl, rfl⟩
    | inactive b =>
      simp only at hp
      cases hb : b.poll d.now with
      | panic => rw [hb] at hp; cases hp
      | ok y =>
        obtain ⟨o, b'⟩ := y
        rw [hb] at hp
        simp only [R.bind_ok, R.pure_eq] at hp
        by_cases hxa : a = x
        · subst hxa
          have hst := h.st
          rw [hl] at hst
          rcases hst with h0 | ⟨b0, h0, hok, hn, hnone, hsome⟩
          · cases h0
          · cases h0
            have hd : T0 + d.opts.initialBackoff * (2 ^ (b.count + 1) - 1) ≤ b.deadline.getD (d.now + b.cur) := by
              cases hdl : b.deadline with
              | some t => exact hsome t hdl
              | none =>
                have := h.time
                have hc := hok.cur
                rw [hnone hdl] at hc ⊢
                simp at hc ⊢
                omega
            have hok' : ({ b with deadline := some (b.deadline.getD (d.now + b.cur)) } : Backoff).Ok d.opts.initialBackoff 16 :=
              ⟨hok.lim, hok.cur, hok.more⟩
            rw [Backoff.poll_eq] at hb
            have hlk : ∀ b', lookup a (d.pubs.map fun x => if x.1 = a then (a, PState.inactive b') else x) = some (.inactive b') := by
              intro b'; rw [lookup_update]; simp [hl]
            rcases Backoff.fire_spec (now := d.now) hok' rfl with ⟨-, hf⟩ | ⟨-, -, hf⟩ | ⟨-, -, b2, hf⟩ | ⟨hle, hlt, b2, hf, hb1, hb2, hb3⟩
            · rw [hf] at hb
              cases hb
              cases hp
              refine ⟨.inl ⟨⟨h.time, h.few, .inr ⟨_, hlk _, hok', hn, by simp, ?_⟩⟩, Iff.rfl⟩, rfl, rfl, rfl⟩
              intro t ht
              cases ht
              exact hd
            · rw [hf] at hb; cases hb
            · rw [hf] at hb
              cases hb
              cases hp
              exact ⟨.inl ⟨⟨h.time, h.few, .inl (lookup_erase_self _ _)⟩, Iff.rfl⟩, rfl, rfl, rfl⟩
            · rw [hf] at hb
              cases hb
              cases hp
              simp only at hlt hb2 hb3
              have hnew : ∀ m, m ≤ b.count + 1 → m ≤ 15 → RInv T0 m a { d with pubs := d.pubs.map fun x => if x.1 = a then (a, PState.inactive b') else x } := by
                intro m hm h15
                refine ⟨h.time, h15, .inr ⟨b', hlk _, hb1, by omega, (fun h0 => by rw [hb3] at h0; cases h0), ?_⟩⟩
                intro t ht
                rw [hb3] at ht
                cases ht
                rw [hb2]
                exact pow_step _ _ _ _ _ hd hle
              unfold Driver.connect
              split
              · exact ⟨.inl ⟨hnew n (by omega) h.few, Iff.rfl⟩, rfl, rfl, rfl⟩
              · refine ⟨?_, rfl, rfl, rfl⟩
                have h15 : n + 1 ≤ 15 := by omega
                have hr := hnew (n + 1) (by omega) h15
                by_cases hm : a ∈ d.tasks
                · refine .inl ⟨⟨h.time, h.few, ?_⟩, by simp [hm]⟩
                  exact (hnew n (by omega) h.few).st
                · refine .inr ⟨⟨hr.time, hr.few, hr.st⟩, hm, by simp, ?_⟩
                  have h4 : 2 ^ (n + 1) ≤ 2 ^ (b.count + 1) := Nat.pow_le_pow_right (by omega) (by omega)
                  have h5 : d.opts.initialBackoff * (2 ^ (n + 1) - 1) ≤ d.opts.initialBackoff * (2 ^ (b.count + 1) - 1) :=
                    Nat.mul_le_mul_left _ (by omega)
                  omega
        · have hne : ∀ b', lookup a (d.pubs.map fun y => if y.1 = x then (x, PState.inactive b') else y) = lookup a d.pubs := by
            intro b'; rw [lookup_update, if_neg hxa]
          cases o with
          | pending => cases hp; exact ⟨.inl ⟨h.quiet ⟨rfl, rfl, .inl (hne _), id⟩, Iff.rfl⟩, rfl, rfl, rfl⟩
          | item dl =>
            cases hp
            unfold Driver.connect
            split
            · exact ⟨.inl ⟨h.quiet ⟨rfl, rfl, .inl (hne _), id⟩, Iff.rfl⟩, rfl, rfl, rfl⟩
            · refine ⟨.inl ⟨h.quiet ⟨rfl, rfl, .inl (hne _), ?_⟩, ?_⟩, rfl, rfl, rfl⟩ <;> simp [hxa]
          | ended =>
            cases hp
            exact ⟨.inl ⟨h.quiet ⟨rfl, rfl, .inl (by simp only [lookup_erase_ne hxa]; exact hne _), id⟩, Iff.rfl⟩, rfl, rfl, rfl⟩

theorem pollPublishers_retry {T0 : Nat} {a : A} (order : List A) {n : Nat} {d d' : Driver A} {p : Bool} (h : RInv T0 n a d)
    (hp : d.pollPublishers D order = .ok (d', p)) : Retry T0 n a d d' ∧ d'.now = d.now ∧ d'.opts = d.opts ∧ d'.cmdq = d.cmdq := by
  induction order generalizing d n p with
  | nil => simp only [Driver.pollPublishers] at hp; cases hp; exact ⟨.inl ⟨h.quiet ⟨rfl, rfl, .inl rfl, id⟩, Iff.rfl⟩, rfl, rfl, rfl⟩
  | cons x xs ih =>
    simp only [Driver.pollPublishers] at hp
    cases h1 : d.pollPub D x with
    | panic => rw [h1] at hp; cases hp
    | ok y =>
      obtain ⟨d1, p1⟩ := y
      rw [h1] at hp
      simp only [R.bind_ok] at hp
      cases h2 : d1.pollPublishers D xs with
      | panic => rw [h2] at hp; cases hp
      | ok z =>
        obtain ⟨d2, p2⟩ := z
        rw [h2] at hp
        simp only [R.bind_ok, R.pure_eq] at hp
        cases hp
        obtain ⟨r1, hn1, ho1, hc1⟩ := pollPub_retry h h1
        rcases r1 with ⟨r, hi⟩ | ⟨r, hi1, hi2, hi3⟩
        · obtain ⟨r2, hn2, ho2, hc2⟩ := ih r h2
          refine ⟨?_, hn2.trans hn1, ho2.trans ho1, hc2.trans hc1⟩
          rcases r2 with ⟨r2, hj⟩ | ⟨r2, hj1, hj2, hj3⟩
          · exact .inl ⟨r2, hj.trans hi⟩
          · rw [hn1, ho1] at hj3
            exact .inr ⟨r2, fun hm => hj1 (hi.2 hm), hj2, hj3⟩
        · obtain ⟨r2, hn2, ho2, hc2⟩ := ih r h2
          refine ⟨?_, hn2.trans hn1, ho2.trans ho1, hc2.trans hc1⟩
          rcases r2 with ⟨r2, hj⟩ | ⟨r2, hj1, hj2, hj3⟩
          · exact .inr ⟨r2, hi1, hj.2 hi2, hi3⟩
          · exact absurd hi2 hj1

theorem tell_other (c : Cmd) (a : A) (l : List (A × PState)) (d : Driver A) (v : Option PState) (h : lookup a d.pubs = v)
    (hc : ∀ u, (a, .active u) ∉ l) : lookup a (d.tell c l).pubs = v := by
  induction l generalizing d with
  | nil => exact h
  | cons x l ih =>
    obtain ⟨b, st⟩ := x
    have hc' : ∀ u, (a, PState.active u) ∉ l := fun u hm => hc u (by simp [hm])
    cases st with
    | inactive k => exact ih d h hc'
    | active v' =>
      have hab : a ≠ b := by rintro rfl; exact hc v' (by simp)
      unfold Driver.tell
      cases hv : d.sessions[v']? with
      | none => exact ih d h hc'
      | some w =>
        simp only
        rcases w.offer c with ⟨r, s'⟩
        cases r with
        | closed =>
          refine ih _ ?_ hc'
          rw [reset_eq]
          simp only [lookup_insert_ne hab]
          exact h
        | ok => exact ih _ h hc'
        | full => exact ih _ h hc'

theorem tell_now (c : Cmd) (l : List (A × PState)) (d : Driver A) : (d.tell c l).now = d.now := by
  refine tell_induct (P := fun e => e.now = d.now) c (fun _ _ _ h _ => h) ?_ l d rfl
  intro e a h
  rw [reset_eq]
  exact h

theorem command_quiet {d : Driver A} (hn : (d.pubs.map (·.1)).Nodup) (a : A) (ha : ∀ u, ¬ d.Active a u) (c : Command A)
    (hc : c ≠ .connect a) : Quiet a d (d.onCommand c) := by
  have hact : ∀ u, (a, PState.active u) ∉ d.pubs := fun u hm => ha u (lookup_of_mem hn hm)
  cases c with
  | shutdown => exact Quiet.refl a d
  | subscribe t =>
    simp only [Driver.onCommand, Driver.subscribe]
    split
    · exact Quiet.refl a d
    · have hs := tell_same (.subscribe t) d.pubs { d with topics := d.topics ++ [t] }
      refine ⟨tell_now _ _ _, hs.2.2.2.2.2.2.2.2.2.1, .inl (tell_other _ a _ _ _ rfl hact), ?_⟩
      rw [hs.2.2.2.2.1]; exact id
  | unsubscribe t =>
    simp only [Driver.onCommand, Driver.unsubscribe]
    split
    · have hs := tell_same (.unsubscribe t) d.pubs { d with topics := d.topics.filter (· ≠ t) }
      refine ⟨tell_now _ _ _, hs.2.2.2.2.2.2.2.2.2.1, .inl (tell_other _ a _ _ _ rfl hact), ?_⟩
      rw [hs.2.2.2.2.1]; exact id
    · exact Quiet.refl a d
  | connect b =>
    have hab : a ≠ b := by rintro rfl; exact hc rfl
    simp only [Driver.onCommand]
    split
    · exact Quiet.refl a d
    · rw [reset_eq]
      unfold Driver.connect
      split
      · exact ⟨rfl, rfl, .inl (lookup_insert_ne hab _ _), id⟩
      · refine ⟨rfl, rfl, .inl (lookup_insert_ne hab _ _), ?_⟩
        simp [hab]
  | disconnect b =>
    simp only [Driver.onCommand]
    split
    · rw [hangUp_eq]
      refine ⟨rfl, rfl, ?_, id⟩
      by_cases hab : a = b
      · subst hab; exact .inr (lookup_erase_self _ _)
      · exact .inl (lookup_erase_ne hab _)
    · exact Quiet.refl a d

theorem onConnection_now (d : Driver A) (order : List Str) (a : A) (via : HsEnv) (input : List ReadAns) :
    (d.onConnection order a via input).now = d.now ∧ (d.onConnection order a via input).opts = d.opts := by
  unfold Driver.onConnection
  split <;> exact ⟨rfl, rfl⟩

theorem mem_of_eraseIdx {l : List A} {i : Nat} {a : A} (h : a ∈ l.eraseIdx i) : a ∈ l :=
  (List.eraseIdx_sublist l i).subset h

theorem joinStep_quiet (d : Driver A) (a : A) (e : Env A) :
    Quiet a d (d.joinStep e).1 ∨ ∃ u, (d.joinStep e).1.Active a u := by
  unfold Driver.joinStep
  split
  · exact .inl (Quiet.refl a d)
  · split
    · exact .inl (Quiet.refl a d)
    · rename_i _ i out _ _ b hb
      split
      · exact .inl ⟨rfl, rfl, .inl rfl, mem_of_eraseIdx⟩
      · exact .inl (Quiet.refl a d)
      · exact .inl ⟨rfl, rfl, .inl rfl, mem_of_eraseIdx⟩
      · rename_i via input _
        obtain ⟨h1, h2⟩ := onConnection_now { d with tasks := d.tasks.eraseIdx i, keys := d.keys.filter (· ≠ b) } e.topicOrder b via input
        obtain ⟨-, -, -, h3, -⟩ := onConnection_same { d with tasks := d.tasks.eraseIdx i, keys := d.keys.filter (· ≠ b) } e.topicOrder b via input
        by_cases hab : a = b
        · subst hab
          right
          unfold Driver.onConnection
          simp only
          cases hl : lookup a d.pubs with
          | none => exact ⟨_, lookup_insert_self _ _ _⟩
          | some st =>
            cases st with
            | active u => exact ⟨u, hl⟩
            | inactive k => exact ⟨_, lookup_insert_self _ _ _⟩
        · left
          refine ⟨h1, h2, .inl ?_, by simp only; rw [h3]; exact mem_of_eraseIdx⟩
          unfold Driver.onConnection
          split
          · rfl
          · exact lookup_insert_ne hab _ _

theorem pollPub_now {x : A} {d d' : Driver A} {p : Bool} (hp : d.pollPub D x = .ok (d', p)) :
    d'.now = d.now ∧ d'.opts = d.opts := by
  unfold Driver.pollPub at hp
  split at hp
  · cases hp; exact ⟨rfl, rfl⟩
  · split at hp
    · cases hp; exact ⟨rfl, rfl⟩
    · split at hp
      · simp only at hp
        split at hp
        · cases hp; exact ⟨rfl, rfl⟩
        · cases hp
          unfold Driver.deliver
          split
          · exact ⟨rfl, rfl⟩
          · split <;> exact ⟨rfl, rfl⟩
      · cases hp; rw [reset_eq]; exact ⟨rfl, rfl⟩
      · cases hp; exact ⟨rfl, rfl⟩
  · rename_i b _
    cases hb : b.poll d.now with
    | panic => rw [hb] at hp; cases hp
    | ok y =>
      obtain ⟨o, b'⟩ := y
      rw [hb] at hp
      simp only [R.bind_ok, R.pure_eq] at hp
      cases o with
      | pending => cases hp; exact ⟨rfl, rfl⟩
      | item dl => cases hp; unfold Driver.connect; split <;> exact ⟨rfl, rfl⟩
      | ended => cases hp; exact ⟨rfl, rfl⟩

theorem pollPublishers_now (order : List A) {d d' : Driver A} {p : Bool} (hp : d.pollPublishers D order = .ok (d', p)) :
    d'.now = d.now ∧ d'.opts = d.opts := by
  induction order generalizing d p with
  | nil => simp only [Driver.pollPublishers] at hp; cases hp; exact ⟨rfl, rfl⟩
  | cons x xs ih =>
    simp only [Driver.pollPublishers] at hp
    cases h1 : d.pollPub D x with
    | panic => rw [h1] at hp; cases hp
    | ok y =>
      obtain ⟨d1, p1⟩ := y
      rw [h1] at hp
      simp only [R.bind_ok] at hp
      cases h2 : d1.pollPublishers D xs with
      | panic => rw [h2] at hp; cases hp
      | ok z =>
        obtain ⟨d2, p2⟩ := z
        rw [h2] at hp
        simp only [R.bind_ok, R.pure_eq] at hp
        cases hp
        obtain ⟨k1, k2⟩ := ih h2
        obtain ⟨k3, k4⟩ := pollPub_now h1
        exact ⟨k1.trans k3, k2.trans k4⟩

theorem command_now (d : Driver A) (c : Command A) : (d.onCommand c).now = d.now ∧ (d.onCommand c).opts = d.opts := by
  refine ⟨?_, (command_opts d c).1⟩
  cases c with
  | shutdown => rfl
  | subscribe t => simp only [Driver.onCommand, Driver.subscribe]; split; rfl; exact tell_now _ _ _
  | unsubscribe t => simp only [Driver.onCommand, Driver.unsubscribe]; split; exact tell_now _ _ _; rfl
  | connect b =>
    simp only [Driver.onCommand]
    split
    · rfl
    · rw [reset_eq]
      unfold Driver.connect
      split <;> rfl
  | disconnect b =>
    simp only [Driver.onCommand]
    split
    · rw [hangUp_eq]
    · rfl

theorem iter_now {d d' : Driver A} {e : Env A} {o : Out} (hp : d.iter D e = .ok (d', o)) :
    d'.now = d.now ∧ d'.opts = d.opts := by
  unfold Driver.iter at hp
  cases h1 : d.pollPublishers D e.order with
  | panic => rw [h1] at hp; cases hp
  | ok x =>
    obtain ⟨d1, p⟩ := x
    rw [h1] at hp
    simp only [R.bind_ok, R.pure_eq] at hp
    obtain ⟨k1, k2⟩ := pollPublishers_now e.order h1
    rw [← k1, ← k2]
    cases p with
    | true => simp only [if_true] at hp; cases hp; exact ⟨rfl, rfl⟩
    | false =>
      simp only [Bool.false_eq_true, if_false] at hp
      cases hc : d1.cmdq with
      | cons c q =>
        rw [hc] at hp
        cases hp
        exact command_now { d1 with cmdq := q, processed := d1.processed ++ [c] } c
      | nil =>
        rw [hc] at hp
        simp only [R.ok.injEq] at hp
        have : (d1.joinStep e).1.now = d1.now ∧ (d1.joinStep e).1.opts = d1.opts := by
          unfold Driver.joinStep
          split
          · exact ⟨rfl, rfl⟩
          · split
            · exact ⟨rfl, rfl⟩
            · split
              · exact ⟨rfl, rfl⟩
              · exact ⟨rfl, rfl⟩
              · exact ⟨rfl, rfl⟩
              · exact onConnection_now _ _ _ _ _
        rw [hp] at this
        exact this

/-- One iteration: nothing, or a retry. -/
theorem iter_retry {T0 n : Nat} {a : A} {d d' : Driver A} (hi : DInv L D d) (h : RInv T0 n a d) (e : Env A) (o : Out)
    (hp : d.iter D e = .ok (d', o)) (hcmd : ∀ c q, d.cmdq = c :: q → c ≠ .connect a) (hact : ∀ u, ¬ d'.Active a u) :
    (RInv T0 n a d' ∧ (a ∈ d'.tasks → a ∈ d.tasks)) ∨
    (RInv T0 (n + 1) a d' ∧ a ∉ d.tasks ∧ T0 + d.opts.initialBackoff * (2 ^ (n + 1) - 1) ≤ d.now) := by
  unfold Driver.iter at hp
  cases h1 : d.pollPublishers D e.order with
  | panic => rw [h1] at hp; cases hp
  | ok x =>
    obtain ⟨d1, p⟩ := x
    rw [h1] at hp
    simp only [R.bind_ok, R.pure_eq] at hp
    obtain ⟨r, hn, ho, hq1⟩ := pollPublishers_retry e.order h h1
    have hi1 : DInv L D d1 := hi.steps (pollPublishers_steps e.order d d1 p h1)
    -- what follows is quiet
    have fin : ∀ d2, Quiet a d1 d2 → (RInv T0 n a d2 ∧ (a ∈ d2.tasks → a ∈ d.tasks)) ∨
        (RInv T0 (n + 1) a d2 ∧ a ∉ d.tasks ∧ T0 + d.opts.initialBackoff * (2 ^ (n + 1) - 1) ≤ d.now) := by
      intro d2 q
      rcases r with ⟨r, hm⟩ | ⟨r, h1, h2, h3⟩
      · exact .inl ⟨r.quiet q, fun h => hm.1 (q.tasks h)⟩
      · exact .inr ⟨r.quiet q, h1, h3⟩
    have hna : ∀ u, ¬ d1.Active a u := by
      intro u hu
      have : RInv T0 n a d1 ∨ RInv T0 (n + 1) a d1 := r.imp (·.1) (·.1)
      rcases this with r | r <;> rcases r.st with h0 | ⟨b, h0, -⟩ <;>
        · rw [show lookup a d1.pubs = some (.active u) from hu] at h0; cases h0
    cases p with
    | true => simp only [if_true] at hp; cases hp; exact fin _ (Quiet.refl a _)
    | false =>
      simp only [Bool.false_eq_true, if_false] at hp
      cases hc : d1.cmdq with
      | cons c q =>
        rw [hc] at hp
        cases hp
        refine fin _ ?_
        have := command_quiet (d := { d1 with cmdq := q, processed := d1.processed ++ [c] }) hi1.nodup a hna c
          (hcmd c q (by rw [← hq1, hc]))
        exact ⟨this.now, this.opts, this.pubs, this.tasks⟩
      | nil =>
        rw [hc] at hp
        simp only [R.ok.injEq] at hp
        rcases joinStep_quiet d1 a e with q | ⟨u, hu⟩
        · rw [hp] at q; exact fin d' q
        · rw [hp] at hu; exact absurd hu (hact u)

theorem RInv.mono {T0 n m : Nat} {a : A} {d : Driver A} (h : RInv T0 n a d) (hm : m ≤ n) : RInv T0 m a d := by
  refine ⟨h.time, Nat.le_trans hm h.few, ?_⟩
  rcases h.st with h0 | ⟨b, h0, h1, h2, h3⟩
  · exact .inl h0
  · exact .inr ⟨b, h0, h1, Nat.le_trans hm h2, h3⟩

theorem call_quiet (d : Driver A) (a : A) (c : Call A) : Quiet a d (d.call c) := by
  have htry : ∀ (d : Driver A) c, Quiet a d (d.trySend c).2 := by
    intro d c; unfold Driver.trySend; split <;> exact ⟨rfl, rfl, .inl rfl, id⟩
  have hsend : ∀ (d : Driver A) c, Quiet a d (d.send c).2 := by
    intro d c; unfold Driver.send; split <;> exact ⟨rfl, rfl, .inl rfl, id⟩
  have tr : ∀ c, Quiet a d (d.ensureActive.trySend c).2 := fun c => by
    obtain ⟨h1, h2, h3, h4⟩ := htry d.ensureActive c
    exact ⟨h1, h2, h3, h4⟩
  have se : ∀ c, Quiet a d (d.ensureActive.send c).2 := fun c => by
    obtain ⟨h1, h2, h3, h4⟩ := hsend d.ensureActive c
    exact ⟨h1, h2, h3, h4⟩
  have rf : Quiet a d d.ensureActive := ⟨rfl, rfl, .inl rfl, id⟩
  cases c with
  | subscribe t => simp only [Driver.call, Driver.subscribeAsync]; split; exact rf; exact se _
  | trySubscribe t => simp only [Driver.call, Driver.trySubscribe]; split; exact rf; exact tr _
  | unsubscribe t => simp only [Driver.call, Driver.unsubscribeAsync]; split; exact rf; exact se _
  | tryUnsubscribe t => simp only [Driver.call, Driver.tryUnsubscribe]; split; exact rf; exact tr _
  | connect x => exact se _
  | tryConnect x => exact tr _
  | disconnect x => exact se _
  | tryDisconnect x => exact tr _
  | recv =>
    simp only [Driver.call, Driver.recv]
    split <;> exact ⟨rfl, rfl, .inl rfl, id⟩

/-- One action. -/
theorem act_retry {T0 n : Nat} {a : A} {d d' : Driver A} (hi : DInv L D d) (h : RInv T0 n a d) (x : Act A)
    (hp : d.act L D x = .ok d') (hcmd : ∀ c q, d.cmdq = c :: q → c ≠ .connect a) (hact : ∀ u, ¬ d'.Active a u) :
    d'.opts = d.opts ∧ ((RInv T0 n a d' ∧ (a ∈ d'.tasks → a ∈ d.tasks)) ∨
    (RInv T0 (n + 1) a d' ∧ a ∉ d.tasks ∧ T0 + d.opts.initialBackoff * (2 ^ (n + 1) - 1) ≤ d'.now)) := by
  have quiet : Quiet a d d' → d'.opts = d.opts ∧ ((RInv T0 n a d' ∧ (a ∈ d'.tasks → a ∈ d.tasks)) ∨
    (RInv T0 (n + 1) a d' ∧ a ∉ d.tasks ∧ T0 + d.opts.initialBackoff * (2 ^ (n + 1) - 1) ≤ d'.now)) :=
    fun q => ⟨q.opts, .inl ⟨h.quiet q, q.tasks⟩⟩
  cases x with
  | iter e =>
    simp only [Driver.act] at hp
    split at hp
    · cases h1 : d.iter D e with
      | panic => rw [h1] at hp; cases hp
      | ok y =>
        obtain ⟨d1, o⟩ := y
        rw [h1] at hp
        simp only [R.bind_ok, R.pure_eq] at hp
        cases hp
        have hnow : d1.now = d.now ∧ d1.opts = d.opts := by
          obtain ⟨k1, k2⟩ := iter_now h1
          exact ⟨k1, k2⟩
        refine ⟨hnow.2, ?_⟩
        rcases iter_retry hi h e o h1 hcmd hact with ⟨r, ht⟩ | ⟨r, h2, h3⟩
        · exact .inl ⟨r.quiet ⟨rfl, rfl, .inl rfl, id⟩, ht⟩
        · exact .inr ⟨r.quiet ⟨rfl, rfl, .inl rfl, id⟩, h2, by rw [show (Driver.now _) = d1.now from rfl, hnow.1]; exact h3⟩
    · cases hp; exact quiet (Quiet.refl a d)
  | session u e =>
    simp only [Driver.act] at hp
    split at hp <;> cases hp
    · exact quiet ⟨rfl, rfl, .inl rfl, id⟩
    · exact quiet (Quiet.refl a d)
  | advance dt =>
    cases hp
    exact ⟨rfl, .inl ⟨⟨Nat.le_trans h.time (Nat.le_add_right _ _), h.few, h.st⟩, id⟩⟩
  | call c =>
    simp only [Driver.act] at hp
    split at hp <;> cases hp
    · exact quiet (Quiet.refl a d)
    · exact quiet (call_quiet d a c)
  | dropSocket =>
    simp only [Driver.act] at hp
    split at hp <;> cases hp
    · exact quiet (Quiet.refl a d)
    · refine quiet ?_
      unfold Driver.dropSocket Driver.trySend
      split <;> exact ⟨rfl, rfl, .inl rfl, id⟩

theorem starts_spec {T0 : Nat} {a : A} (acts : List (Act A)) {n : Nat} {d e : Driver A} (hi : DInv L D d) (h : RInv T0 n a d)
    (hr : d.run L D acts = .ok e)
    (hno : ∀ pre x, pre <+: acts → d.run L D pre = .ok x → ∀ u, ¬ x.Active a u)
    (hcon : ∀ new, e.log = d.processed ++ new → .connect a ∉ new) :
    n + (Spec.starts L D a d acts).length ≤ 15 ∧ ∀ i t, (Spec.starts L D a d acts)[i]? = some t →
      T0 + d.opts.initialBackoff * (2 ^ (n + i + 1) - 1) ≤ t := by
  induction acts generalizing d n with
  | nil => exact ⟨h.few, fun i t ht => by simp [Spec.starts] at ht⟩
  | cons x xs ih =>
    simp only [Driver.run] at hr
    cases h1 : d.act L D x with
    | panic => rw [h1] at hr; cases hr
    | ok d1 =>
      rw [h1] at hr
      simp only [R.bind_ok] at hr
      have hs1 := act_steps (L := L) (D := D) d d1 x h1
      have hs2 := run_steps (L := L) (D := D) xs d1 e hr
      obtain ⟨l1, l2, -⟩ := hs1.log
      obtain ⟨l3, l4, -⟩ := hs2.log
      have hcmd : ∀ c q, d.cmdq = c :: q → c ≠ .connect a := by
        rintro c q hq rfl
        obtain ⟨r, hr⟩ := l1.trans l3
        refine hcon (d.cmdq ++ r) ?_ (by rw [hq]; simp)
        rw [← hr]
        simp [Driver.log]
      have hact : ∀ u, ¬ d1.Active a u := hno [x] d1 ⟨xs, rfl⟩ (by simp only [Driver.run, h1, R.bind_ok])
      obtain ⟨ho, hret⟩ := act_retry hi h x h1 hcmd hact
      have hno' : ∀ pre y, pre <+: xs → d1.run L D pre = .ok y → ∀ u, ¬ y.Active a u := by
        rintro pre y ⟨r, hpre⟩ hy
        refine hno (x :: pre) y ⟨r, by rw [← hpre]; rfl⟩ ?_
        simp only [Driver.run, h1, R.bind_ok]
        exact hy
      have hcon' : ∀ new, e.log = d1.processed ++ new → .connect a ∉ new := by
        intro new hn hm
        obtain ⟨r, hr⟩ := l2
        exact hcon (r ++ new) (by rw [hn, ← hr]; simp) (by simp [hm])
      simp only [Spec.starts, h1]
      rcases hret with ⟨r, ht⟩ | ⟨r, hnt, hb⟩
      · obtain ⟨k1, k2⟩ := ih (hi.steps hs1) r hr hno' hcon'
        rw [if_neg (fun hx => hx.1 (ht hx.2))]
        rw [ho] at k2
        exact ⟨k1, k2⟩
      · by_cases hst : a ∈ d1.tasks
        · obtain ⟨k1, k2⟩ := ih (hi.steps hs1) r hr hno' hcon'
          rw [if_pos ⟨hnt, hst⟩]
          refine ⟨by simp only [List.length_append, List.length_cons, List.length_nil]; omega, ?_⟩
          intro i t hit
          cases i with
          | zero => simp at hit; subst hit; exact hb
          | succ i =>
            simp only [List.singleton_append, List.getElem?_cons_succ] at hit
            have := k2 i t hit
            rw [ho] at this
            rw [show n + (i + 1) + 1 = n + 1 + i + 1 by omega]
            exact this
        · obtain ⟨k1, k2⟩ := ih (hi.steps hs1) (r.mono (Nat.le_succ n)) hr hno' hcon'
          rw [if_neg (fun hx => hst hx.2)]
          rw [ho] at k2
          exact ⟨k1, k2⟩

end MsgRs.Sub
