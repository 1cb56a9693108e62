import Verif.Proofs.ReqLive
import Verif.Proofs.ReqFlush
/-!
# Connection attempts of the request driver
-/
namespace MsgRs.Req
open MsgRs
variable {D : Decompressors}

theorem chans_of {s t : State} (h1 : t.conn = s.conn) (h2 : t.past = s.past) : t.chans = s.chans := by
  simp [State.chans, h1, h2]

/-- Connections are never forgotten. -/
theorem chans_step {s t : State} (h : Step D s t) : s.chans.length ≤ t.chans.length := by
  cases h with
  | write c wr he hc ht hw hb => simp [State.chans, hc]
  | connect task via input he hct hr => simp [State.chans]
  | backoff b b' he hc hp => simp [State.chans, hc]
  | taskStart b b' d ts he hc hp hts => simp [State.chans, hc]
  | giveUp b b' he hc hp => simp [State.chans, hc, State.terminate]
  | readItem c m rd input he hc hp =>
    obtain ⟨k1, -, -, -, -, k6, k7⟩ := onMessage_fields (D := D)
      { s with conn := .active { c with rd, input, polls := c.polls + 1, got := c.got ++ [m] } } m
    simp [State.chans, k1, k6, hc]
  | readIdle c rd input he hc hp => simp [State.chans, hc]
  | readErr c x rd input he hc hp => simp [State.chans, hc]
  | readEnd c rd input he hc hp => simp [State.chans, hc, State.terminate]
  | send c k m ms he hc hg => simp [State.chans, hc]
  | _ => exact Nat.le_refl _

theorem chans_steps {s t : State} (h : Steps D s t) : s.chans.length ≤ t.chans.length :=
  h.induct (P := fun u => s.chans.length ≤ u.chans.length) (fun _ _ hs h => Nat.le_trans h (chans_step hs)) (Nat.le_refl _)

/-- An iteration without a connection, in which none is made. -/
theorem iter_lone {s t : State} {e : Env} {o : Out} {b : Backoff} (he : s.ended = false) (hb : s.conn = .inactive b)
    (h : s.iter D e = .ok (t, o)) (hlen : t.chans.length = s.chans.length) :
    ∃ x b', b.poll s.now = .ok (x, b') ∧ t.now = s.now ∧ t.conn = .inactive b' ∧ t.chans = s.chans ∧
      ((x = .pending ∧ o = .pending ∧ t.tries = s.tries ∧ t.ended = false ∧ (t.connTask = true → s.connTask = true)) ∨
        (∃ d, x = .item d ∧ o = .pending ∧ t.ended = false ∧ t.connTask = true ∧
          (((s.connTask = true ∧ taskResult s.opts.token e.task = .ok none) ∧ t.tries = s.tries) ∨
            (¬(s.connTask = true ∧ taskResult s.opts.token e.task = .ok none) ∧ t.tries = s.tries ++ [s.now]))) ∨
        (x = .ended ∧ o = .ended ∧ t.tries = s.tries ∧ t.ended = true ∧ t.connTask = false)) := by
  have hfc := flushStep_ended s e
  have hfs : (s.flushStep e).conn = .inactive b ∧ (s.flushStep e).connTask = s.connTask ∧ (s.flushStep e).past = s.past ∧
      (s.flushStep e).tries = s.tries ∧ (s.flushStep e).opts = s.opts := by
    have hw : ∀ b t, s.wantFlush = (b, t) → ∃ f, t = { s with flushIv := f } := by
      intro b t h
      unfold State.wantFlush at h
      split at h
      · split at h
        · rename_i iv hiv
          rcases hi : iv.tick s.now with ⟨r, iv'⟩
          rw [hi] at h; cases h; exact ⟨some iv', rfl⟩
        · cases h; exact ⟨s.flushIv, rfl⟩
      · cases h; exact ⟨_, rfl⟩
    unfold State.flushStep
    rcases hq : s.wantFlush with ⟨r, u⟩
    obtain ⟨f, hu⟩ := hw r u hq
    subst hu
    cases r with
    | false => exact ⟨hb, rfl, rfl, rfl, rfl⟩
    | true => simp only [hb]; exact ⟨trivial, trivial, trivial, trivial, trivial⟩
  obtain ⟨f1, f2, f3, f4, f5⟩ := hfs
  unfold State.iter at h
  cases hu : (s.flushStep e).taskStep e with
  | panic => rw [hu] at h; cases h
  | ok u =>
    rw [hu] at h
    simp only [R.bind_ok, R.pure_eq] at h
    obtain ⟨g1, g2⟩ := taskStep_ended _ u e hu
    have hue : u.ended = false := by rw [g1, hfc.1, he]
    have hun : u.now = s.now := by rw [g2, hfc.2]
    have hu' : (u.conn = .inactive b ∧ u.past = s.past ∧ u.tries = s.tries ∧
        (u.connTask = true ↔ s.connTask = true ∧ taskResult s.opts.token e.task = .ok none)) ∨
        (∃ c, u.conn = .active c ∧ u.past = s.past) := by
      unfold State.taskStep at hu
      split at hu
      · cases hr : taskResult (s.flushStep e).opts.token e.task with
        | panic => rw [hr] at hu; cases hu
        | ok r =>
          rw [hr] at hu
          simp only [R.bind_ok, R.pure_eq] at hu
          rcases r with _ | (_ | ⟨via, input⟩)
          · cases hu; exact .inl ⟨f1, f3, f4, by rw [f2, ← f5, hr]; simp⟩
          · cases hu; exact .inl ⟨f1, f3, f4, by rw [← f5, hr]; simp⟩
          · cases hu
            exact .inr ⟨_, rfl, by simp [f1, f3]⟩
      · rename_i hnt
        cases hu; exact .inl ⟨f1, f3, f4, by rw [f2] at hnt ⊢; simp [hnt]⟩
    rcases hu' with ⟨hcn, h2, h3, h4⟩ | ⟨c, hcn, h2⟩
    · simp only [hcn] at h
      rw [hun] at h
      cases hp : b.poll s.now with
      | panic => rw [hp] at h; cases h
      | ok r =>
        obtain ⟨x, b'⟩ := r
        rw [hp] at h
        simp only [R.bind_ok] at h
        refine ⟨x, b', rfl, ?_⟩
        cases x with
        | pending =>
          cases h
          exact ⟨rfl, rfl, by simp [State.chans, h2, hb], .inl ⟨rfl, rfl, h3, hue, fun h => (h4.1 h).1⟩⟩
        | item d =>
          cases h
          rw [State.retry_eq]
          refine ⟨rfl, rfl, by simp [State.chans, h2, hb], .inr (.inl ⟨d, rfl, rfl, hue, rfl, ?_⟩)⟩
          by_cases hct : u.connTask = true
          · exact .inl ⟨h4.1 hct, by simp [hct, h3]⟩
          · exact .inr ⟨fun h => hct (h4.2 h), by simp [hct, h3, hun]⟩
        | ended =>
          cases h
          exact ⟨rfl, rfl, by simp [State.chans, h2, hb, State.terminate], .inr (.inr ⟨rfl, rfl, h3, rfl, rfl⟩)⟩
    · exfalso
      have hul : u.chans.length = s.chans.length + 1 := by simp [State.chans, hcn, h2, hb]
      have hst : Steps D u t := by
        simp only [hcn] at h
        cases hp : c.rd.pollNext ReqRep.codec c.input with
        | panic => rw [hp] at h; cases h
        | ok r =>
          obtain ⟨x, rd, input⟩ := r
          rw [hp] at h
          simp only [R.bind_ok] at h
          cases x with
          | item m => cases h; exact (Step.readItem u c m rd input hue hcn hp).steps
          | err x => cases h; exact (Step.readErr u c x rd input hue hcn hp).steps
          | ended => cases h; exact (Step.readEnd u c rd input hue hcn hp).steps
          | pending =>
            have h2 := (Step.readIdle (D := D) u c rd input hue hcn hp).steps
            have h3 := writeStep_steps u e { c with rd, input, polls := c.polls + 1 } c hue h2
            simp only [R.ok.injEq] at h
            rw [h] at h3
            exact h3
      have := chans_steps hst
      omega

/-- Since `t0`, when there were `n0` connections and the attempts `ts0` had been made: as long as no further
connection was made, the attempts since follow the schedule, and the timer is the one of the next attempt. -/
structure Retry (t0 n0 : Nat) (ts0 : List Nat) (s : State) : Prop where
  mono : n0 ≤ s.chans.length
  since : t0 ≤ s.now
  lone : s.chans.length = n0 → ∃ ts, s.tries = ts0 ++ ts ∧ ts.length ≤ 15 ∧
    (∀ i t, ts[i]? = some t → t0 + 20000000 * (2 ^ (i + 1) - 1) ≤ t ∧ t ≤ s.now) ∧
    (s.connTask = true → ts ≠ []) ∧
    (s.ended = false → ∃ b, s.conn = .inactive b ∧ b.Ok 20000000 16 ∧ (ts.length ≤ b.count ∧ b.count ≤ 15) ∧
      (∀ t, b.deadline = some t → t0 + 20000000 * (2 ^ (b.count + 1) - 1) ≤ t ∧ t ≤ s.now + b.cur) ∧
      (b.deadline = none → b.count = 0))

/-- Steps that leave the connection and the attempts alone. -/
theorem Retry.frame {t0 n0 ts0} {s t : State} (h : Retry t0 n0 ts0 s) (h1 : t.conn = s.conn) (h2 : t.past = s.past)
    (h3 : t.tries = s.tries) (h4 : s.now ≤ t.now) (h5 : t.ended = false → s.ended = false)
    (h6 : t.connTask = true → s.connTask = true) : Retry t0 n0 ts0 t := by
  have hc := chans_of h1 h2
  refine ⟨by rw [hc]; exact h.mono, Nat.le_trans h.since h4, fun hl => ?_⟩
  rw [hc] at hl
  obtain ⟨ts, k1, k2, k3, k4, k5⟩ := h.lone hl
  refine ⟨ts, h3.trans k1, k2, fun i t hi => ⟨(k3 i t hi).1, Nat.le_trans (k3 i t hi).2 h4⟩, fun h => k4 (h6 h), fun he => ?_⟩
  obtain ⟨b, b1, b2, b3, b4, b5⟩ := k5 (h5 he)
  exact ⟨b, h1.trans b1, b2, b3, fun t ht => ⟨(b4 t ht).1, by have := (b4 t ht).2; omega⟩, b5⟩

/-- Steps of a connection: there is one more than at `t0`. -/
theorem Retry.connected {t0 n0 ts0} {s t : State} (h : Retry t0 n0 ts0 s) (he : s.ended = false) {c : Chan} (hc : s.conn = .active c)
    (h1 : s.chans.length ≤ t.chans.length) (h4 : s.now ≤ t.now) : Retry t0 n0 ts0 t := by
  have : n0 < s.chans.length := by
    rcases Nat.lt_or_ge n0 s.chans.length with hl | hl
    · exact hl
    · obtain ⟨ts, -, -, -, -, k5⟩ := h.lone (Nat.le_antisymm hl h.mono)
      obtain ⟨b, b1, -⟩ := k5 he
      rw [hc] at b1; cases b1
  exact ⟨by omega, Nat.le_trans h.since h4, fun hl => by omega⟩

theorem Retry.step {t0 n0 ts0} {s t : State} (hs : Step D s t) (h : Retry t0 n0 ts0 s) : Retry t0 n0 ts0 t := by
  have hm := chans_step hs
  cases hs with
  | now dt => exact h.frame rfl rfl rfl (by simp) id id
  | misc b iv he => exact h.frame rfl rfl rfl (Nat.le_refl _) id id
  | taskGone he => exact h.frame rfl rfl rfl (Nat.le_refl _) id (by simp)
  | tick iv he ht => exact h.frame rfl rfl rfl (Nat.le_refl _) id id
  | command k payload q he hq => exact h.frame rfl rfl rfl (Nat.le_refl _) id id
  | close he hq hcl => exact h.frame rfl rfl rfl (Nat.le_refl _) (by simp [State.terminate]) (by simp [State.terminate])
  | request payload he hcl => exact h.frame rfl rfl rfl (Nat.le_refl _) id id
  | requestLate payload he hcl => exact h.frame rfl rfl rfl (Nat.le_refl _) id id
  | drop => exact h.frame rfl rfl rfl (Nat.le_refl _) id id
  | write c wr he hc => exact h.connected he hc hm (Nat.le_refl _)
  | readItem c m rd input he hc hp =>
    refine h.connected he hc hm ?_
    have := (onMessage_fields (D := D) { s with conn := .active { c with rd, input, polls := c.polls + 1, got := c.got ++ [m] } } m).2.2.2.2.1
    rw [this]
    exact Nat.le_refl _
  | readIdle c rd input he hc hp => exact h.connected he hc hm (Nat.le_refl _)
  | readErr c x rd input he hc hp => exact h.connected he hc hm (Nat.le_refl _)
  | readEnd c rd input he hc hp => exact h.connected he hc hm (Nat.le_refl _)
  | send c k m ms he hc hg => exact h.connected he hc hm (Nat.le_refl _)
  | connect task via input he hct hr =>
    refine ⟨by simp [State.chans] at *; have := h.mono; simp [State.chans] at this; omega, h.since, fun hl => ?_⟩
    exfalso
    have := h.mono
    have hx : ({ s with connTask := false, conn := .active (Chan.new s.opts.boundary via input), past := s.chans } : State).chans.length =
      s.chans.length + 1 := by simp [State.chans]; omega
    omega
  | backoff b b' he hc hp =>
    have hch : ({ s with conn := .inactive b' } : State).chans = s.chans := by simp [State.chans, hc]
    refine ⟨by rw [hch]; exact h.mono, h.since, fun hl => ?_⟩
    rw [hch] at hl
    obtain ⟨ts, k1, k2, k3, k4, k5⟩ := h.lone hl
    refine ⟨ts, k1, k2, k3, k4, fun _ => ⟨b', rfl, ?_⟩⟩
    obtain ⟨b0, b1, b2, b3, b4, b5⟩ := k5 he
    rw [hc] at b1
    cases b1
    rw [Backoff.poll_eq] at hp
    have b2' : ({ b with deadline := some (b.deadline.getD (s.now + b.cur)) } : Backoff).Ok 20000000 16 := ⟨b2.lim, b2.cur, b2.more⟩
    rcases Backoff.fire_spec (now := s.now) b2' rfl with ⟨hlt, hf⟩ | ⟨-, -, hf⟩ | ⟨-, -, x, hf⟩ | ⟨-, -, x, hf, -⟩
    · rw [hf] at hp
      cases hp
      refine ⟨b2', b3, ?_, (by intro h; cases h)⟩
      intro t ht
      simp only [Option.some.injEq] at ht
      cases hd : b.deadline with
      | some u => rw [hd] at ht; simp only [Option.getD_some] at ht; subst ht; exact b4 u hd
      | none =>
        rw [hd] at ht
        simp only [Option.getD_none] at ht
        have hz := b5 hd
        have hcu := b2.cur
        rw [hz] at hcu
        have := h.since
        simp only [hz]
        omega
    · rw [hf] at hp; cases hp
    · rw [hf] at hp; cases hp
    · rw [hf] at hp; cases hp
  | taskStart b b' d ts' he hc hp hts =>
    have hch : ({ s with conn := .inactive b', connTask := true, tries := ts' } : State).chans = s.chans := by
      simp [State.chans, hc]
    refine ⟨by rw [hch]; exact h.mono, h.since, fun hl => ?_⟩
    rw [hch] at hl
    obtain ⟨ts, k1, k2, k3, k4, k5⟩ := h.lone hl
    obtain ⟨b0, b1, b2, b3, b4, b5⟩ := k5 he
    rw [hc] at b1
    cases b1
    rw [Backoff.poll_eq] at hp
    have b2' : ({ b with deadline := some (b.deadline.getD (s.now + b.cur)) } : Backoff).Ok 20000000 16 := ⟨b2.lim, b2.cur, b2.more⟩
    rcases Backoff.fire_spec (now := s.now) b2' rfl with ⟨hlt, hf⟩ | ⟨-, -, hf⟩ | ⟨-, -, x, hf⟩ | ⟨hle, hcnt, x, hf, x1, x2, x3⟩
    · rw [hf] at hp; cases hp
    · rw [hf] at hp; cases hp
    · rw [hf] at hp; cases hp
    · rw [hf] at hp
      cases hp
      simp only at hcnt x2 x3 hle
      have hdl : t0 + 20000000 * (2 ^ (b.count + 1) - 1) ≤ s.now := by
        cases hd : b.deadline with
        | some u => rw [hd] at hle; exact Nat.le_trans (b4 u hd).1 hle
        | none =>
          rw [hd] at hle
          have hz := b5 hd
          have hcu := b2.cur
          rw [hz] at hcu
          have := h.since
          rw [hz]
          simp only [Option.getD_none] at hle
          omega
      have hlast : ∀ t, b'.deadline = some t → t0 + 20000000 * (2 ^ (b'.count + 1) - 1) ≤ t ∧ t ≤ s.now + b'.cur := by
        intro t ht
        rw [x3] at ht
        cases ht
        have hp2 : 2 ^ (b'.count + 1) = 2 * 2 ^ (b.count + 1) := by rw [x2, Nat.pow_succ, Nat.mul_comm]
        have hpos : 0 < 2 ^ (b.count + 1) := Nat.pow_pos (by omega)
        have hcu := x1.cur
        rw [x2] at hcu
        rw [hp2, hcu]
        constructor
        · omega
        · exact Nat.le_refl _
      have hnone : b'.deadline = none → b'.count = 0 := by intro hn; rw [x3] at hn; cases hn
      by_cases hct : s.connTask = true
      · rw [if_pos hct] at hts
        subst hts
        exact ⟨ts, k1, k2, k3, fun _ => k4 hct, fun _ => ⟨b', rfl, x1, by omega, hlast, hnone⟩⟩
      · rw [if_neg hct] at hts
        subst hts
        refine ⟨ts ++ [s.now], by simp [k1], by simp; omega, ?_, by simp, fun _ => ⟨b', rfl, x1, by simp; omega, hlast, hnone⟩⟩
        intro i t hi
        rcases Nat.lt_trichotomy i ts.length with hlt | heq | hgt
        · rw [List.getElem?_append_left hlt] at hi
          exact k3 i t hi
        · subst heq
          simp at hi
          subst hi
          have : 2 ^ (ts.length + 1) ≤ 2 ^ (b.count + 1) := Nat.pow_le_pow_right (by omega) (by omega)
          exact ⟨by omega, Nat.le_refl _⟩
        · rw [List.getElem?_eq_none (by simp; omega)] at hi
          cases hi
  | giveUp b b' he hc hp =>
    have hch : ({ s with conn := .inactive b' }.terminate : State).chans = s.chans := by simp [State.chans, hc, State.terminate]
    refine ⟨by rw [hch]; exact h.mono, h.since, fun hl => ?_⟩
    rw [hch] at hl
    obtain ⟨ts, k1, k2, k3, k4, k5⟩ := h.lone hl
    exact ⟨ts, k1, k2, k3, by simp [State.terminate], by simp [State.terminate]⟩

theorem Retry.steps {t0 n0 ts0} {s t : State} (hs : Steps D s t) (h : Retry t0 n0 ts0 s) : Retry t0 n0 ts0 t :=
  hs.induct (fun _ _ hs h => h.step hs) h

/-- A driver that has just lost its connection, or just been made. -/
theorem Retry.fresh {s : State} (h : s.conn = .inactive backoff0) (ht : s.connTask = false) :
    Retry s.now s.chans.length s.tries s :=
  ⟨Nat.le_refl _, Nat.le_refl _, fun _ => ⟨[], by simp, by simp, by simp, by simp [ht],
    fun _ => ⟨backoff0, h, backoff0_ok, ⟨Nat.le_refl _, by decide⟩, (by intro t ht; cases ht), fun _ => rfl⟩⟩⟩

/-- An iteration in which a connection was lost. -/
theorem iter_lost {s t : State} {e : Env} {o : Out} (hi : Inv D s) (he : s.ended = false) (h : s.iter D e = .ok (t, o))
    (hl : s.past.length < t.past.length) : t.conn = .inactive backoff0 ∧ t.connTask = false ∧ t.ended = false ∧ o = .again ∧
      t.now = s.now := by
  have hfc := flushStep_ended s e
  unfold State.iter at h
  cases hu : (s.flushStep e).taskStep e with
  | panic => rw [hu] at h; cases h
  | ok u =>
    rw [hu] at h
    simp only [R.bind_ok, R.pure_eq] at h
    obtain ⟨g1, g2⟩ := taskStep_ended _ u e hu
    have hue : u.ended = false := by rw [g1, hfc.1, he]
    have hun : u.now = s.now := by rw [g2, hfc.2]
    have h1 : Inv D u := ((flushStep_steps s e he).trans (taskStep_steps _ u e (hfc.1.trans he) hu)).inv hi
    have hf : Inv D (s.flushStep e) := (flushStep_steps s e he).inv hi
    have hfp : (s.flushStep e).past = s.past := by
      have hw : ∀ b t, s.wantFlush = (b, t) → t.past = s.past := by
        intro b t h
        unfold State.wantFlush at h
        split at h
        · split at h
          · rename_i iv hiv
            rcases hi : iv.tick s.now with ⟨r, iv'⟩
            rw [hi] at h; cases h; rfl
          · cases h; rfl
        · cases h; rfl
      unfold State.flushStep
      rcases hq : s.wantFlush with ⟨r, v⟩
      have := hw r v hq
      cases r with
      | false => exact this
      | true =>
        simp only
        split
        · split <;> exact this
        · exact this
    have hup : u.past = s.past := by
      unfold State.taskStep at hu
      split at hu
      · rename_i hct
        cases hr : taskResult (s.flushStep e).opts.token e.task with
        | panic => rw [hr] at hu; cases hu
        | ok r =>
          rw [hr] at hu
          simp only [R.bind_ok, R.pure_eq] at hu
          rcases r with _ | (_ | ⟨via, input⟩)
          · cases hu; exact hfp
          · cases hu; exact hfp
          · cases hu
            obtain ⟨b, hb⟩ := (hf.back (hfc.1.trans he)).2 hct
            simp only [hb]
            exact hfp
      · cases hu; exact hfp
    cases hcn : u.conn with
    | inactive b =>
      exfalso
      simp only [hcn] at h
      cases hb : b.poll u.now with
      | panic => rw [hb] at h; cases h
      | ok r =>
        obtain ⟨x, b'⟩ := r
        rw [hb] at h
        simp only [R.bind_ok] at h
        cases x with
        | pending => cases h; simp only [hup] at hl; omega
        | item d => cases h; rw [State.retry_eq] at hl; simp only [hup] at hl; omega
        | ended => cases h; simp only [State.terminate, hup] at hl; omega
    | active c =>
      have hct : u.connTask = false := by
        cases hb : u.connTask with
        | false => rfl
        | true =>
          obtain ⟨b, hb⟩ := (h1.back hue).2 hb
          rw [hcn] at hb; cases hb
      simp only [hcn] at h
      cases hp : c.rd.pollNext ReqRep.codec c.input with
      | panic => rw [hp] at h; cases h
      | ok r =>
        obtain ⟨x, rd, input⟩ := r
        rw [hp] at h
        simp only [R.bind_ok] at h
        cases x with
        | item m =>
          cases h
          have := (onMessage_fields (D := D) { u with conn := .active { c with rd, input, polls := c.polls + 1, got := c.got ++ [m] } } m).2.2.2.2.2.1
          rw [this] at hl
          simp only [hup] at hl
          omega
        | err x => cases h; exact ⟨rfl, hct, hue, rfl, hun⟩
        | ended => cases h; simp only [State.terminate, hup] at hl; omega
        | pending =>
          simp only [R.ok.injEq] at h
          obtain ⟨c', k1, k2, k3, k4, k5, k6, k7, k8, k9, k10⟩ :=
            writeStep_fields u e { c with rd, input, polls := c.polls + 1 }
          rw [h] at k9
          rw [k9, hup] at hl
          omega

end MsgRs.Req
