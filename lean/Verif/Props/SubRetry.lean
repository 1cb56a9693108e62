import Verif.Proofs.SubTimers
import Verif.Spec.SubRuns
/-!
# C77: connection attempts of a subscriber are retried
-/
namespace MsgRs.Props
open MsgRs MsgRs.Sub
variable {A : Type} [DecidableEq A]

/-- C77, the schedule: the driver handles a connect command for an endpoint it does not know. Then until a connection
to it is made (and unless the user connects to it again), whatever happens: at most 15 more attempts are started, and
the `i`-th of them (from 0) not before `initial_backoff * (2 ^ (i + 1) - 1)` from now. -/
theorem C77_schedule (L : Lossy) (D : Decompressors) (d e : Driver A) (h : Reach L D d) (a : A)
    (hunknown : lookup a d.pubs = none) (acts : List (Act A)) (hr : (d.onCommand (.connect a)).run L D acts = .ok e)
    (hno : ∀ pre x, pre <+: acts → (d.onCommand (.connect a)).run L D pre = .ok x → ∀ u, ¬ x.Active a u)
    (hcon : ∀ new, e.processed ++ e.cmdq = d.processed ++ new → .connect a ∉ new) :
    (Spec.starts L D a (d.onCommand (.connect a)) acts).length ≤ 15 ∧
    ∀ i t, (Spec.starts L D a (d.onCommand (.connect a)) acts)[i]? = some t →
      d.now + d.opts.initialBackoff * (2 ^ (i + 1) - 1) ≤ t := by
  have hi := h.inv.command (.connect a)
  obtain ⟨hn, ho⟩ := command_now d (.connect a)
  have hl : lookup a (d.onCommand (.connect a)).pubs = some (.inactive (Backoff.new d.opts.initialBackoff 16)) := by
    simp only [Driver.onCommand, hunknown]
    simp only [Option.isSome_none, Bool.false_eq_true, if_false]
    rw [reset_eq]
    simp only [lookup_insert_self]
    unfold Driver.connect
    split <;> rfl
  have hrinv : RInv d.now 0 a (d.onCommand (.connect a)) := by
    refine ⟨by rw [hn]; exact Nat.le_refl _, by omega, .inr ⟨_, hl, by rw [ho]; exact Backoff.new_ok _ _, by simp, ?_, ?_⟩⟩
    · intro _; rfl
    · intro t ht; cases ht
  have hp := (onCommand_same d (.connect a)).1
  obtain ⟨h1, h2⟩ := starts_spec acts hi hrinv hr hno (by rw [hp]; exact hcon)
  rw [ho] at h2
  refine ⟨by omega, fun i t hit => ?_⟩
  have := h2 i t hit
  rw [Nat.zero_add] at this
  exact this

/-- C77: the first attempt is made at once (unless one is still under way from before). -/
theorem C77_at_once (d : Driver A) (a : A) (hunknown : lookup a d.pubs = none) (hk : a ∉ d.keys) :
    (d.onCommand (.connect a)).tasks = d.tasks ++ [a] := by
  simp only [Driver.onCommand, hunknown, Option.isSome_none, Bool.false_eq_true, if_false]
  rw [reset_eq]
  simp [Driver.connect, hk]

/-- C77, nothing is forgotten: whenever the driver goes idle, for every endpoint it knows and is not connected to, a
timer is set for some later time, at most `initial_backoff * 2 ^ 15` away. -/
theorem C77_timer_set (L : Lossy) (D : Decompressors) (opts : Options) (now : Nat) (acts : List (Act A))
    (d0 d e : Driver A) (h0 : Driver.new opts now = .ok d0) (h : d0.run L D acts = .ok d)
    (hb : opts.initialBackoff * 2 ^ 16 ≤ Duration.max) (env : Env A) (hp : d.iter D env = .ok (e, .pending))
    (a : A) (ha : a ∈ env.order) (b : Backoff) (hl : lookup a e.pubs = some (.inactive b)) :
    ∃ t, b.deadline = some t ∧ e.now < t ∧ t ≤ e.now + opts.initialBackoff * 2 ^ 15 := by
  have hbi : BInv d ∧ d.opts = opts := by
    unfold Driver.new at h0
    split at h0
    · cases h0
    · cases h0
      obtain ⟨d', h', h1, h2⟩ := run_binv (L := L) (D := D) acts (d := { opts, now }) (fun a b h => by cases h) hb
      rw [h] at h'
      cases h'
      exact ⟨h1, h2⟩
  have ht0 : Timely d0 := by
    unfold Driver.new at h0
    split at h0
    · cases h0
    · cases h0; intro x b t hx; cases hx
  have ht : Timely e := (run_steps acts d0 d h).trans (diter_steps (L := L) d e env _ hp) |>.induct Timely.step ht0
  obtain ⟨e', o', hp', hbe, hoe⟩ := iter_binv (D := D) hbi.1 (by rw [hbi.2]; exact hb) env
  rw [hp] at hp'
  cases hp'
  have harm : Armed a e := by
    unfold Driver.iter at hp
    cases h1 : d.pollPublishers D env.order with
    | panic => rw [h1] at hp; cases hp
    | ok x =>
      obtain ⟨d1, p⟩ := x
      rw [h1] at hp
      simp only [R.bind_ok, R.pure_eq] at hp
      cases p with
      | true => simp only [if_true] at hp; cases hp
      | false =>
        have har := pollPublishers_armed env.order h1 (.inl ha)
        simp only [Bool.false_eq_true, if_false] at hp
        cases hc : d1.cmdq with
        | cons c q => rw [hc] at hp; cases hp
        | nil =>
          rw [hc] at hp
          simp only [R.ok.injEq] at hp
          unfold Driver.joinStep at hp
          split at hp
          · cases hp; exact har
          · split at hp
            · cases hp; exact har
            · split at hp <;> cases hp <;> exact har
  obtain ⟨t, k1, k2⟩ := harm b hl
  refine ⟨t, k1, k2, Nat.le_trans (ht a b t hl k1) ?_⟩
  obtain ⟨m1, m2, m3⟩ := hbe a b hl
  rw [m2, hoe, hbi.2]
  refine Nat.add_le_add_left (Nat.mul_le_mul_left _ (Nat.pow_le_pow_right (by omega) ?_)) _
  rcases m3 with m3 | m3 <;> omega

/-- C77: when that time has come, the driver starts an attempt, unless 15 timers have run out before or an attempt is still under way. -/
theorem C77_retried (L : Lossy) (D : Decompressors) (opts : Options) (now : Nat) (acts : List (Act A))
    (d0 d e : Driver A) (h0 : Driver.new opts now = .ok d0) (h : d0.run L D acts = .ok d)
    (hb : opts.initialBackoff * 2 ^ 16 ≤ Duration.max) (a : A) (b : Backoff) (t : Nat)
    (hl : lookup a d.pubs = some (.inactive b)) (hd : b.deadline = some t) (ht : t ≤ d.now) (hc : b.count < 15)
    (hk : a ∉ d.keys) (env : Env A) (ha : a ∈ env.order) (o : Out) (hp : d.iter D env = .ok (e, o)) :
    o = .again ∧ a ∈ e.tasks := by
  have hbi : BInv d ∧ d.opts = opts := by
    unfold Driver.new at h0
    split at h0
    · cases h0
    · cases h0
      obtain ⟨d', h', h1, h2⟩ := run_binv (L := L) (D := D) acts (d := { opts, now }) (fun a b h => by cases h) hb
      rw [h] at h'
      cases h'
      exact ⟨h1, h2⟩
  unfold Driver.iter at hp
  cases h1 : d.pollPublishers D env.order with
  | panic => rw [h1] at hp; cases hp
  | ok x =>
    obtain ⟨d1, p⟩ := x
    rw [h1] at hp
    simp only [R.bind_ok, R.pure_eq] at hp
    obtain ⟨k1, k2⟩ := pollPublishers_due (hbi.1 a b hl) hc hd env.order ht hk hl ha h1
    subst k2
    simp only [if_true] at hp
    cases hp
    exact ⟨rfl, k1⟩

/-- The user connects; each attempt fails at once. -/
def refused : List (Act Nat) :=
  [.call (.connect 5), .iter ⟨[], [], none⟩, .iter ⟨[5], [], some (0, .failed)⟩, .iter ⟨[5], [], none⟩]

/-- 100 ms pass, then 200 ms, …: each time another attempt is started and refused. -/
def retries (n : Nat) : List (Act Nat) :=
  (List.range n).flatMap fun i =>
    [.advance (100000000 * 2 ^ i), .iter ⟨[5], [], none⟩, .iter ⟨[5], [], some (0, .failed)⟩, .iter ⟨[5], [], none⟩]

/-- The hypotheses are met: after 15 retries, the last at `100 ms * (2 ^ 15 - 1)`, the endpoint is forgotten when the
last timer runs out. -/
example : after {} refused (fun d => decide ((Spec.starts Lossy.strict noDec 5 d (retries 20)) =
      (List.range 15).map fun i => 100000000 * (2 ^ (i + 1) - 1))) = true ∧
    after {} (refused ++ retries 15) (fun d => decide (d.pubs.map (·.1) = [5]) && decide (d.tasks = [])) = true ∧
    after {} (refused ++ retries 16) (fun d => decide (d.pubs = []) && decide (d.tasks = [])) = true := by decide +kernel

end MsgRs.Props
