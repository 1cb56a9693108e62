import Verif.Model.Backoff
/-!
# The exponential backoff
-/
namespace MsgRs

/-- A backoff that was created with `initial` and `max` and has not ended. -/
structure Backoff.Ok (initial max : Nat) (b : Backoff) : Prop where
  lim : b.max = max
  cur : b.cur = initial * 2 ^ b.count
  more : b.count = 0 ∨ b.count < max

theorem Backoff.new_ok (initial max : Nat) : (Backoff.new initial max).Ok initial max :=
  ⟨rfl, by simp [Backoff.new], .inl rfl⟩

/-- One poll, at time `now`, of a backoff whose timer expires at `t`. -/
theorem Backoff.fire_spec {initial max now t : Nat} {b : Backoff} (h : b.Ok initial max) (hd : b.deadline = some t) :
    (now < t ∧ b.fire now t = .ok (.pending, b)) ∨
    (t ≤ now ∧ Duration.max < initial * 2 ^ (b.count + 1) ∧ b.fire now t = .panic) ∨
    (t ≤ now ∧ max ≤ b.count + 1 ∧ ∃ b', b.fire now t = .ok (.ended, b')) ∨
    (t ≤ now ∧ b.count + 1 < max ∧ ∃ b' : Backoff, b.fire now t = .ok (.item (initial * 2 ^ (b.count + 1)), b') ∧
      b'.Ok initial max ∧ b'.count = b.count + 1 ∧ b'.deadline = some (now + initial * 2 ^ (b.count + 1))) := by
  have hc : b.cur * 2 = initial * 2 ^ (b.count + 1) := by rw [h.cur, Nat.pow_succ, Nat.mul_assoc]
  unfold Backoff.fire
  by_cases h1 : t ≤ now
  · right
    simp only [h1, if_true, hc]
    by_cases h2 : Duration.max < initial * 2 ^ (b.count + 1)
    · left; simp [h2]
    · right
      simp only [h2, if_false]
      by_cases h3 : max ≤ b.count + 1
      · left
        refine ⟨trivial, h3, ?_⟩
        rw [if_pos (by rw [h.lim]; exact h3)]
        exact ⟨_, rfl⟩
      · right
        refine ⟨trivial, by omega, ?_⟩
        rw [if_neg (by rw [h.lim]; exact h3)]
        exact ⟨_, rfl, ⟨h.lim, rfl, .inr (by simp only; omega)⟩, rfl, rfl⟩
  · left
    exact ⟨by omega, by simp [h1]⟩

/-- `poll` in terms of `fire`. -/
theorem Backoff.poll_eq (b : Backoff) (now : Nat) :
    b.poll now = { b with deadline := some (b.deadline.getD (now + b.cur)) }.fire now (b.deadline.getD (now + b.cur)) := by
  unfold Backoff.poll
  obtain ⟨count, max, cur, deadline⟩ := b
  cases deadline <;> rfl

theorem Backoff.poll_ok {initial max now : Nat} {b : Backoff} (h : b.Ok initial max)
    (hmax : initial * 2 ^ (b.count + 1) ≤ Duration.max) :
    ∃ o b', b.poll now = .ok (o, b') ∧ (o ≠ .ended → b'.Ok initial max) := by
  rw [Backoff.poll_eq]
  have h' : ({ b with deadline := some (b.deadline.getD (now + b.cur)) } : Backoff).Ok initial max := ⟨h.lim, h.cur, h.more⟩
  rcases Backoff.fire_spec (now := now) h' rfl with ⟨-, hf⟩ | ⟨-, hx, -⟩ | ⟨-, -, b', hf⟩ | ⟨-, -, b', hf, hok, -⟩
  · exact ⟨_, _, hf, fun _ => h'⟩
  · simp only at hx; omega
  · exact ⟨_, _, hf, fun h => absurd rfl h⟩
  · exact ⟨_, _, hf, fun _ => hok⟩

end MsgRs
