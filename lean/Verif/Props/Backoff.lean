import Verif.Spec.Backoff
import Verif.Proofs.Backoff
/-!
# Property C37: the reconnection backoff
-/
namespace MsgRs.Props
open MsgRs

/-- The end of the current delay: that of the last expiry `x`, or of the last one after it. -/
def Spec.expiry (x : Nat × Nat) (fired : List (Nat × Nat)) : Nat :=
  (fired.getLast?.getD x).1 + (fired.getLast?.getD x).2

/-- Consecutive expiries, the first after `x`, are at least the delays apart. -/
def Spec.Spaced : Nat × Nat → List (Nat × Nat) → Prop
  | _, [] => True
  | x, y :: l => x.1 + x.2 ≤ y.1 ∧ Spec.Spaced y l

theorem polls_spec {initial max : Nat} (ts : List Nat) (b : Backoff) (hb : b.Ok initial max) (x : Nat × Nat)
    (hd : b.deadline = some (x.1 + x.2)) (hx : b.cur ≤ x.1 + x.2) (hts : ∀ t ∈ ts, t ≤ Duration.max / 2) :
    ∃ outs n, b.polls ts = .ok outs ∧
      delaysOf outs = (List.range n).map (fun i => initial * 2 ^ (b.count + i + 1)) ∧
      (n = 0 ∨ b.count + n < max) ∧
      ((∃ t, (t, BOut.ended) ∈ outs) → max ≤ b.count + n + 1) ∧
      (∃ rest, outs.map (·.1) ++ rest = ts ∧ (rest = [] ∨ ∃ t, (t, BOut.ended) ∈ outs)) ∧
      Spec.Spaced x (firedOf outs) ∧
      ∀ pre t post, outs = pre ++ (t, BOut.pending) :: post → t < Spec.expiry x (firedOf pre) := by
  induction ts generalizing b x with
  | nil => exact ⟨[], 0, rfl, rfl, .inl rfl, by simp, ⟨[], rfl, .inl rfl⟩, by simp [firedOf, Spec.Spaced], by simp⟩
  | cons t ts ih =>
    have hpe : b.poll t = b.fire t (x.1 + x.2) := by simp [Backoff.poll, hd]
    rcases Backoff.fire_spec (now := t) hb hd with ⟨hlt, hf⟩ | ⟨hle, hpanic, -⟩ | ⟨hle, hmax, b', hf⟩ | ⟨hle, hmax, b', hf, hok, hcount, hdl⟩
    · obtain ⟨outs, n, h1, h2, h3, h4, ⟨rest, h5, h5'⟩, h6, h7⟩ := ih b hb x hd hx (fun u hu => hts u (by simp [hu]))
      refine ⟨(t, .pending) :: outs, n, ?_, ?_, h3, ?_, ?_, ?_, ?_⟩
      · simp only [Backoff.polls, hpe, hf, R.bind_ok, h1, R.pure_eq]
      · simpa [delaysOf] using h2
      · rintro ⟨u, hu⟩
        simp only [List.mem_cons, Prod.mk.injEq, reduceCtorEq, and_false, false_or] at hu
        exact h4 ⟨u, hu⟩
      · refine ⟨rest, by simp [h5], ?_⟩
        rcases h5' with h | ⟨u, hu⟩
        · exact .inl h
        · exact .inr ⟨u, by simp [hu]⟩
      · simpa [firedOf] using h6
      · intro pre u post he
        cases pre with
        | nil => cases he; simpa [firedOf, Spec.expiry] using hlt
        | cons y pre =>
          simp only [List.cons_append, List.cons.injEq] at he
          obtain ⟨rfl, he⟩ := he
          have := h7 pre u post he
          simpa [firedOf] using this
    · exfalso
      have hcur : b.cur * 2 = initial * 2 ^ (b.count + 1) := by rw [hb.cur, Nat.pow_succ, Nat.mul_assoc]
      have := hts t (by simp)
      omega
    · refine ⟨[(t, .ended)], 0, ?_, rfl, .inl rfl, fun _ => hmax, ⟨ts, rfl, .inr ⟨t, by simp⟩⟩, ?_, ?_⟩
      · simp only [Backoff.polls, hpe, hf, R.bind_ok, R.pure_eq]
      · simp [firedOf, hle, Spec.Spaced]
      · intro pre u post he
        cases pre with
        | nil => cases he
        | cons y pre => simp at he
    · have hcur : b'.cur = initial * 2 ^ (b.count + 1) := by rw [hok.cur, hcount]
      obtain ⟨outs, n, h1, h2, h3, h4, ⟨rest, h5, h5'⟩, h6, h7⟩ := ih b' hok (t, initial * 2 ^ (b.count + 1)) hdl
        (by simp only; omega) (fun u hu => hts u (by simp [hu]))
      rw [hcount] at h2 h3 h4
      refine ⟨(t, .item (initial * 2 ^ (b.count + 1))) :: outs, n + 1, ?_, ?_, ?_, ?_, ?_, ?_, ?_⟩
      · simp only [Backoff.polls, hpe, hf, R.bind_ok, h1, R.pure_eq]
      · have e : delaysOf ((t, .item (initial * 2 ^ (b.count + 1))) :: outs) = initial * 2 ^ (b.count + 1) :: delaysOf outs := rfl
        rw [e, h2, List.range_succ_eq_map]
        simp only [List.map_cons, List.map_map, Nat.add_zero, List.cons.injEq, true_and]
        apply List.map_congr_left
        intro i _
        simp only [Function.comp]
        congr 2
        omega
      · right
        rcases h3 with rfl | h3 <;> omega
      · rintro ⟨u, hu⟩
        simp only [List.mem_cons, Prod.mk.injEq, reduceCtorEq, and_false, false_or] at hu
        have := h4 ⟨u, hu⟩
        omega
      · refine ⟨rest, by simp [h5], ?_⟩
        rcases h5' with h | ⟨u, hu⟩
        · exact .inl h
        · exact .inr ⟨u, by simp [hu]⟩
      · have e : firedOf ((t, .item (initial * 2 ^ (b.count + 1))) :: outs) = (t, initial * 2 ^ (b.count + 1)) :: firedOf outs := rfl
        rw [e]
        exact ⟨hle, h6⟩
      · intro pre u post he
        cases pre with
        | nil => cases he
        | cons y pre =>
          simp only [List.cons_append, List.cons.injEq] at he
          obtain ⟨rfl, he⟩ := he
          have := h7 pre u post he
          have e : firedOf ((t, .item (initial * 2 ^ (b.count + 1))) :: pre) = (t, initial * 2 ^ (b.count + 1)) :: firedOf pre := rfl
          rw [e]
          unfold Spec.expiry at this ⊢
          rw [List.getLast?_cons]
          simpa using this

/-- C37: poll a backoff with any initial delay and maximum at any times (within the first 292 billion years).
It never panics; the delays it yields are `initial * 2`, `initial * 4`, …; there are at most `max - 1` of them; it
ends only after exactly that many; it is polled until it ends. Between two expiries at least the delay yielded
at the first passes (and `initial` before the first one), and a poll that finds the current delay over does
not return `Pending`. -/
theorem C37_backoff_schedule (initial max t0 : Nat) (ts : List Nat) (hts : ∀ t ∈ t0 :: ts, t ≤ Duration.max / 2) :
    ∃ outs n, (Backoff.new initial max).polls (t0 :: ts) = .ok outs ∧
      delaysOf outs = (List.range n).map (fun i => initial * 2 ^ (i + 1)) ∧ n ≤ max - 1 ∧
      ((∃ t, (t, BOut.ended) ∈ outs) → n = max - 1) ∧
      (∃ rest, outs.map (·.1) ++ rest = t0 :: ts ∧ (rest = [] ∨ ∃ t, (t, BOut.ended) ∈ outs)) ∧
      Spec.Spaced (t0, initial) (firedOf outs) ∧
      ∀ pre t post, outs = pre ++ (t, BOut.pending) :: post → t < Spec.expiry (t0, initial) (firedOf pre) := by
  have hok : ({ Backoff.new initial max with deadline := some (t0 + initial) } : Backoff).Ok initial max :=
    ⟨rfl, by simp [Backoff.new], .inl rfl⟩
  obtain ⟨outs, n, h1, h2, h3, h4, h5, h6, h7⟩ := polls_spec (t0 :: ts) _ hok (t0, initial) rfl
    (by simp [Backoff.new]) hts
  have hn : n ≤ max - 1 := by
    simp only [Backoff.new] at h3
    rcases h3 with rfl | h3 <;> omega
  refine ⟨outs, n, h1, ?_, hn, ?_, h5, h6, h7⟩
  · rw [h2]
    apply List.map_congr_left
    intro i _
    simp [Backoff.new]
  · intro he
    have := h4 he
    simp only [Backoff.new] at this
    omega

/-- Initial delay 10, three attempts. -/
example : (Backoff.new 10 3).polls [0, 5, 10, 29, 31, 70, 71, 75, 80] =
    .ok [(0, .pending), (5, .pending), (10, .item 20), (29, .pending), (31, .item 40), (70, .pending), (71, .ended)] := rfl

end MsgRs.Props
