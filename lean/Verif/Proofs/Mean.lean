/-!
# The running averages kept in the statistics
-/
namespace MsgRs

/-- `x` is at most the mean of `l`, and lower by no more than `(n - 1) / 2` for `n` values. -/
structure MeanOf (l : List Nat) (x : Nat) : Prop where
  le : x * l.length ≤ l.sum
  close : 2 * l.sum ≤ 2 * x * l.length + l.length * (l.length - 1)

theorem MeanOf.nil (x : Nat) : MeanOf [] x := ⟨by simp, by simp⟩

theorem MeanOf.step {l : List Nat} {x : Nat} (h : MeanOf l x) (y : Nat) :
    MeanOf (l ++ [y]) ((y + l.length * x) / (l.length + 1)) := by
  obtain ⟨h1, h2⟩ := h
  have hd := Nat.div_add_mod (y + l.length * x) (l.length + 1)
  have hm := Nat.mod_lt (y + l.length * x) (Nat.succ_pos l.length)
  generalize (y + l.length * x) / (l.length + 1) = z at hd ⊢
  generalize (y + l.length * x) % (l.length + 1) = r at hd hm
  constructor
  · simp only [List.length_append, List.length_singleton, List.sum_append, List.sum_singleton]
    rw [Nat.mul_comm z]
    rw [Nat.mul_comm x] at h1
    omega
  · simp only [List.length_append, List.length_singleton, List.sum_append, List.sum_singleton, Nat.add_sub_cancel]
    have e1 : 2 * z * (l.length + 1) = 2 * ((l.length + 1) * z) := by rw [Nat.mul_assoc, Nat.mul_comm z]
    have e2 : (l.length + 1) * l.length = l.length * (l.length - 1) + 2 * l.length := by
      cases l.length with
      | zero => rfl
      | succ n => simp only [Nat.add_sub_cancel, Nat.add_mul, Nat.mul_add]; omega
    have e3 : 2 * x * l.length = 2 * (l.length * x) := by rw [Nat.mul_assoc, Nat.mul_comm x]
    rw [e1, e2]
    rw [e3] at h2
    simp only [Nat.succ_eq_add_one] at hm
    omega

/-- As long as the values add up to less than `2 ^ 64`, the computation in 64 bits does not wrap. -/
theorem MeanOf.no_wrap {l : List Nat} {x y : Nat} (h : MeanOf l x) (hs : (l ++ [y]).sum < 2 ^ 64) : (y + l.length * x) % 2 ^ 64 = y + l.length * x := by
  refine Nat.mod_eq_of_lt ?_
  have := h.le
  rw [List.sum_append, List.sum_singleton] at hs
  rw [Nat.mul_comm]
  omega

theorem sum_of_snoc {l : List Nat} {y : Nat} (hs : (l ++ [y]).sum < 2 ^ 64) : l.sum < 2 ^ 64 := by
  rw [List.sum_append] at hs
  omega

end MsgRs
