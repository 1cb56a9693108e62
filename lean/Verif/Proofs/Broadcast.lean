import Verif.Model.Broadcast
/-!
# The ring buffer of the broadcast channel refines a log with a cursor
-/
namespace MsgRs.Bcast
variable {α : Type}

/-- The ring holds the last `capacity` entries of the log of everything sent. -/
structure Holds (b : Bcast α) (log : List α) : Prop where
  pos : 0 < b.slots.length
  tail : b.tail = log.length
  slot : ∀ i, i < b.slots.length → ∃ sl, b.slots[i]? = some sl ∧ sl.mark % b.slots.length = i ∧
    b.tail ≤ sl.mark ∧ sl.mark < b.tail + b.slots.length ∧
    (b.slots.length ≤ sl.mark → sl.val = log[sl.mark - b.slots.length]?)

theorem le_nextPow2 (n : Nat) : n ≤ nextPow2 n ∧ 0 < nextPow2 n := by
  unfold nextPow2
  split
  · omega
  · have := @Nat.lt_log2_self (n - 1)
    omega

theorem holds_new (n : Nat) : Holds (Bcast.new n : Bcast α) [] := by
  have hp : 0 < nextPow2 n := (le_nextPow2 n).2
  refine ⟨by simp [new]; exact hp, rfl, ?_⟩
  intro i hi
  simp only [new, List.length_map, List.length_range] at hi ⊢
  refine ⟨{ mark := i, val := none }, ?_, Nat.mod_eq_of_lt hi, by simp, by simp only; omega, ?_⟩
  · simp [hi]
  · intro h; simp only at h; omega

theorem holds_send {b : Bcast α} {log} (h : Holds b log) (v : α) : Holds (b.send v) (log ++ [v]) := by
  obtain ⟨hpos, htail, hslot⟩ := h
  have hlen : (b.send v).slots.length = b.slots.length := by simp [send]
  refine ⟨by rw [hlen]; exact hpos, by simp [send, htail], ?_⟩
  intro i hi
  rw [hlen] at hi ⊢
  simp only [send]
  by_cases he : b.tail % b.slots.length = i
  · refine ⟨{ mark := b.tail + b.slots.length, val := some v }, ?_, ?_, ?_, ?_, ?_⟩
    · subst he
      rw [List.getElem?_set_self hi]
    · simp [he]
    · simp only; omega
    · simp only; omega
    · intro _
      simp [htail]
  · obtain ⟨sl, h1, h2, h3, h4, h5⟩ := hslot i hi
    refine ⟨sl, ?_, h2, ?_, by omega, ?_⟩
    · rw [List.getElem?_set_ne he]; exact h1
    · have : sl.mark ≠ b.tail := by rintro e; rw [e] at h2; exact he h2
      omega
    · intro hh
      rw [h5 hh]
      rw [List.getElem?_append_left (by omega)]

theorem holds_close {b : Bcast α} {log} (h : Holds b log) : Holds b.close log :=
  ⟨h.pos, h.tail, h.slot⟩

/-- What a receiver gets, in terms of the log. -/
theorem recv_eq {b : Bcast α} {log} (h : Holds b log) {next : Nat} (hn : next ≤ b.tail) :
    b.recv next =
      if hlt : next < log.length then
        if log.length ≤ next + b.slots.length then (.item log[next], next + 1)
        else (.lagged (log.length - b.slots.length - next), log.length - b.slots.length)
      else (if b.closed then .closed else .empty, next) := by
  obtain ⟨hpos, htail, hslot⟩ := h
  have hm : next % b.slots.length < b.slots.length := Nat.mod_lt _ hpos
  obtain ⟨sl, h1, h2, h3, h4, h5⟩ := hslot _ hm
  unfold recv
  simp only [h1]
  -- `mark` and `next` are congruent
  have hcong : ∃ k, sl.mark = next + b.slots.length * k := by
    have hle : next ≤ sl.mark := by omega
    have hd : b.slots.length ∣ sl.mark - next :=
      Nat.dvd_of_mod_eq_zero (by
        have e1 := Nat.div_add_mod sl.mark b.slots.length
        have e2 := Nat.div_add_mod next b.slots.length
        have hq : next / b.slots.length ≤ sl.mark / b.slots.length := Nat.div_le_div_right hle
        have hs : sl.mark - next =
            b.slots.length * (sl.mark / b.slots.length - next / b.slots.length) := by
          rw [Nat.mul_sub]
          omega
        rw [hs]; exact Nat.mul_mod_right _ _)
    obtain ⟨k, hk⟩ := hd
    exact ⟨k, by omega⟩
  obtain ⟨k, hk⟩ := hcong
  by_cases hlt : next < log.length
  · rw [dif_pos hlt]
    have hk1 : 1 ≤ k := by
      rcases Nat.eq_zero_or_pos k with h0 | h0
      · subst h0; simp at hk; omega
      · exact h0
    by_cases hin : log.length ≤ next + b.slots.length
    · rw [if_pos hin]
      have hk2 : k = 1 := by
        rcases Nat.lt_or_ge k 2 with h | h
        · omega
        · have : b.slots.length * 2 ≤ b.slots.length * k := Nat.mul_le_mul_left _ h
          omega
      subst hk2
      rw [if_neg (by simp; omega)]
      rw [h5 (by omega)]
      have : sl.mark - b.slots.length = next := by omega
      rw [this, List.getElem?_eq_getElem hlt]
    · rw [if_neg hin]
      have hk2 : 2 ≤ k := by
        rcases Nat.lt_or_ge k 2 with h | h
        · have : k = 1 := by omega
          subst this
          omega
        · exact h
      have : b.slots.length * 2 ≤ b.slots.length * k := Nat.mul_le_mul_left _ hk2
      rw [if_pos (by omega), if_neg (by omega), if_neg (by omega), htail]
  · rw [dif_neg hlt]
    have hk0 : k = 0 := by
      rcases Nat.eq_zero_or_pos k with h | h
      · exact h
      · have : b.slots.length * 1 ≤ b.slots.length * k := Nat.mul_le_mul_left _ h
        omega
    subst hk0
    simp only [Nat.mul_zero, Nat.add_zero] at hk
    rw [if_pos (by omega), if_pos hk]

theorem slots_send (b : Bcast α) (v : α) : (b.send v).slots.length = b.slots.length := by simp [send]

theorem new_length (n : Nat) : (Bcast.new n : Bcast α).slots.length = nextPow2 n := by simp [new]

end MsgRs.Bcast
