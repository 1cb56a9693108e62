import Verif.Model.Writer
/-!
# Facts about the writer half: bytes are neither lost, duplicated nor reordered
-/
namespace MsgRs.Writer

/-- Everything handed to the writer so far. -/
def total (w : Writer) : Bytes := w.wire ++ w.buf

theorem flush_spec (w : Writer) (as : List WriteAns) :
    (w.flush as).2.total = w.total ∧ (w.flush as).2.boundary = w.boundary ∧
    w.wire <+: (w.flush as).2.wire ∧
    ((w.flush as).1 = .ok → (w.flush as).2.buf = []) ∧
    (w.buf = [] → (w.flush as).2 = w) := by
  induction as generalizing w with
  | nil => simp [flush]
  | cons a as ih =>
    cases a with
    | pending => simp [flush]
    | err => simp [flush]
    | ok n =>
      unfold flush
      split
      · rename_i h; simp at h; simp [h]
      · split
        · simp
        · rename_i h1 h2
          obtain ⟨i1, i2, i3, i4, _⟩ := ih { w with buf := w.buf.drop n, wire := w.wire ++ w.buf.take n }
          refine ⟨?_, i2, ?_, i4, ?_⟩
          · rw [i1]; simp [total]
          · exact List.IsPrefix.trans (List.prefix_append _ _) i3
          · intro h; simp [h] at h1

theorem ready_spec (w : Writer) (as : List WriteAns) :
    (w.ready as).2.total = w.total ∧ (w.ready as).2.boundary = w.boundary ∧
    w.wire <+: (w.ready as).2.wire ∧
    (w.buf = [] → (w.ready as).2 = w) := by
  unfold ready
  split
  · obtain ⟨h1, h2, h3, _, h5⟩ := flush_spec w as; exact ⟨h1, h2, h3, h5⟩
  · simp

/-- What is left when `poll_ready` succeeds. -/
theorem ready_ok_buf (w : Writer) (as : List WriteAns) (h : (w.ready as).1 = .ok) : (w.ready as).2.buf.length ≤ (w.ready as).2.boundary - 1 := by
  unfold ready at h ⊢
  split
  · rename_i hb
    rw [if_pos hb] at h
    rw [(flush_spec w as).2.2.2.1 h]
    exact Nat.zero_le _
  · simp only; omega

@[simp] theorem send_total (w : Writer) (f : Bytes) : (w.send f).total = w.total ++ f := by
  simp [send, total]

@[simp] theorem send_wire (w : Writer) (f : Bytes) : (w.send f).wire = w.wire := rfl
@[simp] theorem send_buf (w : Writer) (f : Bytes) : (w.send f).buf = w.buf ++ f := rfl
@[simp] theorem send_boundary (w : Writer) (f : Bytes) : (w.send f).boundary = w.boundary := rfl

end MsgRs.Writer
