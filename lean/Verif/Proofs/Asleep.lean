import Verif.Spec.Asleep
import Verif.Proofs.Writer
/-!
# Reading until `Pending`
-/
namespace MsgRs
open Spec
variable {σ ε μ : Type}

theorem frame_none {c : Codec σ ε μ} {r r' : Reader σ} (h : r.frame c = .ok (none, r')) : r'.readable = false ∧ r'.errored = false := by
  unfold Reader.frame at h
  split at h
  · cases h
  · rename_i he
    split at h
    · cases hd : c.decode r.st r.buf with
      | panic => rw [hd] at h; cases h
      | ok x =>
        obtain ⟨d, st, buf⟩ := x
        rw [hd] at h
        simp only [R.bind_ok, R.pure_eq] at h
        cases d with
        | more =>
          simp only at h
          split at h
          · split at h <;> cases h
          · cases h; exact ⟨rfl, by simpa using he⟩
        | item m => simp only at h; split at h <;> cases h
        | err e => simp only at h; split at h <;> cases h
    · rename_i hr
      cases h
      exact ⟨by simpa using hr, by simpa using he⟩

theorem frame_some {c : Codec σ ε μ} {r r' : Reader σ} (h : r.frame c = .ok (some .pending, r')) : False := by
  unfold Reader.frame at h
  split at h
  · cases h
  · split at h
    · cases hd : c.decode r.st r.buf with
      | panic => rw [hd] at h; cases h
      | ok x =>
        obtain ⟨d, st, buf⟩ := x
        rw [hd] at h
        simp only [R.bind_ok, R.pure_eq] at h
        cases d with
        | more =>
          simp only at h
          split at h
          · split at h <;> cases h
          · cases h
        | item m => simp only at h; split at h <;> cases h
        | err e => simp only at h; split at h <;> cases h
    · cases h

theorem dry_of {c : Codec σ ε μ} {r : Reader σ} (h1 : r.readable = false) (h2 : r.errored = false) : Dry c r := by
  simp [Dry, Reader.pollNext, Reader.frame, h1, h2]

theorem pollNext_pending {c : Codec σ ε μ} (as : List ReadAns) {r r' : Reader σ} {as' : List ReadAns}
    (h : r.pollNext c as = .ok (.pending, r', as')) : Dry c r' ∧ Asked as as' := by
  induction as generalizing r with
  | nil =>
    simp only [Reader.pollNext] at h
    cases hf : r.frame c with
    | panic => rw [hf] at h; cases h
    | ok x =>
      obtain ⟨o, r1⟩ := x
      rw [hf] at h
      simp only [R.bind_ok, R.pure_eq] at h
      cases o with
      | some o =>
        cases h
        exact (frame_some hf).elim
      | none =>
        cases h
        obtain ⟨h1, h2⟩ := frame_none hf
        exact ⟨dry_of h1 h2, .inr rfl⟩
  | cons a as ih =>
    simp only [Reader.pollNext] at h
    cases hf : r.frame c with
    | panic => rw [hf] at h; cases h
    | ok x =>
      obtain ⟨o, r1⟩ := x
      rw [hf] at h
      simp only [R.bind_ok, R.pure_eq] at h
      cases o with
      | some o =>
        cases h
        exact (frame_some hf).elim
      | none =>
        obtain ⟨h1, h2⟩ := frame_none hf
        have go : ∀ {r2 : Reader σ}, r2.pollNext c as = .ok (.pending, r', as') → Dry c r' ∧ Asked (a :: as) as' := by
          intro r2 h
          obtain ⟨k1, k2⟩ := ih h
          refine ⟨k1, ?_⟩
          rcases k2 with ⟨pre, k2⟩ | k2
          · exact .inl ⟨a :: pre, by rw [k2]; rfl⟩
          · exact .inr k2
        cases a with
        | pending => cases h; exact ⟨dry_of h1 h2, .inl ⟨[], rfl⟩⟩
        | err => cases h
        | data bs =>
          cases bs with
          | nil =>
            simp only at h
            split at h
            · cases h
            · exact go h
          | cons b bs => exact go h

/-- `poll_ready` that answers `Pending`. -/
theorem ready_refused {w w' : Writer} {as : List WriteAns} (h : w.ready as = (.pending, w')) : Refused as w' := by
  unfold Writer.ready at h
  split at h
  · rename_i hb; exact ⟨w, hb, h⟩
  · cases h

end MsgRs
