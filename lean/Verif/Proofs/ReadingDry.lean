import Verif.Proofs.Reading
import Verif.Spec.Asleep
/-!
# A consumer that has read everything there is
-/
namespace MsgRs
variable {σ ε μ : Type}

/-- A reader that has seen the end of the stream goes on decoding. -/
def EofOk (r : Reader σ) : Prop := r.eof = true → r.readable = true

theorem frame_eofOk {c : Codec σ ε μ} {r r' : Reader σ} {o} (h : r.frame c = .ok (o, r')) (he : EofOk r) (hn : r.errored = false) :
    r'.eof = r.eof ∧ (o = none → r'.eof = false ∧ r'.errored = false) ∧
      (∀ m, o = some (.item m) → EofOk r' ∧ r'.errored = false) ∧ o ≠ some .pending := by
  unfold Reader.frame at h
  rw [if_neg (by rw [hn]; simp)] at h
  split at h
  · rename_i hr
    cases hd : c.decode r.st r.buf with
    | panic => rw [hd] at h; cases h
    | ok t =>
      obtain ⟨d, st, buf⟩ := t
      rw [hd] at h
      simp only [R.bind_ok, R.pure_eq] at h
      by_cases hb : r.eof = true
      · rw [if_pos hb] at h
        cases d with
        | item m => cases h; exact ⟨rfl, (by simp), (fun _ _ => ⟨fun _ => hr, hn⟩), (by simp)⟩
        | err e => cases h; exact ⟨rfl, (by simp), (by simp), (by simp)⟩
        | more =>
          simp only at h
          split at h <;> cases h <;> exact ⟨rfl, (by simp), (by simp), (by simp)⟩
      · rw [if_neg hb] at h
        cases d with
        | item m => cases h; exact ⟨rfl, (by simp), (fun _ _ => ⟨fun _ => hr, hn⟩), (by simp)⟩
        | err e => cases h; exact ⟨rfl, (by simp), (by simp), (by simp)⟩
        | more => cases h; exact ⟨rfl, (fun _ => ⟨by simpa using hb, hn⟩), (by simp), (by simp)⟩
  · rename_i hr
    cases h
    refine ⟨rfl, fun _ => ⟨?_, hn⟩, (by simp), (by simp)⟩
    cases hx : r.eof with
    | false => rfl
    | true => exact absurd (he hx) hr

/-- A poll that gives an item, or nothing: either the answers it used are those of an open connection, or the reader has seen the
end of the stream (and it gave an item). -/
theorem pollNext_eof {c : Codec σ ε μ} (as : List ReadAns) {r r' : Reader σ} {o as'} (h : r.pollNext c as = .ok (o, r', as'))
    (he : EofOk r) (hn : r.errored = false) (ho : o = .pending ∨ ∃ m, o = .item m) :
    EofOk r' ∧ r'.errored = false ∧ (o = .pending → r'.eof = false) ∧
      (r'.eof = false → r.eof = false ∧ ∃ u, as = u ++ as' ∧ OpenAns u) := by
  induction as generalizing r with
  | nil =>
    simp only [Reader.pollNext] at h
    cases hf : r.frame c with
    | panic => rw [hf] at h; cases h
    | ok t =>
      obtain ⟨q, r1⟩ := t
      rw [hf] at h
      obtain ⟨f1, f2, f3, f4⟩ := frame_eofOk hf he hn
      simp only [R.bind_ok, R.pure_eq] at h
      cases q with
      | none =>
        cases h
        obtain ⟨g1, g2⟩ := f2 rfl
        exact ⟨fun hx => (by rw [g1] at hx; cases hx), g2, fun _ => g1, fun hx => ⟨by rw [← f1, hx], [], rfl, by simp [OpenAns]⟩⟩
      | some q =>
        cases h
        rcases ho with rfl | ⟨m, rfl⟩
        · exact absurd rfl f4
        · exact ⟨(f3 m rfl).1, (f3 m rfl).2, (by simp), fun hx => ⟨by rw [← f1, hx], [], rfl, by simp [OpenAns]⟩⟩
  | cons a as ih =>
    simp only [Reader.pollNext] at h
    cases hf : r.frame c with
    | panic => rw [hf] at h; cases h
    | ok t =>
      obtain ⟨q, r1⟩ := t
      rw [hf] at h
      obtain ⟨f1, f2, f3, f4⟩ := frame_eofOk hf he hn
      simp only [R.bind_ok, R.pure_eq] at h
      cases q with
      | some q =>
        cases h
        rcases ho with rfl | ⟨m, rfl⟩
        · exact absurd rfl f4
        · exact ⟨(f3 m rfl).1, (f3 m rfl).2, (by simp), fun hx => ⟨by rw [← f1, hx], [], rfl, by simp [OpenAns]⟩⟩
      | none =>
        obtain ⟨g1, g2⟩ := f2 rfl
        cases a with
        | pending =>
          cases h
          exact ⟨fun hx => (by rw [g1] at hx; cases hx), g2, fun _ => g1,
            fun hx => ⟨by rw [← f1, hx], [.pending], rfl, by simp [OpenAns]⟩⟩
        | err => cases h; rcases ho with ho | ⟨m, ho⟩ <;> cases ho
        | data bs =>
          cases bs with
          | nil =>
            simp only at h
            split at h
            · cases h; rcases ho with ho | ⟨m, ho⟩ <;> cases ho
            · obtain ⟨k1, k2, k3, k4⟩ := ih h (fun _ => rfl) g2
              refine ⟨k1, k2, k3, fun hx => ?_⟩
              have := (k4 hx).1
              cases this
          | cons b bs =>
            obtain ⟨k1, k2, k3, k4⟩ := ih h (fun hx => by cases hx) g2
            refine ⟨k1, k2, k3, fun hx => ⟨by rw [← f1, g1], ?_⟩⟩
            obtain ⟨-, u, h1, h2⟩ := k4 hx
            exact ⟨.data (b :: bs) :: u, by rw [h1]; rfl, by
              intro x hm
              rcases List.mem_cons.mp hm with rfl | hm
              · simp
              · exact h2 x hm⟩

/-- As long as the end of the stream has not been seen, the connection has been an open one. -/
theorem Reads.openSoFar {c : Codec σ ε μ} {input0 n l r as} (h : Reads c input0 n l r as) :
    EofOk r ∧ r.errored = false ∧ (r.eof = false → ∃ u, input0 = u ++ as ∧ OpenAns u) := by
  induction h with
  | start => exact ⟨fun hx => (by cases hx), rfl, fun _ => ⟨[], rfl, by simp [OpenAns]⟩⟩
  | @idle n l r r' as as' h hp ih =>
    obtain ⟨i1, i2, i3⟩ := ih
    obtain ⟨k1, k2, -, k4⟩ := pollNext_eof as hp i1 i2 (.inl rfl)
    refine ⟨k1, k2, fun hx => ?_⟩
    obtain ⟨g1, v, g2, g3⟩ := k4 hx
    obtain ⟨u, g4, g5⟩ := i3 g1
    exact ⟨u ++ v, by rw [g4, g2, List.append_assoc], fun x hm => (List.mem_append.mp hm).elim (g5 x) (g3 x)⟩
  | @item n l r r' as as' m h hp ih =>
    obtain ⟨i1, i2, i3⟩ := ih
    obtain ⟨k1, k2, -, k4⟩ := pollNext_eof as hp i1 i2 (.inr ⟨m, rfl⟩)
    refine ⟨k1, k2, fun hx => ?_⟩
    obtain ⟨g1, v, g2, g3⟩ := k4 hx
    obtain ⟨u, g4, g5⟩ := i3 g1
    exact ⟨u ++ v, by rw [g4, g2, List.append_assoc], fun x hm => (List.mem_append.mp hm).elim (g5 x) (g3 x)⟩

theorem observe_dry {c : Codec σ ε μ} {r : Reader σ} (h : Spec.Dry c r) (k : Nat) : r.observe c k [] = .ok [] := by
  induction k with
  | zero => rfl
  | succ k ih =>
    unfold Spec.Dry at h
    simp only [Reader.observe, h, R.bind_ok]
    exact ih

/-- When a reader is dry, the connection has not ended and everything encoded by the bytes it has given so far has been seen. -/
theorem ReadInv.dry {c : Codec σ ε μ} (hc : c.Incremental) (h0 : c.decode c.init [] = .ok (.more, c.init, []))
    {input0 n l r as} (h : ReadInv c input0 n l r as) (hd : Spec.Dry c r) {ms}
    (hm : Drains c c.init (Spec.readSoFar input0 as) ms none) : l = ms := by
  rcases h with h | ⟨he, -⟩
  · obtain ⟨i1, i2, i3⟩ := h.openSoFar
    obtain ⟨-, -, k3, -⟩ := pollNext_eof [] hd i1 i2 (.inl rfl)
    obtain ⟨u, h1, h2⟩ := i3 (k3 rfl)
    obtain ⟨u', h3, h4⟩ := h.cut
    have hu : u' = u := by
      rw [h1] at h3
      exact (List.append_cancel_right h3).symm
    subst hu
    have h5 := h4 [] List.nil_prefix
    rw [List.append_nil] at h5
    rw [readSoFar_eq h1] at hm
    have h6 := h5.observe (ms.length + u'.length + 1)
    rw [observe_dry hd] at h6
    simp only [R.bind_ok, R.pure_eq, List.append_nil] at h6
    obtain ⟨out, h7, -, h8⟩ := observe_open hc (n + (ms.length + u'.length + 1)) u' h2 (new_good c h0) (by simpa [Reader.new] using hm)
    rw [h6] at h7
    cases h7
    have h9 := h8 (by omega)
    have e1 := congrArg itemsOf h9
    have e2 := itemsOf_map (ε := ε) l []
    have e3 := itemsOf_map (ε := ε) ms []
    simp only [itemsOf, List.append_nil] at e2 e3
    rw [e2] at e1
    simpa [resultsOf, e3] using e1
  · obtain ⟨r', hp⟩ := pollNext_errored c r [] he
    unfold Spec.Dry at hd
    rw [hd] at hp
    cases hp

end MsgRs
