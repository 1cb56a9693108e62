import Verif.Spec.Returns
import Verif.Proofs.Potential
namespace MsgRs
variable {σ ε ω : Type}

theorem returns_step {iter : σ → ε → R (σ × ω)} {again : ω → Prop} [DecidablePred again] {s t : σ} {o : ω}
    {es : Nat → ε} (h : iter s (es 0) = .ok (t, o)) (hn : again o → Spec.Returns iter again t fun n => es (n + 1)) :
    Spec.Returns iter again s es := by
  by_cases ho : again o
  · obtain ⟨n, u, o', hp⟩ := hn ho
    refine ⟨n + 1, u, o', ?_⟩
    rw [List.range_succ_eq_map, List.map_cons, Spec.poll, h]
    simp only [R.bind_ok, if_pos ho, List.map_map]
    exact hp
  · exact ⟨1, t, o, by simp [Spec.poll, h, ho, List.range_succ_eq_map]⟩

/-- A loop whose iterations use up a measure returns. -/
theorem returns_of_measure {iter : σ → ε → R (σ × ω)} {again : ω → Prop} [DecidablePred again] (I : σ → Prop)
    (meas : σ → Nat) (P : ε → Prop)
    (h : ∀ s e, I s → P e → ∃ t o, iter s e = .ok (t, o) ∧ (again o → I t ∧ meas t < meas s)) (s : σ) (hs : I s)
    (es : Nat → ε) (hes : ∀ n, P (es n)) : Spec.Returns iter again s es := by
  induction hm : meas s using Nat.strongRecOn generalizing s es with
  | _ n ih =>
    obtain ⟨t, o, hi, ha⟩ := h s (es 0) hs (hes 0)
    refine returns_step hi fun ho => ?_
    obtain ⟨h1, h2⟩ := ha ho
    exact ih _ (by omega) t h1 _ (fun n => hes (n + 1)) rfl

/-- The same with two measures, compared lexicographically. -/
theorem returns_of_lex {iter : σ → ε → R (σ × ω)} {again : ω → Prop} [DecidablePred again] (I : σ → Prop)
    (m1 m2 : σ → Nat) (P : ε → Prop)
    (h : ∀ s e, I s → P e → ∃ t o, iter s e = .ok (t, o) ∧
      (again o → I t ∧ (m1 t < m1 s ∨ m1 t = m1 s ∧ m2 t < m2 s))) (s : σ) (hs : I s)
    (es : Nat → ε) (hes : ∀ n, P (es n)) : Spec.Returns iter again s es := by
  induction hm : m1 s using Nat.strongRecOn generalizing s es with
  | _ n ih =>
    induction hm' : m2 s using Nat.strongRecOn generalizing s es with
    | _ k ih' =>
      obtain ⟨t, o, hi, ha⟩ := h s (es 0) hs (hes 0)
      refine returns_step hi fun ho => ?_
      obtain ⟨h1, h2 | ⟨h2, h3⟩⟩ := ha ho
      · exact ih _ (by omega) t h1 _ (fun n => hes (n + 1)) rfl
      · exact ih' _ (by omega) t h1 _ (fun n => hes (n + 1)) (by omega) rfl

end MsgRs
