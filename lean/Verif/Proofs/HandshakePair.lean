import Verif.Spec.HandshakePair
import Verif.Props.Admission
/-!
# Lemmas about awaiting one frame that arrives in pieces
-/
namespace MsgRs
open Spec

/-- What the reader reports for the frame `F`. -/
def decOut : Dec ε μ → Option (FOut ε μ)
  | .item m => some (.item m)
  | .err e => some (.err e)
  | .more => none

theorem open_nil {l : List ReadAns} (ho : OpenAns l) (hn : dataOf l = []) : ∃ k, l = List.replicate k .pending := by
  induction l with
  | nil => exact ⟨0, rfl⟩
  | cons y l ih =>
    have hy := ho y (List.mem_cons_self ..)
    cases y with
    | err => exact absurd rfl hy.1
    | data b => simp [dataOf] at hn; exact absurd (by rw [hn.1]) hy.2
    | pending =>
      obtain ⟨k, rfl⟩ := ih (fun q hq => ho q (List.mem_cons_of_mem _ hq)) (by simpa [dataOf] using hn)
      exact ⟨k + 1, rfl⟩

theorem await_cut (c : Codec σ ε μ) (s0 st' : σ) (F : Bytes) (bad : Nat → Prop) (d : Dec ε μ) (o : FOut ε μ) (hd : decOut d = some o)
    (hmore : ∀ b, b <+: F → b ≠ F → ¬ bad b.length → c.decode s0 b = .ok (.more, s0, b))
    (hpan : ∀ b, b <+: F → b ≠ F → bad b.length → c.decode s0 b = .panic)
    (hF : c.decode s0 F = .ok (d, st', [])) (hFb : ¬ bad F.length) (rest : List ReadAns) (l : List ReadAns) :
    ∀ (r : Reader σ), r.st = s0 → r.eof = false → r.errored = false → r.readable = false → OpenAns l →
      r.buf ++ dataOf l = F → r.buf ≠ F → ¬ bad r.buf.length →
      ((∀ l1 l2, l = l1 ++ l2 → ¬ bad (r.buf ++ dataOf l1).length) →
        ∃ r' k, r.await c (l ++ rest) = .ok (o, r', List.replicate k .pending ++ rest) ∧ r'.st = st' ∧ r'.buf = []) ∧
      ((∃ l1 l2, l = l1 ++ l2 ∧ bad (r.buf ++ dataOf l1).length) → r.await c (l ++ rest) = .panic) := by
  induction l with
  | nil =>
    intro r _ _ _ _ _ h hne
    simp [dataOf] at h
    exact absurd h hne
  | cons a l ih =>
    intro r hst heof herr hread hopen h hne hnb
    have hfr : r.frame c = .ok (none, r) := by simp [Reader.frame, herr, hread]
    have hopen' : OpenAns l := fun x hx => hopen x (List.mem_cons_of_mem _ hx)
    have ha := hopen a (List.mem_cons_self ..)
    cases a with
    | err => exact absurd rfl ha.1
    | pending =>
      have hw : r.await c ((.pending :: l) ++ rest) = r.await c (l ++ rest) := by
        rw [List.cons_append]
        conv => lhs; unfold Reader.await
        simp only [hfr, R.bind_ok]
      rw [hw]
      obtain ⟨i1, i2⟩ := ih r hst heof herr hread hopen' (by simpa [dataOf] using h) hne hnb
      constructor
      · intro hno
        exact i1 fun l1 l2 hl => by simpa [dataOf] using hno (.pending :: l1) l2 (by simp [hl])
      · rintro ⟨l1, l2, hl, hb⟩
        cases l1 with
        | nil => exact absurd (by simpa [dataOf] using hb) hnb
        | cons x l1 =>
          simp only [List.cons_append, List.cons.injEq] at hl
          obtain ⟨rfl, hl⟩ := hl
          exact i2 ⟨l1, l2, hl, by simpa [dataOf] using hb⟩
    | data bs =>
      cases bs with
      | nil => exact absurd rfl ha.2
      | cons x bs =>
        have h' : (r.buf ++ (x :: bs)) ++ dataOf l = F := by simpa [dataOf] using h
        have hw : r.await c ((.data (x :: bs) :: l) ++ rest)
            = Reader.await c { r with buf := r.buf ++ (x :: bs), eof := false, readable := true } (l ++ rest) := by
          rw [List.cons_append]
          conv => lhs; unfold Reader.await
          simp only [hfr, R.bind_ok]
        rw [hw]
        generalize hb' : r.buf ++ (x :: bs) = b' at h'
        have hpre : b' <+: F := ⟨_, h'⟩
        have hcons : ∀ l1, r.buf ++ dataOf (.data (x :: bs) :: l1) = b' ++ dataOf l1 := by
          intro l1; rw [← hb']; simp [dataOf]
        by_cases hfull : b' = F
        · have hnil : dataOf l = [] := by
            rw [hfull] at h'
            exact List.append_cancel_left (h'.trans (List.append_nil F).symm)
          obtain ⟨k, hk⟩ := open_nil hopen' hnil
          obtain ⟨r', hfr2, hr1, hr2⟩ : ∃ r', Reader.frame c { r with buf := b', eof := false, readable := true } = .ok (some o, r') ∧
              r'.st = st' ∧ r'.buf = [] := by
            simp only [Reader.frame, herr, Bool.false_eq_true, if_false, if_true, hst, hfull, hF, R.bind_ok]
            cases d with
            | item m => cases hd; exact ⟨_, rfl, rfl, rfl⟩
            | err m => cases hd; exact ⟨_, rfl, rfl, rfl⟩
            | more => cases hd
          constructor
          · intro _
            refine ⟨r', k, ?_, hr1, hr2⟩
            rw [← hk]
            cases hlr : l ++ rest with
            | nil => simp only [Reader.await, hfr2, R.bind_ok]; rfl
            | cons y ys => simp only [Reader.await, hfr2, R.bind_ok]; rfl
          · rintro ⟨l1, l2, hl, hb⟩
            cases l1 with
            | nil => exact absurd (by simpa [dataOf] using hb) hnb
            | cons y l1 =>
              simp only [List.cons_append, List.cons.injEq] at hl
              obtain ⟨rfl, hl⟩ := hl
              rw [hcons] at hb
              have : dataOf l1 = [] := by
                rw [hl, dataOf_append] at hnil
                exact (List.append_eq_nil_iff.mp hnil).1
              rw [this, List.append_nil, hfull] at hb
              exact absurd hb hFb
        · by_cases hbb : bad b'.length
          · have hp : Reader.await c { r with buf := b', eof := false, readable := true } (l ++ rest) = .panic := by
              have : Reader.frame c { r with buf := b', eof := false, readable := true } = .panic := by
                simp only [Reader.frame, herr, Bool.false_eq_true, if_false, if_true, hst, hpan b' hpre hfull hbb, R.bind_panic]
              cases hlr : l ++ rest with
              | nil => simp only [Reader.await, this, R.bind_panic]
              | cons y ys => simp only [Reader.await, this, R.bind_panic]
            constructor
            · intro hno
              exact absurd (by rw [hcons]; simpa [dataOf] using hbb) (hno [.data (x :: bs)] l (by simp))
            · intro _; exact hp
          · have hfr2 : Reader.frame c { r with buf := b', eof := false, readable := true }
                = .ok (none, { r with buf := b', eof := false, readable := false }) := by
              simp only [Reader.frame, herr, Bool.false_eq_true, if_false, if_true, hst, hmore b' hpre hfull hbb, R.bind_ok]
              rw [← hst]; rfl
            have hfr3 : Reader.frame c { r with buf := b', eof := false, readable := false }
                = .ok (none, { r with buf := b', eof := false, readable := false }) := by
              simp [Reader.frame, herr]
            have hsame : Reader.await c { r with buf := b', eof := false, readable := true } (l ++ rest)
                = Reader.await c { r with buf := b', eof := false, readable := false } (l ++ rest) := by
              cases hlr : l ++ rest with
              | nil => simp only [Reader.await, hfr2, hfr3, R.bind_ok]
              | cons y ys => simp only [Reader.await, hfr2, hfr3, R.bind_ok]
            rw [hsame]
            obtain ⟨i1, i2⟩ := ih { r with buf := b', eof := false, readable := false } hst rfl herr rfl hopen' h' hfull hbb
            constructor
            · intro hno
              exact i1 fun l1 l2 hl => by
                have := hno (.data (x :: bs) :: l1) l2 (by simp [hl])
                rwa [hcons] at this
            · rintro ⟨l1, l2, hl, hb⟩
              cases l1 with
              | nil => exact absurd (by simpa [dataOf] using hb) hnb
              | cons y l1 =>
                simp only [List.cons_append, List.cons.injEq] at hl
                obtain ⟨rfl, hl⟩ := hl
                rw [hcons] at hb
                exact i2 ⟨l1, l2, hl, hb⟩

end MsgRs
