import Verif.Proofs.Codecs
import Verif.Proofs.FramedAny
/-!
# A potential for framed connections

Every result of a framed connection other than `Pending` uses up some of it.
-/
namespace MsgRs
variable {σ ε μ : Type}

/-- Decoding a frame uses up some of `meas`, and nothing adds to it but bytes. -/
structure Codec.Sized (c : Codec σ ε μ) (meas : σ → Bytes → Nat) : Prop where
  item : ∀ {s b m s' b'}, c.decode s b = .ok (.item m, s', b') → meas s' b' < meas s b
  more : ∀ {s b s' b'}, c.decode s b = .ok (.more, s', b') → meas s' b' ≤ meas s b
  err : ∀ {s b e s' b'}, c.decode s b = .ok (.err e, s', b') → meas s' b' ≤ meas s b
  app : ∀ s b x, meas s (b ++ x) = meas s b + 2 * x.length

theorem ReqRep.sized : ReqRep.codec.Sized ReqRep.meas := by
  have hp : ∀ {h src d s' b'}, ReqRep.decodePayload h src = .ok (d, s', b') → ReqRep.meas s' b' ≤ 2 * src.length + 1 ∧
      ∀ e, d ≠ .err e := by
    intro h src d s' b' hd
    rw [ReqRep.decodePayload_eq] at hd
    split at hd <;> cases hd <;> simp [ReqRep.meas] <;> omega
  have hh : ∀ {b d s' b'}, ReqRep.decodeHeader b = .ok (d, s', b') → ReqRep.meas s' b' ≤ 2 * b.length := by
    intro b d s' b' hd
    rw [ReqRep.decodeHeader_eq] at hd
    cases b with
    | nil => cases hd; simp [ReqRep.meas]
    | cons w t =>
      simp only at hd
      split at hd
      · cases hd; simp [ReqRep.meas]
      · split at hd
        · cases hd; simp [ReqRep.meas]
        · have := (hp hd).1
          simp only [List.length_drop, List.length_cons] at this ⊢
          omega
  refine ⟨fun hd => ?_, fun hd => ?_, fun hd => ?_, ?_⟩
  · rename_i s b m s' b'
    cases s with
    | payload h => exact ReqRep.decodePayload_meas hd
    | header =>
      change ReqRep.decodeHeader b = _ at hd
      rw [ReqRep.decodeHeader_eq] at hd
      cases b with
      | nil => simp at hd
      | cons w t =>
        simp only at hd
        split at hd
        · simp at hd
        · split at hd
          · simp at hd
          · have := ReqRep.decodePayload_meas hd
            simp only [List.length_drop] at this
            show ReqRep.meas s' b' < 2 * (t.length + 1)
            omega
  · rename_i s b s' b'
    cases s with
    | payload h => exact (hp hd).1
    | header => exact hh hd
  · rename_i s b e s' b'
    cases s with
    | payload h => exact (hp hd).1
    | header => exact hh hd
  · intro s b x
    cases s <;> simp [ReqRep.meas] <;> omega

theorem PubSub.sized : PubSub.codec.Sized PubSub.meas := by
  have hp : ∀ {h src d s' b'}, PubSub.decodePayload h src = .ok (d, s', b') → PubSub.meas s' b' ≤ 2 * src.length + 1 ∧
      ∀ e, d ≠ .err e := by
    intro h src d s' b' hd
    rw [PubSub.decodePayload_eq] at hd
    split at hd <;> cases hd <;> simp [PubSub.meas] <;> omega
  have hh : ∀ {b d s' b'}, PubSub.decodeHeader b = .ok (d, s', b') → PubSub.meas s' b' ≤ 2 * b.length := by
    intro b d s' b' hd
    rw [PubSub.decodeHeader_eq] at hd
    cases b with
    | nil => cases hd; simp [PubSub.meas]
    | cons w t =>
      simp only at hd
      split at hd
      · cases hd; simp [PubSub.meas]
      · split at hd
        · cases hd; simp [PubSub.meas]
        · split at hd
          · cases hd; simp [PubSub.meas]
          · have := (hp hd).1
            simp only [List.length_drop, List.length_cons] at this ⊢
            omega
  refine ⟨fun hd => ?_, fun hd => ?_, fun hd => ?_, ?_⟩
  · rename_i s b m s' b'
    cases s with
    | payload h => exact PubSub.decodePayload_meas hd
    | header =>
      change PubSub.decodeHeader b = _ at hd
      rw [PubSub.decodeHeader_eq] at hd
      cases b with
      | nil => simp at hd
      | cons w t =>
        simp only at hd
        split at hd
        · simp at hd
        · split at hd
          · simp at hd
          · split at hd
            · simp at hd
            · have := PubSub.decodePayload_meas hd
              simp only [List.length_drop] at this
              show PubSub.meas s' b' < 2 * (t.length + 1)
              omega
  · rename_i s b s' b'
    cases s with
    | payload h => exact (hp hd).1
    | header => exact hh hd
  · rename_i s b e s' b'
    cases s with
    | payload h => exact (hp hd).1
    | header => exact hh hd
  · intro s b x
    cases s <;> simp [PubSub.meas] <;> omega

/-- The flags' share. -/
def Reader.flags (r : Reader σ) : Nat := if r.errored then 1 else if r.readable then 2 else 0

/-- What is left to read, weighted. -/
def Reader.pot (meas : σ → Bytes → Nat) (r : Reader σ) (as : List ReadAns) : Nat :=
  meas r.st r.buf + r.flags + 3 * as.length + 2 * (dataOf as).length

theorem frame_pot {c : Codec σ ε μ} {meas : σ → Bytes → Nat} (h : c.Sized meas) (r : Reader σ) {o r'}
    (hf : r.frame c = .ok (o, r')) : meas r'.st r'.buf + r'.flags ≤ meas r.st r.buf + r.flags ∧
      (o ≠ none → meas r'.st r'.buf + r'.flags < meas r.st r.buf + r.flags) ∧
      (o = none → r'.flags = 0 ∧ r'.errored = false ∧ r'.readable = false) := by
  unfold Reader.frame at hf
  split at hf
  · rename_i he
    cases hf
    simp [Reader.flags, he]
  · rename_i he
    have he' : r.errored = false := by simpa using he
    split at hf
    · rename_i hr
      cases hd : c.decode r.st r.buf with
      | panic => rw [hd] at hf; cases hf
      | ok x =>
        obtain ⟨d, s', b'⟩ := x
        rw [hd] at hf
        simp only [R.bind_ok, R.pure_eq] at hf
        cases d with
        | item m =>
          have := h.item hd
          split at hf <;> cases hf <;> simp [Reader.flags, he', hr] <;> omega
        | err e =>
          have := h.err hd
          split at hf <;> cases hf <;> simp [Reader.flags, he', hr] <;> omega
        | more =>
          have := h.more hd
          split at hf
          · by_cases hb : b'.isEmpty = true
            · rw [if_pos hb] at hf; cases hf; simp [Reader.flags, he', hr]; omega
            · rw [if_neg hb] at hf; cases hf; simp [Reader.flags, he', hr]; omega
          · cases hf; simp [Reader.flags, he', hr]; omega
    · rename_i hr
      cases hf
      simp [Reader.flags, he', hr]

/-- Every result of `poll_next` but `Pending` uses up potential. -/
theorem pollNext_pot {c : Codec σ ε μ} {meas : σ → Bytes → Nat} (h : c.Sized meas) (as : List ReadAns) (r : Reader σ)
    {o r' as'} (hp : r.pollNext c as = .ok (o, r', as')) :
    r'.pot meas as' ≤ r.pot meas as ∧ (o ≠ .pending → r'.pot meas as' < r.pot meas as) := by
  induction as generalizing r with
  | nil =>
    unfold Reader.pollNext at hp
    cases hf : r.frame c with
    | panic => rw [hf] at hp; cases hp
    | ok x =>
      obtain ⟨fo, r1⟩ := x
      obtain ⟨h1, h2, -⟩ := frame_pot h r hf
      rw [hf] at hp
      simp only [R.bind_ok, R.pure_eq] at hp
      cases fo with
      | some fo =>
        have := h2 (by simp)
        cases hp
        simp only [Reader.pot]
        exact ⟨by omega, fun _ => by omega⟩
      | none => cases hp; simp only [Reader.pot]; exact ⟨by omega, by simp⟩
  | cons a as ih =>
    unfold Reader.pollNext at hp
    cases hf : r.frame c with
    | panic => rw [hf] at hp; cases hp
    | ok x =>
      obtain ⟨fo, r1⟩ := x
      obtain ⟨h1, h2, h3⟩ := frame_pot h r hf
      rw [hf] at hp
      simp only [R.bind_ok, R.pure_eq] at hp
      cases fo with
      | some fo =>
        have := h2 (by simp)
        cases hp
        simp only [Reader.pot]
        exact ⟨by omega, fun _ => by omega⟩
      | none =>
        obtain ⟨h4, h5, h6⟩ := h3 rfl
        cases a with
        | pending =>
          cases hp
          simp only [Reader.pot, List.length_cons, dataOf]
          exact ⟨by omega, by simp⟩
        | err =>
          cases hp
          have hflag : ({ r1 with errored := true } : Reader σ).flags = 1 := by simp [Reader.flags]
          simp only [Reader.pot, List.length_cons, dataOf, hflag]
          omega
        | data bs =>
          cases bs with
          | nil =>
            simp only at hp
            split at hp
            · cases hp
              simp only [Reader.pot, List.length_cons, dataOf, List.nil_append]
              omega
            · have := ih _ hp
              have hflag : ({ r1 with eof := true, readable := true } : Reader σ).flags = 2 := by
                simp [Reader.flags, h5]
              simp only [Reader.pot, hflag, List.length_cons, dataOf, List.nil_append] at this ⊢
              refine ⟨by omega, fun ho => ?_⟩
              omega
          | cons b bs =>
            simp only at hp
            have := ih _ hp
            have hflag : ({ r1 with buf := r1.buf ++ (b :: bs), eof := false, readable := true } : Reader σ).flags = 2 := by
              simp [Reader.flags, h5]
            simp only [Reader.pot, hflag, h.app, List.length_cons, dataOf, List.length_append] at this ⊢
            refine ⟨by omega, fun ho => ?_⟩
            omega

end MsgRs
