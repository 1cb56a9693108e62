import Verif.Proofs.Reading
import Verif.Proofs.Codecs
import Verif.Spec.Asleep
/-!
# A consumer that goes on polling after errors and after the end of the stream

`sub/stream.rs` does: what it gets is nevertheless a prefix of what the bytes encode.
-/
namespace MsgRs
variable {σ ε μ : Type}

/-- A failing `decode` leaves the codec and the buffer as they were. -/
def Codec.ErrStable (c : Codec σ ε μ) : Prop :=
  ∀ s b e s' b', c.decode s b = .ok (.err e, s', b') → s' = s ∧ b' = b

theorem frame_track {c : Codec σ ε μ} (h : c.Incremental) (hs : c.ErrStable) (r : Reader σ) {x ms e}
    (hd : Drains c r.st (r.buf ++ x) ms e) :
    ∃ o r', r.frame c = .ok (o, r') ∧
      ((∃ m ms', o = some (.item m) ∧ ms = m :: ms' ∧ Drains c r'.st (r'.buf ++ x) ms' e) ∨
       ((∀ m, o ≠ some (.item m)) ∧ Drains c r'.st (r'.buf ++ x) ms e)) := by
  unfold Reader.frame
  by_cases herr : r.errored = true
  · rw [if_pos herr]
    exact ⟨_, _, rfl, .inr ⟨by simp, hd⟩⟩
  · rw [if_neg herr]
    by_cases hread : r.readable = true
    · rw [if_pos hread]
      obtain ⟨⟨d, s', b'⟩, hdec⟩ := h.total r.st r.buf
      rw [hdec]
      simp only [R.bind_ok, R.pure_eq]
      cases d with
      | more =>
        have := hd.resume h hdec
        split
        · simp only
          split <;> exact ⟨_, _, rfl, .inr ⟨by simp, this⟩⟩
        · exact ⟨_, _, rfl, .inr ⟨by simp, this⟩⟩
      | err e' =>
        obtain ⟨rfl, rfl⟩ := hs _ _ _ _ _ hdec
        split <;> exact ⟨_, _, rfl, .inr ⟨by simp, hd⟩⟩
      | item m =>
        have hx := h.item_mono x hdec
        cases hd with
        | more h1 => rw [hx] at h1; cases h1
        | err h1 => rw [hx] at h1; cases h1
        | item h1 h2 =>
          rw [hx] at h1; cases h1
          split <;> exact ⟨_, _, rfl, .inl ⟨_, _, rfl, rfl, h2⟩⟩
    · rw [if_neg hread]
      exact ⟨_, _, rfl, .inr ⟨by simp, hd⟩⟩

theorem pollNext_track {c : Codec σ ε μ} (h : c.Incremental) (hs : c.ErrStable) (as : List ReadAns) (r : Reader σ)
    {y ms e} (hd : Drains c r.st (r.buf ++ (dataOf as ++ y)) ms e) :
    ∃ o r' as', r.pollNext c as = .ok (o, r', as') ∧
      ((∃ m ms', o = .item m ∧ ms = m :: ms' ∧ Drains c r'.st (r'.buf ++ (dataOf as' ++ y)) ms' e) ∨
       ((∀ m, o ≠ .item m) ∧ Drains c r'.st (r'.buf ++ (dataOf as' ++ y)) ms e)) := by
  induction as generalizing r with
  | nil =>
    obtain ⟨o, r', hf, hr⟩ := frame_track h hs r hd
    unfold Reader.pollNext
    rw [hf]
    simp only [R.bind_ok, R.pure_eq]
    cases o with
    | none =>
      rcases hr with ⟨m, ms', h1, -⟩ | ⟨-, h2⟩
      · cases h1
      · exact ⟨_, _, _, rfl, .inr ⟨by simp, h2⟩⟩
    | some o =>
      rcases hr with ⟨m, ms', h1, h2, h3⟩ | ⟨h1, h2⟩
      · cases h1; exact ⟨_, _, _, rfl, .inl ⟨m, ms', rfl, h2, h3⟩⟩
      · exact ⟨_, _, _, rfl, .inr ⟨fun m hm => h1 m (by rw [hm]), h2⟩⟩
  | cons a as ih =>
    obtain ⟨o, r', hf, hr⟩ := frame_track h hs r hd
    unfold Reader.pollNext
    rw [hf]
    simp only [R.bind_ok, R.pure_eq]
    cases o with
    | some o =>
      rcases hr with ⟨m, ms', h1, h2, h3⟩ | ⟨h1, h2⟩
      · cases h1; exact ⟨_, _, _, rfl, .inl ⟨m, ms', rfl, h2, h3⟩⟩
      · exact ⟨_, _, _, rfl, .inr ⟨fun m hm => h1 m (by rw [hm]), h2⟩⟩
    | none =>
      rcases hr with ⟨m, ms', h1, -⟩ | ⟨-, h2⟩
      · cases h1
      · cases a with
        | pending => exact ⟨_, _, _, rfl, .inr ⟨by simp, h2⟩⟩
        | err => exact ⟨_, _, _, rfl, .inr ⟨by simp, h2⟩⟩
        | data bs =>
          cases bs with
          | nil =>
            simp only
            split
            · exact ⟨_, _, _, rfl, .inr ⟨by simp, h2⟩⟩
            · exact ih _ h2
          | cons b bs =>
            refine ih { r' with buf := r'.buf ++ (b :: bs), eof := false, readable := true } ?_
            simpa [dataOf] using h2

/-- A reader that does not look at its buffer any more has decoded everything in it. -/
def Rested (c : Codec σ ε μ) (r : Reader σ) : Prop :=
  r.readable = false ∨ r.errored = true → ∀ ms, Drains c r.st r.buf ms none → ms = []

theorem frame_rested {c : Codec σ ε μ} (h : c.Incremental) (hs : c.ErrStable) {r r' : Reader σ} {o} (hr : Rested c r)
    (hf : r.frame c = .ok (o, r')) : Rested c r' ∧ (o = none → r'.readable = false ∧ r'.errored = false) := by
  unfold Reader.frame at hf
  split at hf
  · rename_i he
    cases hf
    exact ⟨fun _ => hr (.inr he), by simp⟩
  · rename_i he
    split at hf
    · rename_i hread
      cases hd : c.decode r.st r.buf with
      | panic => rw [hd] at hf; cases hf
      | ok t =>
        obtain ⟨d, s', b'⟩ := t
        rw [hd] at hf
        simp only [R.bind_ok, R.pure_eq] at hf
        have he' : r.errored = false := by simpa using he
        have more : d = .more → ∀ ms, Drains c s' b' ms none → ms = [] := by
          rintro rfl ms hm
          exact (Drains.det hm (.more (more_fix h hd))).1
        have err : ∀ e, d = .err e → ∀ ms, Drains c s' b' ms none → ms = [] := by
          rintro e rfl ms hm
          obtain ⟨rfl, rfl⟩ := hs _ _ _ _ _ hd
          have := (Drains.det hm (.err hd)).2
          cases this
        have item : ∀ r1 : Reader σ, r1.readable = r.readable → r1.errored = r.errored → Rested c r1 := by
          intro r1 h1 h2 hx
          rw [h1, h2, hread, he'] at hx
          rcases hx with hx | hx <;> cases hx
        split at hf
        · cases d with
          | item m => cases hf; exact ⟨item _ rfl rfl, by simp⟩
          | err e => cases hf; exact ⟨fun _ => err e rfl, by simp⟩
          | more => simp only at hf; split at hf <;> cases hf <;> exact ⟨fun _ => more rfl, by simp⟩
        · cases d with
          | item m => cases hf; exact ⟨item _ rfl rfl, by simp⟩
          | err e => cases hf; exact ⟨fun _ => err e rfl, by simp⟩
          | more => cases hf; exact ⟨fun _ => more rfl, fun _ => ⟨rfl, he'⟩⟩
    · rename_i hread
      cases hf
      exact ⟨hr, fun _ => ⟨by simpa using hread, by simpa using he⟩⟩

theorem pollNext_rested {c : Codec σ ε μ} (h : c.Incremental) (hs : c.ErrStable) (as : List ReadAns) {r r' : Reader σ} {o as'}
    (hr : Rested c r) (hp : r.pollNext c as = .ok (o, r', as')) : Rested c r' := by
  have woken : ∀ r1 : Reader σ, r1.readable = true → r1.errored = false → Rested c r1 := by
    intro r1 h1 h2 hx
    rw [h1, h2] at hx
    rcases hx with hx | hx <;> cases hx
  induction as generalizing r with
  | nil =>
    simp only [Reader.pollNext] at hp
    cases hf : r.frame c with
    | panic => rw [hf] at hp; cases hp
    | ok t =>
      obtain ⟨q, r1⟩ := t
      rw [hf] at hp
      have := (frame_rested h hs hr hf).1
      simp only [R.bind_ok, R.pure_eq] at hp
      cases q <;> cases hp <;> exact this
  | cons a as ih =>
    simp only [Reader.pollNext] at hp
    cases hf : r.frame c with
    | panic => rw [hf] at hp; cases hp
    | ok t =>
      obtain ⟨q, r1⟩ := t
      rw [hf] at hp
      obtain ⟨h1, h2⟩ := frame_rested h hs hr hf
      simp only [R.bind_ok, R.pure_eq] at hp
      cases q with
      | some q => cases hp; exact h1
      | none =>
        obtain ⟨h3, h4⟩ := h2 rfl
        cases a with
        | pending => cases hp; exact h1
        | err => cases hp; exact fun _ => h1 (.inl h3)
        | data bs =>
          cases bs with
          | nil =>
            simp only at hp
            split at hp
            · cases hp; exact h1
            · exact ih (r := { r1 with eof := true, readable := true }) (woken _ rfl h4) hp
          | cons b bs => exact ih (r := { r1 with buf := r1.buf ++ (b :: bs), eof := false, readable := true }) (woken _ rfl h4) hp

/-- What was read so far, whatever happened in between: it depends only on the answers used (`u`). -/
def Tracks (c : Codec σ ε μ) (input0 : List ReadAns) (got : List μ) (r : Reader σ) (as : List ReadAns) : Prop :=
  Rested c r ∧ ∃ u, input0 = u ++ as ∧ ∀ y ms e, Drains c c.init (dataOf u ++ y) ms e →
    ∃ rest, ms = got ++ rest ∧ Drains c r.st (r.buf ++ y) rest e

theorem Tracks.start (c : Codec σ ε μ) (h0 : c.decode c.init [] = .ok (.more, c.init, [])) (input0 : List ReadAns) :
    Tracks c input0 [] (Reader.new c) input0 :=
  ⟨fun _ _ hm => (Drains.det hm (.more h0)).1, [], rfl, fun _ ms _ h => ⟨ms, rfl, h⟩⟩

theorem Tracks.step {c : Codec σ ε μ} (hc : c.Incremental) (hs : c.ErrStable) {input0 got r as}
    (h : Tracks c input0 got r as) : ∃ o r' as', r.pollNext c as = .ok (o, r', as') ∧
      ((∃ m, o = .item m ∧ Tracks c input0 (got ++ [m]) r' as') ∨
       ((∀ m, o ≠ .item m) ∧ Tracks c input0 got r' as')) := by
  obtain ⟨hrest, u, hu, h⟩ := h
  obtain ⟨rest0, e0, hd0⟩ := Drains.exists c hc r.st (r.buf ++ (dataOf as ++ []))
  obtain ⟨o, r', as', hp, hcase⟩ := pollNext_track hc hs as r hd0
  obtain ⟨v, hv, hcut⟩ := pollNext_cut c as r hp
  have hp' := hcut [] List.nil_prefix
  rw [List.append_nil] at hp'
  refine ⟨o, r', as', hp, ?_⟩
  rcases hcase with ⟨m, ms', rfl, -, -⟩ | ⟨hno, -⟩
  · left
    refine ⟨m, rfl, pollNext_rested hc hs as hrest hp, u ++ v, by rw [hu, hv, List.append_assoc], fun y ms e hd => ?_⟩
    rw [dataOf_append, List.append_assoc] at hd
    obtain ⟨rest, h1, h2⟩ := h _ ms e hd
    obtain ⟨o, r'', as'', hp2, hcase⟩ := pollNext_track hc hs v r h2
    rw [hp'] at hp2; cases hp2
    rcases hcase with ⟨m', ms', h3, h4, h5⟩ | ⟨h3, -⟩
    · cases h3
      exact ⟨ms', by rw [h1, h4, List.append_assoc]; rfl, h5⟩
    · exact absurd rfl (h3 m)
  · right
    refine ⟨hno, pollNext_rested hc hs as hrest hp, u ++ v, by rw [hu, hv, List.append_assoc], fun y ms e hd => ?_⟩
    rw [dataOf_append, List.append_assoc] at hd
    obtain ⟨rest, h1, h2⟩ := h _ ms e hd
    obtain ⟨o, r'', as'', hp2, hcase⟩ := pollNext_track hc hs v r h2
    rw [hp'] at hp2; cases hp2
    rcases hcase with ⟨m', ms', h3, -⟩ | ⟨-, h3⟩
    · exact absurd h3 (hno m')
    · exact ⟨rest, h1, h3⟩

/-- What was read so far encodes (at least) what was seen. -/
theorem Tracks.prefix {c : Codec σ ε μ} {input0 got r as} (h : Tracks c input0 got r as) {y ms e}
    (hd : Drains c c.init (Spec.readSoFar input0 as ++ y) ms e) : got <+: ms := by
  obtain ⟨-, u, hu, h⟩ := h
  rw [readSoFar_eq hu] at hd
  obtain ⟨rest, h1, -⟩ := h y ms e hd
  exact ⟨rest, h1.symm⟩

/-- When the reader is dry, everything encoded by what was read so far was seen. -/
theorem Tracks.dry {c : Codec σ ε μ} {input0 got r as} (h : Tracks c input0 got r as) (hd : Spec.Dry c r) {ms}
    (hm : Drains c c.init (Spec.readSoFar input0 as) ms none) : got = ms := by
  obtain ⟨hr, u, hu, h⟩ := h
  rw [readSoFar_eq hu] at hm
  obtain ⟨rest, h1, h2⟩ := h [] ms none (by rwa [List.append_nil])
  rw [List.append_nil] at h2
  have hread : r.readable = false := by
    unfold Spec.Dry at hd
    simp only [Reader.pollNext] at hd
    cases hf : r.frame c with
    | panic => rw [hf] at hd; cases hd
    | ok t =>
      obtain ⟨q, r1⟩ := t
      rw [hf] at hd
      simp only [R.bind_ok, R.pure_eq] at hd
      cases hread : r.readable with
      | false => rfl
      | true =>
        unfold Reader.frame at hf
        split at hf
        · cases hf; cases hd
        · cases hdec : c.decode r.st r.buf with
          | panic => rw [hdec] at hf; cases hf
          | ok t =>
            obtain ⟨d, s', b'⟩ := t
            rw [hdec] at hf
            simp only [R.bind_ok, R.pure_eq] at hf
            split at hf
            · cases d with
              | item m => cases hf; cases hd
              | err e => cases hf; cases hd
              | more => simp only at hf; split at hf <;> cases hf <;> cases hd
            · cases d with
              | item m => cases hf; cases hd
              | err e => cases hf; cases hd
              | more =>
                cases hf
                simp only [R.ok.injEq, Prod.mk.injEq, true_and, and_true] at hd
                have := congrArg Reader.readable hd
                simp only [hread] at this
                exact this.symm
  rw [h1, hr (.inl hread) rest h2, List.append_nil]

/-- What was read so far is a prefix of all that will be read. -/
theorem Tracks.soFar {c : Codec σ ε μ} {input0 got r as} (h : Tracks c input0 got r as) :
    Spec.readSoFar input0 as <+: dataOf input0 := by
  obtain ⟨-, u, hu, -⟩ := h
  rw [readSoFar_eq hu, hu, dataOf_append]
  exact List.prefix_append _ _

theorem PubSub.errStable : PubSub.codec.ErrStable := by
  intro s b e s' b' h
  cases s with
  | payload hd =>
    simp only [PubSub.codec, PubSub.decode, PubSub.decodePayload] at h
    split at h
    · cases h
    · cases hx : splitTo b hd.size.toNat with
      | panic => rw [hx] at h; cases h
      | ok p => rw [hx] at h; cases h
  | header =>
    simp only [PubSub.codec, PubSub.decode, PubSub.decodeHeader] at h
    split at h
    · cases h
    · cases h0 : rget b 0 with
      | panic => rw [h0] at h; cases h
      | ok w =>
        rw [h0] at h
        simp only [R.bind_ok, R.pure_eq] at h
        split at h
        · cases h; exact ⟨rfl, rfl⟩
        · exfalso
          repeat' split at h
          all_goals try cases h
          all_goals
            revert h
            simp only [bind, R.bind]
            repeat' split
            all_goals intro h
            all_goals first
              | cases h
              | (simp only [PubSub.decodePayload] at h
                 split at h
                 · cases h
                 · revert h
                   simp only [bind, R.bind]
                   split
                   · intro h; cases h
                   · intro h; cases h)

end MsgRs
