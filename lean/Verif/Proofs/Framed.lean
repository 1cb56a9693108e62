import Verif.Model.Framed
import Verif.Proofs.Bytes
import Verif.Spec.Stream
namespace MsgRs
variable {σ ε μ : Type}

/-- A decoder whose decisions are never revised when more bytes arrive. -/
structure Codec.Incremental (c : Codec σ ε μ) : Prop where
  total : ∀ s b, ∃ r, c.decode s b = .ok r
  item_mono : ∀ {s b m s' b'} x, c.decode s b = .ok (.item m, s', b') →
    c.decode s (b ++ x) = .ok (.item m, s', b' ++ x)
  err_mono : ∀ {s b e s' b'} x, c.decode s b = .ok (.err e, s', b') →
    ∃ s'' b'', c.decode s (b ++ x) = .ok (.err e, s'', b'')
  more_resume : ∀ {s b s' b'} x, c.decode s b = .ok (.more, s', b') →
    c.decode s (b ++ x) = c.decode s' (b' ++ x)
  decr : ∃ meas : σ → Bytes → Nat,
    ∀ {s b m s' b'}, c.decode s b = .ok (.item m, s', b') → meas s' b' < meas s b

/-- Repeated decoding of a fixed byte string. -/
inductive Drains (c : Codec σ ε μ) : σ → Bytes → List μ → Option ε → Prop where
  | more {s b s' b'} : c.decode s b = .ok (.more, s', b') → Drains c s b [] none
  | err {s b e s' b'} : c.decode s b = .ok (.err e, s', b') → Drains c s b [] (some e)
  | item {s b m s' b' ms e} : c.decode s b = .ok (.item m, s', b') → Drains c s' b' ms e →
      Drains c s b (m :: ms) e

theorem Drains.exists (c : Codec σ ε μ) (h : c.Incremental) (s : σ) (b : Bytes) :
    ∃ ms e, Drains c s b ms e := by
  obtain ⟨meas, hdecr⟩ := h.decr
  induction hn : meas s b using Nat.strongRecOn generalizing s b with
  | _ n ih =>
    obtain ⟨⟨d, s', b'⟩, hd⟩ := h.total s b
    cases d with
    | more => exact ⟨_, _, .more hd⟩
    | err e => exact ⟨_, _, .err hd⟩
    | item m =>
      obtain ⟨ms, e, hh⟩ := ih _ (hn ▸ hdecr hd) s' b' rfl
      exact ⟨_, _, .item hd hh⟩

theorem Drains.det {c : Codec σ ε μ} {s b ms e ms' e'} (h : Drains c s b ms e)
    (h' : Drains c s b ms' e') : ms = ms' ∧ e = e' := by
  induction h generalizing ms' e' with
  | more hd => cases h' <;> simp_all
  | err hd => cases h' <;> simp_all
  | item hd _ ih =>
    cases h' with
    | more hd' => simp_all
    | err hd' => simp_all
    | item hd' h' =>
      rw [hd] at hd'; cases hd'
      obtain ⟨rfl, rfl⟩ := ih h'; simp

/-- Transfer along a decode step that asked for more bytes. -/
theorem Drains.resume {c : Codec σ ε μ} (h : c.Incremental) {s b s' b' x ms e}
    (hd : c.decode s b = .ok (.more, s', b')) (hh : Drains c s (b ++ x) ms e) :
    Drains c s' (b' ++ x) ms e := by
  have hr := h.more_resume x hd
  cases hh with
  | more h1 => exact .more (hr ▸ h1)
  | err h1 => exact .err (hr ▸ h1)
  | item h1 h2 => exact .item (hr ▸ h1) h2

/-- Reader invariant while the connection is open. -/
structure Reader.Good (c : Codec σ ε μ) (r : Reader σ) : Prop where
  eof : r.eof = false
  errored : r.errored = false
  fix : r.readable = false → c.decode r.st r.buf = .ok (.more, r.st, r.buf)

theorem more_fix {c : Codec σ ε μ} (h : c.Incremental) {s b s' b'}
    (hd : c.decode s b = .ok (.more, s', b')) : c.decode s' b' = .ok (.more, s', b') := by
  have := h.more_resume [] hd
  simp only [List.append_nil] at this
  rw [← this, hd]

/-- What `frame` does on an open connection. -/
theorem frame_good {c : Codec σ ε μ} (h : c.Incremental) {r : Reader σ} (hr : r.Good c)
    {x ms e} (hd : Drains c r.st (r.buf ++ x) ms e) :
    (∃ m ms' r', ms = m :: ms' ∧ r.frame c = .ok (some (.item m), r') ∧ r'.Good c ∧
        Drains c r'.st (r'.buf ++ x) ms' e) ∨
    (∃ e' r', ms = [] ∧ e = some e' ∧ r.frame c = .ok (some (.err e'), r')) ∨
    (∃ r', r.frame c = .ok (none, r') ∧ r'.Good c ∧ r'.readable = false ∧
        Drains c r'.st (r'.buf ++ x) ms e) := by
  obtain ⟨he, herr, hfix⟩ := hr
  cases hread : r.readable with
  | false =>
    right; right
    exact ⟨r, by simp [Reader.frame, herr, hread], ⟨he, herr, hfix⟩, hread, hd⟩
  | true =>
    obtain ⟨⟨d, s', b'⟩, hdec⟩ := h.total r.st r.buf
    cases d with
    | more =>
      right; right
      refine ⟨{ r with st := s', buf := b', readable := false }, ?_, ⟨he, herr, ?_⟩, rfl, ?_⟩
      · simp [Reader.frame, herr, hread, hdec, he]
      · intro _; exact more_fix h hdec
      · exact hd.resume h hdec
    | err e' =>
      right; left
      obtain ⟨s'', b'', hx⟩ := h.err_mono x hdec
      have := hd.det (Drains.err hx)
      refine ⟨e', { r with st := s', buf := b', errored := true }, this.1, this.2, ?_⟩
      simp [Reader.frame, herr, hread, hdec, he]
    | item m =>
      left
      have hx := h.item_mono x hdec
      cases hd with
      | more h1 => simp_all
      | err h1 => simp_all
      | item h1 h2 =>
        rw [hx] at h1; cases h1
        refine ⟨_, _, { r with st := s', buf := b' }, rfl, ?_, ⟨he, herr, ?_⟩, h2⟩
        · simp [Reader.frame, herr, hread, hdec, he]
        · intro hh; simp [hread] at hh

theorem pollNext_open {c : Codec σ ε μ} (h : c.Incremental) (as : List ReadAns)
    (has : OpenAns as) {r : Reader σ} (hr : r.Good c)
    {ms e} (hd : Drains c r.st (r.buf ++ dataOf as) ms e) :
    (∃ m ms' r' as', ms = m :: ms' ∧ r.pollNext c as = .ok (.item m, r', as') ∧ r'.Good c ∧
        OpenAns as' ∧ as'.length ≤ as.length ∧ Drains c r'.st (r'.buf ++ dataOf as') ms' e) ∨
    (∃ e' r' as', ms = [] ∧ e = some e' ∧ r.pollNext c as = .ok (.err e', r', as')) ∨
    (∃ r' as', r.pollNext c as = .ok (.pending, r', as') ∧ r'.Good c ∧ OpenAns as' ∧
        (as'.length < as.length ∨ (as' = [] ∧ ms = [] ∧ e = none)) ∧
        Drains c r'.st (r'.buf ++ dataOf as') ms e) := by
  induction as generalizing r with
  | nil =>
    rcases frame_good h hr hd with ⟨m, ms', r', rfl, hf, hg, hd'⟩ | ⟨e', r', rfl, rfl, hf⟩ |
      ⟨r', hf, hg, hread, hd'⟩
    · left; exact ⟨m, ms', r', [], rfl, by simp [Reader.pollNext, hf], hg, has, Nat.le_refl _, hd'⟩
    · right; left; exact ⟨e', r', [], rfl, rfl, by simp [Reader.pollNext, hf]⟩
    · right; right
      refine ⟨r', [], by simp [Reader.pollNext, hf], hg, has, Or.inr ?_, hd'⟩
      have := hd'.det (Drains.more (by simpa [dataOf] using hg.fix hread))
      exact ⟨rfl, this.1, this.2⟩
  | cons a as ih =>
    have has' : OpenAns as := fun x hx => has x (List.mem_cons_of_mem _ hx)
    rcases frame_good h hr hd with ⟨m, ms', r', rfl, hf, hg, hd'⟩ | ⟨e', r', rfl, rfl, hf⟩ |
      ⟨r', hf, hg, hread, hd'⟩
    · left
      exact ⟨m, ms', r', a :: as, rfl, by simp [Reader.pollNext, hf], hg, has, Nat.le_refl _, hd'⟩
    · right; left; exact ⟨e', r', a :: as, rfl, rfl, by simp [Reader.pollNext, hf]⟩
    · cases a with
      | err => exact absurd rfl (has .err (List.mem_cons_self ..)).1
      | pending =>
        right; right
        exact ⟨r', as, by simp [Reader.pollNext, hf], hg, has', Or.inl (by simp), hd'⟩
      | data bs =>
        cases bs with
        | nil => exact absurd rfl (has (.data []) (List.mem_cons_self ..)).2
        | cons b bs =>
          have hg2 : Reader.Good c
              { r' with buf := r'.buf ++ (b :: bs), eof := false, readable := true } :=
            ⟨rfl, hg.errored, by simp⟩
          have hd2 : Drains c r'.st ((r'.buf ++ (b :: bs)) ++ dataOf as) ms e := by
            simpa [dataOf] using hd'
          have hp : r.pollNext c (.data (b :: bs) :: as) = Reader.pollNext c
              { r' with buf := r'.buf ++ (b :: bs), eof := false, readable := true } as := by
            rw [Reader.pollNext, hf]; rfl
          rw [hp]
          rcases ih has' hg2 hd2 with ⟨m, ms', r', as', rfl, hf, hg, ho, hl, hd'⟩ |
            ⟨e', r', as', rfl, rfl, hf⟩ | ⟨r', as', hf, hg, ho, hl, hd'⟩
          · left; exact ⟨m, ms', r', as', rfl, hf, hg, ho, by simp; omega, hd'⟩
          · right; left; exact ⟨e', r', as', rfl, rfl, hf⟩
          · right; right
            refine ⟨r', as', hf, hg, ho, ?_, hd'⟩
            rcases hl with hl | hl
            · left; simp; omega
            · exact Or.inr hl

/-- The complete list of results for a byte stream. -/
def resultsOf (ms : List μ) (e : Option ε) : List (FOut ε μ) :=
  ms.map .item ++ (match e with | some e => [.err e] | none => [])

theorem observe_open {c : Codec σ ε μ} (h : c.Incremental) (n : Nat) (as : List ReadAns)
    (has : OpenAns as) {r : Reader σ} (hr : r.Good c)
    {ms e} (hd : Drains c r.st (r.buf ++ dataOf as) ms e) :
    ∃ l, r.observe c n as = .ok l ∧ l <+: resultsOf ms e ∧
      (ms.length + as.length + 1 ≤ n → l = resultsOf ms e) := by
  induction n generalizing as r ms with
  | zero => exact ⟨[], rfl, List.nil_prefix, by omega⟩
  | succ n ih =>
    rcases pollNext_open h as has hr hd with ⟨m, ms', r', as', rfl, hf, hg, ho, hl, hd'⟩ |
      ⟨e', r', as', rfl, rfl, hf⟩ | ⟨r', as', hf, hg, ho, hl, hd'⟩
    · obtain ⟨l, h1, h2, h3⟩ := ih as' ho hg hd'
      refine ⟨.item m :: l, by simp [Reader.observe, hf, h1], ?_, ?_⟩
      · simpa [resultsOf] using h2
      · intro hn
        simp only [List.length_cons] at hn
        rw [h3 (by omega)]
        simp [resultsOf]
    · exact ⟨[.err e'], by simp [Reader.observe, hf], by simp [resultsOf], by simp [resultsOf]⟩
    · obtain ⟨l, h1, h2, h3⟩ := ih as' ho hg hd'
      refine ⟨l, by simp [Reader.observe, hf, h1], h2, ?_⟩
      intro hn
      rcases hl with hl | ⟨rfl, rfl, rfl⟩
      · exact h3 (by omega)
      · have : l <+: [] := h2
        simpa [resultsOf] using this

theorem new_good (c : Codec σ ε μ) (h0 : c.decode c.init [] = .ok (.more, c.init, [])) :
    (Reader.new c).Good c := ⟨rfl, rfl, fun _ => h0⟩

/-- Decoding the concatenation of encoded messages. -/
theorem drains_encoded (c : Codec σ ε μ) (enc : μ → Bytes)
    (h0 : c.decode c.init [] = .ok (.more, c.init, []))
    (ok : μ → Prop)
    (hrt : ∀ m x, ok m → c.decode c.init (enc m ++ x) = .ok (.item m, c.init, x))
    (ms : List μ) (hms : ∀ m ∈ ms, ok m) :
    Drains c c.init (ms.flatMap enc) ms none := by
  induction ms with
  | nil => exact .more h0
  | cons m ms ih =>
    rw [List.flatMap_cons]
    exact .item (hrt m _ (hms m (List.mem_cons_self ..)))
      (ih fun m hm => hms m (List.mem_cons_of_mem _ hm))

end MsgRs
