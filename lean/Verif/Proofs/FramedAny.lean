import Verif.Proofs.Framed
namespace MsgRs
variable {σ ε μ : Type}

theorem dataOf_append (a b : List ReadAns) : dataOf (a ++ b) = dataOf a ++ dataOf b := by
  induction a with
  | nil => rfl
  | cons x a ih => cases x <;> simp [dataOf, ih]

@[simp] theorem itemsOf_map (ms : List μ) (l : List (FOut ε μ)) :
    itemsOf (ms.map .item ++ l) = ms ++ itemsOf l := by
  induction ms with
  | nil => rfl
  | cons m ms ih => simp [itemsOf, ih]

/-- Reader invariant without assumptions on the connection. -/
structure Reader.Live (r : Reader σ) : Prop where
  errored : r.errored = false
  eof : r.eof = true → r.readable = true

theorem frame_any {c : Codec σ ε μ} (h : c.Incremental) {r : Reader σ} (hr : r.Live)
    {x ms e} (hd : Drains c r.st (r.buf ++ x) ms e) :
    (∃ m ms' r', ms = m :: ms' ∧ r.frame c = .ok (some (.item m), r') ∧ r'.Live ∧
        Drains c r'.st (r'.buf ++ x) ms' e) ∨
    (∃ e' r', r.frame c = .ok (some (.err e'), r')) ∨
    (∃ r', r.frame c = .ok (some .ended, r')) ∨
    (∃ r', r.frame c = .ok (none, r') ∧ r'.Live ∧ r'.eof = false ∧
        Drains c r'.st (r'.buf ++ x) ms e) := by
  obtain ⟨herr, he⟩ := hr
  cases hread : r.readable with
  | false =>
    right; right; right
    have hee : r.eof = false := by
      cases h : r.eof with
      | false => rfl
      | true => have := he h; simp [hread] at this
    exact ⟨r, by simp [Reader.frame, herr, hread], ⟨herr, he⟩, hee, hd⟩
  | true =>
    obtain ⟨⟨d, s', b'⟩, hdec⟩ := h.total r.st r.buf
    cases d with
    | more =>
      cases hee : r.eof with
      | false =>
        right; right; right
        refine ⟨{ r with st := s', buf := b', readable := false }, ?_, ⟨herr, ?_⟩, hee, ?_⟩
        · simp [Reader.frame, herr, hread, hdec, hee]
        · intro h; simp [hee] at h
        · exact hd.resume h hdec
      | true =>
        right
        by_cases hb : b' = []
        · right; left
          subst hb
          exact ⟨{ r with st := s', buf := [], readable := false },
            by simp [Reader.frame, herr, hread, hdec, hee]⟩
        · left
          exact ⟨c.ioErr, { r with st := s', buf := b', errored := true },
            by simp [Reader.frame, herr, hread, hdec, hee, hb]⟩
    | err e' =>
      right; left
      refine ⟨e', { r with st := s', buf := b', errored := true }, ?_⟩
      cases hee : r.eof <;> simp [Reader.frame, herr, hread, hdec, hee]
    | item m =>
      left
      have hx := h.item_mono x hdec
      cases hd with
      | more h1 => simp_all
      | err h1 => simp_all
      | item h1 h2 =>
        rw [hx] at h1; cases h1
        refine ⟨_, _, { r with st := s', buf := b' }, rfl, ?_, ⟨herr, ?_⟩, h2⟩
        · cases hee : r.eof <;> simp [Reader.frame, herr, hread, hdec, hee]
        · intro _; exact hread

theorem pollNext_any {c : Codec σ ε μ} (h : c.Incremental) (as : List ReadAns)
    {r : Reader σ} (hr : r.Live) {y ms e}
    (hd : Drains c r.st (r.buf ++ (dataOf as ++ y)) ms e) :
    (∃ m ms' r' as', ms = m :: ms' ∧ r.pollNext c as = .ok (.item m, r', as') ∧ r'.Live ∧
        Drains c r'.st (r'.buf ++ (dataOf as' ++ y)) ms' e) ∨
    (∃ e' r' as', r.pollNext c as = .ok (.err e', r', as')) ∨
    (∃ r' as', r.pollNext c as = .ok (.ended, r', as')) ∨
    (∃ r' as', r.pollNext c as = .ok (.pending, r', as') ∧ r'.Live ∧
        Drains c r'.st (r'.buf ++ (dataOf as' ++ y)) ms e) := by
  induction as generalizing r with
  | nil =>
    rcases frame_any h hr hd with ⟨m, ms', r', rfl, hf, hg, hd'⟩ | ⟨e', r', hf⟩ | ⟨r', hf⟩ |
      ⟨r', hf, hg, _, hd'⟩
    · left; exact ⟨m, ms', r', [], rfl, by simp [Reader.pollNext, hf], hg, hd'⟩
    · right; left; exact ⟨e', r', [], by simp [Reader.pollNext, hf]⟩
    · right; right; left; exact ⟨r', [], by simp [Reader.pollNext, hf]⟩
    · right; right; right; exact ⟨r', [], by simp [Reader.pollNext, hf], hg, hd'⟩
  | cons a as ih =>
    rcases frame_any h hr hd with ⟨m, ms', r', rfl, hf, hg, hd'⟩ | ⟨e', r', hf⟩ | ⟨r', hf⟩ |
      ⟨r', hf, hg, hne, hd'⟩
    · left; exact ⟨m, ms', r', a :: as, rfl, by simp [Reader.pollNext, hf], hg, hd'⟩
    · right; left; exact ⟨e', r', a :: as, by simp [Reader.pollNext, hf]⟩
    · right; right; left; exact ⟨r', a :: as, by simp [Reader.pollNext, hf]⟩
    · cases a with
      | err =>
        right; left
        exact ⟨c.ioErr, { r' with errored := true }, as, by simp [Reader.pollNext, hf]⟩
      | pending =>
        right; right; right
        exact ⟨r', as, by simp [Reader.pollNext, hf], hg, hd'⟩
      | data bs =>
        cases bs with
        | nil =>
          have hp : r.pollNext c (.data [] :: as) =
              Reader.pollNext c { r' with eof := true, readable := true } as := by
            rw [Reader.pollNext, hf]
            simp [hne]
          rw [hp]
          exact ih ⟨hg.errored, fun _ => rfl⟩ hd'
        | cons b bs =>
          have hd2 : Drains c r'.st ((r'.buf ++ (b :: bs)) ++ (dataOf as ++ y)) ms e := by
            simpa [dataOf] using hd'
          have hp : r.pollNext c (.data (b :: bs) :: as) = Reader.pollNext c
              { r' with buf := r'.buf ++ (b :: bs), eof := false, readable := true } as := by
            rw [Reader.pollNext, hf]; rfl
          rw [hp]
          exact ih ⟨hg.errored, fun _ => rfl⟩ hd2

/-- Under every behaviour of the connection (cuts, pendings, errors, end of file anywhere) the
messages seen are a prefix of those in the byte stream. -/
theorem observe_any {c : Codec σ ε μ} (h : c.Incremental) (n : Nat) (as : List ReadAns)
    {r : Reader σ} (hr : r.Live) {y ms e}
    (hd : Drains c r.st (r.buf ++ (dataOf as ++ y)) ms e) :
    ∃ l, r.observe c n as = .ok l ∧ itemsOf l <+: ms := by
  induction n generalizing as r ms with
  | zero => exact ⟨[], rfl, List.nil_prefix⟩
  | succ n ih =>
    rcases pollNext_any h as hr hd with ⟨m, ms', r', as', rfl, hf, hg, hd'⟩ | ⟨e', r', as', hf⟩ |
      ⟨r', as', hf⟩ | ⟨r', as', hf, hg, hd'⟩
    · obtain ⟨l, h1, h2⟩ := ih as' hg hd'
      exact ⟨.item m :: l, by simp [Reader.observe, hf, h1], by simpa [itemsOf] using h2⟩
    · exact ⟨[.err e'], by simp [Reader.observe, hf], by simp [itemsOf]⟩
    · exact ⟨[.ended], by simp [Reader.observe, hf], by simp [itemsOf]⟩
    · obtain ⟨l, h1, h2⟩ := ih as' hg hd'
      exact ⟨l, by simp [Reader.observe, hf, h1], h2⟩

theorem new_live (c : Codec σ ε μ) : (Reader.new c).Live := ⟨rfl, by simp [Reader.new]⟩

/-- Draining with the state and bytes left over at the end. -/
inductive DrainsTo (c : Codec σ ε μ) : σ → Bytes → List μ → σ → Bytes → Prop where
  | more {s b s' b'} : c.decode s b = .ok (.more, s', b') → DrainsTo c s b [] s' b'
  | item {s b m s' b' ms s'' b''} : c.decode s b = .ok (.item m, s', b') →
      DrainsTo c s' b' ms s'' b'' → DrainsTo c s b (m :: ms) s'' b''

/-- Reading after end of file was reported. -/
theorem observe_eof {c : Codec σ ε μ} {r : Reader σ} (he : r.eof = true)
    (hread : r.readable = true) (herr : r.errored = false) (as : List ReadAns) (n : Nat)
    {ms s' b'} (hd : DrainsTo c r.st r.buf ms s' b') (hn : ms.length + 1 ≤ n) :
    r.observe c n as = .ok (ms.map .item ++ [if b' = [] then .ended else .err c.ioErr]) := by
  induction n generalizing r ms with
  | zero => omega
  | succ n ih =>
    have hpn : ∀ o r', r.frame c = .ok (some o, r') → r.pollNext c as = .ok (o, r', as) := by
      intro o r' hf
      cases as <;> simp [Reader.pollNext, hf]
    cases hd with
    | @more _ _ s' b' hdec =>
      by_cases hb : b' = []
      · subst hb
        have := hpn .ended { r with st := s', buf := [], readable := false }
          (by simp [Reader.frame, herr, hread, hdec, he])
        simp [Reader.observe, this]
      · have := hpn (.err c.ioErr) { r with st := s', buf := b', errored := true }
          (by simp [Reader.frame, herr, hread, hdec, he, hb])
        simp [Reader.observe, this, hb]
    | @item _ _ m s1 b1 ms' _ _ hdec hrest =>
      have := hpn (.item m) { r with st := s1, buf := b1 }
        (by simp [Reader.frame, herr, hread, hdec, he])
      have h2 := ih (r := { r with st := s1, buf := b1 }) he hread herr hrest
        (by simp at hn; omega)
      simp [Reader.observe, this, h2]

theorem DrainsTo.resume {c : Codec σ ε μ} (h : c.Incremental) {s b s' b' x ms s'' b''}
    (hd : c.decode s b = .ok (.more, s', b')) (hh : DrainsTo c s (b ++ x) ms s'' b'') :
    DrainsTo c s' (b' ++ x) ms s'' b'' := by
  have hr := h.more_resume x hd
  cases hh with
  | more h1 => exact .more (hr ▸ h1)
  | item h1 h2 => exact .item (hr ▸ h1) h2

theorem frame_to {c : Codec σ ε μ} (h : c.Incremental) {r : Reader σ} (hr : r.Good c)
    {x ms s' b'} (hd : DrainsTo c r.st (r.buf ++ x) ms s' b') :
    (∃ m ms' r', ms = m :: ms' ∧ r.frame c = .ok (some (.item m), r') ∧ r'.Good c ∧
        DrainsTo c r'.st (r'.buf ++ x) ms' s' b') ∨
    (∃ r', r.frame c = .ok (none, r') ∧ r'.Good c ∧
        DrainsTo c r'.st (r'.buf ++ x) ms s' b') := by
  obtain ⟨he, herr, hfix⟩ := hr
  cases hread : r.readable with
  | false =>
    right
    exact ⟨r, by simp [Reader.frame, herr, hread], ⟨he, herr, hfix⟩, hd⟩
  | true =>
    obtain ⟨⟨d, s1, b1⟩, hdec⟩ := h.total r.st r.buf
    cases d with
    | more =>
      right
      refine ⟨{ r with st := s1, buf := b1, readable := false }, ?_, ⟨he, herr, ?_⟩, ?_⟩
      · simp [Reader.frame, herr, hread, hdec, he]
      · intro _; exact more_fix h hdec
      · exact hd.resume h hdec
    | err e' =>
      obtain ⟨s'', b'', hx⟩ := h.err_mono x hdec
      cases hd with
      | more h1 => simp_all
      | item h1 => simp_all
    | item m =>
      left
      have hx := h.item_mono x hdec
      cases hd with
      | more h1 => simp_all
      | item h1 h2 =>
        rw [hx] at h1; cases h1
        refine ⟨_, _, { r with st := s1, buf := b1 }, rfl, ?_, ⟨he, herr, ?_⟩, h2⟩
        · simp [Reader.frame, herr, hread, hdec, he]
        · intro hh; simp [hread] at hh

/-- A complete stream followed by end of file. -/
theorem observe_then_eof {c : Codec σ ε μ} (h : c.Incremental) (as rest : List ReadAns)
    (has : OpenAns as) (n : Nat) {r : Reader σ} (hr : r.Good c) {ms s' b'}
    (hd : DrainsTo c r.st (r.buf ++ dataOf as) ms s' b')
    (hn : ms.length + as.length + 1 ≤ n) :
    r.observe c n (as ++ .data [] :: rest) =
      .ok (ms.map .item ++ [if b' = [] then .ended else .err c.ioErr]) := by
  induction n generalizing as r ms with
  | zero => omega
  | succ n ihn =>
    -- inner induction over the answers consumed by one poll
    have inner : ∀ (as : List ReadAns), OpenAns as → ∀ {r : Reader σ}, r.Good c → ∀ {ms},
        DrainsTo c r.st (r.buf ++ dataOf as) ms s' b' → ms.length + as.length + 1 ≤ n + 1 →
        r.observe c (n + 1) (as ++ .data [] :: rest) =
          .ok (ms.map .item ++ [if b' = [] then .ended else .err c.ioErr]) := by
      intro as
      induction as with
      | nil =>
        intro _ r hr ms hd hn
        rcases frame_to h hr hd with ⟨m, ms', r', rfl, hf, hg, hd'⟩ | ⟨r', hf, hg, hd'⟩
        · have hp : r.pollNext c (.data [] :: rest) = .ok (.item m, r', .data [] :: rest) := by
            simp [Reader.pollNext, hf]
          have h2 := ihn [] (by simp [OpenAns]) hg hd' (by simp at hn ⊢; omega)
          simp only [List.nil_append] at h2 ⊢
          simp [Reader.observe, hp, h2]
        · have hp : r.pollNext c (.data [] :: rest) = Reader.pollNext c
              { r' with eof := true, readable := true } rest := by
            rw [Reader.pollNext, hf]
            simp [hg.eof]
          have hob : r.observe c (n + 1) ([] ++ .data [] :: rest) = Reader.observe c (n + 1)
              { r' with eof := true, readable := true } rest := by
            simp only [List.nil_append, Reader.observe, hp]
          rw [hob]
          exact observe_eof (r := { r' with eof := true, readable := true }) rfl rfl hg.errored
            rest (n + 1) (by simpa [dataOf] using hd') (by simp at hn ⊢; omega)
      | cons a as ih =>
        intro has r hr ms hd hn
        have has' : OpenAns as := fun x hx => has x (List.mem_cons_of_mem _ hx)
        rcases frame_to h hr hd with ⟨m, ms', r', rfl, hf, hg, hd'⟩ | ⟨r', hf, hg, hd'⟩
        · have hp : r.pollNext c ((a :: as) ++ .data [] :: rest) =
              .ok (.item m, r', (a :: as) ++ .data [] :: rest) := by
            simp [Reader.pollNext, hf]
          have h2 := ihn (a :: as) has hg hd' (by simp at hn ⊢; omega)
          simp only [Reader.observe, hp, R.bind_ok, h2]
          rfl
        · cases a with
          | err => exact absurd rfl (has .err (List.mem_cons_self ..)).1
          | pending =>
            have hp : r.pollNext c ((.pending :: as) ++ .data [] :: rest) =
                .ok (.pending, r', as ++ .data [] :: rest) := by
              simp [Reader.pollNext, hf]
            have h2 := ihn as has' hg (by simpa [dataOf] using hd') (by simp at hn ⊢; omega)
            simp only [Reader.observe, hp, R.bind_ok, h2]
          | data bs =>
            cases bs with
            | nil => exact absurd rfl (has (.data []) (List.mem_cons_self ..)).2
            | cons b bs =>
              have hg2 : Reader.Good c
                  { r' with buf := r'.buf ++ (b :: bs), eof := false, readable := true } :=
                ⟨rfl, hg.errored, by simp⟩
              have hp : r.pollNext c ((.data (b :: bs) :: as) ++ .data [] :: rest) =
                  Reader.pollNext c
                    { r' with buf := r'.buf ++ (b :: bs), eof := false, readable := true }
                    (as ++ .data [] :: rest) := by
                rw [List.cons_append, Reader.pollNext, hf]; rfl
              have hob : r.observe c (n + 1) ((.data (b :: bs) :: as) ++ .data [] :: rest) =
                  Reader.observe c (n + 1)
                    { r' with buf := r'.buf ++ (b :: bs), eof := false, readable := true }
                    (as ++ .data [] :: rest) := by
                simp only [Reader.observe, hp]
              rw [hob]
              exact ih has' hg2 (by simpa [dataOf] using hd') (by simp at hn ⊢; omega)
    exact inner as has hr hd hn

theorem frame_cases (c : Codec σ ε μ) (r : Reader σ) :
    r.frame c = .panic ∨ (∃ o r', r.frame c = .ok (some o, r') ∧ o ≠ .pending) ∨
    (∃ r', r.frame c = .ok (none, r') ∧ r'.frame c = .ok (none, r')) := by
  unfold Reader.frame
  split
  · right; left; exact ⟨_, _, rfl, by simp⟩
  · split
    · cases hd : c.decode r.st r.buf with
      | panic => left; rfl
      | ok x =>
        obtain ⟨d, s', b'⟩ := x
        right
        simp only [R.bind_ok]
        split
        · cases d with
          | item m => left; exact ⟨_, _, rfl, by simp⟩
          | err e => left; exact ⟨_, _, rfl, by simp⟩
          | more =>
            left
            by_cases hb : b'.isEmpty
            · simp only [hb, if_true]; exact ⟨_, _, rfl, by simp⟩
            · simp only [hb]; exact ⟨_, _, rfl, by simp⟩
        · cases d with
          | item m => left; exact ⟨_, _, rfl, by simp⟩
          | err e => left; exact ⟨_, _, rfl, by simp⟩
          | more => right; refine ⟨_, rfl, ?_⟩; simp_all
    · right; right
      refine ⟨r, rfl, ?_⟩
      simp_all

/-- After `Pending`, the next poll continues where this one stopped. -/
theorem next_resume (c : Codec σ ε μ) (as : List ReadAns) (r : Reader σ) {r' as'}
    (h : r.pollNext c as = .ok (.pending, r', as')) : r.next c as = r'.next c as' := by
  unfold Reader.next
  have aux : ∀ (r r1 : Reader σ) (l : List ReadAns), r.frame c = .ok (none, r1) →
      r1.frame c = .ok (none, r1) → r.pollNext c l = r1.pollNext c l := by
    intro r r1 l h1 h2
    cases l <;> simp only [Reader.pollNext, h1, h2]
  induction as generalizing r with
  | nil =>
    rcases frame_cases c r with hf | ⟨o, r1, hf, ho⟩ | ⟨r1, hf, hf1⟩
    · simp [Reader.pollNext, hf] at h
    · simp [Reader.pollNext, hf] at h; exact absurd h.1 ho
    · simp [Reader.pollNext, hf] at h
      obtain ⟨rfl, rfl⟩ := h
      exact aux _ _ _ hf hf1
  | cons a as ih =>
    rcases frame_cases c r with hf | ⟨o, r1, hf, ho⟩ | ⟨r1, hf, hf1⟩
    · simp [Reader.pollNext, hf] at h
    · simp [Reader.pollNext, hf] at h; exact absurd h.1 ho
    · cases a with
      | pending =>
        simp [Reader.pollNext, hf] at h
        obtain ⟨rfl, rfl⟩ := h
        simp only [ne_eq, not_true_eq_false, decide_false, Bool.false_eq_true, not_false_eq_true,
          List.filter_cons_of_neg]
        exact aux _ _ _ hf hf1
      | err => simp [Reader.pollNext, hf] at h
      | data bs =>
        rw [List.filter_cons_of_pos (by simp)]
        cases bs with
        | nil =>
          simp only [Reader.pollNext, hf, R.bind_ok] at h ⊢
          split at h
          · simp at h
          · rename_i he
            rw [if_neg he]
            exact ih _ h
        | cons b bs =>
          simp only [Reader.pollNext, hf, R.bind_ok] at h ⊢
          exact ih _ h

theorem drainsTo_encoded (c : Codec σ ε μ) (enc : μ → Bytes)
    (h0 : c.decode c.init [] = .ok (.more, c.init, []))
    (ok : μ → Prop)
    (hrt : ∀ m x, ok m → c.decode c.init (enc m ++ x) = .ok (.item m, c.init, x))
    (ms : List μ) (hms : ∀ m ∈ ms, ok m) :
    DrainsTo c c.init (ms.flatMap enc) ms c.init [] := by
  induction ms with
  | nil => exact .more h0
  | cons m ms ih =>
    rw [List.flatMap_cons]
    exact .item (hrt m _ (hms m (List.mem_cons_self ..)))
      (ih fun m hm => hms m (List.mem_cons_of_mem _ hm))

end MsgRs
