import Verif.Proofs.FramedAny
/-!
# A consumer that polls a connection now and then

`Reads c input0 n l r as`: after `n` polls of a fresh `Framed` over a connection that will answer `input0`,
the items seen are `l`, none of the polls gave an error or the end, the reader is now `r` and `as` are the
answers still to come.
-/
namespace MsgRs
variable {σ ε μ : Type}

theorem readSoFar_eq {input0 input u : List ReadAns} (h : input0 = u ++ input) : Spec.readSoFar input0 input = dataOf u := by
  unfold Spec.readSoFar
  rw [h]
  simp

inductive Reads (c : Codec σ ε μ) (input0 : List ReadAns) : Nat → List μ → Reader σ → List ReadAns → Prop where
  | start : Reads c input0 0 [] (Reader.new c) input0
  | idle {n : Nat} {l : List μ} {r r' : Reader σ} {as as' : List ReadAns} : Reads c input0 n l r as →
      r.pollNext c as = .ok (.pending, r', as') → Reads c input0 (n + 1) l r' as'
  | item {n : Nat} {l : List μ} {r r' : Reader σ} {as as' : List ReadAns} {m : μ} : Reads c input0 n l r as →
      r.pollNext c as = .ok (.item m, r', as') → Reads c input0 (n + 1) (l ++ [m]) r' as'

theorem Reads.observe {c : Codec σ ε μ} {input0 n l r as} (h : Reads c input0 n l r as) (k : Nat) :
    (Reader.new c).observe c (n + k) input0 =
      (do let l' ← r.observe c k as; return l.map .item ++ l') := by
  induction h generalizing k with
  | start =>
    simp only [List.map_nil, List.nil_append, Nat.zero_add]
    cases (Reader.new c).observe c k input0 <;> rfl
  | @idle n l r r' as as' h hp ih =>
    rw [Nat.add_right_comm, Nat.add_assoc, ih (k + 1)]
    simp only [Reader.observe, hp, R.bind_ok]
  | @item n l r r' as as' m h hp ih =>
    rw [Nat.add_right_comm, Nat.add_assoc, ih (k + 1)]
    simp only [Reader.observe, hp, R.bind_ok]
    cases r'.observe c k as' with
    | panic => rfl
    | ok x => simp

/-- A poll depends only on the answers it uses up: with fewer answers after those it gives the same. -/
theorem pollNext_cut (c : Codec σ ε μ) (as : List ReadAns) (r : Reader σ) {o r' as'}
    (h : r.pollNext c as = .ok (o, r', as')) :
    ∃ u, as = u ++ as' ∧ ∀ z, z <+: as' → r.pollNext c (u ++ z) = .ok (o, r', z) := by
  induction as generalizing r with
  | nil =>
    simp only [Reader.pollNext] at h
    cases hf : r.frame c with
    | panic => rw [hf] at h; cases h
    | ok t =>
      obtain ⟨q, r1⟩ := t
      rw [hf] at h
      simp only [R.bind_ok, R.pure_eq] at h
      refine ⟨[], ?_, fun z hz => ?_⟩
      · cases q <;> cases h <;> rfl
      · have hz0 : z = [] := by
          cases q <;> cases h <;> exact List.prefix_nil.mp hz
        subst hz0
        simp only [List.nil_append, Reader.pollNext, hf, R.bind_ok, R.pure_eq]
        cases q <;> cases h <;> rfl
  | cons a as ih =>
    simp only [Reader.pollNext] at h
    cases hf : r.frame c with
    | panic => rw [hf] at h; cases h
    | ok t =>
      obtain ⟨q, r1⟩ := t
      rw [hf] at h
      simp only [R.bind_ok, R.pure_eq] at h
      cases q with
      | some q =>
        cases h
        refine ⟨[], rfl, fun z _ => ?_⟩
        cases z with
        | nil => simp only [List.nil_append, Reader.pollNext, hf, R.bind_ok, R.pure_eq]
        | cons b z => simp only [List.nil_append, Reader.pollNext, hf, R.bind_ok, R.pure_eq]
      | none =>
        cases a with
        | pending =>
          cases h
          exact ⟨[.pending], rfl, fun z _ => by
            simp only [List.cons_append, List.nil_append, Reader.pollNext, hf, R.bind_ok, R.pure_eq]⟩
        | err =>
          cases h
          exact ⟨[.err], rfl, fun z _ => by
            simp only [List.cons_append, List.nil_append, Reader.pollNext, hf, R.bind_ok, R.pure_eq]⟩
        | data bs =>
          cases bs with
          | nil =>
            simp only at h
            split at h
            · rename_i he
              cases h
              exact ⟨[.data []], rfl, fun z _ => by
                simp only [List.cons_append, List.nil_append, Reader.pollNext, hf, R.bind_ok, R.pure_eq, he, if_true]⟩
            · rename_i he
              obtain ⟨u, h1, h2⟩ := ih _ h
              exact ⟨.data [] :: u, by rw [h1]; rfl, fun z hz => by
                simp only [List.cons_append, Reader.pollNext, hf, R.bind_ok, he]
                exact h2 z hz⟩
          | cons b bs =>
            obtain ⟨u, h1, h2⟩ := ih _ h
            exact ⟨.data (b :: bs) :: u, by rw [h1]; rfl, fun z hz => by
              simp only [List.cons_append, Reader.pollNext, hf, R.bind_ok]
              exact h2 z hz⟩

/-- So does a series of polls. -/
theorem Reads.cut {c : Codec σ ε μ} {input0 n l r as} (h : Reads c input0 n l r as) :
    ∃ u, input0 = u ++ as ∧ ∀ z, z <+: as → Reads c (u ++ z) n l r z := by
  induction h with
  | start => exact ⟨[], rfl, fun z _ => .start⟩
  | @idle n l r r' as as' h hp ih =>
    obtain ⟨u, h1, h2⟩ := ih
    obtain ⟨v, h3, h4⟩ := pollNext_cut c as r hp
    refine ⟨u ++ v, by rw [h1, h3, List.append_assoc], fun z hz => ?_⟩
    rw [List.append_assoc]
    exact (h2 (v ++ z) (by rw [h3]; exact (List.prefix_append_right_inj v).mpr hz)).idle (h4 z hz)
  | @item n l r r' as as' m h hp ih =>
    obtain ⟨u, h1, h2⟩ := ih
    obtain ⟨v, h3, h4⟩ := pollNext_cut c as r hp
    refine ⟨u ++ v, by rw [h1, h3, List.append_assoc], fun z hz => ?_⟩
    rw [List.append_assoc]
    exact (h2 (v ++ z) (by rw [h3]; exact (List.prefix_append_right_inj v).mpr hz)).item (h4 z hz)

/-- `l` is exactly what `n` polls of a connection answering `input0` give, up to the first error or the end. -/
def SeenIn (c : Codec σ ε μ) (input0 : List ReadAns) (n : Nat) (l : List μ) : Prop :=
  ∃ out, (Reader.new c).observe c n input0 = .ok out ∧ itemsOf out = l

/-- `l` is exactly what `n` polls of the connection give, up to the first error or the end, and it depends only
on the answers that were used (`as` are those still to come). -/
def Seen (c : Codec σ ε μ) (input0 : List ReadAns) (n : Nat) (l : List μ) (as : List ReadAns) : Prop :=
  SeenIn c input0 n l ∧ ∃ u, input0 = u ++ as ∧ SeenIn c u n l

/-- The state of a consumer: still reading, or an error has been reported (and the next poll will report the
end). -/
def ReadInv (c : Codec σ ε μ) (input0 : List ReadAns) (n : Nat) (l : List μ) (r : Reader σ)
    (as : List ReadAns) : Prop :=
  Reads c input0 n l r as ∨
    (r.errored = true ∧ (∃ n0 r0 as0 e0, Reads c input0 n0 l r0 as0 ∧ r0.pollNext c as0 = .ok (.err e0, r, as)) ∧
      ∃ e, (∀ k, (Reader.new c).observe c (n + k) input0 = .ok (l.map .item ++ [.err e])) ∧
      ∃ u, input0 = u ++ as ∧ ∀ k, (Reader.new c).observe c (n + k) u = .ok (l.map .item ++ [.err e]))

theorem Reads.seenIn {c : Codec σ ε μ} {input0 n l r as} (h : Reads c input0 n l r as) : SeenIn c input0 n l := by
  refine ⟨l.map .item, ?_, ?_⟩
  · have := h.observe 0
    simpa [Reader.observe] using this
  · have := itemsOf_map (ε := ε) l []
    simpa [itemsOf] using this

theorem Reads.seen {c : Codec σ ε μ} {input0 n l r as} (h : Reads c input0 n l r as) : Seen c input0 n l as := by
  obtain ⟨u, h1, h2⟩ := h.cut
  refine ⟨h.seenIn, u, h1, ?_⟩
  have := (h2 [] List.nil_prefix).seenIn
  rwa [List.append_nil] at this

theorem ReadInv.seen {c : Codec σ ε μ} {input0 n l r as} (h : ReadInv c input0 n l r as) : Seen c input0 n l as := by
  rcases h with h | ⟨-, -, e, h, u, h1, h2⟩
  · exact h.seen
  · exact ⟨⟨_, h 0, by simp [itemsOf]⟩, u, h1, _, h2 0, by simp [itemsOf]⟩

theorem ReadInv.start (c : Codec σ ε μ) (input0 : List ReadAns) :
    ReadInv c input0 0 [] (Reader.new c) input0 := .inl .start

/-- A reader in state `r` keeps its liveness. -/
theorem Reads.live {c : Codec σ ε μ} (hc : c.Incremental) {input0 n l r as} (h : Reads c input0 n l r as) :
    r.Live := by
  induction h with
  | start => exact new_live c
  | @idle n l r r' as as' h hp ih =>
    obtain ⟨ms, e, hd⟩ := Drains.exists c hc r.st (r.buf ++ (dataOf as ++ []))
    rcases pollNext_any hc as ih hd with ⟨_, _, _, _, _, hf, _⟩ | ⟨_, _, _, hf⟩ | ⟨_, _, hf⟩ | ⟨_, _, hf, hg, _⟩
    all_goals rw [hp] at hf; cases hf
    exact hg
  | @item n l r r' as as' m h hp ih =>
    obtain ⟨ms, e, hd⟩ := Drains.exists c hc r.st (r.buf ++ (dataOf as ++ []))
    rcases pollNext_any hc as ih hd with ⟨_, _, _, _, _, hf, hg, _⟩ | ⟨_, _, _, hf⟩ | ⟨_, _, hf⟩ | ⟨_, _, hf, hg, _⟩
    all_goals rw [hp] at hf; cases hf
    exact hg

theorem pollNext_errored (c : Codec σ ε μ) (r : Reader σ) (as : List ReadAns) (h : r.errored = true) :
    ∃ r' , r.pollNext c as = .ok (.ended, r', as) := by
  cases as with
  | nil => exact ⟨_, by simp only [Reader.pollNext, Reader.frame, h, if_true, R.bind_ok, R.pure_eq]; rfl⟩
  | cons a as => exact ⟨_, by simp only [Reader.pollNext, Reader.frame, h, if_true, R.bind_ok, R.pure_eq]; rfl⟩

/-- After an error the reader is marked. -/
theorem frame_err (c : Codec σ ε μ) (r : Reader σ) {e r'} (h : r.frame c = .ok (some (.err e), r')) :
    r'.errored = true := by
  unfold Reader.frame at h
  split at h
  · cases h
  · split at h
    · cases hd : c.decode r.st r.buf with
      | panic => rw [hd] at h; cases h
      | ok t =>
        obtain ⟨d, st, buf⟩ := t
        rw [hd] at h
        simp only [R.bind_ok, R.pure_eq] at h
        cases d <;> repeat' split at h
        all_goals first | cases h; rfl | cases h
    · cases h

theorem pollNext_err (c : Codec σ ε μ) (as : List ReadAns) (r : Reader σ) {e r' as'}
    (h : r.pollNext c as = .ok (.err e, r', as')) : r'.errored = true := by
  induction as generalizing r with
  | nil =>
    simp only [Reader.pollNext] at h
    cases hf : r.frame c with
    | panic => rw [hf] at h; cases h
    | ok t =>
      obtain ⟨o, r1⟩ := t
      rw [hf] at h
      simp only [R.bind_ok, R.pure_eq] at h
      cases o with
      | none => cases h
      | some o => cases h; exact frame_err c r hf
  | cons a as ih =>
    simp only [Reader.pollNext] at h
    cases hf : r.frame c with
    | panic => rw [hf] at h; cases h
    | ok t =>
      obtain ⟨o, r1⟩ := t
      rw [hf] at h
      simp only [R.bind_ok, R.pure_eq] at h
      cases o with
      | some o => cases h; exact frame_err c r hf
      | none =>
        cases a with
        | pending => cases h
        | err => cases h; rfl
        | data bs =>
          cases bs with
          | nil =>
            simp only at h
            split at h
            · cases h
            · exact ih _ h
          | cons b bs => exact ih _ h

/-- One more poll. -/
theorem ReadInv.step {c : Codec σ ε μ} (hc : c.Incremental) {input0 n l r as} (h : ReadInv c input0 n l r as) :
    ∃ o r' as', r.pollNext c as = .ok (o, r', as') ∧
      match o with
      | .item m => ReadInv c input0 (n + 1) (l ++ [m]) r' as'
      | .pending => ReadInv c input0 (n + 1) l r' as'
      | .err _ => ReadInv c input0 (n + 1) l r' as'
      | .ended => Seen c input0 (n + 1) l as' := by
  rcases h with h | ⟨he, -, e, ho, u, hu, hou⟩
  · have hl := h.live hc
    obtain ⟨ms, e, hd⟩ := Drains.exists c hc r.st (r.buf ++ (dataOf as ++ []))
    rcases pollNext_any hc as hl hd with ⟨m, _, r', as', _, hf, _⟩ | ⟨e', r', as', hf⟩ | ⟨r', as', hf⟩ | ⟨r', as', hf, hg, _⟩
    · exact ⟨_, _, _, hf, .inl (h.item hf)⟩
    · obtain ⟨u, h1, h2⟩ := h.cut
      obtain ⟨v, h3, h4⟩ := pollNext_cut c as r hf
      refine ⟨_, _, _, hf, .inr ⟨pollNext_err c as r hf, ⟨n, r, as, e', h, hf⟩, e', fun k => ?_, u ++ v, by rw [h1, h3, List.append_assoc],
        fun k => ?_⟩⟩
      · have := h.observe (k + 1)
        rw [Nat.add_right_comm, Nat.add_assoc, this]
        simp [Reader.observe, hf]
      · have := (h2 v (by rw [h3]; exact List.prefix_append _ _)).observe (k + 1)
        rw [Nat.add_right_comm, Nat.add_assoc, this]
        have hv := h4 [] List.nil_prefix
        rw [List.append_nil] at hv
        simp [Reader.observe, hv]
    · obtain ⟨u, h1, h2⟩ := h.cut
      obtain ⟨v, h3, h4⟩ := pollNext_cut c as r hf
      refine ⟨_, _, _, hf, ⟨l.map .item ++ [.ended], ?_, by simp [itemsOf]⟩, u ++ v,
        by rw [h1, h3, List.append_assoc], l.map .item ++ [.ended], ?_, by simp [itemsOf]⟩
      · rw [h.observe 1]
        simp [Reader.observe, hf]
      · rw [(h2 v (by rw [h3]; exact List.prefix_append _ _)).observe 1]
        have hv := h4 [] List.nil_prefix
        rw [List.append_nil] at hv
        simp [Reader.observe, hv]
    · exact ⟨_, _, _, hf, .inl (h.idle hf)⟩
  · obtain ⟨r', hp⟩ := pollNext_errored c r as he
    exact ⟨_, _, _, hp, ⟨_, ho 1, by simp [itemsOf]⟩, u, hu, _, hou 1, by simp [itemsOf]⟩

/-- What was seen is a prefix of what the connection's byte stream (or any extension of it) encodes. -/
theorem SeenIn.prefix {c : Codec σ ε μ} (hc : c.Incremental) {input0 n l} (h : SeenIn c input0 n l)
    {y ms e} (hd : Drains c c.init (dataOf input0 ++ y) ms e) : l <+: ms := by
  obtain ⟨out, h1, rfl⟩ := h
  obtain ⟨out', h2, h3⟩ := observe_any hc n input0 (new_live c) (y := y) (by simpa [Reader.new] using hd)
  rw [h1] at h2
  cases h2
  exact h3

theorem Seen.prefix {c : Codec σ ε μ} (hc : c.Incremental) {input0 n l as} (h : Seen c input0 n l as)
    {y ms e} (hd : Drains c c.init (dataOf input0 ++ y) ms e) : l <+: ms := h.1.prefix hc hd

/-- … and everything, on a connection that stays open and was polled often enough. -/
theorem Seen.complete {c : Codec σ ε μ} (hc : c.Incremental) (h0 : c.decode c.init [] = .ok (.more, c.init, []))
    {input0 n l as} (h : Seen c input0 n l as)
    (ho : OpenAns input0) {ms} (hd : Drains c c.init (dataOf input0) ms none)
    (hn : ms.length + input0.length + 1 ≤ n) : l = ms := by
  obtain ⟨⟨out, h1, rfl⟩, -⟩ := h
  obtain ⟨out', h2, -, h3⟩ := observe_open hc n input0 ho (new_good c h0) (by simpa [Reader.new] using hd)
  rw [h1] at h2
  cases h2
  rw [h3 hn]
  have := itemsOf_map (ε := ε) ms []
  simpa [resultsOf, itemsOf] using this

end MsgRs
