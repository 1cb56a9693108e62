import Verif.Spec.Channel
/-!
# Invariant of the bi-directional channel
-/
namespace MsgRs.Chan
open MsgRs Spec

section
variable {S T : Type}

theorem mirror_act (p : Pair S T) (a : Act S T) :
    (mirror p).act (mirrorAct a) = match p.act a with
      | .ok (q, e) => .ok (mirror q, mirrorEv e)
      | .panic => .panic := by
  cases a with
  | left c =>
    simp only [mirrorAct, Pair.act, mirror]
    cases c.run p.lr p.rl with
    | panic => rfl
    | ok x => rfl
  | right c =>
    simp only [mirrorAct, Pair.act, mirror]
    cases c.run p.rl p.lr with
    | panic => rfl
    | ok x => rfl

/-- The message, if it was accepted. -/
def taken (o : Out S) (a : S) : List S :=
  match o with
  | .ok => [a]
  | _ => []

/-- The invariant of one direction. `acc`, `got`: accepted and received so far. -/
structure DirInv (d : Dir S) (acc got : List S) : Prop where
  pre : got ++ d.queue <+: acc
  exact : d.rx = true → got ++ d.queue = acc
  cap : d.used ≤ d.cap
  gone : d.rx = false → d.queue = []
  sndr : d.sender = false → d.tx = .closed ∨ d.tx = .ready

variable {d : Dir S} {acc got : List S}

theorem places_le (t : Tx) : t.places ≤ 1 := by
  cases t with
  | acquiring g => cases g <;> simp [Tx.places]
  | _ => simp [Tx.places]

theorem trySend_inv (h : DirInv d acc got) (a : S) :
    DirInv (d.trySend a).2 (acc ++ taken (d.trySend a).1 a) got := by
  unfold Dir.trySend
  by_cases h1 : d.sender = true
  · rw [if_pos h1]
    by_cases h2 : d.rx = true
    · rw [if_pos h2]
      by_cases h3 : d.used < d.cap
      · rw [if_pos h3]
        have := h.exact h2
        refine ⟨by rw [← this]; simp [taken], fun _ => by rw [← this]; simp [taken], ?_,
          fun h4 => absurd (h2.symm.trans h4) (by simp), h.sndr⟩
        unfold Dir.used at *
        simp; omega
      · rw [if_neg h3]; simpa [taken] using h
    · rw [if_neg h2]; simpa [taken] using h
  · rw [if_neg h1]; simpa [taken] using h

theorem pollReady_inv (h : DirInv d acc got) : DirInv d.pollReady.2 acc got := by
  have hc := h.cap
  unfold Dir.used at hc
  have hs : d.tx ≠ .closed → d.tx ≠ .ready → d.sender = true := by
    intro h1 h2
    cases hs : d.sender with
    | true => rfl
    | false => exact absurd (h.sndr hs) (by simp [h1, h2])
  unfold Dir.pollReady
  cases htx : d.tx with
  | closed => exact h
  | ready => exact h
  | idle =>
    have hs := hs (by simp [htx]) (by simp [htx])
    rw [htx] at hc
    by_cases h2 : d.rx = true
    · simp only []
      rw [if_pos h2]
      by_cases h3 : d.used < d.cap
      · rw [if_pos h3]
        refine ⟨h.pre, h.exact, ?_, h.gone, fun h4 => absurd (hs.symm.trans h4) (by simp)⟩
        unfold Dir.used at *
        rw [htx] at h3
        simp [Tx.places] at *; omega
      · rw [if_neg h3]
        exact ⟨h.pre, h.exact, by unfold Dir.used; simpa [Tx.places] using hc, h.gone,
          fun h4 => absurd (hs.symm.trans h4) (by simp)⟩
    · simp only []
      rw [if_neg h2]
      exact ⟨h.pre, h.exact, by unfold Dir.used; simpa [Tx.places] using hc, h.gone, fun _ => .inl rfl⟩
  | acquiring g =>
    have hs := hs (by simp [htx]) (by simp [htx])
    rw [htx] at hc
    by_cases h2 : d.rx = true
    · simp only []
      rw [if_pos h2]
      cases g with
      | true =>
        exact ⟨h.pre, h.exact, by unfold Dir.used; simpa [Tx.places] using hc, h.gone,
          fun h4 => absurd (hs.symm.trans h4) (by simp)⟩
      | false => exact h
    · simp only []
      rw [if_neg h2]
      exact ⟨h.pre, h.exact, by unfold Dir.used; simp only [Tx.places] at *; omega, h.gone, fun _ => .inl rfl⟩

theorem startSend_inv (h : DirInv d acc got) {a : S} {o : Out S} {d' : Dir S} (hr : d.startSend a = .ok (o, d')) :
    DirInv d' (acc ++ taken o a) got := by
  unfold Dir.startSend at hr
  cases htx : d.tx with
  | ready =>
    rw [htx] at hr
    cases hr
    have hc := h.cap
    unfold Dir.used at hc
    rw [htx] at hc
    simp only [Tx.places] at hc
    have hsn : ∀ b : Bool, b = false → (if b = true then Tx.idle else Tx.closed) = .closed ∨
        (if b = true then Tx.idle else Tx.closed) = .ready := by
      intro b hb; subst hb; exact .inl rfl
    have hpl : (if d.sender = true then Tx.idle else Tx.closed).places = 0 := by
      cases d.sender <;> rfl
    by_cases h2 : d.rx = true
    · have := h.exact h2
      rw [if_pos h2]
      refine ⟨by rw [← this]; simp [taken], fun _ => by rw [← this]; simp [taken], ?_,
        fun h4 => absurd (h2.symm.trans h4) (by simp), hsn _⟩
      unfold Dir.used
      simp only [hpl]
      simp; omega
    · have h2' : d.rx = false := by simpa using h2
      have hq := h.gone h2'
      rw [if_neg h2]
      refine ⟨h.pre.trans (List.prefix_append _ _), fun h4 => absurd h4 h2, ?_, fun _ => hq, hsn _⟩
      unfold Dir.used
      simp only [hpl]
      omega
  | closed => rw [htx] at hr; cases hr; simpa [taken] using h
  | idle => rw [htx] at hr; cases hr
  | acquiring g => rw [htx] at hr; cases hr

theorem pollSend_inv (h : DirInv d acc got) {a : S} {o : Out S} {d' : Dir S} (hr : d.pollSend a = .ok (o, d')) :
    DirInv d' (acc ++ taken o a) got := by
  have hi := pollReady_inv h
  unfold Dir.pollSend at hr
  rcases hp : d.pollReady with ⟨o1, d1⟩
  rw [hp] at hr hi
  cases o1 with
  | ok => exact startSend_inv hi hr
  | _ => cases hr; simpa [taken] using hi

theorem close_inv (h : DirInv d acc got) : DirInv d.close acc got := by
  have hc := h.cap
  unfold Dir.used at hc
  refine ⟨h.pre, h.exact, ?_, h.gone, ?_⟩
  · unfold Dir.used Dir.close
    cases htx : d.tx with
    | acquiring g => cases g <;> rw [htx] at hc <;> simp only [Tx.places] at * <;> omega
    | _ => rw [htx] at hc; simpa [Tx.places] using hc
  · unfold Dir.close
    cases d.tx <;> simp

theorem dropTx_inv (h : DirInv d acc got) : DirInv d.dropTx acc got := by
  have hc := h.cap
  unfold Dir.used at hc
  refine ⟨h.pre, h.exact, ?_, h.gone, by simp [Dir.dropTx]⟩
  unfold Dir.used Dir.dropTx
  simp only [Tx.places]; omega

theorem dropRx_inv (h : DirInv d acc got) : DirInv d.dropRx acc got := by
  have hc := h.cap
  unfold Dir.used at hc
  refine ⟨?_, by simp [Dir.dropRx], ?_, by simp [Dir.dropRx], h.sndr⟩
  · simpa [Dir.dropRx] using (List.prefix_append got d.queue).trans h.pre
  · unfold Dir.used Dir.dropRx
    simp; omega

/-- Granting changes the sender's state only. -/
theorem grant_eq (d : Dir S) :
    d.grant = d ∨ (d.tx = .acquiring false ∧ d.used < d.cap ∧ d.grant = { d with tx := .acquiring true }) := by
  unfold Dir.grant
  cases htx : d.tx with
  | acquiring g =>
    cases g with
    | true => exact .inl rfl
    | false =>
      by_cases h : d.used < d.cap
      · exact .inr ⟨rfl, h, by simp only []; rw [if_pos h]⟩
      · refine .inl ?_
        simp only []; rw [if_neg h]
  | _ => exact .inl rfl

theorem recv_inv (h : DirInv d acc got) {a : S} {q : List S} (hq : d.queue = a :: q) :
    DirInv { d with queue := q }.grant acc (got ++ [a]) := by
  have hb : DirInv { d with queue := q } acc (got ++ [a]) := by
    refine ⟨?_, ?_, ?_, ?_, h.sndr⟩
    · have := h.pre; rw [hq] at this; simpa using this
    · intro hr; have := h.exact hr; rw [hq] at this; simpa using this
    · have := h.cap; unfold Dir.used at *; rw [hq] at this; simp at *; omega
    · intro hr; have := h.gone hr; rw [hq] at this; cases this
  rcases grant_eq { d with queue := q } with h1 | ⟨h1, h2, h3⟩
  · rw [h1]; exact hb
  · rw [h3]
    refine ⟨hb.pre, hb.exact, ?_, hb.gone, ?_⟩
    · unfold Dir.used at *
      simp only [Tx.places] at *
      omega
    · intro hs; rcases hb.sndr hs with h4 | h4 <;> rw [h1] at h4 <;> cases h4

/-- Both ways of receiving in one statement. -/
theorem recv_cases (d : Dir S) (o : Out S) (d' : Dir S) (h : d.pollRecv = (o, d') ∨ d.tryRecv = (o, d')) :
    (∃ a q, d.queue = a :: q ∧ o = .item a ∧ d' = { d with queue := q }.grant) ∨
    (d.queue = [] ∧ d' = d ∧ (∀ a, o ≠ .item a) ∧ (o = .ended ↔ d.live = false)) := by
  unfold Dir.pollRecv Dir.tryRecv at h
  cases hq : d.queue with
  | cons a q =>
    rw [hq] at h
    simp only at h
    rcases h with h | h <;> cases h <;> exact .inl ⟨a, q, rfl, rfl, rfl⟩
  | nil =>
    rw [hq] at h
    simp only at h
    refine .inr ⟨rfl, ?_⟩
    by_cases hl : d.live = true
    · rw [if_pos hl, if_pos hl] at h
      rcases h with h | h <;> cases h <;> simp [hl]
    · rw [if_neg hl, if_neg hl] at h
      rcases h with h | h <;> cases h <;> simp [hl]

/-- What one call does to the direction left to right. -/
theorem act_inv {p p' : Pair S T} {a : Act S T} {e : Ev S T} (h : DirInv p.lr acc got) (ha : p.act a = .ok (p', e)) :
    DirInv p'.lr (acc ++ (accepted e).toList) (got ++ (arrived e).toList) := by
  cases a with
  | left c =>
    unfold Pair.act at ha
    cases c with
    | trySend x =>
      cases ha
      have := trySend_inv h x
      simp only [accepted, arrived]
      cases ho : (p.lr.trySend x).1 <;> rw [ho] at this <;> simpa [taken] using this
    | pollSend x =>
      simp only [Call.run] at ha
      cases hs : p.lr.pollSend x with
      | panic => rw [hs] at ha; cases ha
      | ok y =>
        obtain ⟨o, d'⟩ := y
        rw [hs] at ha
        cases ha
        have := pollSend_inv h hs
        cases o <;> simpa [accepted, arrived, taken] using this
    | pollReady => cases ha; simpa [accepted, arrived] using pollReady_inv h
    | startSend x =>
      simp only [Call.run] at ha
      cases hs : p.lr.startSend x with
      | panic => rw [hs] at ha; cases ha
      | ok y =>
        obtain ⟨o, d'⟩ := y
        rw [hs] at ha
        cases ha
        have := startSend_inv h hs
        cases o <;> simpa [accepted, arrived, taken] using this
    | close => cases ha; simpa [accepted, arrived] using close_inv h
    | tryRecv => cases ha; simpa [accepted, arrived] using h
    | pollRecv => cases ha; simpa [accepted, arrived] using h
    | drop => cases ha; simpa [accepted, arrived] using dropTx_inv h
  | right c =>
    unfold Pair.act at ha
    cases c with
    | trySend x => cases ha; simpa [accepted, arrived] using h
    | pollSend x =>
      simp only [Call.run] at ha
      cases hs : p.rl.pollSend x with
      | panic => rw [hs] at ha; cases ha
      | ok y => rw [hs] at ha; cases ha; simpa [accepted, arrived] using h
    | pollReady => cases ha; simpa [accepted, arrived] using h
    | startSend x =>
      simp only [Call.run] at ha
      cases hs : p.rl.startSend x with
      | panic => rw [hs] at ha; cases ha
      | ok y => rw [hs] at ha; cases ha; simpa [accepted, arrived] using h
    | close => cases ha; simpa [accepted, arrived] using h
    | tryRecv =>
      cases ha
      rcases recv_cases p.lr p.lr.tryRecv.1 p.lr.tryRecv.2 (.inr rfl) with ⟨x, q, hq, ho, hd⟩ | ⟨hq, hd, ho, _⟩
      · simp only [hd, ho, accepted, arrived]; simpa using recv_inv h hq
      · simp only [hd]
        have : arrived (S := S) (T := T) (.right .tryRecv .ok p.lr.tryRecv.1) = none := by
          cases hx : p.lr.tryRecv.1 with
          | item x => exact absurd hx (ho x)
          | _ => rfl
        simp only [this, accepted]; simpa using h
    | pollRecv =>
      cases ha
      rcases recv_cases p.lr p.lr.pollRecv.1 p.lr.pollRecv.2 (.inl rfl) with ⟨x, q, hq, ho, hd⟩ | ⟨hq, hd, ho, _⟩
      · simp only [hd, ho, accepted, arrived]; simpa using recv_inv h hq
      · simp only [hd]
        have : arrived (S := S) (T := T) (.right .pollRecv .ok p.lr.pollRecv.1) = none := by
          cases hx : p.lr.pollRecv.1 with
          | item x => exact absurd hx (ho x)
          | _ => rfl
        simp only [this, accepted]; simpa using h
    | drop => cases ha; simpa [accepted, arrived] using dropRx_inv h

theorem run_inv (as : List (Act S T)) : ∀ {p p' : Pair S T} {es : List (Ev S T)} {acc got : List S},
    DirInv p.lr acc got → p.run as = .ok (p', es) →
    DirInv p'.lr (acc ++ es.filterMap accepted) (got ++ es.filterMap arrived) := by
  induction as with
  | nil => intro p p' es acc got h hr; cases hr; simpa using h
  | cons a as ih =>
    intro p p' es acc got h hr
    unfold Pair.run at hr
    cases ha : p.act a with
    | panic => rw [ha] at hr; cases hr
    | ok x =>
      obtain ⟨q, e⟩ := x
      rw [ha] at hr
      simp only [R.bind_ok] at hr
      cases hq : q.run as with
      | panic => rw [hq] at hr; cases hr
      | ok y =>
        obtain ⟨q', es'⟩ := y
        rw [hq] at hr
        cases hr
        have := ih (act_inv h ha) hq
        cases h1 : accepted e <;> cases h2 : arrived e <;> simp [List.filterMap_cons, h1, h2] at this ⊢ <;> exact this

theorem mirror_run (as : List (Act S T)) : ∀ (p : Pair S T),
    (mirror p).run (as.map mirrorAct) = match p.run as with
      | .ok (q, es) => .ok (mirror q, es.map mirrorEv)
      | .panic => .panic := by
  induction as with
  | nil => intro p; rfl
  | cons a as ih =>
    intro p
    rw [List.map_cons]
    unfold Pair.run
    rw [mirror_act]
    cases ha : p.act a with
    | panic => rfl
    | ok x =>
      simp only [R.bind_ok]
      rw [ih]
      cases hq : x.1.run as <;> rfl

theorem new_inv {n m : Nat} {p : Pair S T} (h : channel S T n m = .ok p) :
    DirInv p.lr [] [] ∧ p.lr.cap = n ∧ p.rl.cap = m ∧ 0 < n ∧ 0 < m ∧ p.lr.queue = [] ∧ p.lr.tx = .idle ∧
      p.lr.sender = true ∧ p.lr.rx = true := by
  unfold channel at h
  split at h
  · cases h
  · cases h
    refine ⟨⟨by simp, by simp, by simp [Dir.used, Tx.places], by simp, by simp⟩, rfl, rfl, by omega, by omega, rfl, rfl, rfl, rfl⟩

/-- A step of the direction left to right, as far as capacity and the receiver are concerned. -/
theorem act_frame {p p' : Pair S T} {a : Act S T} {e : Ev S T} (ha : p.act a = .ok (p', e)) :
    p'.lr.cap = p.lr.cap ∧ (keepsRx a = true → p'.lr.rx = p.lr.rx) := by
  cases a with
  | left c =>
    unfold Pair.act at ha
    cases c with
    | trySend x =>
      cases ha; unfold Dir.trySend
      split <;> (try split) <;> (try split) <;> exact ⟨rfl, fun _ => rfl⟩
    | pollSend x =>
      simp only [Call.run] at ha
      cases hs : p.lr.pollSend x with
      | panic => rw [hs] at ha; cases ha
      | ok y =>
        obtain ⟨o, d'⟩ := y
        rw [hs] at ha
        cases ha
        unfold Dir.pollSend Dir.pollReady at hs
        cases htx : p.lr.tx with
        | idle =>
          rw [htx] at hs
          simp only at hs
          split at hs
          · rename_i heq
            split at heq <;> (try split at heq) <;> cases heq <;> cases hs <;> exact ⟨rfl, fun _ => rfl⟩
          · rename_i heq
            split at heq <;> (try split at heq) <;> cases heq <;> cases hs <;> exact ⟨rfl, fun _ => rfl⟩
        | acquiring g =>
          rw [htx] at hs
          simp only at hs
          split at hs
          · rename_i heq
            split at heq <;> (try split at heq) <;> cases heq <;> cases hs <;> exact ⟨rfl, fun _ => rfl⟩
          · rename_i heq
            split at heq <;> (try split at heq) <;> cases heq <;> cases hs <;> exact ⟨rfl, fun _ => rfl⟩
        | ready =>
          rw [htx] at hs
          simp only [Dir.startSend, htx] at hs
          cases hs; exact ⟨rfl, fun _ => rfl⟩
        | closed =>
          rw [htx] at hs
          cases hs; exact ⟨rfl, fun _ => rfl⟩
    | pollReady =>
      cases ha; unfold Dir.pollReady
      split <;> (try split) <;> (try split) <;> exact ⟨rfl, fun _ => rfl⟩
    | startSend x =>
      simp only [Call.run] at ha
      cases hs : p.lr.startSend x with
      | panic => rw [hs] at ha; cases ha
      | ok y =>
        obtain ⟨o, d'⟩ := y
        rw [hs] at ha
        cases ha
        unfold Dir.startSend at hs
        split at hs <;> cases hs <;> exact ⟨rfl, fun _ => rfl⟩
    | close => cases ha; exact ⟨rfl, fun _ => rfl⟩
    | tryRecv => cases ha; exact ⟨rfl, fun _ => rfl⟩
    | pollRecv => cases ha; exact ⟨rfl, fun _ => rfl⟩
    | drop => cases ha; exact ⟨rfl, fun _ => rfl⟩
  | right c =>
    unfold Pair.act at ha
    cases c with
    | pollSend x =>
      simp only [Call.run] at ha
      cases hs : p.rl.pollSend x with
      | panic => rw [hs] at ha; cases ha
      | ok y => rw [hs] at ha; cases ha; exact ⟨rfl, fun _ => rfl⟩
    | startSend x =>
      simp only [Call.run] at ha
      cases hs : p.rl.startSend x with
      | panic => rw [hs] at ha; cases ha
      | ok y => rw [hs] at ha; cases ha; exact ⟨rfl, fun _ => rfl⟩
    | tryRecv =>
      cases ha
      rcases recv_cases p.lr p.lr.tryRecv.1 p.lr.tryRecv.2 (.inr rfl) with ⟨x, q, hq, ho, hd⟩ | ⟨hq, hd, ho, _⟩
      · simp only [hd]
        rcases grant_eq { p.lr with queue := q } with h1 | ⟨_, _, h1⟩ <;> rw [h1] <;> exact ⟨rfl, fun _ => rfl⟩
      · exact ⟨congrArg Dir.cap hd, fun _ => congrArg Dir.rx hd⟩
    | pollRecv =>
      cases ha
      rcases recv_cases p.lr p.lr.pollRecv.1 p.lr.pollRecv.2 (.inl rfl) with ⟨x, q, hq, ho, hd⟩ | ⟨hq, hd, ho, _⟩
      · simp only [hd]
        rcases grant_eq { p.lr with queue := q } with h1 | ⟨_, _, h1⟩ <;> rw [h1] <;> exact ⟨rfl, fun _ => rfl⟩
      · exact ⟨congrArg Dir.cap hd, fun _ => congrArg Dir.rx hd⟩
    | drop => cases ha; exact ⟨rfl, fun h => by cases h⟩
    | trySend x => cases ha; exact ⟨rfl, fun _ => rfl⟩
    | pollReady => cases ha; exact ⟨rfl, fun _ => rfl⟩
    | close => cases ha; exact ⟨rfl, fun _ => rfl⟩

theorem run_cons {p p' : Pair S T} {a : Act S T} {as : List (Act S T)} {es : List (Ev S T)}
    (h : p.run (a :: as) = .ok (p', es)) :
    ∃ q e es', p.act a = .ok (q, e) ∧ q.run as = .ok (p', es') ∧ es = e :: es' := by
  unfold Pair.run at h
  cases ha : p.act a with
  | panic => rw [ha] at h; cases h
  | ok x =>
    rw [ha] at h
    simp only [R.bind_ok] at h
    cases hq : x.1.run as with
    | panic => rw [hq] at h; cases h
    | ok y => rw [hq] at h; cases h; exact ⟨_, _, _, rfl, hq, rfl⟩

theorem run_frame (as : List (Act S T)) : ∀ {p p' : Pair S T} {es : List (Ev S T)}, p.run as = .ok (p', es) →
    p'.lr.cap = p.lr.cap ∧ ((∀ a ∈ as, keepsRx a = true) → p'.lr.rx = p.lr.rx) := by
  induction as with
  | nil => intro p p' es h; cases h; exact ⟨rfl, fun _ => rfl⟩
  | cons a as ih =>
    intro p p' es h
    obtain ⟨q, e, es', h1, h2, -⟩ := run_cons h
    obtain ⟨i1, i2⟩ := ih h2
    obtain ⟨j1, j2⟩ := act_frame h1
    exact ⟨i1.trans j1, fun hk => (i2 fun b hb => hk b (List.mem_cons_of_mem _ hb)).trans (j2 (hk a List.mem_cons_self))⟩

end
end MsgRs.Chan
