import Verif.Proofs.RepAdmission
/-!
# Histories of the reply socket
-/
namespace MsgRs.Rep
open MsgRs
variable {A : Type} [DecidableEq A]

theorem run_append (D : Decompressors) (d : Driver A) (xs ys : List (Act A)) :
    d.run D (xs ++ ys) = (do let d' ← d.run D xs; d'.run D ys) := by
  induction xs generalizing d with
  | nil => rfl
  | cons a xs ih =>
    simp only [List.cons_append, Driver.run]
    cases d.act D a with
    | panic => rfl
    | ok d1 => simp only [R.bind_ok]; exact ih d1

/-- When something became true. -/
theorem run_first {D : Decompressors} {P : Driver A → Prop} (acts : List (Act A)) {d d' : Driver A}
    (h : d.run D acts = .ok d') (h0 : ¬ P d) (h1 : P d') :
    ∃ pre a post d1 d2, acts = pre ++ a :: post ∧ d.run D pre = .ok d1 ∧ ¬ P d1 ∧ d1.act D a = .ok d2 ∧ P d2 := by
  induction acts generalizing d with
  | nil => cases h; exact absurd h1 h0
  | cons a acts ih =>
    simp only [Driver.run] at h
    cases ha : d.act D a with
    | panic => rw [ha] at h; cases h
    | ok d1 =>
      rw [ha] at h
      simp only [R.bind_ok] at h
      rcases Classical.em (P d1) with hp | hp
      · exact ⟨[], a, acts, d, d1, rfl, rfl, h0, ha, hp⟩
      · obtain ⟨pre, b, post, e1, e2, he, hr, hx⟩ := ih h hp
        exact ⟨a :: pre, b, post, e1, e2, by rw [he]; rfl, by simp [Driver.run, ha, hr], hx⟩

/-- Invariants of reachable states. -/
theorem run_reach {D : Decompressors} (max authn comp) (acts : List (Act A)) {d : Driver A}
    (h : (Driver.new max authn comp : Driver A).run D acts = .ok d) : DInv D d none := by
  obtain ⟨d', h1, h2⟩ := run_inv acts (new_inv D max authn comp : DInv D (Driver.new max authn comp : Driver A) none)
  rw [h] at h1; cases h1; exact h2

theorem run_adm {D : Decompressors} (acts : List (Act A)) {d d' : Driver A} (hd : DInv D d none) (h : AInv d)
    (hr : d.run D acts = .ok d') : AInv d' ∧ d'.max = d.max ∧ d'.authn = d.authn := by
  induction acts generalizing d with
  | nil => cases hr; exact ⟨h, rfl, rfl⟩
  | cons a acts ih =>
    obtain ⟨d1, ha, hd1⟩ := act_inv hd a
    simp only [Driver.run, ha, R.bind_ok] at hr
    obtain ⟨h1, h2, h3, -⟩ := act_adm hd h a ha
    obtain ⟨h4, h5, h6⟩ := ih hd1 h1 hr
    exact ⟨h4, h5.trans h2, h6.trans h3⟩

theorem run_exact {D : Decompressors} (acts : List (Act A)) {d d' : Driver A} (hd : DInv D d none) (h : AInv d)
    (hx : XInv d) (hr : d.run D acts = .ok d')
    (hf : ∀ pre c post, acts = pre ++ .accept c :: post → ∀ d0, d.run D pre = .ok d0 →
      (∀ a, c.addr = some a → a ∉ d0.addrs) ∧ ∀ f, d.authn = some f → hsServer f c.hs ≠ .panicked) : XInv d' := by
  induction acts generalizing d with
  | nil => cases hr; exact hx
  | cons a acts ih =>
    obtain ⟨d1, ha, hd1⟩ := act_inv hd a
    simp only [Driver.run, ha, R.bind_ok] at hr
    obtain ⟨h1, -, h3, h4⟩ := act_adm hd h a ha
    refine ih hd1 h1 (h4 ?_ hx) hr ?_
    · intro c hc
      exact hf [] c acts (by rw [hc]; rfl) d rfl
    · intro pre c post he d0 hd0
      obtain ⟨g1, g2⟩ := hf (a :: pre) c post (by rw [he]; rfl) d0 (by simp [Driver.run, ha, hd0])
      exact ⟨g1, by rw [h3]; exact g2⟩

theorem new_ainv (max authn comp) : AInv (Driver.new max authn comp : Driver A) :=
  ⟨by simp [Driver.new, Driver.count], by simp [Driver.new], by simp [Driver.new, Driver.conns]⟩

theorem new_xinv (max authn comp) : XInv (Driver.new max authn comp : Driver A) :=
  ⟨by simp [Driver.new, Driver.count], by simp [Driver.new, Driver.addrs], by simp [Driver.new, Driver.Calm]⟩

/-- What never changes. -/
theorem onRequest_cfg (D : Decompressors) (d : Driver A) (p : Peer A) (h : Nat) (m : ReqRep.Message) :
    (d.onRequest D p h m).cap = d.cap ∧ (d.onRequest D p h m).comp = d.comp := by
  unfold Driver.onRequest
  split
  · exact ⟨rfl, rfl⟩
  · simp only; split <;> exact ⟨rfl, rfl⟩

theorem act_cfg {D : Decompressors} {d d' : Driver A} (a : Act A) (h : d.act D a = .ok d') :
    d'.cap = d.cap ∧ d'.comp = d.comp := by
  cases a with
  | peer k e =>
    simp only [Driver.act, Driver.stepPeer] at h
    cases hk : d.peers[k]? with
    | none => simp only [hk] at h; cases h; exact ⟨rfl, rfl⟩
    | some p =>
      simp only [hk] at h
      cases hi : p.iter d.comp d.slots d.next e with
      | panic => rw [hi] at h; cases h
      | ok t =>
        obtain ⟨p', o⟩ := t
        rw [hi] at h
        simp only [R.bind_ok, R.pure_eq] at h
        cases o <;> cases h <;> first | exact onRequest_cfg .. | exact ⟨rfl, rfl⟩
  | join i =>
    cases h
    unfold Driver.stepJoin
    repeat' split
    all_goals first | exact ⟨rfl, rfl⟩ | (simp only; split <;> exact ⟨rfl, rfl⟩)
  | ready i ok =>
    cases h
    unfold Driver.stepConn
    repeat' split
    all_goals first | exact ⟨rfl, rfl⟩ | (simp only; repeat' split) 
    all_goals exact ⟨rfl, rfl⟩
  | accept c =>
    cases h
    unfold Driver.stepAccept
    repeat' split
    all_goals exact ⟨rfl, rfl⟩
  | recv => simp only [Driver.act] at h; split at h <;> cases h <;> exact ⟨rfl, rfl⟩
  | respond i b => simp only [Driver.act] at h; split at h <;> cases h <;> exact ⟨rfl, rfl⟩
  | drop i => simp only [Driver.act] at h; split at h <;> cases h <;> exact ⟨rfl, rfl⟩

theorem run_cfg {D : Decompressors} (acts : List (Act A)) {d d' : Driver A} (h : d.run D acts = .ok d') :
    d'.cap = d.cap ∧ d'.comp = d.comp := by
  induction acts generalizing d with
  | nil => cases h; exact ⟨rfl, rfl⟩
  | cons a acts ih =>
    simp only [Driver.run] at h
    cases ha : d.act D a with
    | panic => rw [ha] at h; cases h
    | ok d1 =>
      rw [ha] at h
      obtain ⟨h1, h2⟩ := ih h
      obtain ⟨h3, h4⟩ := act_cfg a ha
      exact ⟨h1.trans h3, h2.trans h4⟩

/-- Only the application's `respond` completes a request with a response. -/
theorem act_responded {D : Decompressors} {d d' : Driver A} (a : Act A) (h : d.act D a = .ok d') {x b}
    (h1 : d'.slots x = .responded b) (h0 : d.slots x ≠ .responded b) :
    ∃ i r, a = .respond i b ∧ d.held[i]? = some r ∧ r.handle = x := by
  have same : d'.slots = d.slots → ∃ i r, a = .respond i b ∧ d.held[i]? = some r ∧ r.handle = x :=
    fun he => absurd (by rw [← he]; exact h1) h0
  cases a with
  | peer k e =>
    simp only [Driver.act, Driver.stepPeer] at h
    cases hk : d.peers[k]? with
    | none => simp only [hk] at h; cases h; exact same rfl
    | some p =>
      simp only [hk] at h
      cases hi : p.iter d.comp d.slots d.next e with
      | panic => rw [hi] at h; cases h
      | ok t =>
        obtain ⟨p', o⟩ := t
        rw [hi] at h
        simp only [R.bind_ok, R.pure_eq] at h
        cases o with
        | request y m =>
          cases h
          unfold Driver.onRequest at h1
          split at h1
          · simp only [Driver.complete] at h1
            split at h1
            · cases h1
            · exact absurd h1 h0
          · simp only at h1
            split at h1
            · exact absurd h1 h0
            · simp only [Driver.complete] at h1
              split at h1
              · cases h1
              · exact absurd h1 h0
        | sent m => cases h; exact same rfl
        | queued => cases h; exact same rfl
        | error => cases h; exact same rfl
        | closed => cases h; exact same rfl
        | pending => cases h; exact same rfl
  | join i =>
    cases h
    refine same ?_
    unfold Driver.stepJoin
    repeat' split
    all_goals first | rfl | (simp only; split <;> rfl)
  | ready i ok =>
    cases h
    refine same ?_
    unfold Driver.stepConn
    repeat' split
    all_goals first | rfl | (simp only; repeat' split) 
    all_goals rfl
  | accept c =>
    cases h
    refine same ?_
    unfold Driver.stepAccept
    repeat' split
    all_goals rfl
  | recv => simp only [Driver.act] at h; split at h <;> cases h <;> exact same rfl
  | respond i c =>
    simp only [Driver.act] at h
    cases hi : d.held[i]? with
    | none => simp only [hi] at h; cases h; exact same rfl
    | some r =>
      simp only [hi] at h
      cases h
      simp only [Driver.complete] at h1
      split at h1
      · rename_i he
        cases h1
        exact ⟨i, r, rfl, hi, he.symm⟩
      · exact absurd h1 h0
  | drop i =>
    simp only [Driver.act] at h
    cases hi : d.held[i]? with
    | none => simp only [hi] at h; cases h; exact same rfl
    | some r =>
      simp only [hi] at h
      cases h
      simp only [Driver.complete] at h1
      split at h1
      · cases h1
      · exact absurd h1 h0

/-- A request frame is turned away only when the channel to the application is full. -/
theorem act_full {D : Decompressors} {d d' : Driver A} (hd : DInv D d none) (a : Act A) (h : d.act D a = .ok d') {u x m}
    (h1 : (u, x, m, Fate.full) ∈ d'.log) (h0 : (u, x, m, Fate.full) ∉ d.log) :
    ∃ k e q, a = .peer k e ∧ d.peers[k]? = some q ∧ q.uid = u ∧ d.cap ≤ d.inbox.length := by
  have same : d'.log = d.log → ∃ k e q, a = .peer k e ∧ d.peers[k]? = some q ∧ q.uid = u ∧ d.cap ≤ d.inbox.length :=
    fun he => absurd (by rw [← he]; exact h1) h0
  cases a with
  | peer k e =>
    simp only [Driver.act, Driver.stepPeer] at h
    cases hk : d.peers[k]? with
    | none => simp only [hk] at h; cases h; exact same rfl
    | some p =>
      simp only [hk] at h
      cases hi : p.iter d.comp d.slots d.next e with
      | panic => rw [hi] at h; cases h
      | ok t =>
        obtain ⟨p', o⟩ := t
        rw [hi] at h
        simp only [R.bind_ok, R.pure_eq] at h
        cases o with
        | request y m' =>
          cases h
          unfold Driver.onRequest at h1
          split at h1
          · simp only [List.mem_append, List.mem_singleton] at h1
            rcases h1 with h1 | h1
            · exact absurd h1 h0
            · cases h1
          · simp only at h1
            split at h1
            · simp only [List.mem_append, List.mem_singleton] at h1
              rcases h1 with h1 | h1
              · exact absurd h1 h0
              · cases h1
            · rename_i hlt
              simp only [Driver.complete, List.mem_append, List.mem_singleton] at h1
              rcases h1 with h1 | h1
              · exact absurd h1 h0
              · obtain ⟨hc, hl⟩ := hd.peers p (List.mem_of_getElem? hk)
                obtain ⟨p2, o2, hit, hs⟩ := iter_spec hc hl (hd.future _ (Nat.le_refl _)) e
                rw [hi] at hit
                cases hit
                refine ⟨k, e, p, rfl, hk, ?_, by omega⟩
                rw [← hs.uid]
                exact (Prod.mk.inj h1).1.symm
        | sent m => cases h; exact same rfl
        | queued => cases h; exact same rfl
        | error => cases h; exact same rfl
        | closed => cases h; exact same rfl
        | pending => cases h; exact same rfl
  | join i =>
    cases h
    refine same ?_
    unfold Driver.stepJoin
    repeat' split
    all_goals first | rfl | (simp only; split <;> rfl)
  | ready i ok =>
    cases h
    refine same ?_
    unfold Driver.stepConn
    repeat' split
    all_goals first | rfl | (simp only; repeat' split) 
    all_goals rfl
  | accept c =>
    cases h
    refine same ?_
    unfold Driver.stepAccept
    repeat' split
    all_goals rfl
  | recv => simp only [Driver.act] at h; split at h <;> cases h <;> exact same rfl
  | respond i c => simp only [Driver.act] at h; split at h <;> cases h <;> exact same rfl
  | drop i => simp only [Driver.act] at h; split at h <;> cases h <;> exact same rfl

end MsgRs.Rep
