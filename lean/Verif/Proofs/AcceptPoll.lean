import Verif.Spec.AcceptPoll
import Verif.Proofs.RepDriver
/-!
# Polls of the servers' drivers
-/
namespace MsgRs

theorem uid_inj {l : List (Conn A)} (h : (l.map (·.uid)).Nodup) {x y : Conn A} (hx : x ∈ l) (hy : y ∈ l) (e : x.uid = y.uid) : x = y := by
  induction l with
  | nil => cases hx
  | cons c l ih =>
    simp only [List.map_cons, List.nodup_cons, List.mem_map, not_exists, not_and] at h
    rcases List.mem_cons.1 hx with rfl | hx' <;> rcases List.mem_cons.1 hy with rfl | hy'
    · rfl
    · exact absurd e.symm (h.1 y hy')
    · exact absurd e (h.1 x hx')
    · exact ih h.2 hx' hy'

theorem find_uid {l : List (Conn A)} (h : (l.map (·.uid)).Nodup) {c : Conn A} (hc : c ∈ l) :
    ∃ i, l.findIdx? (·.uid = c.uid) = some i ∧ l[i]? = some c ∧ ∀ x, x ∈ l.eraseIdx i ↔ x ∈ l ∧ x ≠ c := by
  induction l with
  | nil => cases hc
  | cons b l ih =>
    simp only [List.map_cons, List.nodup_cons, List.mem_map, not_exists, not_and] at h
    by_cases hb : b.uid = c.uid
    · have : b = c := by
        rcases List.mem_cons.1 hc with h1 | h1
        · exact h1.symm
        · exact absurd hb.symm (h.1 c h1)
      subst this
      refine ⟨0, by simp [List.findIdx?_cons], by simp, fun x => ?_⟩
      simp only [List.eraseIdx_cons_zero, List.mem_cons]
      constructor
      · intro hx; exact ⟨.inr hx, fun e => h.1 x hx (by rw [e])⟩
      · rintro ⟨h1 | h1, h2⟩
        · exact absurd h1 h2
        · exact h1
    · have hc' : c ∈ l := by
        rcases List.mem_cons.1 hc with h1 | h1
        · exact absurd (by rw [h1]) hb
        · exact h1
      obtain ⟨i, h1, h2, h3⟩ := ih h.2 hc'
      refine ⟨i + 1, by simp [List.findIdx?_cons, hb, h1], by simpa using h2, fun x => ?_⟩
      simp only [List.eraseIdx_cons_succ, List.mem_cons, h3]
      constructor
      · rintro (h1 | ⟨h1, h2⟩)
        · subst h1; exact ⟨.inl rfl, fun e => hb (by rw [e])⟩
        · exact ⟨.inr h1, h2⟩
      · rintro ⟨h1 | h1, h2⟩
        · exact .inl h1
        · exact .inr ⟨h1, h2⟩

theorem nodup_sub {a b : List Nat} (h : a.Sublist b) (hb : b.Nodup) : a.Nodup := hb.sublist h

theorem Fits.ctNodup {authn} {ct at' : List (Conn A)} {r : Avail A} (h : Fits authn ct at' r) : (ct.map (·.uid)).Nodup :=
  nodup_sub ((List.sublist_append_left _ _).map _ |>.trans ((List.sublist_append_left _ _).map _)) h.ids

theorem Fits.atNodup {authn} {ct at' : List (Conn A)} {r : Avail A} (h : Fits authn ct at' r) : (at'.map (·.uid)).Nodup :=
  nodup_sub ((List.sublist_append_right _ _).map _ |>.trans ((List.sublist_append_left _ _).map _)) h.ids

theorem Fits.disj {authn} {ct at' : List (Conn A)} {r : Avail A} (h : Fits authn ct at' r) {x y : Conn A} (hx : x ∈ ct) (hy : y ∈ at') :
    x.uid ≠ y.uid := by
  have := h.ids
  rw [List.map_append, List.map_append, List.nodup_append, List.nodup_append] at this
  exact this.1.2.2 x.uid (List.mem_map.2 ⟨x, hx, rfl⟩) y.uid (List.mem_map.2 ⟨y, hy, rfl⟩)

theorem Fits.disjA {authn} {ct at' : List (Conn A)} {r : Avail A} (h : Fits authn ct at' r) {x y : Conn A} (hx : x ∈ ct ∨ x ∈ at') (hy : y ∈ r.accepts) :
    x.uid ≠ y.uid := by
  have := h.ids
  rw [List.map_append, List.nodup_append] at this
  exact this.2.2 x.uid (List.mem_map.2 ⟨x, by simpa using hx, rfl⟩) y.uid (List.mem_map.2 ⟨y, hy, rfl⟩)

/-- After a finished task was taken out. -/
theorem Fits.joined {authn} {ct at' : List (Conn A)} {u : Nat} {us} {cs as} (h : Fits authn ct at' ⟨u :: us, cs, as⟩) {i : Nat} {c : Conn A} (hu : c.uid = u)
    (he : ∀ x, x ∈ at'.eraseIdx i ↔ x ∈ at' ∧ x ≠ c) : Fits authn ct (at'.eraseIdx i) ⟨us, cs, as⟩ := by
  obtain ⟨h1, h2, h3, h4, h5⟩ := h
  refine ⟨?_, (List.nodup_cons.1 h2).2, ?_, h4, h5⟩
  · refine nodup_sub (List.Sublist.map _ ?_) h1
    exact (List.Sublist.append_right (List.Sublist.append_left (List.eraseIdx_sublist _ _) _) _)
  · intro v hv
    obtain ⟨f, k1, c', k2, k3, k4⟩ := h3 v (by simp [hv])
    refine ⟨f, k1, c', (he c').2 ⟨k2, ?_⟩, k3, k4⟩
    rintro rfl
    have : u = v := hu.symm.trans k3
    subst this
    exact (List.nodup_cons.1 h2).1 hv

theorem nodup_map_perm {l l' : List (Conn A)} (hp : List.Perm l l') (h : (l.map (·.uid)).Nodup) : (l'.map (·.uid)).Nodup :=
  (hp.map _).nodup_iff.1 h

theorem perm_eraseIdx {l : List (Conn A)} {i : Nat} {c : Conn A} (h : l[i]? = some c) : List.Perm l (c :: l.eraseIdx i) := by
  induction l generalizing i with
  | nil => simp at h
  | cons b l ih =>
    cases i with
    | zero => simp at h; subst h; exact List.Perm.refl _
    | succ i =>
      simp only [List.getElem?_cons_succ] at h
      simp only [List.eraseIdx_cons_succ]
      exact ((ih h).cons b).trans (List.Perm.swap c b _)

/-- After an accept future was taken out; its connection may have become an authentication task. -/
theorem Fits.conned {authn} {ct at' : List (Conn A)} {x : Nat × Bool} {cs as} (h : Fits authn ct at' ⟨[], x :: cs, as⟩) {i : Nat} {c : Conn A} (hu : c.uid = x.1)
    (hi : ct[i]? = some c) (he : ∀ y, y ∈ ct.eraseIdx i ↔ y ∈ ct ∧ y ≠ c) (at2 : List (Conn A)) (h2 : at2 = at' ∨ at2 = at' ++ [c]) :
    Fits authn (ct.eraseIdx i) at2 ⟨[], cs, as⟩ := by
  obtain ⟨h1, -, -, h4, h5⟩ := h
  refine ⟨?_, by simp, by simp, (List.nodup_cons.1 h4).2, ?_⟩
  · have hp : List.Perm (ct ++ at' ++ as) (c :: (ct.eraseIdx i ++ at' ++ as)) := by
      simp only [List.append_assoc]
      exact (perm_eraseIdx hi).append_right (at' ++ as)
    have h6 := nodup_map_perm hp h1
    rcases h2 with rfl | rfl
    · exact (List.nodup_cons.1 h6).2
    · refine nodup_map_perm ?_ h6
      simp only [List.append_assoc, List.singleton_append]
      have e : ct.eraseIdx i ++ (at' ++ (c :: as)) = (ct.eraseIdx i ++ at') ++ c :: as := by simp
      rw [e]
      refine List.Perm.trans ?_ (List.perm_middle (a := c) (l₁ := ct.eraseIdx i ++ at') (l₂ := as)).symm
      simp
  · intro y hy
    obtain ⟨c', k1, k2⟩ := h5 y (by simp [hy])
    refine ⟨c', (he c').2 ⟨k1, ?_⟩, k2⟩
    rintro rfl
    have : x.1 = y.1 := hu.symm.trans k2
    refine (List.nodup_cons.1 h4).1 ?_
    exact List.mem_map.2 ⟨y, hy, this.symm⟩

/-- After the listener's report was taken. -/
theorem Fits.accepted {authn} {ct at' : List (Conn A)} {c : Conn A} {as} (h : Fits authn ct at' ⟨[], [], c :: as⟩) (ct2 : List (Conn A))
    (h2 : ct2 = ct ∨ ct2 = ct ++ [c]) : Fits authn ct2 at' ⟨[], [], as⟩ := by
  obtain ⟨h1, -, -, -, -⟩ := h
  refine ⟨?_, by simp, by simp, by simp, by simp⟩
  rcases h2 with rfl | rfl
  · refine nodup_sub (List.Sublist.map _ ?_) h1
    exact List.Sublist.append_left (List.sublist_cons_self _ _) _
  · refine nodup_map_perm ?_ h1
    simp only [List.append_assoc]
    refine List.Perm.append_left ct ?_
    exact List.perm_middle

namespace Pub

/-- What a poll that handled everything did. -/
structure Done (d : Driver A) (r : Avail A) (d' : Driver A) : Prop where
  authn : d'.authn = d.authn
  sessions : ∀ x ∈ d.sessions, x ∈ d'.sessions
  auth : ∀ c ∈ d.authTasks, c.uid ∉ r.joins → c ∈ d'.authTasks
  conns : ∀ c ∈ d.connTasks, c.uid ∉ r.conns.map (·.1) → c ∈ d'.connTasks
  origin : ∀ c, c ∈ d'.connTasks ∨ c ∈ d'.authTasks → c ∈ d.connTasks ∨ c ∈ d.authTasks ∨ c ∈ r.accepts
  originC : ∀ c, c ∈ d'.connTasks → c ∈ d.connTasks ∨ c ∈ r.accepts
  joined : ∀ c ∈ d.authTasks, c.uid ∈ r.joins → c ∉ d'.authTasks ∧
    ∀ f id w rest l, d.authn = some f → hsServer f c.hs = .accepted id w rest l → (c, rest) ∈ d'.sessions
  conned : ∀ c ∈ d.connTasks, ∀ ok, (c.uid, ok) ∈ r.conns → c ∉ d'.connTasks ∧
    (ok = true → c.addr ≠ none → (d.authn ≠ none → c ∈ d'.authTasks) ∧ (d.authn = none → (c, c.hs.reads) ∈ d'.sessions))

theorem join_iter {d : Driver A} {u us cs as} (hf : Fits d.authn d.connTasks d.authTasks ⟨u :: us, cs, as⟩)
    (hc : Calm d.authn d.authTasks ⟨u :: us, cs, as⟩) :
    ∃ i c f d1, d.authTasks[i]? = some c ∧ c.uid = u ∧ c ∈ d.authTasks ∧ (∀ x, x ∈ d.authTasks.eraseIdx i ↔ x ∈ d.authTasks ∧ x ≠ c) ∧ d.authn = some f ∧
      d.pollIter ⟨u :: us, cs, as⟩ = (d1, ⟨us, cs, as⟩, true) ∧ d1.authn = d.authn ∧ d1.connTasks = d.connTasks ∧
      d1.authTasks = d.authTasks.eraseIdx i ∧ (∀ x ∈ d.sessions, x ∈ d1.sessions) ∧
      (∀ id w rest l, hsServer f c.hs = .accepted id w rest l → (c, rest) ∈ d1.sessions) := by
  obtain ⟨f, h1, c, h2, h3, h4⟩ := hf.join u (by simp)
  subst h3
  obtain ⟨i, k1, k2, k3⟩ := find_uid hf.atNodup h2
  have hp := hc f h1 c h2 (by simp)
  have ho : (d.offer ⟨c.uid :: us, cs, as⟩).join = some i := by simp [Driver.offer, k1]
  cases hh : hsServer f c.hs with
  | waiting w => exact absurd hh (h4 w)
  | panicked => exact absurd hh hp
  | accepted id w rest l =>
    refine ⟨i, c, f, { d with authTasks := d.authTasks.eraseIdx i, sessions := d.sessions ++ [(c, rest)] }, k2, rfl, h2, k3, h1, ?_, rfl, rfl, rfl, ?_, ?_⟩
    · simp only [Driver.pollIter, Driver.stepJoin, ho, h1, k2, hh, List.tail_cons]
    · intro x hx; simp [hx]
    · intro id' w' rest' l' e; rw [hh] at e; cases e; simp
  | failed w =>
    refine ⟨i, c, f, { d with authTasks := d.authTasks.eraseIdx i, active := decr d.active }, k2, rfl, h2, k3, h1, ?_, rfl, rfl, rfl, ?_, ?_⟩
    · simp only [Driver.pollIter, Driver.stepJoin, ho, h1, k2, hh, List.tail_cons]
    · intro x hx; exact hx
    · intro id' w' rest' l' e; rw [hh] at e; cases e

theorem conn_iter {d : Driver A} {x : Nat × Bool} {cs as} (hf : Fits d.authn d.connTasks d.authTasks ⟨[], x :: cs, as⟩) :
    ∃ i c d1, d.connTasks[i]? = some c ∧ c.uid = x.1 ∧ c ∈ d.connTasks ∧ (∀ y, y ∈ d.connTasks.eraseIdx i ↔ y ∈ d.connTasks ∧ y ≠ c) ∧
      d.pollIter ⟨[], x :: cs, as⟩ = (d1, ⟨[], cs, as⟩, true) ∧ d1.authn = d.authn ∧ d1.connTasks = d.connTasks.eraseIdx i ∧
      (d1.authTasks = d.authTasks ∨ d1.authTasks = d.authTasks ++ [c]) ∧ (∀ y ∈ d.sessions, y ∈ d1.sessions) ∧
      (x.2 = true → c.addr ≠ none → (d.authn ≠ none → c ∈ d1.authTasks) ∧ (d.authn = none → (c, c.hs.reads) ∈ d1.sessions)) := by
  obtain ⟨c, h2, h3⟩ := hf.conn x (by simp)
  obtain ⟨u, ok⟩ := x
  simp only at h3
  subst h3
  obtain ⟨i, k1, k2, k3⟩ := find_uid hf.ctNodup h2
  have ho : d.stepJoin (d.offer ⟨[], (c.uid, ok) :: cs, as⟩) = (d, false) := by simp [Driver.stepJoin, Driver.offer]
  have hr : (d.offer ⟨[], (c.uid, ok) :: cs, as⟩).ready = some (i, ok) := by simp [Driver.offer, k1]
  cases ok with
  | false =>
    refine ⟨i, c, { d with connTasks := d.connTasks.eraseIdx i, active := decr d.active }, k2, rfl, h2, k3, ?_, rfl, rfl, .inl rfl, fun y hy => hy, by simp⟩
    simp [Driver.pollIter, ho, Driver.stepConn, hr, k2]
  | true =>
    cases ha : c.addr with
    | none =>
      refine ⟨i, c, { d with connTasks := d.connTasks.eraseIdx i, active := decr d.active }, k2, rfl, h2, k3, ?_, rfl, rfl, .inl rfl, fun y hy => hy, by simp [ha]⟩
      simp [Driver.pollIter, ho, Driver.stepConn, hr, k2, Driver.onIncoming, ha]
    | some a =>
      cases hau : d.authn with
      | none =>
        refine ⟨i, c, { d with connTasks := d.connTasks.eraseIdx i, sessions := d.sessions ++ [(c, c.hs.reads)] }, k2, rfl, h2, k3, ?_, hau, rfl, .inl rfl,
          fun y hy => by simp [hy], by simp⟩
        simp [Driver.pollIter, ho, Driver.stepConn, hr, k2, Driver.onIncoming, ha, hau]
      | some f =>
        refine ⟨i, c, { d with connTasks := d.connTasks.eraseIdx i, authTasks := d.authTasks ++ [c] }, k2, rfl, h2, k3, ?_, hau, rfl, .inr rfl,
          fun y hy => hy, by simp⟩
        simp [Driver.pollIter, ho, Driver.stepConn, hr, k2, Driver.onIncoming, ha, hau]

theorem accept_iter {d : Driver A} {c : Conn A} {as} :
    ∃ d1, d.pollIter ⟨[], [], c :: as⟩ = (d1, ⟨[], [], as⟩, true) ∧ d1.authn = d.authn ∧ d1.authTasks = d.authTasks ∧
      (d1.connTasks = d.connTasks ∨ d1.connTasks = d.connTasks ++ [c]) ∧ d1.sessions = d.sessions := by
  have ho : d.stepJoin (d.offer ⟨[], [], c :: as⟩) = (d, false) := by simp [Driver.stepJoin, Driver.offer]
  have hr : d.stepConn (d.offer ⟨[], [], c :: as⟩) = (d, false) := by simp [Driver.stepConn, Driver.offer]
  have ha : (d.offer ⟨[], [], c :: as⟩).accept = some c := by simp [Driver.offer]
  unfold Driver.pollIter
  simp only [ho, hr, Driver.stepAccept, ha]
  cases hm : d.max with
  | none => exact ⟨_, rfl, rfl, rfl, .inr rfl, rfl⟩
  | some m =>
    dsimp only
    by_cases hle : m ≤ d.active
    · rw [if_pos hle]; exact ⟨_, rfl, rfl, rfl, .inl rfl, rfl⟩
    · rw [if_neg hle]; exact ⟨_, rfl, rfl, rfl, .inr rfl, rfl⟩

theorem poll_done (n : Nat) : ∀ (d : Driver A) (r : Avail A), r.size = n → Fits d.authn d.connTasks d.authTasks r → Calm d.authn d.authTasks r →
    ∃ d', d.poll r (n + 1) = some (d', ⟨[], [], []⟩) ∧ Done d r d' := by
  induction n with
  | zero =>
    intro d r hs hf hc
    obtain ⟨js, cs, as⟩ := r
    simp only [Avail.size] at hs
    have h1 : js = [] := List.eq_nil_of_length_eq_zero (by omega)
    have h2 : cs = [] := List.eq_nil_of_length_eq_zero (by omega)
    have h3 : as = [] := List.eq_nil_of_length_eq_zero (by omega)
    subst h1 h2 h3
    refine ⟨d, by simp [Driver.poll, Driver.pollIter, Driver.stepJoin, Driver.offer, Driver.stepConn, Driver.stepAccept], rfl, fun x hx => hx, fun c hc _ => hc,
      fun c hc _ => hc, fun c hc => ?_, fun c hc => .inl hc, by simp, by simp⟩
    rcases hc with h | h
    · exact .inl h
    · exact .inr (.inl h)
  | succ n ih =>
    intro d r hs hf hc
    obtain ⟨js, cs, as⟩ := r
    cases js with
    | cons u us =>
      obtain ⟨i, c, f, d1, g1, g2, g3, g4, g5, g6, g7, g8, g9, g10, g11⟩ := join_iter hf hc
      have hf1 : Fits d1.authn d1.connTasks d1.authTasks ⟨us, cs, as⟩ := by rw [g7, g8, g9]; exact hf.joined g2 g4
      have hc1 : Calm d1.authn d1.authTasks ⟨us, cs, as⟩ := by
        intro f' hf' c' hc' hu'
        rw [g7] at hf'
        rw [g9] at hc'
        exact hc f' hf' c' ((g4 c').1 hc').1 (by simp only at hu'; simp [hu'])
      obtain ⟨d', k0, k1, k2, k3, k4, k5, k6, k7, k8⟩ := ih d1 ⟨us, cs, as⟩ (by simp [Avail.size] at hs ⊢; omega) hf1 hc1
      refine ⟨d', by rw [Driver.poll, g6]; exact k0, k1.trans g7, fun x hx => k2 x (g10 x hx), ?_, fun x hx h => k4 x (g8 ▸ hx) h, ?_, ?_, ?_, ?_⟩
      · intro x hx hxu
        simp only [List.mem_cons, not_or] at hxu
        exact k3 x (by rw [g9]; exact (g4 x).2 ⟨hx, fun e => hxu.1 (by rw [e, g2])⟩) hxu.2
      · intro x hx
        rcases k5 x hx with h | h | h
        · exact .inl (g8 ▸ h)
        · rw [g9] at h; exact .inr (.inl ((g4 x).1 h).1)
        · exact .inr (.inr h)
      · intro x hx
        rcases k6 x hx with h | h
        · exact .inl (g8 ▸ h)
        · exact .inr h
      · intro x hx hxu
        by_cases hxc : x = c
        · subst hxc
          constructor
          · intro hx'
            rcases k5 x (.inr hx') with h | h | h
            · rw [g8] at h; exact hf.disj h hx rfl
            · rw [g9] at h; exact ((g4 x).1 h).2 rfl
            · exact hf.disjA (.inr hx) h rfl
          · intro f' id w rest l hf' hh
            rw [g5] at hf'
            cases hf'
            exact k2 _ (g11 id w rest l hh)
        · have hx1 : x ∈ d1.authTasks := by rw [g9]; exact (g4 x).2 ⟨hx, hxc⟩
          have hxu1 : x.uid ∈ us := by
            simp only [List.mem_cons] at hxu
            rcases hxu with h | h
            · exact absurd (uid_inj hf.atNodup hx g3 (h.trans g2.symm)) hxc
            · exact h
          obtain ⟨j1, j2⟩ := k7 x hx1 hxu1
          exact ⟨j1, fun f' id w rest l hf' hh => j2 f' id w rest l (by rw [g7]; exact hf') hh⟩
      · intro x hx ok hok
        have := k8 x (by rw [g8]; exact hx) ok hok
        rw [g7] at this
        exact this
    | nil =>
      cases cs with
      | cons y cs =>
        obtain ⟨i, c, d1, g1, g2, g3, g4, g5, g6, g7, g8, g9, g10⟩ := conn_iter hf
        have hf1 : Fits d1.authn d1.connTasks d1.authTasks ⟨[], cs, as⟩ := by rw [g6, g7]; exact hf.conned g2 g1 g4 _ g8
        obtain ⟨d', k0, k1, k2, k3, k4, k5, k6, k7, k8⟩ := ih d1 ⟨[], cs, as⟩ (by simp [Avail.size] at hs ⊢; omega) hf1 (by intro f _ c _ h; simp at h)
        have hsub : ∀ x ∈ d.authTasks, x ∈ d1.authTasks := by
          intro x hx
          rcases g8 with h | h <;> rw [h]
          · exact hx
          · simp [hx]
        refine ⟨d', by rw [Driver.poll, g5]; exact k0, k1.trans g6, fun x hx => k2 x (g9 x hx), fun x hx _ => k3 x (hsub x hx) (by simp), ?_, ?_, ?_, by simp, ?_⟩
        · intro x hx hxu
          simp only [List.map_cons, List.mem_cons, not_or] at hxu
          exact k4 x (by rw [g7]; exact (g4 x).2 ⟨hx, fun e => hxu.1 (by rw [e, g2])⟩) hxu.2
        · intro x hx
          rcases k5 x hx with h | h | h
          · rw [g7] at h; exact .inl ((g4 x).1 h).1
          · rcases g8 with e | e <;> rw [e] at h
            · exact .inr (.inl h)
            · rcases List.mem_append.1 h with h | h
              · exact .inr (.inl h)
              · simp at h; subst h; exact .inl g3
          · exact .inr (.inr h)
        · intro x hx
          rcases k6 x hx with h | h
          · rw [g7] at h; exact .inl ((g4 x).1 h).1
          · exact .inr h
        · intro x hx ok hok
          by_cases hxc : x = c
          · subst hxc
            have hoky : ok = y.2 := by
              rcases List.mem_cons.1 hok with h | h
              · rw [← h]
              · exact absurd (List.mem_map.2 ⟨_, h, g2⟩) (List.nodup_cons.1 hf.conns).1
            constructor
            · intro hx'
              rcases k6 x hx' with h | h
              · rw [g7] at h; exact ((g4 x).1 h).2 rfl
              · exact hf.disjA (.inl hx) h rfl
            · intro h1 h2
              obtain ⟨j1, j2⟩ := g10 (hoky ▸ h1) h2
              exact ⟨fun h => k3 x (j1 h) (by simp), fun h => k2 _ (j2 h)⟩
          · have hx1 : x ∈ d1.connTasks := by rw [g7]; exact (g4 x).2 ⟨hx, hxc⟩
            have hok1 : (x.uid, ok) ∈ cs := by
              rcases List.mem_cons.1 hok with h | h
              · have : x.uid = c.uid := by rw [g2, ← h]
                exact absurd (uid_inj hf.ctNodup hx g3 this) hxc
              · exact h
            have := k8 x hx1 ok hok1
            rw [g6] at this
            exact this
      | nil =>
        cases as with
        | nil => simp [Avail.size] at hs
        | cons c as =>
          obtain ⟨d1, g1, g2, g3, g4, g5⟩ := accept_iter (d := d) (c := c) (as := as)
          have hf1 : Fits d1.authn d1.connTasks d1.authTasks ⟨[], [], as⟩ := by rw [g2, g3]; exact hf.accepted _ g4
          obtain ⟨d', k0, k1, k2, k3, k4, k5, k6, k7, k8⟩ := ih d1 ⟨[], [], as⟩ (by simp [Avail.size] at hs ⊢; omega) hf1 (by intro f _ c _ h; simp at h)
          have hsub : ∀ x ∈ d.connTasks, x ∈ d1.connTasks := by
            intro x hx
            rcases g4 with h | h <;> rw [h]
            · exact hx
            · simp [hx]
          have hsup : ∀ x ∈ d1.connTasks, x ∈ d.connTasks ∨ x ∈ c :: as := by
            intro x hx
            rcases g4 with h | h <;> rw [h] at hx
            · exact .inl hx
            · simp at hx
              rcases hx with h | h
              · exact .inl h
              · exact .inr (by simp [h])
          refine ⟨d', by rw [Driver.poll, g1]; exact k0, k1.trans g2, fun x hx => k2 x (g5 ▸ hx), fun x hx _ => k3 x (g3 ▸ hx) (by simp),
            fun x hx _ => k4 x (hsub x hx) (by simp), ?_, ?_, by simp, by simp⟩
          · intro x hx
            rcases k5 x hx with h | h | h
            · rcases hsup x h with h | h
              · exact .inl h
              · exact .inr (.inr h)
            · exact .inr (.inl (g3 ▸ h))
            · exact .inr (.inr (by simp only at h; simp [h]))
          · intro x hx
            rcases k6 x hx with h | h
            · exact hsup x h
            · exact .inr (by simp only at h; simp [h])

end Pub

namespace Rep

/-- What identifies a connection being served or that was served. -/
def Peer.ident (p : Peer A) : Nat × A × List ReadAns := (p.uid, p.addr, p.input0)

/-- A step that leaves the connections waiting to be served alone, and forgets no connection. -/
structure Keep (d d' : Driver A) : Prop where
  authn : d'.authn = d.authn
  ct : d'.connTasks = d.connTasks
  at' : d'.authTasks = d.authTasks
  conns : ∀ q ∈ d.conns, ∃ p ∈ d'.conns, p.ident = q.ident

theorem Keep.refl (d : Driver A) : Keep d d := ⟨rfl, rfl, rfl, fun q hq => ⟨q, hq, rfl⟩⟩

theorem Keep.trans {d d1 d2 : Driver A} (h1 : Keep d d1) (h2 : Keep d1 d2) : Keep d d2 :=
  ⟨h2.authn.trans h1.authn, h2.ct.trans h1.ct, h2.at'.trans h1.at', fun q hq => by
    obtain ⟨p, k1, k2⟩ := h1.conns q hq
    obtain ⟨p', k3, k4⟩ := h2.conns p k1
    exact ⟨p', k3, k4.trans k2⟩⟩

theorem complete_keep (d : Driver A) (h : Nat) (s : Slot) : Keep d (d.complete h s) := by
  refine ⟨rfl, rfl, rfl, fun q hq => ?_⟩
  simp only [Driver.conns, List.mem_append] at hq
  rcases hq with hq | hq
  · refine ⟨q.wake h, ?_, ?_⟩
    · simp only [Driver.conns, Driver.complete, List.mem_append, List.mem_map]
      exact .inl ⟨q, hq, rfl⟩
    · unfold Peer.wake
      split <;> rfl
  · exact ⟨q, by simp [Driver.conns, Driver.complete, hq], rfl⟩

theorem set_keep {d : Driver A} {k : Nat} {p p' : Peer A} (hk : d.peers[k]? = some p) (hi : p'.ident = p.ident) :
    Keep d { d with peers := d.peers.set k p' } := by
  refine ⟨rfl, rfl, rfl, fun q hq => ?_⟩
  simp only [Driver.conns, List.mem_append] at hq ⊢
  rcases hq with hq | hq
  · obtain ⟨j, hj, hje⟩ := List.mem_iff_getElem.1 hq
    by_cases hjk : j = k
    · subst hjk
      rw [List.getElem?_eq_getElem hj, Option.some.injEq] at hk
      refine ⟨p', .inl (List.mem_set hj _), ?_⟩
      rw [hi, ← hk, hje]
    · refine ⟨q, .inl ?_, rfl⟩
      rw [List.mem_iff_getElem]
      refine ⟨j, by simpa using hj, ?_⟩
      rw [List.getElem_set_ne (fun e => hjk e.symm)]
      exact hje
  · exact ⟨q, .inr hq, rfl⟩

theorem erase_keep {d : Driver A} {k : Nat} {p p' : Peer A} (hk : d.peers[k]? = some p) (hi : p'.ident = p.ident) (n : Nat) :
    Keep d { d with peers := d.peers.eraseIdx k, gone := d.gone ++ [p'], active := n } := by
  refine ⟨rfl, rfl, rfl, fun q hq => ?_⟩
  simp only [Driver.conns, List.mem_append] at hq ⊢
  rcases hq with hq | hq
  · obtain ⟨j, hj, hje⟩ := List.mem_iff_getElem.1 hq
    by_cases hjk : j = k
    · subst hjk
      rw [List.getElem?_eq_getElem hj, Option.some.injEq] at hk
      exact ⟨p', by simp, by rw [hi, ← hk, hje]⟩
    · refine ⟨q, .inl ?_, rfl⟩
      rw [List.mem_eraseIdx_iff_getElem]
      exact ⟨j, hj, hjk, hje⟩
  · exact ⟨q, by simp [hq], rfl⟩

theorem stepPeer_keep {D : Decompressors} {d : Driver A} (h : DInv D d none) (k : Nat) (e : PEnv) :
    ∃ d', d.stepPeer D k e = .ok d' ∧ DInv D d' none ∧ Keep d d' := by
  obtain ⟨d', h1, h2⟩ := stepPeer_inv h k e
  refine ⟨d', h1, h2, ?_⟩
  unfold Driver.stepPeer at h1
  cases hk : d.peers[k]? with
  | none => rw [hk] at h1; cases h1; exact Keep.refl d
  | some p =>
    obtain ⟨hc, hl⟩ := h.peers p (List.mem_of_getElem? hk)
    obtain ⟨p', o, hit, sp⟩ := iter_spec hc hl (h.future d.next (Nat.le_refl _)) e
    have hid : p'.ident = p.ident := by simp [Peer.ident, sp.uid, sp.addr, sp.input0]
    simp only [hk, hit, R.bind_ok] at h1
    cases o with
    | request x m =>
      cases h1
      have k1 : Keep d { d with peers := d.peers.set k p', next := d.next + 1 } := by
        obtain ⟨a, b, c, g⟩ := set_keep hk hid
        exact ⟨a, b, c, g⟩
      refine k1.trans ?_
      unfold Driver.onRequest
      split
      · exact ⟨rfl, rfl, rfl, (complete_keep _ x .dropped).conns⟩
      · dsimp only
        split
        · exact ⟨rfl, rfl, rfl, fun q hq => ⟨q, hq, rfl⟩⟩
        · exact ⟨rfl, rfl, rfl, (complete_keep _ x .dropped).conns⟩
    | closed => cases h1; exact erase_keep hk hid _
    | sent m =>
      cases h1
      obtain ⟨a, b, c, g⟩ := set_keep hk hid
      exact ⟨a, b, c, g⟩
    | queued => cases h1; exact set_keep hk hid
    | error => cases h1; exact set_keep hk hid
    | pending => cases h1; exact set_keep hk hid

theorem peers_keep {D : Decompressors} (xs : List (Nat × PEnv)) {d : Driver A} (h : DInv D d none) :
    ∃ d', d.peers' D xs = .ok d' ∧ DInv D d' none ∧ Keep d d' := by
  induction xs generalizing d with
  | nil => exact ⟨d, rfl, h, Keep.refl d⟩
  | cons x xs ih =>
    obtain ⟨k, e⟩ := x
    obtain ⟨d1, h1, h2, h3⟩ := stepPeer_keep h k e
    obtain ⟨d2, k1, k2, k3⟩ := ih h2
    exact ⟨d2, by simp only [Driver.peers', h1, R.bind_ok]; exact k1, k2, h3.trans k3⟩

theorem insert_conns [DecidableEq A] (d : Driver A) (p : Peer A) :
    (∀ q ∈ d.conns, ∃ q' ∈ (d.insertPeer p).conns, q'.ident = q.ident) ∧ p ∈ (d.insertPeer p).conns := by
  constructor
  · intro q hq
    refine ⟨q, ?_, rfl⟩
    simp only [Driver.conns, Driver.insertPeer, List.mem_append, List.mem_filter, decide_eq_true_eq] at hq ⊢
    by_cases ha : q.addr = p.addr
    · rcases hq with hq | hq
      · exact .inr (.inr ⟨hq, ha⟩)
      · exact .inr (.inl hq)
    · rcases hq with hq | hq
      · exact .inl (.inl ⟨hq, by simpa using ha⟩)
      · exact .inr (.inl hq)
  · simp [Driver.conns, Driver.insertPeer]

/-- What a poll that handled everything did. -/
structure Done (d : Driver A) (r : Avail A) (d' : Driver A) : Prop where
  authn : d'.authn = d.authn
  conns : ∀ q ∈ d.conns, ∃ p ∈ d'.conns, p.ident = q.ident
  auth : ∀ c ∈ d.authTasks, c.uid ∉ r.joins → c ∈ d'.authTasks
  origin : ∀ c, c ∈ d'.connTasks ∨ c ∈ d'.authTasks → c ∈ d.connTasks ∨ c ∈ d.authTasks ∨ c ∈ r.accepts
  originC : ∀ c, c ∈ d'.connTasks → c ∈ d.connTasks ∨ c ∈ r.accepts
  joined : ∀ c ∈ d.authTasks, c.uid ∈ r.joins → c ∉ d'.authTasks ∧
    ∀ f id w rest l a, d.authn = some f → hsServer f c.hs = .accepted id w rest l → c.addr = some a →
      ∃ p ∈ d'.conns, p.ident = (c.uid, a, rest)
  conned : ∀ c ∈ d.connTasks, ∀ ok, (c.uid, ok) ∈ r.conns → c ∉ d'.connTasks ∧
    ∀ a, ok = true → c.addr = some a → (d.authn ≠ none → c ∈ d'.authTasks) ∧ (d.authn = none → ∃ p ∈ d'.conns, p.ident = (c.uid, a, c.hs.reads))

/-- Every connection being authenticated has a peer address. -/
def Addressed (d : Driver A) : Prop := ∀ c ∈ d.authTasks, c.addr ≠ none

theorem join_iter [DecidableEq A] {d : Driver A} {u us cs as} (hf : Fits d.authn d.connTasks d.authTasks ⟨u :: us, cs, as⟩)
    (hc : Calm d.authn d.authTasks ⟨u :: us, cs, as⟩) (had : Addressed d) :
    ∃ i c f d1, d.authTasks[i]? = some c ∧ c.uid = u ∧ c ∈ d.authTasks ∧ (∀ x, x ∈ d.authTasks.eraseIdx i ↔ x ∈ d.authTasks ∧ x ≠ c) ∧ d.authn = some f ∧
      d.pollIter ⟨u :: us, cs, as⟩ = (d1, ⟨us, cs, as⟩, true) ∧ d1 = d.stepJoin i ∧ d1.authn = d.authn ∧ d1.connTasks = d.connTasks ∧
      d1.authTasks = d.authTasks.eraseIdx i ∧ (∀ q ∈ d.conns, ∃ p ∈ d1.conns, p.ident = q.ident) ∧
      (∀ id w rest l a, hsServer f c.hs = .accepted id w rest l → c.addr = some a → ∃ p ∈ d1.conns, p.ident = (c.uid, a, rest)) := by
  obtain ⟨f, h1, c, h2, h3, h4⟩ := hf.join u (by simp)
  subst h3
  obtain ⟨i, k1, k2, k3⟩ := find_uid hf.atNodup h2
  have hp := hc f h1 c h2 (by simp)
  obtain ⟨a, ha⟩ := Option.ne_none_iff_exists'.1 (had c h2)
  have ho : (c.uid :: us).head?.bind (fun u => d.authTasks.findIdx? (·.uid = u)) = some i := by simp [k1]
  refine ⟨i, c, f, d.stepJoin i, k2, rfl, h2, k3, h1, ?_, rfl, ?_⟩
  · simp only [Driver.pollIter, Driver.pollJoin, ho, h1, k2]
    cases hh : hsServer f c.hs with
    | waiting w => exact absurd hh (h4 w)
    | panicked => exact absurd hh hp
    | accepted id w rest l => rfl
    | failed w => rfl
  · unfold Driver.stepJoin
    rw [h1, k2]
    cases hh : hsServer f c.hs with
    | waiting w => exact absurd hh (h4 w)
    | panicked => exact absurd hh hp
    | failed w =>
      simp only [hh, ha]
      exact ⟨trivial, trivial, trivial, fun q hq => ⟨q, hq, rfl⟩, by intros; contradiction⟩
    | accepted id w rest l =>
      simp only [hh, ha]
      obtain ⟨j1, j2⟩ := insert_conns { d with authTasks := d.authTasks.eraseIdx i } (Peer.new c.uid a rest)
      refine ⟨rfl, rfl, rfl, j1, ?_⟩
      intro id' w' rest' l' a' e ea
      cases e
      cases ea
      exact ⟨_, j2, rfl⟩

theorem conn_iter [DecidableEq A] {d : Driver A} {x : Nat × Bool} {cs as} (hf : Fits d.authn d.connTasks d.authTasks ⟨[], x :: cs, as⟩) :
    ∃ i c d1, d.connTasks[i]? = some c ∧ c.uid = x.1 ∧ c ∈ d.connTasks ∧ (∀ y, y ∈ d.connTasks.eraseIdx i ↔ y ∈ d.connTasks ∧ y ≠ c) ∧
      d.pollIter ⟨[], x :: cs, as⟩ = (d1, ⟨[], cs, as⟩, true) ∧ d1 = d.stepConn i x.2 ∧ d1.authn = d.authn ∧ d1.connTasks = d.connTasks.eraseIdx i ∧
      (d1.authTasks = d.authTasks ∨ d1.authTasks = d.authTasks ++ [c] ∧ c.addr ≠ none) ∧ (∀ q ∈ d.conns, ∃ p ∈ d1.conns, p.ident = q.ident) ∧
      (∀ a, x.2 = true → c.addr = some a → (d.authn ≠ none → c ∈ d1.authTasks) ∧
        (d.authn = none → ∃ p ∈ d1.conns, p.ident = (c.uid, a, c.hs.reads))) := by
  obtain ⟨c, h2, h3⟩ := hf.conn x (by simp)
  obtain ⟨u, ok⟩ := x
  simp only at h3
  subst h3
  obtain ⟨i, k1, k2, k3⟩ := find_uid hf.ctNodup h2
  refine ⟨i, c, d.stepConn i ok, k2, rfl, h2, k3, ?_, rfl, ?_⟩
  · simp [Driver.pollIter, Driver.pollJoin, k1]
  · unfold Driver.stepConn
    rw [k2]
    cases ok with
    | false => exact ⟨rfl, rfl, .inl rfl, fun q hq => ⟨q, hq, rfl⟩, by simp⟩
    | true =>
      simp only [if_true]
      cases ha : c.addr with
      | none => exact ⟨rfl, rfl, .inl rfl, fun q hq => ⟨q, hq, rfl⟩, by simp⟩
      | some a =>
        cases hau : d.authn with
        | none =>
          simp only [hau]
          obtain ⟨j1, j2⟩ := insert_conns { d with connTasks := d.connTasks.eraseIdx i } (Peer.new c.uid a c.hs.reads)
          exact ⟨rfl, rfl, .inl rfl, j1, fun a' _ ea => ⟨by simp, fun _ => by cases ea; exact ⟨_, j2, rfl⟩⟩⟩
        | some f =>
          simp only [hau]
          exact ⟨trivial, trivial, .inr ⟨trivial, by simp⟩, fun q hq => ⟨q, hq, rfl⟩, fun a' _ _ => ⟨fun _ => by simp, by simp⟩⟩

theorem accept_iter [DecidableEq A] {d : Driver A} {c : Conn A} {as} :
    ∃ d1, d.pollIter ⟨[], [], c :: as⟩ = (d1, ⟨[], [], as⟩, true) ∧ d1 = d.stepAccept c ∧ d1.authn = d.authn ∧ d1.authTasks = d.authTasks ∧
      (d1.connTasks = d.connTasks ∨ d1.connTasks = d.connTasks ++ [c]) ∧ d1.conns = d.conns := by
  refine ⟨d.stepAccept c, by simp [Driver.pollIter, Driver.pollJoin], rfl, ?_⟩
  unfold Driver.stepAccept
  cases hm : d.max with
  | none => exact ⟨rfl, rfl, .inr rfl, rfl⟩
  | some m =>
    dsimp only
    by_cases hle : m ≤ d.active
    · rw [if_pos hle]; exact ⟨rfl, rfl, .inl rfl, rfl⟩
    · rw [if_neg hle]; exact ⟨rfl, rfl, .inr rfl, rfl⟩

/-- The peers do something, then the rest of the poll. -/
theorem Done.after {d d0 d' : Driver A} {r : Avail A} (hk : Keep d d0) (h : Done d0 r d') : Done d r d' := by
  obtain ⟨h1, h2, h3, h4, h5, h6, h7⟩ := h
  obtain ⟨k1, k2, k3, k4⟩ := hk
  rw [k2, k3] at h4
  rw [k2] at h5 h7
  rw [k3] at h3 h6
  rw [k1] at h1 h6 h7
  refine ⟨h1, fun q hq => ?_, h3, h4, h5, h6, h7⟩
  obtain ⟨p, j1, j2⟩ := k4 q hq
  obtain ⟨p', j3, j4⟩ := h2 p j1
  exact ⟨p', j3, j4.trans j2⟩

theorem poll_done [DecidableEq A] (D : Decompressors) (ps : List (List (Nat × PEnv))) : ∀ (d : Driver A) (r : Avail A), ps.length = r.size + 1 →
    DInv D d none → Addressed d → Fits d.authn d.connTasks d.authTasks r → Calm d.authn d.authTasks r →
    ∃ d', d.poll D r ps = .ok (some (d', ⟨[], [], []⟩)) ∧ Done d r d' := by
  induction ps with
  | nil => intro d r h; simp at h
  | cons xs ps ih =>
    intro dd r hs hI had hf hc
    obtain ⟨d, p1, p2, p3⟩ := peers_keep xs hI
    suffices hsuf : ∃ d', (match d.pollIter r with
        | (d, r, true) => Driver.poll D d r ps
        | (d, r, false) => .ok (some (d, r))) = .ok (some (d', ⟨[], [], []⟩)) ∧ Done d r d' by
      obtain ⟨d', k1, k2⟩ := hsuf
      refine ⟨d', ?_, k2.after p3⟩
      rw [Driver.poll, p1, R.bind_ok, ← k1]
      rcases d.pollIter r with ⟨x, y, b⟩
      cases b <;> rfl
    rw [← p3.authn, ← p3.ct, ← p3.at'] at hf
    rw [← p3.authn, ← p3.at'] at hc
    replace had : Addressed d := by rw [Addressed, p3.at']; exact had
    clear hI p1
    obtain ⟨js, cs, as⟩ := r
    cases js with
    | cons u us =>
      obtain ⟨i, c, f, d1, g1, g2, g3, g4, g5, g6, g6', g7, g8, g9, g10, g11⟩ := join_iter hf hc had
      have hf1 : Fits d1.authn d1.connTasks d1.authTasks ⟨us, cs, as⟩ := by rw [g7, g8, g9]; exact hf.joined g2 g4
      have hc1 : Calm d1.authn d1.authTasks ⟨us, cs, as⟩ := by
        intro f' hf' c' hc' hu'
        rw [g7] at hf'
        rw [g9] at hc'
        exact hc f' hf' c' ((g4 c').1 hc').1 (by simp only at hu'; simp [hu'])
      have had1 : Addressed d1 := fun x hx => had x ((g4 x).1 (g9 ▸ hx)).1
      have hI1 : DInv D d1 none := by
        obtain ⟨y, e1, e2⟩ := act_inv p2 (.join i)
        cases e1
        rw [g6']
        exact e2
      obtain ⟨d', k0, k1, k2, k3, k5, k6, k7, k8⟩ := ih d1 ⟨us, cs, as⟩ (by simp [Avail.size] at hs ⊢; omega) hI1 had1 hf1 hc1
      refine ⟨d', by rw [g6]; exact k0, k1.trans g7, ?_, ?_, ?_, ?_, ?_, ?_⟩
      · intro q hq
        obtain ⟨p, j1, j2⟩ := g10 q hq
        obtain ⟨p', j3, j4⟩ := k2 p j1
        exact ⟨p', j3, j4.trans j2⟩
      · intro x hx hxu
        simp only [List.mem_cons, not_or] at hxu
        exact k3 x (by rw [g9]; exact (g4 x).2 ⟨hx, fun e => hxu.1 (by rw [e, g2])⟩) hxu.2
      · intro x hx
        rcases k5 x hx with h | h | h
        · exact .inl (g8 ▸ h)
        · rw [g9] at h; exact .inr (.inl ((g4 x).1 h).1)
        · exact .inr (.inr h)
      · intro x hx
        rcases k6 x hx with h | h
        · exact .inl (g8 ▸ h)
        · exact .inr h
      · intro x hx hxu
        by_cases hxc : x = c
        · subst hxc
          constructor
          · intro hx'
            rcases k5 x (.inr hx') with h | h | h
            · rw [g8] at h; exact hf.disj h hx rfl
            · rw [g9] at h; exact ((g4 x).1 h).2 rfl
            · exact hf.disjA (.inr hx) h rfl
          · intro f' id w rest l a hf' hh ha
            rw [g5] at hf'
            cases hf'
            obtain ⟨p, j1, j2⟩ := g11 id w rest l a hh ha
            obtain ⟨p', j3, j4⟩ := k2 p j1
            exact ⟨p', j3, j4.trans j2⟩
        · have hx1 : x ∈ d1.authTasks := by rw [g9]; exact (g4 x).2 ⟨hx, hxc⟩
          have hxu1 : x.uid ∈ us := by
            simp only [List.mem_cons] at hxu
            rcases hxu with h | h
            · exact absurd (uid_inj hf.atNodup hx g3 (h.trans g2.symm)) hxc
            · exact h
          obtain ⟨j1, j2⟩ := k7 x hx1 hxu1
          exact ⟨j1, fun f' id w rest l a hf' hh => j2 f' id w rest l a (by rw [g7]; exact hf') hh⟩
      · intro x hx ok hok
        have := k8 x (by rw [g8]; exact hx) ok hok
        rw [g7] at this
        exact this
    | nil =>
      cases cs with
      | cons y cs =>
        obtain ⟨i, c, d1, g1, g2, g3, g4, g5, g5', g6, g7, g8, g9, g10⟩ := conn_iter hf
        have g8' : d1.authTasks = d.authTasks ∨ d1.authTasks = d.authTasks ++ [c] := g8.imp id (·.1)
        have hf1 : Fits d1.authn d1.connTasks d1.authTasks ⟨[], cs, as⟩ := by rw [g6, g7]; exact hf.conned g2 g1 g4 _ g8'
        have had1 : Addressed d1 := by
          intro x hx
          rcases g8 with h | ⟨h, h'⟩ <;> rw [h] at hx
          · exact had x hx
          · rcases List.mem_append.1 hx with hx | hx
            · exact had x hx
            · simp at hx; subst hx; exact h'
        have hI1 : DInv D d1 none := by
          obtain ⟨z, e1, e2⟩ := act_inv p2 (.ready i y.2)
          cases e1
          rw [g5']
          exact e2
        obtain ⟨d', k0, k1, k2, k3, k5, k6, k7, k8⟩ := ih d1 ⟨[], cs, as⟩ (by simp [Avail.size] at hs ⊢; omega) hI1 had1 hf1 (by intro f _ c _ h; simp at h)
        have hsub : ∀ x ∈ d.authTasks, x ∈ d1.authTasks := by
          intro x hx
          rcases g8' with h | h <;> rw [h]
          · exact hx
          · simp [hx]
        refine ⟨d', by rw [g5]; exact k0, k1.trans g6, ?_, fun x hx _ => k3 x (hsub x hx) (by simp), ?_, ?_, by simp, ?_⟩
        · intro q hq
          obtain ⟨p, j1, j2⟩ := g9 q hq
          obtain ⟨p', j3, j4⟩ := k2 p j1
          exact ⟨p', j3, j4.trans j2⟩
        · intro x hx
          rcases k5 x hx with h | h | h
          · rw [g7] at h; exact .inl ((g4 x).1 h).1
          · rcases g8' with e | e <;> rw [e] at h
            · exact .inr (.inl h)
            · rcases List.mem_append.1 h with h | h
              · exact .inr (.inl h)
              · simp at h; subst h; exact .inl g3
          · exact .inr (.inr h)
        · intro x hx
          rcases k6 x hx with h | h
          · rw [g7] at h; exact .inl ((g4 x).1 h).1
          · exact .inr h
        · intro x hx ok hok
          by_cases hxc : x = c
          · subst hxc
            have hoky : ok = y.2 := by
              rcases List.mem_cons.1 hok with h | h
              · rw [← h]
              · exact absurd (List.mem_map.2 ⟨_, h, g2⟩) (List.nodup_cons.1 hf.conns).1
            constructor
            · intro hx'
              rcases k6 x hx' with h | h
              · rw [g7] at h; exact ((g4 x).1 h).2 rfl
              · exact hf.disjA (.inl hx) h rfl
            · intro a h1 h2
              obtain ⟨j1, j2⟩ := g10 a (hoky ▸ h1) h2
              refine ⟨fun h => k3 x (j1 h) (by simp), fun h => ?_⟩
              obtain ⟨p, j1, j2⟩ := j2 h
              obtain ⟨p', j3, j4⟩ := k2 p j1
              exact ⟨p', j3, j4.trans j2⟩
          · have hx1 : x ∈ d1.connTasks := by rw [g7]; exact (g4 x).2 ⟨hx, hxc⟩
            have hok1 : (x.uid, ok) ∈ cs := by
              rcases List.mem_cons.1 hok with h | h
              · have : x.uid = c.uid := by rw [g2, ← h]
                exact absurd (uid_inj hf.ctNodup hx g3 this) hxc
              · exact h
            have := k8 x hx1 ok hok1
            rw [g6] at this
            exact this
      | nil =>
        cases as with
        | nil =>
          refine ⟨d, by simp [Driver.pollIter, Driver.pollJoin], rfl, fun q hq => ⟨q, hq, rfl⟩, fun c hc _ => hc, fun c hc => ?_, fun c hc => .inl hc, by simp, by simp⟩
          rcases hc with h | h
          · exact .inl h
          · exact .inr (.inl h)
        | cons c as =>
          obtain ⟨d1, g1, g1', g2, g3, g4, g5⟩ := accept_iter (d := d) (c := c) (as := as)
          have hf1 : Fits d1.authn d1.connTasks d1.authTasks ⟨[], [], as⟩ := by rw [g2, g3]; exact hf.accepted _ g4
          have hI1 : DInv D d1 none := by
            obtain ⟨z, e1, e2⟩ := act_inv p2 (.accept c)
            cases e1
            rw [g1']
            exact e2
          obtain ⟨d', k0, k1, k2, k3, k5, k6, k7, k8⟩ := ih d1 ⟨[], [], as⟩ (by simp [Avail.size] at hs ⊢; omega) hI1
            (by rw [Addressed, g3]; exact had) hf1 (by intro f _ c _ h; simp at h)
          have hsup : ∀ x ∈ d1.connTasks, x ∈ d.connTasks ∨ x ∈ c :: as := by
            intro x hx
            rcases g4 with h | h <;> rw [h] at hx
            · exact .inl hx
            · simp at hx
              rcases hx with h | h
              · exact .inl h
              · exact .inr (by simp [h])
          refine ⟨d', by rw [g1]; exact k0, k1.trans g2, fun q hq => k2 q (g5 ▸ hq), fun x hx _ => k3 x (g3 ▸ hx) (by simp), ?_, ?_, by simp, by simp⟩
          · intro x hx
            rcases k5 x hx with h | h | h
            · rcases hsup x h with h | h
              · exact .inl h
              · exact .inr (.inr h)
            · exact .inr (.inl (g3 ▸ h))
            · exact .inr (.inr (by simp only at h; simp [h]))
          · intro x hx
            rcases k6 x hx with h | h
            · exact hsup x h
            · exact .inr (by simp only at h; simp [h])

/-- Actions keep `Addressed`. -/
theorem act_addressed [DecidableEq A] {D : Decompressors} {d d' : Driver A} (hI : DInv D d none) (h : Addressed d) (a : Act A) (ha : d.act D a = .ok d') :
    Addressed d' := by
  cases a with
  | peer k e =>
    obtain ⟨x, h1, -, h2⟩ := stepPeer_keep hI k e
    simp only [Driver.act, h1] at ha
    cases ha
    rw [Addressed, h2.at']
    exact h
  | join i =>
    cases ha
    intro c hc
    apply h c
    simp only [Driver.stepJoin] at hc
    split at hc
    · split at hc
      · exact List.mem_of_mem_eraseIdx hc
      · exact List.mem_of_mem_eraseIdx hc
      · exact List.mem_of_mem_eraseIdx hc
      · exact hc
    · exact hc
  | ready i ok =>
    cases ha
    intro c hc
    simp only [Driver.stepConn] at hc
    split at hc
    · exact h c hc
    · split at hc
      · split at hc
        · exact h c hc
        · rename_i a hca
          split at hc
          · simp only [List.mem_append, List.mem_singleton] at hc
            rcases hc with hc | hc
            · exact h c hc
            · rw [hc, hca]; simp
          · exact h c hc
      · exact h c hc
  | accept c =>
    cases ha
    intro x hx
    simp only [Driver.stepAccept] at hx
    split at hx
    · split at hx <;> exact h x hx
    · exact h x hx
  | recv =>
    simp only [Driver.act] at ha
    split at ha <;> (cases ha; exact h)
  | respond i b =>
    simp only [Driver.act] at ha
    split at ha <;> (cases ha; exact h)
  | drop i =>
    simp only [Driver.act] at ha
    split at ha <;> (cases ha; exact h)

theorem run_addressed [DecidableEq A] {D : Decompressors} (acts : List (Act A)) {d d' : Driver A} (hI : DInv D d none) (h : Addressed d)
    (hr : d.run D acts = .ok d') : Addressed d' := by
  induction acts generalizing d with
  | nil => cases hr; exact h
  | cons a acts ih =>
    obtain ⟨d1, ha, h1⟩ := act_inv hI a
    simp only [Driver.run, ha, R.bind_ok] at hr
    exact ih h1 (act_addressed hI h a ha) hr

end Rep
end MsgRs
