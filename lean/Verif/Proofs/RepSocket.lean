import Verif.Model.RepSocket
import Verif.Proofs.RepOwner
/-!
# Invariants of the reply socket with its front-end
-/
namespace MsgRs.Rep
open MsgRs
variable {A : Type}

/-- Dropping requests one after the other. -/
theorem dropAll_inv {D : Decompressors} (rs : List (Request A)) {d : Driver A} (h : DInv D d none) (ho : OwnInv d)
    (hib : d.inbox = []) (hw : ∀ r ∈ rs, d.slots r.handle = .waiting ∧ r.handle < d.next) (hn : (rs.map (·.handle)).Nodup)
    (hh : ∀ r ∈ d.held, ∀ r' ∈ rs, r.handle ≠ r'.handle) :
    let d' := rs.foldl (fun d r => d.complete r.handle .dropped) d
    DInv D d' none ∧ OwnInv d' ∧ d'.inbox = [] ∧ d'.held = d.held ∧ d'.cap = d.cap ∧ d'.next = d.next ∧ d'.taken = d.taken ∧
      d'.log = d.log ∧ d'.comp = d.comp ∧
      (∀ x, d'.slots x = if x ∈ rs.map (·.handle) then .dropped else d.slots x) ∧
      d'.peers.map (fun p => (p.uid, p.issued, p.pend, p.answers)) = d.peers.map (fun p => (p.uid, p.issued, p.pend, p.answers)) ∧
      d'.gone = d.gone := by
  induction rs generalizing d with
  | nil => exact ⟨h, ho, hib, rfl, rfl, rfl, rfl, rfl, rfl, by simp, rfl, rfl⟩
  | cons r rs ih =>
    simp only [List.map_cons, List.nodup_cons] at hn
    obtain ⟨hn1, hn2⟩ := hn
    obtain ⟨hw1, hw2⟩ := hw r (by simp)
    have h1 := complete_inv h r.handle .dropped hw1 hw2 (fun r' hr' => by
      rcases hr' with hr' | hr'
      · exact hh r' hr' r (by simp)
      · rw [hib] at hr'; cases hr') (.inl rfl)
    have ho1 := (complete_own (d := d) r.handle .dropped).2 ho
    have := ih h1 ho1 hib (fun r' hr' => by
        have hne : r'.handle ≠ r.handle := fun he => hn1 (List.mem_map.2 ⟨r', hr', he⟩)
        refine ⟨?_, (hw r' (by simp [hr'])).2⟩
        simp only [Driver.complete, if_neg hne]
        exact (hw r' (by simp [hr'])).1) hn2 (fun x hx r' hr' => hh x hx r' (by simp [hr']))
    obtain ⟨a1, a2, a3, a4, a5, a6, a7, a8, a9, a10, a11, a12⟩ := this
    refine ⟨a1, a2, a3, a4, a5, a6, a7, a8, a9, ?_, ?_, a12⟩
    · intro x
      have hx := a10 x
      simp only [List.foldl_cons, List.map_cons, List.mem_cons]
      rw [hx]
      simp only [Driver.complete]
      by_cases h1 : x ∈ rs.map (·.handle)
      · simp [h1]
      · by_cases h2 : x = r.handle <;> simp [h1, h2]
    · simp only [List.foldl_cons]
      rw [a11]
      simp only [Driver.complete, List.map_map]
      apply List.map_congr_left
      intro p _
      simp only [Function.comp, Peer.wake]
      split <;> rfl

theorem closeInbox_inv {D : Decompressors} {d : Driver A} (h : DInv D d none) (ho : OwnInv d) :
    DInv D d.closeInbox none ∧ OwnInv d.closeInbox ∧ d.closeInbox.inbox = [] ∧ d.closeInbox.held = d.held ∧ d.closeInbox.cap = 0 ∧
      d.closeInbox.next = d.next ∧ d.closeInbox.taken = d.taken ++ d.inbox ∧ d.closeInbox.log = d.log ∧ d.closeInbox.comp = d.comp ∧
      (∀ x, d.closeInbox.slots x = if x ∈ d.inbox.map (·.handle) then .dropped else d.slots x) ∧
      d.closeInbox.peers.map (fun p => (p.uid, p.issued, p.pend, p.answers)) = d.peers.map (fun p => (p.uid, p.issued, p.pend, p.answers)) ∧
      d.closeInbox.gone = d.gone := by
  obtain ⟨hn, hlt⟩ := h.handles
  rw [List.map_append, List.nodup_append] at hn
  obtain ⟨hn1, hn2, hn3⟩ := hn
  have h1 : DInv D { d with inbox := [], taken := d.taken ++ d.inbox, cap := 0 } none :=
    ⟨h.peers, h.gone, h.log, h.issued, h.delivered, h.undecodable, h.full, h.dropped, by simpa using h.inbox,
      h.held.trans (List.sublist_append_left _ _), fun r hr => h.waiting r (hr.imp id (fun hr => by cases hr)), h.future, h.exw,
      fun p hp x m hm r hr => h.source p hp x m hm r (by simpa using hr)⟩
  have := dropAll_inv d.inbox h1 ho rfl (fun r hr => ⟨h.waiting r (.inr hr), hlt _ (by simp; exact .inr ⟨r, hr, rfl⟩)⟩) hn2
    (fun r hr r' hr' => hn3 r.handle (List.mem_map.2 ⟨r, h.held.mem hr, rfl⟩) r'.handle (List.mem_map.2 ⟨r', hr', rfl⟩))
  exact this

/-- Invariant of the socket. -/
structure SockInv (D : Decompressors) (s : Socket A) : Prop where
  drv : ∀ d, s.drv = some d → DInv D d none ∧ OwnInv d ∧ d.comp = s.comp
  transport : s.transport ≠ none → s.drv = none ∧ s.transport = some none
  addr : s.localAddr.isSome = s.drv.isSome
  dropped : s.dropped = true → ∀ d, s.drv = some d → d.inbox = [] ∧ d.cap = 0
  alive : s.dropped = false → ∀ d, s.drv = some d → d.cap = 1024

theorem SockInv.new (D : Decompressors) (max authn comp) : SockInv D (Socket.new max authn comp : Socket A) :=
  ⟨by simp [Socket.new], by simp [Socket.new], by simp [Socket.new], by simp [Socket.new], by simp [Socket.new]⟩

/-- A closed channel stays empty. -/
theorem act_closed [DecidableEq A] {D : Decompressors} {d d' : Driver A} (a : Act A) (h : d.act D a = .ok d')
    (hib : d.inbox = []) (hc : d.cap = 0) : d'.inbox = [] := by
  cases a with
  | peer k e =>
    simp only [Driver.act, Driver.stepPeer] at h
    cases hk : d.peers[k]? with
    | none => simp only [hk] at h; cases h; exact hib
    | some p =>
      simp only [hk] at h
      cases hit : p.iter d.comp d.slots d.next e with
      | panic => rw [hit] at h; cases h
      | ok r =>
        obtain ⟨p', o⟩ := r
        simp only [hit, R.bind_ok, R.pure_eq] at h
        cases o with
        | request x m =>
          cases h
          simp only [Driver.onRequest]
          split
          · exact hib
          · rw [if_neg (by rw [hc]; omega)]
            exact hib
        | sent m => cases h; exact hib
        | queued => cases h; exact hib
        | error => cases h; exact hib
        | closed => cases h; exact hib
        | pending => cases h; exact hib
  | join i =>
    cases h
    show (d.stepJoin i).inbox = []
    unfold Driver.stepJoin
    split
    · dsimp only
      split <;> exact hib
    · exact hib
  | ready i ok =>
    cases h
    show (d.stepConn i ok).inbox = []
    unfold Driver.stepConn
    split
    · exact hib
    · dsimp only
      split
      · split
        · exact hib
        · split <;> exact hib
      · exact hib
  | accept c =>
    cases h
    show (d.stepAccept c).inbox = []
    unfold Driver.stepAccept
    split
    · split <;> exact hib
    · exact hib
  | recv =>
    simp only [Driver.act, hib] at h
    cases h
    exact hib
  | respond i b =>
    simp only [Driver.act] at h
    split at h <;> (cases h; exact hib)
  | drop i =>
    simp only [Driver.act] at h
    split at h <;> (cases h; exact hib)

theorem SockInv.onDriver [DecidableEq A] {D : Decompressors} {s : Socket A} (h : SockInv D s) {d d' : Driver A} (hd : s.drv = some d) (a : Act A)
    (ha : d.act D a = .ok d') : SockInv D { s with drv := some d' } := by
  obtain ⟨h1, h2, h3⟩ := h.drv d hd
  obtain ⟨d'', g1, g2⟩ := act_inv h1 a
  rw [ha] at g1
  cases g1
  have hcfg := act_cfg a ha
  refine ⟨?_, ?_, ?_, ?_, ?_⟩
  · intro x hx
    cases hx
    exact ⟨g2, act_own h1 h2 a ha, hcfg.2.trans h3⟩
  · intro ht
    have := (h.transport ht).1
    rw [hd] at this
    cases this
  · have := h.addr
    rw [hd] at this
    exact this
  · intro hdr x hx
    cases hx
    obtain ⟨k1, k2⟩ := h.dropped hdr d hd
    exact ⟨act_closed a ha k1 k2, hcfg.1.trans k2⟩
  · intro hdr x hx
    cases hx
    exact hcfg.1.trans (h.alive hdr d hd)

theorem bindLoop_none {bind : A → Option A} {addrs : List A} : Pub.bindLoop bind none addrs = none ↔ ∀ a ∈ addrs, bind a = none := by
  induction addrs with
  | nil => simp [Pub.bindLoop]
  | cons a as ih =>
    simp only [Pub.bindLoop, List.mem_cons, forall_eq_or_imp]
    cases hb : bind a with
    | some l => simp
    | none => simp [ih]

theorem SockInv.act [DecidableEq A] {D : Decompressors} {s : Socket A} (h : SockInv D s) (a : SAct A) :
    ∃ s', s.act D a = .ok s' ∧ SockInv D s' := by
  cases a with
  | bind bind addrs =>
    simp only [Socket.act]
    split
    · exact ⟨s, rfl, h⟩
    · rename_i hdr
      unfold Socket.tryBind
      cases ht : s.transport with
      | none => exact ⟨_, rfl, h.drv, by simp, h.addr, h.dropped, h.alive⟩
      | some cur =>
        obtain ⟨h1, h2⟩ := h.transport (by simp [ht])
        simp only
        cases hb : Pub.bindLoop bind cur addrs with
        | none =>
          refine ⟨_, rfl, ?_, by simp, h.addr, h.dropped, h.alive⟩
          exact h.drv
        | some l =>
          simp only
          by_cases hmx : 2 ^ 63 ≤ s.max.getD 64
          · rw [if_pos hmx]
            exact ⟨_, rfl, h.drv, by simp, h.addr, h.dropped, h.alive⟩
          rw [if_neg hmx]
          refine ⟨_, rfl, ?_, by simp, by simp, ?_, ?_⟩
          · intro d hd
            cases hd
            exact ⟨new_inv D _ _ _, new_own _ _ _, rfl⟩
          · intro hdr'
            exact absurd hdr' hdr
          · intro _ d hd
            cases hd
            rfl
  | next =>
    simp only [Socket.act]
    split
    · exact ⟨s, rfl, h⟩
    · unfold Socket.pollNext
      cases hd : s.drv with
      | none => exact ⟨s, rfl, h⟩
      | some d =>
        simp only
        cases hib : d.inbox with
        | nil => exact ⟨s, rfl, h⟩
        | cons r rs =>
          refine ⟨_, rfl, h.onDriver hd .recv ?_⟩
          simp only [Driver.act, hib]
  | driver a =>
    cases hd : s.drv with
    | none => cases a <;> (simp only [Socket.act, hd]; exact ⟨s, rfl, h⟩)
    | some d =>
      obtain ⟨d', g1, -⟩ := act_inv (h.drv d hd).1 a
      cases a with
      | recv => exact ⟨s, rfl, h⟩
      | peer k e => exact ⟨_, by simp only [Socket.act, hd, g1]; rfl, h.onDriver hd _ g1⟩
      | join i => exact ⟨_, by simp only [Socket.act, hd, g1]; rfl, h.onDriver hd _ g1⟩
      | ready i ok => exact ⟨_, by simp only [Socket.act, hd, g1]; rfl, h.onDriver hd _ g1⟩
      | accept c => exact ⟨_, by simp only [Socket.act, hd, g1]; rfl, h.onDriver hd _ g1⟩
      | respond i b => exact ⟨_, by simp only [Socket.act, hd, g1]; rfl, h.onDriver hd _ g1⟩
      | drop i => exact ⟨_, by simp only [Socket.act, hd, g1]; rfl, h.onDriver hd _ g1⟩
  | drop =>
    simp only [Socket.act]
    split
    · exact ⟨s, rfl, h⟩
    · refine ⟨_, rfl, ?_, ?_, ?_, ?_, by simp⟩
      · intro x hx
        cases hd : s.drv with
        | none => rw [hd] at hx; cases hx
        | some d =>
          rw [hd] at hx
          cases hx
          obtain ⟨h1, h2, h3⟩ := h.drv d hd
          obtain ⟨g1, g2, g3, g4, g5, g6, g7, g8, g9, -⟩ := closeInbox_inv h1 h2
          exact ⟨g1, g2, g9.trans h3⟩
      · intro ht
        obtain ⟨h1, h2⟩ := h.transport ht
        exact ⟨by simp [h1], h2⟩
      · rw [h.addr]
        simp
      · intro _ x hx
        cases hd : s.drv with
        | none => rw [hd] at hx; cases hx
        | some d =>
          rw [hd] at hx
          cases hx
          obtain ⟨h1, h2, h3⟩ := h.drv d hd
          obtain ⟨g1, g2, g3, g4, g5, -⟩ := closeInbox_inv h1 h2
          exact ⟨g3, g5⟩

theorem SockInv.run [DecidableEq A] {D : Decompressors} (acts : List (SAct A)) {s : Socket A} (h : SockInv D s) :
    ∃ s', s.run D acts = .ok s' ∧ SockInv D s' := by
  induction acts generalizing s with
  | nil => exact ⟨s, rfl, h⟩
  | cons a acts ih =>
    obtain ⟨s1, h1, h2⟩ := h.act a
    obtain ⟨s2, h3, h4⟩ := ih h2
    exact ⟨s2, by simp [Socket.run, h1, h3], h4⟩

theorem sock_run_append [DecidableEq A] (D : Decompressors) (s : Socket A) (xs ys : List (SAct A)) :
    s.run D (xs ++ ys) = (do let s' ← s.run D xs; s'.run D ys) := by
  induction xs generalizing s with
  | nil => rfl
  | cons a xs ih =>
    simp only [List.cons_append, Socket.run]
    cases s.act D a with
    | panic => rfl
    | ok s' => simp only [R.bind_ok]; exact ih s'

end MsgRs.Rep
