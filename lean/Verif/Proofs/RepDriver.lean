import Verif.Proofs.RepPeer
import Verif.Spec.Rep
/-!
# Invariants of the reply socket
-/
namespace MsgRs.Rep
open MsgRs
variable {A : Type}

/-- `ex`: a request whose oneshot is about to be dropped. -/
structure DInv (D : Decompressors) (d : Driver A) (ex : Option Nat) : Prop where
  peers : ∀ p ∈ d.peers, PCore d.comp d.slots d.next p ∧ PLive d.slots p
  gone : ∀ p ∈ d.gone, PCore d.comp d.slots d.next p
  log : d.log.map (·.2.1) = List.range d.next
  issued : ∀ p ∈ d.conns, ∀ h m, (h, m) ∈ p.issued → ∃ f, (p.uid, h, m, f) ∈ d.log
  delivered : ∀ u h m pl, (u, h, m, Fate.delivered pl) ∈ d.log →
    tryDecompress D m.header.ctype m.payload = some pl
  undecodable : ∀ u h m, (u, h, m, Fate.undecodable) ∈ d.log →
    tryDecompress D m.header.ctype m.payload = none
  full : ∀ u h m, (u, h, m, Fate.full) ∈ d.log → (tryDecompress D m.header.ctype m.payload).isSome
  dropped : ∀ u h m f, (u, h, m, f) ∈ d.log → (∀ pl, f ≠ .delivered pl) → d.slots h = .dropped ∨ ex = some h
  inbox : (d.taken ++ d.inbox).map (fun r => (r.handle, r.msg)) = deliveredOf d.log
  held : d.held.Sublist d.taken
  waiting : ∀ r, r ∈ d.held ∨ r ∈ d.inbox → d.slots r.handle = .waiting
  future : ∀ h, d.next ≤ h → d.slots h = .waiting
  exw : ∀ h, ex = some h → d.slots h = .waiting ∧ h < d.next ∧ h ∉ (deliveredOf d.log).map (·.1)
  source : ∀ p ∈ d.conns, ∀ h m, (h, m) ∈ p.issued → ∀ r ∈ d.taken ++ d.inbox, r.handle = h → r.source = p.addr

theorem deliveredOf_sub (log : List (Nat × Nat × ReqRep.Message × Fate)) :
    ((deliveredOf log).map (·.1)).Sublist (log.map (·.2.1)) := by
  induction log with
  | nil => exact .slnil
  | cons x l ih =>
    obtain ⟨u, h, m, f⟩ := x
    cases f with
    | delivered pl => exact ih.cons_cons h
    | undecodable => exact ih.cons h
    | full => exact ih.cons h

theorem DInv.handles {D : Decompressors} {d : Driver A} {ex} (h : DInv D d ex) :
    ((d.taken ++ d.inbox).map (·.handle)).Nodup ∧ ∀ x ∈ (d.taken ++ d.inbox).map (·.handle), x < d.next := by
  have h1 : (d.taken ++ d.inbox).map (·.handle) = (deliveredOf d.log).map (·.1) := by
    rw [← h.inbox, List.map_map]; rfl
  have h2 := deliveredOf_sub d.log
  rw [h.log] at h2
  rw [h1]
  exact ⟨List.nodup_range.sublist h2, fun x hx => by simpa using h2.mem hx⟩

/-- Completed oneshots keep their state. -/
theorem PCore.slots {comp slots slots' next} {p : Peer A} (h : PCore comp slots next p)
    (hs : ∀ x, slots x ≠ .waiting → slots' x = slots x) : PCore comp slots' next p :=
  ⟨h.seen, h.sorted, h.fresh, h.pend, h.once, fun a m hm => by
    obtain ⟨rq, b, h1, h2, h3⟩ := h.answers a m hm
    exact ⟨rq, b, h1, by rw [hs a (by simp [h2]), h2], h3⟩, h.out, h.bytes, fun a m hm => by
    rcases h.done a m hm with h1 | h1 | h1 | ⟨b, h1, h2⟩
    · exact .inl h1
    · exact .inr (.inl h1)
    · exact .inr (.inr (.inl (by rw [hs a (by simp [h1]), h1])))
    · exact .inr (.inr (.inr ⟨b, by rw [hs a (by simp [h1]), h1], h2⟩))⟩

theorem PCore.wake {comp slots next} {p : Peer A} (h : PCore comp slots next p) (x : Nat) :
    PCore comp slots next (p.wake x) := by
  unfold Peer.wake
  split
  · exact ⟨h.seen, h.sorted, h.fresh, h.pend, h.once, h.answers, h.out, h.bytes, h.done⟩
  · exact h

theorem wake_fields (p : Peer A) (x : Nat) : (p.wake x).uid = p.uid ∧ (p.wake x).addr = p.addr ∧
    (p.wake x).issued = p.issued ∧ (p.wake x).pend = p.pend ∧ (p.wake x).input0 = p.input0 := by
  unfold Peer.wake
  split <;> simp

theorem PLive.wake {slots} {p : Peer A} (h : PLive slots p) (x : Nat) (s : Slot) :
    PLive (fun y => if y = x then s else slots y) (p.wake x) := by
  unfold Peer.wake
  split
  · rename_i hc
    refine ⟨h.reads, h.flush, ?_, ?_, ?_⟩
    · intro y hy
      simp only [List.mem_append, List.mem_singleton] at hy
      rcases hy with hy | hy
      · exact h.queued y hy
      · subst hy; exact hc.1
    · rw [List.nodup_append]
      refine ⟨h.queueNodup, by simp, ?_⟩
      intro a ha b hb
      simp only [List.mem_singleton] at hb
      subst hb
      exact fun he => hc.2 (he ▸ ha)
    · intro y hy hs
      simp only [List.mem_append, List.mem_singleton]
      by_cases hyx : y = x
      · exact .inr hyx
      · simp only [hyx, if_false] at hs
        exact .inl (h.woken y hy hs)
  · rename_i hc
    refine ⟨h.reads, h.flush, h.queued, h.queueNodup, ?_⟩
    intro y hy hs
    by_cases hyx : y = x
    · subst hyx
      rcases Classical.em (y ∈ p.queue) with h1 | h1
      · exact h1
      · exact absurd ⟨hy, h1⟩ hc
    · simp only [hyx, if_false] at hs
      exact h.woken y hy hs

theorem complete_inv {D : Decompressors} {d : Driver A} {ex} (h : DInv D d ex) (x : Nat) (s : Slot)
    (hw : d.slots x = .waiting) (hx : x < d.next)
    (hh : ∀ r, r ∈ d.held ∨ r ∈ d.inbox → r.handle ≠ x)
    (hd : ex = none ∨ (ex = some x ∧ s = .dropped)) : DInv D (d.complete x s) none := by
  have hslots : ∀ y, d.slots y ≠ .waiting → (d.complete x s).slots y = d.slots y := by
    intro y hy
    simp only [Driver.complete]
    rw [if_neg (fun he : y = x => hy (by rw [he]; exact hw))]
  have mem : ∀ p, p ∈ (d.complete x s).conns → ∃ q ∈ d.conns, p.uid = q.uid ∧ p.addr = q.addr ∧ p.issued = q.issued := by
    intro p hp
    simp only [Driver.conns, Driver.complete, List.mem_append, List.mem_map] at hp
    rcases hp with ⟨q, hq, rfl⟩ | hp
    · obtain ⟨h1, h2, h3, -⟩ := wake_fields q x
      exact ⟨q, by simp [Driver.conns, hq], h1, h2, h3⟩
    · exact ⟨p, by simp [Driver.conns, hp], rfl, rfl, rfl⟩
  refine ⟨?_, ?_, h.log, ?_, h.delivered, h.undecodable, h.full, ?_, h.inbox, h.held, ?_, ?_, by simp, ?_⟩
  · intro p hp
    simp only [Driver.complete, List.mem_map] at hp
    obtain ⟨q, hq, rfl⟩ := hp
    obtain ⟨h1, h2⟩ := h.peers q hq
    exact ⟨(h1.slots hslots).wake x, h2.wake x s⟩
  · intro p hp
    exact (h.gone p hp).slots hslots
  · intro p hp a m hm
    obtain ⟨q, hq, h1, -, h3⟩ := mem p hp
    rw [h3] at hm
    rw [h1]
    exact h.issued q hq a m hm
  · intro u a m f hm hf
    left
    rcases h.dropped u a m f hm hf with h1 | h1
    · rw [hslots a (by simp [h1])]; exact h1
    · rcases hd with hd | ⟨hd, rfl⟩
      · rw [hd] at h1; cases h1
      · rw [hd] at h1; cases h1
        simp [Driver.complete]
  · intro r hr
    have := hh r hr
    simp only [Driver.complete]
    rw [if_neg this]
    exact h.waiting r hr
  · intro y hy
    simp only [Driver.complete] at hy ⊢
    rw [if_neg (by omega)]
    exact h.future y hy
  · intro p hp a m hm r hr hra
    obtain ⟨q, hq, -, h2, h3⟩ := mem p hp
    rw [h3] at hm
    rw [h2]
    exact h.source q hq a m hm r hr hra

theorem mem_set {l : List α} {k : Nat} {a x : α} (h : x ∈ l.set k a) : x ∈ l ∨ x = a := by
  rcases List.mem_or_eq_of_mem_set h with h | h
  · exact .inl h
  · exact .inr h

theorem PCore.mono {comp slots next next'} {p : Peer A} (h : PCore comp slots next p) (hn : next ≤ next') :
    PCore comp slots next' p :=
  ⟨h.seen, h.sorted, fun a m hm => Nat.lt_of_lt_of_le (h.fresh a m hm) hn, h.pend, h.once, h.answers, h.out, h.bytes, h.done⟩

/-- The state after a peer made a step that read no request and did not end. -/
theorem set_inv {D : Decompressors} {d : Driver A} (h : DInv D d none) {k p p'} {e : PEnv} {o : POut}
    (hk : d.peers[k]? = some p) (hs : IterSpec d.comp d.slots d.next p e p' o)
    (ho : o.reqs = []) (hn : o.next d.next = d.next) (hne : o ≠ .closed) (tx : Nat) :
    DInv D { d with peers := d.peers.set k p', bytesTx := tx } none := by
  have hm := List.mem_of_getElem? hk
  have hiss : p'.issued = p.issued := by rw [hs.issued, ho]; simp
  have mem : ∀ q, q ∈ ({ d with peers := d.peers.set k p', bytesTx := tx } : Driver A).conns →
      ∃ q' ∈ d.conns, q.uid = q'.uid ∧ q.addr = q'.addr ∧ q.issued = q'.issued := by
    intro q hq
    simp only [Driver.conns, List.mem_append] at hq
    rcases hq with hq | hq
    · rcases mem_set hq with hq | rfl
      · exact ⟨q, by simp [Driver.conns, hq], rfl, rfl, rfl⟩
      · exact ⟨p, by simp [Driver.conns, hm], hs.uid, hs.addr, hiss⟩
    · exact ⟨q, by simp [Driver.conns, hq], rfl, rfl, rfl⟩
  refine ⟨?_, h.gone, h.log, ?_, h.delivered, h.undecodable, h.full, h.dropped, h.inbox, h.held, h.waiting,
    h.future, h.exw, ?_⟩
  · intro q hq
    rcases mem_set hq with hq | rfl
    · exact h.peers q hq
    · have := hs.core
      rw [hn] at this
      exact ⟨this, hs.live hne⟩
  · intro q hq a m hm'
    obtain ⟨q', h1, h2, -, h4⟩ := mem q hq
    rw [h4] at hm'; rw [h2]
    exact h.issued q' h1 a m hm'
  · intro q hq a m hm'
    obtain ⟨q', h1, -, h3, h4⟩ := mem q hq
    rw [h4] at hm'; rw [h3]
    exact h.source q' h1 a m hm'

/-- The state after a peer's stream ended. -/
theorem close_inv {D : Decompressors} {d : Driver A} (h : DInv D d none) {k p p'} {e : PEnv}
    (hk : d.peers[k]? = some p) (hs : IterSpec d.comp d.slots d.next p e p' .closed) (ac : Nat) :
    DInv D { d with peers := d.peers.eraseIdx k, gone := d.gone ++ [p'], active := ac } none := by
  have hm := List.mem_of_getElem? hk
  have hiss : p'.issued = p.issued := by rw [hs.issued]; simp [POut.reqs]
  have mem : ∀ q, q ∈ ({ d with peers := d.peers.eraseIdx k, gone := d.gone ++ [p'], active := ac } : Driver A).conns →
      ∃ q' ∈ d.conns, q.uid = q'.uid ∧ q.addr = q'.addr ∧ q.issued = q'.issued := by
    intro q hq
    simp only [Driver.conns, List.mem_append, List.mem_singleton] at hq
    rcases hq with hq | hq | rfl
    · exact ⟨q, by simp [Driver.conns, (List.eraseIdx_sublist _ _).mem hq], rfl, rfl, rfl⟩
    · exact ⟨q, by simp [Driver.conns, hq], rfl, rfl, rfl⟩
    · exact ⟨p, by simp [Driver.conns, hm], hs.uid, hs.addr, hiss⟩
  refine ⟨fun q hq => h.peers q ((List.eraseIdx_sublist _ _).mem hq), ?_, h.log, ?_, h.delivered, h.undecodable, h.full, h.dropped, h.inbox, h.held, h.waiting,
    h.future, h.exw, ?_⟩
  · intro q hq
    simp only [List.mem_append, List.mem_singleton] at hq
    rcases hq with hq | rfl
    · exact h.gone q hq
    · exact hs.core
  · intro q hq a m hm'
    obtain ⟨q', h1, h2, -, h4⟩ := mem q hq
    rw [h4] at hm'; rw [h2]
    exact h.issued q' h1 a m hm'
  · intro q hq a m hm'
    obtain ⟨q', h1, -, h3, h4⟩ := mem q hq
    rw [h4] at hm'; rw [h3]
    exact h.source q' h1 a m hm'

/-- The state after a request was read and logged with fate `f`; if it was delivered, it is in the inbox. -/
theorem request_inv {D : Decompressors} {d : Driver A} (h : DInv D d none) {k p p'} {e : PEnv} {m : ReqRep.Message}
    (hk : d.peers[k]? = some p) (hs : IterSpec d.comp d.slots d.next p e p' (.request d.next m))
    (f : Fate) (rx : Nat) (ib : List (Request A))
    (hf : match f with
      | .delivered pl => tryDecompress D m.header.ctype m.payload = some pl ∧ ib = [⟨d.next, p'.addr, pl⟩]
      | .undecodable => tryDecompress D m.header.ctype m.payload = none ∧ ib = []
      | .full => (tryDecompress D m.header.ctype m.payload).isSome ∧ ib = []) :
    DInv D { d with peers := d.peers.set k p', next := d.next + 1, bytesRx := rx, inbox := d.inbox ++ ib,
                    log := d.log ++ [(p'.uid, d.next, m, f)] }
      (match f with | .delivered _ => none | _ => some d.next) := by
  have hm := List.mem_of_getElem? hk
  have hiss : p'.issued = p.issued ++ [(d.next, m)] := hs.issued
  have hw : d.slots d.next = .waiting := h.future _ (Nat.le_refl _)
  have hsub := deliveredOf_sub d.log
  rw [h.log] at hsub
  have hnd : d.next ∉ (deliveredOf d.log).map (·.1) := fun hh => by simpa using hsub.mem hh
  refine ⟨?_, ?_, ?_, ?_, ?_, ?_, ?_, ?_, ?_, h.held, ?_, ?_, ?_, ?_⟩
  · intro q hq
    rcases mem_set hq with hq | rfl
    · exact ⟨(h.peers q hq).1.mono (Nat.le_succ _), (h.peers q hq).2⟩
    · exact ⟨hs.core, hs.live (by simp)⟩
  · intro q hq
    exact (h.gone q hq).mono (Nat.le_succ _)
  · simp [h.log, List.range_succ]
  · intro q hq a m' hm'
    simp only [Driver.conns, List.mem_append] at hq
    simp only [List.mem_append, List.mem_singleton]
    have old : q ∈ d.conns → ∃ f', (q.uid, a, m', f') ∈ d.log ∨ (q.uid, a, m', f') = (p'.uid, d.next, m, f) := by
      intro hc
      obtain ⟨f', hf'⟩ := h.issued q hc a m' hm'
      exact ⟨f', .inl hf'⟩
    rcases hq with hq | hq
    · rcases mem_set hq with hq | rfl
      · exact old (by simp [Driver.conns, hq])
      · rw [hiss] at hm'
        simp only [List.mem_append, List.mem_singleton] at hm'
        rcases hm' with hm' | hm'
        · obtain ⟨f', hf'⟩ := h.issued p (by simp [Driver.conns, hm]) a m' hm'
          exact ⟨f', .inl (hs.uid ▸ hf')⟩
        · cases hm'
          exact ⟨f, .inr rfl⟩
    · exact old (by simp [Driver.conns, hq])
  · intro u a m' pl hm'
    simp only [List.mem_append, List.mem_singleton] at hm'
    rcases hm' with hm' | hm'
    · exact h.delivered u a m' pl hm'
    · cases hm'; exact hf.1
  · intro u a m' hm'
    simp only [List.mem_append, List.mem_singleton] at hm'
    rcases hm' with hm' | hm'
    · exact h.undecodable u a m' hm'
    · cases hm'; exact hf.1
  · intro u a m' hm'
    simp only [List.mem_append, List.mem_singleton] at hm'
    rcases hm' with hm' | hm'
    · exact h.full u a m' hm'
    · cases hm'; exact hf.1
  · intro u a m' f' hm' hne
    simp only [List.mem_append, List.mem_singleton] at hm'
    rcases hm' with hm' | hm'
    · rcases h.dropped u a m' f' hm' hne with h1 | h1
      · exact .inl h1
      · cases h1
    · cases hm'
      right
      cases f with
      | delivered pl => exact absurd rfl (hne pl)
      | undecodable => rfl
      | full => rfl
  · simp only [deliveredOf, List.filterMap_append]
    have := h.inbox
    rw [deliveredOf] at this
    rw [← this]
    cases f with
    | delivered pl => simp [hf.2]
    | undecodable => simp [hf.2]
    | full => simp [hf.2]
  · intro r hr
    simp only [List.mem_append] at hr
    rcases hr with hr | hr | hr
    · exact h.waiting r (.inl hr)
    · exact h.waiting r (.inr hr)
    · cases f with
      | delivered pl => rw [hf.2] at hr; simp at hr; subst hr; exact hw
      | undecodable => rw [hf.2] at hr; simp at hr
      | full => rw [hf.2] at hr; simp at hr
  · intro y hy
    exact h.future y (Nat.le_of_succ_le hy)
  · intro y hy
    cases f with
    | delivered pl => cases hy
    | undecodable =>
      cases hy
      refine ⟨hw, Nat.lt_succ_self _, ?_⟩
      simpa [deliveredOf] using hnd
    | full =>
      cases hy
      refine ⟨hw, Nat.lt_succ_self _, ?_⟩
      simpa [deliveredOf] using hnd
  · intro q hq a m' hm' r hr hra
    have hold : r ∈ d.taken ++ d.inbox → a ≠ d.next := by
      intro hr' he
      have := h.handles.2 r.handle (List.mem_map.mpr ⟨r, hr', rfl⟩)
      omega
    have hr2 : r ∈ d.taken ++ d.inbox ∨ r ∈ ib := by
      simp only [List.mem_append] at hr ⊢
      rcases hr with hr | hr | hr
      · exact .inl (.inl hr)
      · exact .inl (.inr hr)
      · exact .inr hr
    have hrib : r ∈ ib → r.handle = d.next ∧ r.source = p'.addr := by
      intro hr3
      cases f with
      | delivered pl => rw [hf.2] at hr3; simp at hr3; subst hr3; exact ⟨rfl, rfl⟩
      | undecodable => rw [hf.2] at hr3; simp at hr3
      | full => rw [hf.2] at hr3; simp at hr3
    have old : q ∈ d.conns → r.source = q.addr := by
      intro hc
      rcases hr2 with hr2 | hr2
      · exact h.source q hc a m' hm' r hr2 hra
      · exfalso
        have h1 := (hrib hr2).1
        have h2 : a < d.next := by
          simp only [Driver.conns, List.mem_append] at hc
          rcases hc with hc | hc
          · exact (h.peers q hc).1.fresh a m' hm'
          · exact (h.gone q hc).fresh a m' hm'
        omega
    simp only [Driver.conns, List.mem_append] at hq
    rcases hq with hq | hq
    · rcases mem_set hq with hq | rfl
      · exact old (by simp [Driver.conns, hq])
      · rw [hiss] at hm'
        simp only [List.mem_append, List.mem_singleton] at hm'
        rcases hm' with hm' | hm'
        · rcases hr2 with hr2 | hr2
          · rw [hs.addr]; exact h.source p (by simp [Driver.conns, hm]) a m' hm' r hr2 hra
          · exact (hrib hr2).2
        · cases hm'
          rcases hr2 with hr2 | hr2
          · exact absurd rfl (hold hr2)
          · exact (hrib hr2).2
    · exact old (by simp [Driver.conns, hq])

theorem stepPeer_inv {D : Decompressors} {d : Driver A} (h : DInv D d none) (k : Nat) (e : PEnv) :
    ∃ d', d.stepPeer D k e = .ok d' ∧ DInv D d' none := by
  unfold Driver.stepPeer
  cases hk : d.peers[k]? with
  | none => exact ⟨d, rfl, h⟩
  | some p =>
    obtain ⟨hc, hl⟩ := h.peers p (List.mem_of_getElem? hk)
    have hw : d.slots d.next = .waiting := h.future _ (Nat.le_refl _)
    obtain ⟨p', o, hit, hs⟩ := iter_spec hc hl hw e
    simp only [hit, R.bind_ok, R.pure_eq]
    cases o with
    | sent m => exact ⟨_, rfl, set_inv h hk hs rfl rfl (by simp) _⟩
    | queued => exact ⟨_, rfl, set_inv h hk hs rfl rfl (by simp) d.bytesTx⟩
    | error => exact ⟨_, rfl, set_inv h hk hs rfl rfl (by simp) d.bytesTx⟩
    | pending => exact ⟨_, rfl, set_inv h hk hs rfl rfl (by simp) d.bytesTx⟩
    | closed => exact ⟨_, rfl, close_inv h hk hs _⟩
    | request h' m =>
      obtain ⟨rfl, -⟩ := hs.handle h' m rfl
      refine ⟨_, rfl, ?_⟩
      have hnh : ∀ ib : List (Request A), (∀ r ∈ ib, False) → ∀ r, r ∈ d.held ∨ r ∈ d.inbox ++ ib → r.handle ≠ d.next := by
        intro ib hib r hr he
        have hr' : r ∈ d.taken ++ d.inbox := by
          simp only [List.mem_append] at hr ⊢
          rcases hr with hr | hr | hr
          · exact .inl (h.held.mem hr)
          · exact .inr hr
          · exact (hib r hr).elim
        have := h.handles.2 r.handle (List.mem_map.mpr ⟨r, hr', rfl⟩)
        omega
      unfold Driver.onRequest
      cases hdec : tryDecompress D m.header.ctype m.payload with
      | none =>
        simp only
        have h1 := request_inv h hk hs .undecodable d.bytesRx [] ⟨hdec, rfl⟩
        have h2 := complete_inv h1 d.next .dropped hw (Nat.lt_succ_self _) (hnh [] (by simp)) (.inr ⟨rfl, rfl⟩)
        simp only [List.append_nil] at h2
        exact h2
      | some pl =>
        simp only
        split
        · exact request_inv h hk hs (.delivered pl) _ [⟨d.next, p'.addr, pl⟩] ⟨hdec, rfl⟩
        · have h1 := request_inv h hk hs .full (d.bytesRx + m.payload.length) [] ⟨by simp [hdec], rfl⟩
          have h2 := complete_inv h1 d.next .dropped hw (Nat.lt_succ_self _) (hnh [] (by simp)) (.inr ⟨rfl, rfl⟩)
          simp only [List.append_nil] at h2
          exact h2

/-- Changes that only touch the connection bookkeeping. -/
theorem conn_inv {D : Decompressors} {d : Driver A} (h : DInv D d none) (a : Nat) (ct at' : List (Conn A)) :
    DInv D { d with active := a, connTasks := ct, authTasks := at' } none :=
  ⟨h.peers, h.gone, h.log, h.issued, h.delivered, h.undecodable, h.full, h.dropped, h.inbox, h.held, h.waiting,
    h.future, h.exw, h.source⟩

theorem new_core (comp : Option Compressor) (slots : Nat → Slot) (next uid : Nat) (a : A) (input : List ReadAns) :
    PCore comp slots next (Peer.new uid a input) ∧ PLive slots (Peer.new uid a input) := by
  have hr : ReadInv ReqRep.codec input 0 [] (Reader.new ReqRep.codec) input := ReadInv.start _ _
  exact ⟨⟨hr.seen, by simp [Peer.new], by simp [Peer.new], by simp [Peer.new], by simp [Peer.new], by simp [Peer.new],
    by simp [Peer.new], by simp [Peer.new], by simp [Peer.new]⟩, ⟨hr, by simp [Peer.new], by simp [Peer.new], by simp [Peer.new], by simp [Peer.new]⟩⟩

theorem insert_inv [DecidableEq A] {D : Decompressors} {d : Driver A} (h : DInv D d none) (uid : Nat) (a : A)
    (input : List ReadAns) : DInv D (d.insertPeer (Peer.new uid a input)) none := by
  have mem : ∀ q, q ∈ (d.insertPeer (Peer.new uid a input)).conns → q ∈ d.conns ∨ q = Peer.new uid a input := by
    intro q hq
    simp only [Driver.conns, Driver.insertPeer, List.mem_append, List.mem_filter, List.mem_singleton] at hq ⊢
    rcases hq with (hq | hq) | hq | hq
    · exact .inl (.inl hq.1)
    · exact .inr hq
    · exact .inl (.inr hq)
    · exact .inl (.inl hq.1)
  refine ⟨?_, ?_, h.log, ?_, h.delivered, h.undecodable, h.full, h.dropped, h.inbox, h.held, h.waiting,
    h.future, h.exw, ?_⟩
  · intro q hq
    simp only [Driver.insertPeer, List.mem_append, List.mem_filter, List.mem_singleton] at hq
    rcases hq with hq | rfl
    · exact h.peers q hq.1
    · exact new_core _ _ _ _ _ _
  · intro q hq
    simp only [Driver.insertPeer, List.mem_append, List.mem_filter] at hq
    rcases hq with hq | hq
    · exact h.gone q hq
    · exact (h.peers q hq.1).1
  · intro q hq x m hm
    rcases mem q hq with hq | rfl
    · exact h.issued q hq x m hm
    · simp [Peer.new] at hm
  · intro q hq x m hm
    rcases mem q hq with hq | rfl
    · exact h.source q hq x m hm
    · simp [Peer.new] at hm

theorem eraseIdx_not_mem {l : List (Request A)} {i : Nat} {r : Request A} (hn : (l.map (·.handle)).Nodup)
    (hi : l[i]? = some r) : ∀ x ∈ l.eraseIdx i, x.handle ≠ r.handle := by
  induction l generalizing i with
  | nil => simp at hi
  | cons y l ih =>
    simp only [List.map_cons, List.nodup_cons] at hn
    cases i with
    | zero =>
      simp only [List.getElem?_cons_zero, Option.some.injEq] at hi
      subst hi
      intro x hx he
      exact hn.1 (List.mem_map.mpr ⟨x, by simpa using hx, he⟩)
    | succ i =>
      simp only [List.getElem?_cons_succ] at hi
      intro x hx
      simp only [List.eraseIdx_cons_succ, List.mem_cons] at hx
      rcases hx with rfl | hx
      · exact fun he => hn.1 (List.mem_map.mpr ⟨r, List.mem_of_getElem? hi, he.symm⟩)
      · exact ih hn.2 hi x hx

/-- The application gives up a request it holds. -/
theorem settle_inv {D : Decompressors} {d : Driver A} (h : DInv D d none) {i : Nat} {r : Request A}
    (hi : d.held[i]? = some r) (s : Slot) :
    DInv D ({ d with held := d.held.eraseIdx i }.complete r.handle s) none := by
  have hm := List.mem_of_getElem? hi
  have hsub := List.eraseIdx_sublist d.held i
  have h1 : DInv D { d with held := d.held.eraseIdx i } none :=
    ⟨h.peers, h.gone, h.log, h.issued, h.delivered, h.undecodable, h.full, h.dropped, h.inbox, hsub.trans h.held,
      fun x hx => h.waiting x (hx.imp (fun hx => hsub.mem hx) (fun hx => hx)), h.future, h.exw, h.source⟩
  obtain ⟨hn, hlt⟩ := h.handles
  rw [List.map_append, List.nodup_append] at hn
  obtain ⟨hn1, hn2, hn3⟩ := hn
  have hrt : r ∈ d.taken := h.held.mem hm
  refine complete_inv h1 r.handle s (h.waiting r (.inl hm)) (hlt _ (List.mem_map.mpr ⟨r, by simp [hrt], rfl⟩)) ?_ (.inl rfl)
  intro x hx
  rcases hx with hx | hx
  · exact eraseIdx_not_mem (hn1.sublist (h.held.map _)) hi x hx
  · exact fun he => hn3 r.handle (List.mem_map.mpr ⟨r, hrt, rfl⟩) x.handle (List.mem_map.mpr ⟨x, hx, rfl⟩) he.symm

theorem act_inv [DecidableEq A] {D : Decompressors} {d : Driver A} (h : DInv D d none) (a : Act A) :
    ∃ d', d.act D a = .ok d' ∧ DInv D d' none := by
  cases a with
  | peer k e => exact stepPeer_inv h k e
  | join i =>
    refine ⟨_, rfl, ?_⟩
    unfold Driver.stepJoin
    split
    · simp only
      split
      · exact insert_inv (conn_inv h d.active d.connTasks _) _ _ _
      · exact conn_inv h _ d.connTasks _
      · exact conn_inv h d.active d.connTasks _
      · exact h
    · exact h
  | ready i ok =>
    refine ⟨_, rfl, ?_⟩
    unfold Driver.stepConn
    split
    · exact h
    · simp only
      split
      · split
        · exact conn_inv h _ _ d.authTasks
        · split
          · exact conn_inv h d.active _ _
          · exact insert_inv (conn_inv h d.active _ d.authTasks) _ _ _
      · exact conn_inv h _ _ d.authTasks
  | accept c =>
    refine ⟨_, rfl, ?_⟩
    unfold Driver.stepAccept
    split
    · split
      · exact h
      · exact conn_inv h _ _ d.authTasks
    · exact conn_inv h _ _ d.authTasks
  | recv =>
    simp only [Driver.act]
    cases hib : d.inbox with
    | nil => exact ⟨_, rfl, h⟩
    | cons r rs =>
      refine ⟨_, rfl, h.peers, h.gone, h.log, h.issued, h.delivered, h.undecodable, h.full, h.dropped, ?_, ?_, ?_, h.future,
        h.exw, ?_⟩
      · have := h.inbox
        rw [hib] at this
        simpa using this
      · exact h.held.append (List.Sublist.refl [r])
      · intro x hx
        apply h.waiting
        simp only [List.mem_append, List.mem_singleton] at hx
        rw [hib]
        rcases hx with (hx | hx) | hx
        · exact .inl hx
        · exact .inr (by simp [hx])
        · exact .inr (by simp [hx])
      · intro p hp x m hm y hy
        refine h.source p hp x m hm y ?_
        rw [hib]
        simpa using hy
  | respond i b =>
    simp only [Driver.act]
    cases hi : d.held[i]? with
    | none => exact ⟨_, rfl, h⟩
    | some r => exact ⟨_, rfl, settle_inv h hi _⟩
  | drop i =>
    simp only [Driver.act]
    cases hi : d.held[i]? with
    | none => exact ⟨_, rfl, h⟩
    | some r => exact ⟨_, rfl, settle_inv h hi _⟩

theorem run_inv [DecidableEq A] {D : Decompressors} (acts : List (Act A)) {d : Driver A} (h : DInv D d none) :
    ∃ d', d.run D acts = .ok d' ∧ DInv D d' none := by
  induction acts generalizing d with
  | nil => exact ⟨d, rfl, h⟩
  | cons a acts ih =>
    obtain ⟨d1, h1, h2⟩ := act_inv h a
    obtain ⟨d2, h3, h4⟩ := ih h2
    exact ⟨d2, by simp [Driver.run, h1, h3], h4⟩

theorem new_inv (D : Decompressors) (max : Option Nat) (authn : Option (Bytes → Bool)) (comp : Option Compressor) :
    DInv D (Driver.new max authn comp : Driver A) none :=
  ⟨by simp [Driver.new], by simp [Driver.new], by simp [Driver.new], by simp [Driver.new, Driver.conns],
    by simp [Driver.new], by simp [Driver.new], by simp [Driver.new], by simp [Driver.new],
    by simp [Driver.new, deliveredOf], by simp [Driver.new], by simp [Driver.new], by simp [Driver.new], by simp,
    by simp [Driver.new, Driver.conns]⟩

end MsgRs.Rep
