import Verif.Proofs.RepAlone
/-!
# A client of a reply socket sees what it would see if it were the only one
-/
namespace MsgRs.Rep
open MsgRs
variable {A : Type} [DecidableEq A]

theorem view_append (D : Decompressors) (u : Nat) (xs ys : List (Act A)) {d d' : Driver A} (h : d.run D xs = .ok d') :
    view D u d (xs ++ ys) = view D u d xs ++ view D u d' ys := by
  induction xs generalizing d with
  | nil => cases h; rfl
  | cons a xs ih =>
    simp only [List.cons_append, view]
    cases ha : d.act D a with
    | panic => simp only [Driver.run, ha] at h; cases h
    | ok d1 =>
      simp only [Driver.run, ha, R.bind_ok] at h
      simp only
      rw [ih h, List.append_assoc]

theorem view_gone {D : Decompressors} {u : Nat} (acts : List (Act A)) {d d' : Driver A} {p : Peer A} {s : Alone} (hd : DInv D d none)
    (hc : d.uids.count u + (arrivals acts).count u ≤ 1) (hr : d.run D acts = .ok d') (hp : p ∈ d.gone) (hat : At u d p s) :
    view D u d acts = [] := by
  induction acts generalizing d with
  | nil => rfl
  | cons a acts ih =>
    rw [arrivals_cons, List.count_append] at hc
    obtain ⟨d1, ha, hd1⟩ := act_inv hd a
    simp only [Driver.run, ha, R.bind_ok] at hr
    have hu := act_uids hd a ha u
    obtain ⟨h1, h2, h3⟩ := act_gone hd (by omega) a ha hp hat
    simp only [view, ha, h1, List.nil_append]
    exact ih hd1 (by omega) hr h2 h3

theorem act_fates {D : Decompressors} {d d' : Driver A} (hd : DInv D d none) (a : Act A) (h : d.act D a = .ok d') (u : Nat) :
    ∀ x ∈ d.fates u, x ∈ d'.fates u := by
  rcases (act_log_gone hd a h).1 with h1 | ⟨k, e, q, x, m, f, -, hk, h1⟩
  · intro x hx; simpa [Driver.fates, h1] using hx
  · intro x hx; rw [fates_append u h1]; exact List.mem_append_left _ hx

theorem run_fates {D : Decompressors} (acts : List (Act A)) {d d' : Driver A} (hd : DInv D d none) (h : d.run D acts = .ok d') (u : Nat) :
    ∀ x ∈ d.fates u, x ∈ d'.fates u := by
  induction acts generalizing d with
  | nil => cases h; exact fun _ hx => hx
  | cons a acts ih =>
    obtain ⟨d1, ha, hd1⟩ := act_inv hd a
    simp only [Driver.run, ha, R.bind_ok] at h
    exact fun x hx => ih hd1 h x (act_fates hd a ha u x hx)

/-- `d2` serves this one connection only, as `p2`; the application has received whatever it has received or could receive of it from `d`. -/
structure Solo (D : Decompressors) (u : Nat) (d : Driver A) (p : Peer A) (s : Alone) (d2 : Driver A) (p2 : Peer A) : Prop where
  inv : DInv D d2 none
  peers : d2.peers = [p2]
  gone : d2.gone = []
  ct : d2.connTasks = []
  at' : d2.authTasks = []
  inbox : d2.inbox = []
  cap : d2.cap = 1024
  comp : d2.comp = d.comp
  place : At u d2 p2 s
  slots : SlotsOk d2.slots p2 s
  held : ∀ r, r ∈ d.held ∨ r ∈ d.inbox → r.handle ∈ p.handles →
    ∃ r2 ∈ d2.held, r2.handle ∈ p2.handles ∧ p2.handles.idxOf r2.handle = p.handles.idxOf r.handle

theorem Solo.count {D : Decompressors} {u : Nat} {d : Driver A} {p : Peer A} {s : Alone} {d2 : Driver A} {p2 : Peer A} (h : Solo D u d p s d2 p2) :
    d2.uids.count u ≤ 1 := by
  simp only [Driver.uids, h.ct, h.at', h.peers, h.gone, List.map_nil, List.map_cons, List.nil_append, List.append_nil]
  exact List.count_le_length

theorem renameOut_closed {f g : Nat → Nat} {o o' : POut} (h : renameOut f o = renameOut g o') : o = .closed ↔ o' = .closed := by
  cases o <;> cases o' <;> simp_all [renameOut]

theorem renameOut_request {f g : Nat → Nat} {o o' : POut} (h : renameOut f o = renameOut g o') :
    (∀ x m, o ≠ .request x m) ∨ ∃ x x' m, o = .request x m ∧ o' = .request x' m := by
  cases o <;> cases o' <;> simp_all [renameOut]

/-- A poll that reads no request. -/
theorem step_quiet {D : Decompressors} {d d' : Driver A} {k : Nat} {e : PEnv} {p p0 : Peer A} {o : POut}
    (h : d.stepPeer D k e = .ok d') (hk : d.peers[k]? = some p) (hit : p.iter d.comp d.slots d.next e = .ok (p0, o))
    (ho : ∀ x m, o ≠ .request x m) :
    d'.inbox = d.inbox ∧ d'.held = d.held ∧ d'.log = d.log ∧ d'.cap = d.cap ∧ d'.connTasks = d.connTasks ∧ d'.authTasks = d.authTasks ∧
    d'.comp = d.comp ∧ (o ≠ .closed → d'.peers = d.peers.set k p0 ∧ d'.gone = d.gone) ∧
    (o = .closed → d'.peers = d.peers.eraseIdx k ∧ d'.gone = d.gone ++ [p0]) := by
  simp only [Driver.stepPeer, hk, hit, R.bind_ok, R.pure_eq] at h
  cases o with
  | request x m => exact absurd rfl (ho x m)
  | sent m => cases h; exact ⟨rfl, rfl, rfl, rfl, rfl, rfl, rfl, fun _ => ⟨rfl, rfl⟩, fun hh => by cases hh⟩
  | queued => cases h; exact ⟨rfl, rfl, rfl, rfl, rfl, rfl, rfl, fun _ => ⟨rfl, rfl⟩, fun hh => by cases hh⟩
  | error => cases h; exact ⟨rfl, rfl, rfl, rfl, rfl, rfl, rfl, fun _ => ⟨rfl, rfl⟩, fun hh => by cases hh⟩
  | pending => cases h; exact ⟨rfl, rfl, rfl, rfl, rfl, rfl, rfl, fun _ => ⟨rfl, rfl⟩, fun hh => by cases hh⟩
  | closed => cases h; exact ⟨rfl, rfl, rfl, rfl, rfl, rfl, rfl, fun hh => absurd rfl hh, fun _ => ⟨rfl, rfl⟩⟩

/-- A poll that reads one. -/
theorem step_request {D : Decompressors} {d d' : Driver A} {k x : Nat} {e : PEnv} {p p0 : Peer A} {m : ReqRep.Message}
    (h : d.stepPeer D k e = .ok d') (hk : d.peers[k]? = some p) (hit : p.iter d.comp d.slots d.next e = .ok (p0, .request x m)) :
    d'.held = d.held ∧ d'.cap = d.cap ∧ d'.connTasks = d.connTasks ∧ d'.authTasks = d.authTasks ∧ d'.comp = d.comp ∧ d'.gone = d.gone ∧
    (d'.peers = d.peers.set k p0 ∨ d'.peers = (d.peers.set k p0).map (Peer.wake x)) ∧
    ∃ f, d'.log = d.log ++ [(p0.uid, x, m, f)] ∧
      (tryDecompress D m.header.ctype m.payload = none → f = .undecodable ∧ d'.inbox = d.inbox) ∧
      (∀ pl, tryDecompress D m.header.ctype m.payload = some pl → (f = .full ∧ d'.inbox = d.inbox) ∨ (f = .delivered pl ∧ d'.inbox = d.inbox ++ [⟨x, p0.addr, pl⟩])) ∧
      (d.inbox.length < d.cap → f ≠ .full) := by
  simp only [Driver.stepPeer, hk, hit, R.bind_ok, R.pure_eq] at h
  cases h
  unfold Driver.onRequest
  cases hdec : tryDecompress D m.header.ctype m.payload with
  | none =>
    exact ⟨rfl, rfl, rfl, rfl, rfl, rfl, .inr rfl, .undecodable, rfl, fun _ => ⟨rfl, rfl⟩, (fun _ hh => by cases hh), (fun _ hh => by cases hh)⟩
  | some pl =>
    simp only
    split
    · exact ⟨rfl, rfl, rfl, rfl, rfl, rfl, .inl rfl, .delivered pl, rfl, (fun hh => by cases hh),
        (fun _ hh => by cases hh; exact .inr ⟨rfl, rfl⟩), (fun _ hh => by cases hh)⟩
    · rename_i hn
      exact ⟨rfl, rfl, rfl, rfl, rfl, rfl, .inr rfl, .full, rfl, (fun hh => by cases hh), fun _ _ => .inl ⟨rfl, rfl⟩, fun hl => absurd hl hn⟩

theorem poll_solo {D : Decompressors} {d d' : Driver A} {u k : Nat} {e : PEnv} {p : Peer A} {s : Alone} {d2 : Driver A} {p2 : Peer A}
    (hd : DInv D d none) (hcnt : d.uids.count u ≤ 1) (h : d.stepPeer D k e = .ok d') (hk : d.peers[k]? = some p) (hp : p ∈ d.peers)
    (hs : SlotsOk d.slots p s) (hat : At u d p s) (hso : Solo D u d p s d2 p2) (hfull : ∀ m, (m, Fate.full) ∉ d'.fates u) :
    ∃ d2', d2.run D [.peer 0 e, .recv] = .ok d2' ∧
      view D u d2 [.peer 0 e, .recv] = [.polled e ((d'.log.drop d.log.length).any fun x => x.2.2.2 = .full)] ∧
      (∃ q, d2'.conns = [q] ∧ q.uid = u ∧ q.input0 = p2.input0) ∧
      ∃ p' s', At u d' p' s' ∧ (p' ∈ d'.gone ∨ (p' ∈ d'.peers ∧ SlotsOk d'.slots p' s' ∧ ∃ p2', p2'.input0 = p2.input0 ∧ Solo D u d' p' s' d2' p2')) := by
  have hk2 : d2.peers[0]? = some p2 := by rw [hso.peers]; rfl
  have hp2 : p2 ∈ d2.peers := List.mem_of_getElem? hk2
  obtain ⟨hc, hl⟩ := hd.peers p hp
  obtain ⟨hc2, hl2⟩ := hso.inv.peers p2 hp2
  obtain ⟨p0, o, hit, hsp⟩ := iter_spec hc hl (hd.future _ (Nat.le_refl _)) e
  obtain ⟨q0, o2, hit2, hsp2⟩ := iter_spec hc2 hl2 (hso.inv.future _ (Nat.le_refl _)) e
  have e1 := own_iter hc hl hs hit hsp
  have e2 := own_iter hc2 hl2 hso.slots hit2 hsp2
  have heq : p.own = p2.own := hat.peer.symm.trans hso.place.peer
  rw [hso.comp, ← heq, e1] at e2
  simp only [R.ok.injEq, Prod.mk.injEq] at e2
  obtain ⟨hown, hout⟩ := e2
  obtain ⟨d2a, h2a, hinv2a⟩ := stepPeer_inv hso.inv 0 e
  obtain ⟨d2', hrun2, hinv2⟩ := run_inv (D := D) [.peer 0 e, .recv] hso.inv
  have hrec : d2a.act D .recv = .ok d2' := by
    have := hrun2
    simp only [Driver.run, Driver.act] at this
    rw [h2a] at this
    simp only [R.bind_ok] at this
    simp only [Driver.act]
    split at this <;> simp_all
  obtain ⟨p', s', g1, g2, g3, g4⟩ := poll_at hd h hk hs hat
  obtain ⟨p2', s2', f1, f2, f3, f4⟩ := poll_at hso.inv h2a hk2 hso.slots hso.place
  obtain ⟨g5, g6⟩ := g4 p0 o hit
  obtain ⟨f5, f6⟩ := f4 q0 o2 hit2
  have hfind : d2.find u = some p2 := find_some hp2 hso.place.uid hso.count
  have hview : view D u d2 [.peer 0 e, .recv] = [.polled e ((d2a.log.drop d2.log.length).any fun x => x.2.2.2 = .full)] := by
    have hr1 : d2.act D (.peer 0 e) = .ok d2a := h2a
    simp only [view, hr1, hrec, List.append_nil]
    have : clientEv u d2a d2' .recv = [] := by simp only [clientEv]; split <;> rfl
    rw [this, List.append_nil]
    simp only [clientEv, hfind, hk2, Option.map_some, hso.place.uid, if_true]
  -- neither was refused
  rcases renameOut_request hout with hq | ⟨x, x2, m, rfl, rfl⟩
  · have hq2 : ∀ x m, o2 ≠ .request x m := by
      intro x m hh
      rcases renameOut_request hout.symm with hq' | ⟨a, b, c, ha, hb⟩
      · exact hq' x m hh
      · exact hq b c hb
    obtain ⟨a1, a2, a3, a4, a5, a6, a7, a8, a9⟩ := step_quiet h hk hit hq
    obtain ⟨b1, b2, b3, b4, b5, b6, b7, b8, b9⟩ := step_quiet h2a hk2 hit2 hq2
    have hd2 : d2' = d2a := by
      simp only [Driver.act] at hrec
      rw [b1, hso.inbox] at hrec
      simp only at hrec
      exact (R.ok.inj hrec).symm
    subst hd2
    have hr : ((d'.log.drop d.log.length).any fun x => x.2.2.2 = Fate.full) = ((d2'.log.drop d2.log.length).any fun x => x.2.2.2 = Fate.full) := by
      rw [a3, b3]; simp
    have hss : s' = s2' := by
      rw [hr, ← hso.comp, f1] at g1
      exact (R.ok.inj g1).symm
    subst hss
    refine ⟨d2', hrun2, by rw [hview, hr], ?_, p', s', g2, ?_⟩
    · by_cases hcl : o2 = .closed
      · obtain ⟨c1, c2⟩ := b9 hcl
        refine ⟨q0, by simp [Driver.conns, c1, c2, hso.peers, hso.gone], hsp2.uid.trans hso.place.uid, hsp2.input0⟩
      · obtain ⟨c1, c2⟩ := b8 hcl
        refine ⟨q0, by simp [Driver.conns, c1, c2, hso.peers, hso.gone], hsp2.uid.trans hso.place.uid, hsp2.input0⟩
    · by_cases hcl : o = .closed
      · left
        rcases g2.place with ⟨hm, -⟩ | hm
        · exfalso
          rw [(a9 hcl).1] at hm
          have w1 := count_erase (f := Peer.uid) hk u
          have w2 : 0 < ((d.peers.eraseIdx k).map Peer.uid).count u := List.count_pos_iff.mpr (List.mem_map.mpr ⟨p', hm, g2.uid⟩)
          have w3 : [p.uid].count u = 1 := by simp [hat.uid]
          simp only [Driver.uids, List.count_append] at hcnt
          omega
        · exact hm
      · right
        obtain ⟨l1, l2⟩ := g6 hcl
        have hcl2 : o2 ≠ .closed := fun hh => hcl ((renameOut_closed hout).mpr hh)
        obtain ⟨m1, m2⟩ := f6 hcl2
        have hh : p'.handles = p.handles := by rw [g5]; simp [Peer.handles, hsp.issued, reqs_nil hq]
        have hh2 : p2'.handles = p2.handles := by rw [f5]; simp [Peer.handles, hsp2.issued, reqs_nil hq2]
        obtain ⟨c1, c2⟩ := b8 hcl2
        have hpe : d2'.peers = [q0] := by rw [c1, hso.peers]; rfl
        have : p2' = q0 := by rw [hpe] at m1; simpa using m1
        subst this
        refine ⟨l1, l2, p2', f3, hinv2, hpe, by rw [c2, hso.gone], by rw [b5, hso.ct], by rw [b6, hso.at'], by rw [b1, hso.inbox],
          by rw [b4, hso.cap], by rw [b7, a7, hso.comp], f2, m2, ?_⟩
        rw [a1, a2, b2, hh, hh2]
        exact hso.held
  · obtain ⟨a1, a2, a3, a4, a5, a6, a7, fa, a8, a9, a10, a11⟩ := step_request h hk hit
    obtain ⟨b1, b2, b3, b4, b5, b6, b7, fb, b8, b9, b10, b11⟩ := step_request h2a hk2 hit2
    obtain ⟨rfl, -⟩ := hsp.handle x m rfl
    obtain ⟨rfl, -⟩ := hsp2.handle x2 m rfl
    have nfa : fa ≠ .full := by
      intro hh
      subst hh
      refine hfull m ?_
      rw [fates_append u a8, if_pos (hsp.uid.trans hat.uid)]
      simp
    have nfb : fb ≠ .full := b11 (by rw [hso.inbox, hso.cap]; simp)
    have hr : ((d'.log.drop d.log.length).any fun x => x.2.2.2 = Fate.full) = false := by rw [a8]; simp [nfa]
    have hr2 : ((d2a.log.drop d2.log.length).any fun x => x.2.2.2 = Fate.full) = false := by rw [b8]; simp [nfb]
    have hss : s' = s2' := by
      rw [hr, ← hso.comp] at g1
      rw [hr2] at f1
      rw [f1] at g1
      exact (R.ok.inj g1).symm
    subst hss
    obtain ⟨l1, l2⟩ := g6 POut.noConfusion
    obtain ⟨m1, m2⟩ := f6 POut.noConfusion
    have hh : p'.handles = p.handles ++ [d.next] := by rw [g5]; simp [Peer.handles, hsp.issued, POut.reqs]
    have hh2 : p2'.handles = p2.handles ++ [d2.next] := by rw [f5]; simp [Peer.handles, hsp2.issued, POut.reqs]
    have hpe : d2a.peers = [p2'] := by
      rcases b7 with b7 | b7
      · rw [b7, hso.peers] at m1
        simp at m1
        rw [b7, hso.peers, m1]; rfl
      · rw [b7, hso.peers] at m1
        simp at m1
        rw [b7, hso.peers, m1]; rfl
    have hlen : p.handles.length = p2.handles.length := by
      have : p.own.issued.length = p2.own.issued.length := by rw [heq]
      simpa [Peer.own, Peer.rename, Peer.handles] using this
    obtain ⟨-, -, n1⟩ := core_handles hc
    obtain ⟨-, -, n2⟩ := core_handles hc2
    have hi1 : p'.handles.idxOf d.next = p.handles.length := by rw [hh, List.idxOf_append, if_neg n1]; simp
    have hi2 : p2'.handles.idxOf d2.next = p2.handles.length := by rw [hh2, List.idxOf_append, if_neg n2]; simp
    -- requests there before
    have old : ∀ r, r ∈ d.held ∨ r ∈ d.inbox → r.handle ∈ p'.handles →
        ∃ r2 ∈ d2.held, r2.handle ∈ p2'.handles ∧ p2'.handles.idxOf r2.handle = p'.handles.idxOf r.handle := by
      intro r hr hm
      have hlt : r.handle < d.next := by
        refine hd.handles.2 r.handle (List.mem_map.mpr ⟨r, ?_, rfl⟩)
        rcases hr with hr | hr
        · exact List.mem_append_left _ (hd.held.mem hr)
        · exact List.mem_append_right _ hr
      have hm' : r.handle ∈ p.handles := by
        rw [hh] at hm
        rcases List.mem_append.mp hm with hm | hm
        · exact hm
        · simp at hm; omega
      obtain ⟨r2, hr2, hm2, hi⟩ := hso.held r hr hm'
      refine ⟨r2, hr2, by rw [hh2]; simp [hm2], ?_⟩
      rw [hh, hh2, List.idxOf_append, List.idxOf_append, if_pos hm', if_pos hm2]
      exact hi
    simp only [Driver.act] at hrec
    cases hdec : tryDecompress D m.header.ctype m.payload with
    | none =>
      obtain ⟨-, a9⟩ := a9 hdec
      obtain ⟨-, b9⟩ := b9 hdec
      rw [b9, hso.inbox] at hrec
      simp only at hrec
      have hd2 := R.ok.inj hrec
      subst hd2
      refine ⟨_, hrun2, by rw [hview, hr, hr2], ⟨p2', ?_, f2.uid, f3⟩, p', s', g2, .inr ⟨l1, l2, p2', f3, ?_⟩⟩
      · simp [Driver.conns, hpe, b6, hso.gone]
      · refine ⟨hinv2, hpe, by rw [b6, hso.gone], by rw [b3, hso.ct], by rw [b4, hso.at'], by rw [b9, hso.inbox], by rw [b2, hso.cap],
          by rw [b5, a5, hso.comp], f2, m2, ?_⟩
        rw [a1, a9, b1]
        exact old
    | some pl =>
      rcases a10 pl hdec with hx | ⟨-, a10⟩
      · exact absurd hx.1 nfa
      rcases b10 pl hdec with hx | ⟨-, b10⟩
      · exact absurd hx.1 nfb
      rw [b10, hso.inbox] at hrec
      simp only [List.nil_append] at hrec
      have hd2 := R.ok.inj hrec
      subst hd2
      refine ⟨_, hrun2, by rw [hview, hr, hr2], ⟨p2', ?_, f2.uid, f3⟩, p', s', g2, .inr ⟨l1, l2, p2', f3, ?_⟩⟩
      · simp [Driver.conns, hpe, b6, hso.gone]
      · refine ⟨hinv2, hpe, by simp [b6, hso.gone], by simp [b3, hso.ct], by simp [b4, hso.at'], rfl, by simp [b2, hso.cap],
          by simp [b5, a5, hso.comp], ⟨f2.uid, f2.peer, f2.log, f2.place⟩, ⟨m2.same, m2.fresh⟩, ?_⟩
        intro r hr hm
        rw [a1, a10] at hr
        simp only [List.mem_append, List.mem_singleton] at hr
        have hcase : (r ∈ d.held ∨ r ∈ d.inbox) ∨ r = ⟨d.next, p0.addr, pl⟩ := by
          rcases hr with hr | hr | hr
          · exact .inl (.inl hr)
          · exact .inl (.inr hr)
          · exact .inr hr
        rcases hcase with hr | rfl
        · obtain ⟨r2, hr2, q1, q2⟩ := old r hr hm
          exact ⟨r2, by simp [b1, hr2], q1, q2⟩
        · refine ⟨⟨d2.next, q0.addr, pl⟩, by simp, by rw [hh2]; simp, ?_⟩
          simp only
          rw [hi1, hi2, hlen]

/-- Actions that are neither polls of connections nor ends of requests. -/
theorem act_still {D : Decompressors} {d d' : Driver A} {u : Nat} {p : Peer A} {s : Alone} (a : Act A) (h : d.act D a = .ok d')
    (hp : p ∈ d.peers) (hs : SlotsOk d.slots p s) (hat : At u d p s) (ha : (∀ k e, a ≠ .peer k e) ∧ (∀ i b, a ≠ .respond i b) ∧ ∀ i, a ≠ .drop i) :
    At u d' p s ∧ d'.slots = d.slots ∧ ∀ r, r ∈ d'.held ∨ r ∈ d'.inbox → r ∈ d.held ∨ r ∈ d.inbox := by
  cases a with
  | peer k e => exact absurd rfl (ha.1 k e)
  | respond i b => exact absurd rfl (ha.2.1 i b)
  | drop i => exact absurd rfl (ha.2.2 i)
  | join i =>
    simp only [Driver.act, R.ok.injEq] at h
    subst h
    unfold Driver.stepJoin
    have same : ∀ n ct at', At u { d with active := n, connTasks := ct, authTasks := at' } p s :=
      fun n ct at' => ⟨hat.uid, hat.peer, hat.log, .inl ⟨hp, hs⟩⟩
    split
    · simp only
      split
      · exact ⟨insert_at hp hs (same d.active d.connTasks _), rfl, fun _ hr => hr⟩
      · exact ⟨same _ d.connTasks _, rfl, fun _ hr => hr⟩
      · exact ⟨same d.active d.connTasks _, rfl, fun _ hr => hr⟩
      · exact ⟨hat, rfl, fun _ hr => hr⟩
    · exact ⟨hat, rfl, fun _ hr => hr⟩
  | ready i ok =>
    simp only [Driver.act, R.ok.injEq] at h
    subst h
    unfold Driver.stepConn
    have same : ∀ n ct at', At u { d with active := n, connTasks := ct, authTasks := at' } p s :=
      fun n ct at' => ⟨hat.uid, hat.peer, hat.log, .inl ⟨hp, hs⟩⟩
    split
    · exact ⟨hat, rfl, fun _ hr => hr⟩
    · simp only
      split
      · split
        · exact ⟨same _ _ d.authTasks, rfl, fun _ hr => hr⟩
        · split
          · exact ⟨same d.active _ _, rfl, fun _ hr => hr⟩
          · exact ⟨insert_at hp hs (same d.active _ d.authTasks), rfl, fun _ hr => hr⟩
      · exact ⟨same _ _ d.authTasks, rfl, fun _ hr => hr⟩
  | accept c =>
    simp only [Driver.act, R.ok.injEq] at h
    subst h
    unfold Driver.stepAccept
    have same : ∀ n ct, At u { d with active := n, connTasks := ct } p s :=
      fun n ct => ⟨hat.uid, hat.peer, hat.log, .inl ⟨hp, hs⟩⟩
    split
    · split
      · exact ⟨hat, rfl, fun _ hr => hr⟩
      · exact ⟨same _ _, rfl, fun _ hr => hr⟩
    · exact ⟨same _ _, rfl, fun _ hr => hr⟩
  | recv =>
    simp only [Driver.act] at h
    split at h
    · cases h; exact ⟨hat, rfl, fun _ hr => hr⟩
    · rename_i r rs hi
      cases h
      refine ⟨⟨hat.uid, hat.peer, hat.log, .inl ⟨hp, hs⟩⟩, rfl, ?_⟩
      intro x hx
      simp only [List.mem_append, List.mem_singleton] at hx
      rw [hi]
      rcases hx with (hx | hx) | hx
      · exact .inl hx
      · exact .inr (by simp [hx])
      · exact .inr (by simp [hx])

theorem Solo.keep {D : Decompressors} {u : Nat} {d d' : Driver A} {p : Peer A} {s : Alone} {d2 : Driver A} {p2 : Peer A} (h : Solo D u d p s d2 p2)
    (hc : d'.comp = d.comp) (hh : ∀ r, r ∈ d'.held ∨ r ∈ d'.inbox → r.handle ∈ p.handles → r ∈ d.held ∨ r ∈ d.inbox) : Solo D u d' p s d2 p2 :=
  ⟨h.inv, h.peers, h.gone, h.ct, h.at', h.inbox, h.cap, h.comp.trans hc.symm, h.place, h.slots, fun r hr hm => h.held r (hh r hr hm) hm⟩

/-- The application is done with one of the connection's requests. -/
theorem settle_solo {D : Decompressors} {d : Driver A} {u i : Nat} {x : Slot} {r : Request A} {p : Peer A} {s : Alone} {d2 : Driver A} {p2 : Peer A}
    (hd : DInv D d none) (hi : d.held[i]? = some r) (hm : r.handle ∈ p.handles) (hp : p ∈ d.peers)
    (hs : SlotsOk d.slots p s) (hat : At u d p s) (hso : Solo D u d p s d2 p2) :
    ∃ (i2 : Nat) (r2 : Request A), d2.held[i2]? = some r2 ∧ r2.handle ∈ p2.handles ∧ p2.handles.idxOf r2.handle = p.handles.idxOf r.handle ∧
      At u ({ d with held := d.held.eraseIdx i }.complete r.handle x) (p.wake r.handle) (s.settle (p.handles.idxOf r.handle) x) ∧
      SlotsOk ({ d with held := d.held.eraseIdx i }.complete r.handle x).slots (p.wake r.handle) (s.settle (p.handles.idxOf r.handle) x) ∧
      Solo D u ({ d with held := d.held.eraseIdx i }.complete r.handle x) (p.wake r.handle) (s.settle (p.handles.idxOf r.handle) x)
        ({ d2 with held := d2.held.eraseIdx i2 }.complete r2.handle x) (p2.wake r2.handle) := by
  obtain ⟨r2, hr2, hm2, hix⟩ := hso.held r (.inl (List.mem_of_getElem? hi)) hm
  obtain ⟨i2, hi2⟩ := List.mem_iff_getElem?.mp hr2
  have inv' : ∀ {d : Driver A} (i : Nat), DInv D d none → DInv D { d with held := d.held.eraseIdx i } none := fun {d} i hd =>
    ⟨hd.peers, hd.gone, hd.log, hd.issued, hd.delivered, hd.undecodable, hd.full, hd.dropped, hd.inbox,
      (List.eraseIdx_sublist _ _).trans hd.held, fun r hr => hd.waiting r (hr.imp (fun h => (List.eraseIdx_sublist _ _).mem h) id), hd.future, hd.exw, hd.source⟩
  have hp2 : p2 ∈ d2.peers := by rw [hso.peers]; simp
  have c1 := (complete_at (x := r.handle) (v := x) (inv' i hd) hp hs ⟨hat.uid, hat.peer, hat.log, hat.place⟩).1 hm
  have c2 := (complete_at (x := r2.handle) (v := x) (inv' i2 hso.inv) hp2 hso.slots ⟨hso.place.uid, hso.place.peer, hso.place.log, hso.place.place⟩).1 hm2
  rw [hix] at c2
  have k1 := hs.settle hm x
  have k2 := hso.slots.settle hm2 x
  rw [hix] at k2
  refine ⟨i2, r2, hi2, hm2, hix, c1, k1, settle_inv hso.inv hi2 x, ?_, hso.gone, hso.ct, hso.at', hso.inbox, hso.cap, hso.comp, c2, k2, ?_⟩
  · simp [Driver.complete, hso.peers]
  · intro y hy hym
    rw [wake_handles] at hym ⊢
    rw [wake_handles]
    have hy' : y ∈ d.held.eraseIdx i ∨ y ∈ d.inbox := hy
    have hne : y.handle ≠ r.handle := by
      obtain ⟨hn, hlt⟩ := hd.handles
      rw [List.map_append, List.nodup_append] at hn
      obtain ⟨hn1, hn2, hn3⟩ := hn
      rcases hy' with hy | hy
      · exact eraseIdx_not_mem (hn1.sublist (hd.held.map _)) hi y hy
      · exact fun he => hn3 r.handle (List.mem_map.mpr ⟨r, hd.held.mem (List.mem_of_getElem? hi), rfl⟩) y.handle (List.mem_map.mpr ⟨y, hy, rfl⟩) he.symm
    obtain ⟨y2, hy2, hym2, hiy⟩ := hso.held y (hy'.imp (fun h => (List.eraseIdx_sublist _ _).mem h) id) hym
    refine ⟨y2, ?_, hym2, hiy⟩
    refine mem_erase_other hi2 hy2 ?_
    intro he
    subst he
    exact hne (idxOf_inj' hym hm (hiy.symm.trans hix))

theorem act_solo {D : Decompressors} {d d' : Driver A} {u : Nat} {p : Peer A} {s : Alone} {d2 : Driver A} {p2 : Peer A} (hd : DInv D d none)
    (hc : d.uids.count u ≤ 1) (a : Act A) (h : d.act D a = .ok d') (hp : p ∈ d.peers) (hs : SlotsOk d.slots p s) (hat : At u d p s)
    (hso : Solo D u d p s d2 p2) (hfull : ∀ m, (m, Fate.full) ∉ d'.fates u) :
    ∃ acts2 d2', arrivals acts2 = [] ∧ d2.run D acts2 = .ok d2' ∧ view D u d2 acts2 = clientEv u d d' a ∧
      (∃ q, d2'.conns = [q] ∧ q.uid = u ∧ q.input0 = p2.input0) ∧
      ∃ p' s', At u d' p' s' ∧ (p' ∈ d'.gone ∨ (p' ∈ d'.peers ∧ SlotsOk d'.slots p' s' ∧ ∃ p2', p2'.input0 = p2.input0 ∧ Solo D u d' p' s' d2' p2')) := by
  have hfind := find_some hp hat.uid hc
  have hfind2 : d2.find u = some p2 := find_some (by rw [hso.peers]; simp) hso.place.uid hso.count
  have hcomp : d'.comp = d.comp := (act_cfg a h).2
  have conns0 : ∃ q, d2.conns = [q] ∧ q.uid = u ∧ q.input0 = p2.input0 :=
    ⟨p2, by simp [Driver.conns, hso.peers, hso.gone], hso.place.uid, rfl⟩
  -- nothing to do on the other side
  have idle : clientEv u d d' a = [] → At u d' p s →
      (∀ r, r ∈ d'.held ∨ r ∈ d'.inbox → r.handle ∈ p.handles → r ∈ d.held ∨ r ∈ d.inbox) →
      ∃ acts2 d2', arrivals acts2 = [] ∧ d2.run D acts2 = .ok d2' ∧ view D u d2 acts2 = clientEv u d d' a ∧
      (∃ q, d2'.conns = [q] ∧ q.uid = u ∧ q.input0 = p2.input0) ∧
      ∃ p' s', At u d' p' s' ∧ (p' ∈ d'.gone ∨ (p' ∈ d'.peers ∧ SlotsOk d'.slots p' s' ∧ ∃ p2', p2'.input0 = p2.input0 ∧ Solo D u d' p' s' d2' p2')) := by
    intro he hat' hh
    refine ⟨[], d2, rfl, rfl, by rw [he]; rfl, conns0, p, s, hat', ?_⟩
    rcases hat'.place with ⟨l1, l2⟩ | l
    · exact .inr ⟨l1, l2, p2, rfl, hso.keep hcomp hh⟩
    · exact .inl l
  cases a with
  | peer k e =>
    cases hk : d.peers[k]? with
    | none =>
      have hev : clientEv u d d' (.peer k e) = [] := by simp only [clientEv, hfind, hk]; simp
      simp only [Driver.act, Driver.stepPeer, hk, R.ok.injEq] at h
      subst h
      exact idle hev hat (fun _ hr _ => hr)
    | some q =>
      by_cases hq : q.uid = u
      · have := same_peer hc hp (List.mem_of_getElem? hk) hat.uid hq
        subst this
        obtain ⟨d2', h1, h2, h3, h4⟩ := poll_solo hd hc h hk hp hs hat hso hfull
        refine ⟨[.peer 0 e, .recv], d2', rfl, h1, ?_, h3, h4⟩
        rw [h2]
        simp only [clientEv, hfind, hk, Option.map_some, hq, if_true]
      · have hev : clientEv u d d' (.peer k e) = [] := by simp only [clientEv, hfind, hk, Option.map_some, Option.some.injEq, hq, if_false]
        have hat' := poll_other hd h hk hq hp hs hat
        refine idle hev hat' ?_
        · intro r hr hrm
          obtain ⟨hcq, hlq⟩ := hd.peers q (List.mem_of_getElem? hk)
          obtain ⟨q0, o, hit, hsp⟩ := iter_spec hcq hlq (hd.future _ (Nat.le_refl _)) e
          rcases Classical.em (∃ x m, o = .request x m) with ⟨x, m, rfl⟩ | ho
          · obtain ⟨a1, -, -, -, -, -, -, fa, -, a9, a10, -⟩ := step_request h hk hit
            obtain ⟨rfl, -⟩ := hsp.handle x m rfl
            obtain ⟨-, -, n1⟩ := core_handles (hd.peers p hp).1
            rw [a1] at hr
            rcases hr with hr | hr
            · exact .inl hr
            · right
              cases hdec : tryDecompress D m.header.ctype m.payload with
              | none => rw [(a9 hdec).2] at hr; exact hr
              | some pl =>
                rcases a10 pl hdec with hx | ⟨-, hx⟩
                · rw [hx.2] at hr; exact hr
                · rw [hx] at hr
                  rcases List.mem_append.mp hr with hr | hr
                  · exact hr
                  · rw [List.mem_singleton.mp hr] at hrm
                    exact absurd hrm n1
          · have ho' : ∀ x m, o ≠ .request x m := fun x m hh => ho ⟨x, m, hh⟩
            obtain ⟨b1, b2, -⟩ := step_quiet h hk hit ho'
            rw [b1, b2] at hr; exact hr
  | join i =>
    obtain ⟨s1, -, s3⟩ := act_still _ h hp hs hat (by simp)
    exact idle (by simp only [clientEv, hfind]) s1 (fun r hr _ => s3 r hr)
  | ready i ok =>
    obtain ⟨s1, -, s3⟩ := act_still _ h hp hs hat (by simp)
    exact idle (by simp only [clientEv, hfind]) s1 (fun r hr _ => s3 r hr)
  | accept c =>
    obtain ⟨s1, -, s3⟩ := act_still _ h hp hs hat (by simp)
    exact idle (by simp only [clientEv, hfind]) s1 (fun r hr _ => s3 r hr)
  | recv =>
    obtain ⟨s1, -, s3⟩ := act_still _ h hp hs hat (by simp)
    exact idle (by simp only [clientEv, hfind]) s1 (fun r hr _ => s3 r hr)
  | respond i b =>
    simp only [Driver.act] at h
    cases hi : d.held[i]? with
    | none =>
      rw [hi] at h
      cases h
      exact idle (by simp only [clientEv, hfind, hi]) hat (fun _ hr _ => hr)
    | some r =>
      rw [hi] at h
      cases h
      by_cases hm : r.handle ∈ p.handles
      · have hm' : r.handle ∈ p.issued.map (·.1) := hm
        obtain ⟨i2, r2, q1, q2, q3, q4, q5, q6⟩ := settle_solo (x := .responded b) hd hi hm hp hs hat hso
        have q2' : r2.handle ∈ p2.issued.map (·.1) := q2
        have hact2 : d2.act D (.respond i2 b) = .ok ({ d2 with held := d2.held.eraseIdx i2 }.complete r2.handle (.responded b)) := by
          simp only [Driver.act, q1]
        refine ⟨[.respond i2 b], _, rfl, by simp only [Driver.run, hact2, R.bind_ok], ?_, ⟨p2.wake r2.handle, ?_, ?_, ?_⟩, _, _, q4,
          .inr ⟨List.mem_map.mpr ⟨p, hp, rfl⟩, q5, _, (wake_fields p2 _).2.2.2.2, q6⟩⟩
        · simp only [view, hact2, clientEv, hfind, hfind2, hi, q1, hm', q2', if_true, List.append_nil]
          have q3' : (p2.issued.map (·.1)).idxOf r2.handle = (p.issued.map (·.1)).idxOf r.handle := q3
          rw [q3']
        · simp [Driver.conns, Driver.complete, hso.peers, hso.gone]
        · exact (wake_fields p2 _).1.trans hso.place.uid
        · exact (wake_fields p2 _).2.2.2.2
      · have hm' : r.handle ∉ p.issued.map (·.1) := hm
        have hd' : DInv D { d with held := d.held.eraseIdx i } none :=
          ⟨hd.peers, hd.gone, hd.log, hd.issued, hd.delivered, hd.undecodable, hd.full, hd.dropped, hd.inbox,
            (List.eraseIdx_sublist _ _).trans hd.held, fun r hr => hd.waiting r (hr.imp (fun h => (List.eraseIdx_sublist _ _).mem h) id), hd.future, hd.exw, hd.source⟩
        have hat' := (complete_at (x := r.handle) (v := .responded b) hd' hp hs ⟨hat.uid, hat.peer, hat.log, hat.place⟩).2 hm
        exact idle (by simp only [clientEv, hfind, hi, hm', if_false]) hat' (fun r hr _ => hr.imp (fun h => (List.eraseIdx_sublist _ _).mem h) id)
  | drop i =>
    simp only [Driver.act] at h
    cases hi : d.held[i]? with
    | none =>
      rw [hi] at h
      cases h
      exact idle (by simp only [clientEv, hfind, hi]) hat (fun _ hr _ => hr)
    | some r =>
      rw [hi] at h
      cases h
      by_cases hm : r.handle ∈ p.handles
      · have hm' : r.handle ∈ p.issued.map (·.1) := hm
        obtain ⟨i2, r2, q1, q2, q3, q4, q5, q6⟩ := settle_solo (x := .dropped) hd hi hm hp hs hat hso
        have q2' : r2.handle ∈ p2.issued.map (·.1) := q2
        have hact2 : d2.act D (.drop i2) = .ok ({ d2 with held := d2.held.eraseIdx i2 }.complete r2.handle (.dropped)) := by
          simp only [Driver.act, q1]
        refine ⟨[.drop i2], _, rfl, by simp only [Driver.run, hact2, R.bind_ok], ?_, ⟨p2.wake r2.handle, ?_, ?_, ?_⟩, _, _, q4,
          .inr ⟨List.mem_map.mpr ⟨p, hp, rfl⟩, q5, _, (wake_fields p2 _).2.2.2.2, q6⟩⟩
        · simp only [view, hact2, clientEv, hfind, hfind2, hi, q1, hm', q2', if_true, List.append_nil]
          have q3' : (p2.issued.map (·.1)).idxOf r2.handle = (p.issued.map (·.1)).idxOf r.handle := q3
          rw [q3']
        · simp [Driver.conns, Driver.complete, hso.peers, hso.gone]
        · exact (wake_fields p2 _).1.trans hso.place.uid
        · exact (wake_fields p2 _).2.2.2.2
      · have hm' : r.handle ∉ p.issued.map (·.1) := hm
        have hd' : DInv D { d with held := d.held.eraseIdx i } none :=
          ⟨hd.peers, hd.gone, hd.log, hd.issued, hd.delivered, hd.undecodable, hd.full, hd.dropped, hd.inbox,
            (List.eraseIdx_sublist _ _).trans hd.held, fun r hr => hd.waiting r (hr.imp (fun h => (List.eraseIdx_sublist _ _).mem h) id), hd.future, hd.exw, hd.source⟩
        have hat' := (complete_at (x := r.handle) (v := .dropped) hd' hp hs ⟨hat.uid, hat.peer, hat.log, hat.place⟩).2 hm
        exact idle (by simp only [clientEv, hfind, hi, hm', if_false]) hat' (fun r hr _ => hr.imp (fun h => (List.eraseIdx_sublist _ _).mem h) id)

theorem run_solo {D : Decompressors} {u : Nat} (acts : List (Act A)) {d d' : Driver A} {p : Peer A} {s : Alone} {d2 : Driver A} {p2 : Peer A}
    (hd : DInv D d none) (hc : d.uids.count u + (arrivals acts).count u ≤ 1) (hr : d.run D acts = .ok d')
    (hp : p ∈ d.peers) (hs : SlotsOk d.slots p s) (hat : At u d p s) (hso : Solo D u d p s d2 p2) (hfull : ∀ m, (m, Fate.full) ∉ d'.fates u) :
    ∃ acts2 d2', arrivals acts2 = [] ∧ d2.run D acts2 = .ok d2' ∧ view D u d2 acts2 = view D u d acts ∧
      ∃ q, d2'.conns = [q] ∧ q.uid = u ∧ q.input0 = p2.input0 := by
  induction acts generalizing d p s d2 p2 with
  | nil => exact ⟨[], d2, rfl, rfl, rfl, p2, by simp [Driver.conns, hso.peers, hso.gone], hso.place.uid, rfl⟩
  | cons a acts ih =>
    rw [arrivals_cons, List.count_append] at hc
    obtain ⟨d1, ha, hd1⟩ := act_inv hd a
    simp only [Driver.run, ha, R.bind_ok] at hr
    have hu := act_uids hd a ha u
    have hf1 : ∀ m, (m, Fate.full) ∉ d1.fates u := fun m hm => hfull m (run_fates acts hd1 hr u _ hm)
    obtain ⟨xs, d2a, h1, h2, h3, h4, p', s', h5, h6⟩ := act_solo hd (by omega) a ha hp hs hat hso hf1
    simp only [view, ha]
    rcases h6 with hg | ⟨l1, l2, p2', l3, l4⟩
    · refine ⟨xs, d2a, h1, h2, ?_, h4⟩
      rw [view_gone acts hd1 (by omega) hr hg h5, List.append_nil]
      exact h3
    · obtain ⟨ys, d2b, g1, g2, g3, q, g4, g5, g6⟩ := ih hd1 (by omega) hr l1 l2 h5 l4
      refine ⟨xs ++ ys, d2b, ?_, ?_, ?_, q, g4, g5, g6.trans l3⟩
      · have : ∀ xs ys : List (Act A), arrivals (xs ++ ys) = arrivals xs ++ arrivals ys := by
          intro xs ys
          induction xs with
          | nil => rfl
          | cons x xs ih => rw [List.cons_append, arrivals_cons, arrivals_cons x xs, ih, List.append_assoc]
        rw [this, h1, g1]; rfl
      · rw [run_append, h2]
        exact g2
      · rw [view_append D u xs ys h2, h3, g3]

/-- A socket to which this connection comes, and nothing else. -/
theorem solo_start (D : Decompressors) (comp : Option Compressor) (u : Nat) (a : A) (input : List ReadAns) :
    let c : Conn A := ⟨u, some a, ⟨input, [], [], []⟩⟩
    ∃ d2, (Driver.new none none comp : Driver A).run D [.accept c, .ready 0 true] = .ok d2 ∧
      view D u (Driver.new none none comp) [.accept c, .ready 0 true] = [] ∧
      ∀ d : Driver A, d.comp = comp → d.fates u = [] → ∀ p, p = Peer.new u a input → Solo D u d p (Alone.new input) d2 p := by
  intro c
  obtain ⟨d2, h2, hinv⟩ := run_inv (D := D) [.accept c, .ready 0 true] (new_inv (A := A) D none none comp)
  refine ⟨d2, h2, ?_, ?_⟩
  · rfl
  · intro d hcomp hf p hp
    cases h2
    subst hp
    refine ⟨hinv, rfl, rfl, rfl, rfl, rfl, rfl, hcomp.symm, ⟨rfl, ?_, rfl, .inl ⟨List.mem_cons_self .., ?_⟩⟩, ?_, ?_⟩
    · simp [Alone.new, Peer.own, Peer.rename, Peer.new]
    · exact ⟨by simp [Peer.handles, Peer.new], fun _ _ => rfl⟩
    · exact ⟨by simp [Peer.handles, Peer.new], fun _ _ => rfl⟩
    · intro r _ hm
      simp [Peer.handles, Peer.new] at hm

theorem run_solo_first {D : Decompressors} {u : Nat} (acts : List (Act A)) {d d' : Driver A} (hd : DInv D d none)
    (hc : d.uids.count u + (arrivals acts).count u ≤ 1) (hr : d.run D acts = .ok d') (hl : d.fates u = []) (hno : u ∉ d.conns.map Peer.uid)
    (hin : u ∈ d'.conns.map Peer.uid) (hfull : ∀ m, (m, Fate.full) ∉ d'.fates u) :
    ∃ acts2 d2, arrivals acts2 = [u] ∧ (Driver.new none none d.comp : Driver A).run D acts2 = .ok d2 ∧
      view D u (Driver.new none none d.comp) acts2 = view D u d acts ∧
      ∃ q p', d2.conns = [q] ∧ q.uid = u ∧ p' ∈ d'.conns ∧ p'.uid = u ∧ q.input0 = p'.input0 := by
  induction acts generalizing d with
  | nil => cases hr; exact absurd hin hno
  | cons a acts ih =>
    rw [arrivals_cons, List.count_append] at hc
    obtain ⟨d1, ha, hd1⟩ := act_inv hd a
    simp only [Driver.run, ha, R.bind_ok] at hr
    have hu := act_uids hd a ha u
    have hcfg : d1.comp = d.comp := (act_cfg a ha).2
    obtain ⟨h1, h2, h3⟩ := act_absent hd a ha hl hno
    simp only [view, ha, h1, List.nil_append]
    rcases h3 with ⟨p, ⟨hnew, hmem⟩, hat⟩ | h3
    · obtain ⟨d2, s1, s2, s3⟩ := solo_start D d1.comp u p.addr p.input0
      have hs : SlotsOk d1.slots p (Alone.new p.input0) := by
        rw [hnew]
        exact ⟨by simp [Peer.handles, Peer.new], fun _ _ => rfl⟩
      obtain ⟨ys, d2b, g1, g2, g3, q, g4, g5, g6⟩ := run_solo acts hd1 (by omega) hr hmem hs hat (s3 d1 rfl h2 p hnew) hfull
      obtain ⟨p', s', k1, k2, k3⟩ := run_at acts hd1 (by omega) hr hat
      refine ⟨[.accept ⟨u, some p.addr, ⟨p.input0, [], [], []⟩⟩, .ready 0 true] ++ ys, d2b, ?_, ?_, ?_, q, p', g4, g5, ?_, k2.uid, g6.trans k3.symm⟩
      · simp only [List.cons_append, List.nil_append, arrivals, g1]
      · rw [← hcfg, run_append, s1]
        exact g2
      · rw [← hcfg, view_append D u _ ys s1, s2, g3]
        rfl
      · simp only [Driver.conns, List.mem_append]
        exact k2.place.imp (·.1) id
    · rw [← hcfg]
      exact ih hd1 (by omega) hr h2 h3

end MsgRs.Rep
