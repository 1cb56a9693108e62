import Verif.Proofs.RepRun
/-!
# Where the connections of the reply socket come from
-/
namespace MsgRs.Rep
open MsgRs
variable {A : Type}

/-- `input` is what the connection `c` has left for the peer: everything, or what follows its accepted token. -/
def Left (authn : Option (Bytes → Bool)) (c : Conn A) (input : List ReadAns) : Prop :=
  match authn with
  | some f => ∃ id wire lost, hsServer f c.hs = .accepted id wire input lost
  | none => input = c.hs.reads

/-- Every connection in the driver's hands was reported by the listener (`P`), and every peer reads what its
connection has left for it. -/
structure OInv (P : Conn A → Prop) (d : Driver A) : Prop where
  ct : ∀ c ∈ d.connTasks, P c
  at' : ∀ c ∈ d.authTasks, P c
  src : ∀ p ∈ d.conns, ∃ c, P c ∧ c.uid = p.uid ∧ c.addr = some p.addr ∧ Left d.authn c p.input0

/-- A step that leaves the connections alone. -/
structure Same (d d' : Driver A) : Prop where
  authn : d'.authn = d.authn
  ct : d'.connTasks = d.connTasks
  at' : d'.authTasks = d.authTasks
  conns : ∀ p ∈ d'.conns, ∃ q ∈ d.conns, p.uid = q.uid ∧ p.addr = q.addr ∧ p.input0 = q.input0

theorem Same.refl (d : Driver A) : Same d d := ⟨rfl, rfl, rfl, fun p hp => ⟨p, hp, rfl, rfl, rfl⟩⟩

theorem Same.trans {d d' d'' : Driver A} (h : Same d d') (h' : Same d' d'') : Same d d'' :=
  ⟨h'.authn.trans h.authn, h'.ct.trans h.ct, h'.at'.trans h.at', fun p hp => by
    obtain ⟨q, hq, e1, e2, e3⟩ := h'.conns p hp
    obtain ⟨r, hr, f1, f2, f3⟩ := h.conns q hq
    exact ⟨r, hr, e1.trans f1, e2.trans f2, e3.trans f3⟩⟩

theorem Same.oinv {P : Conn A → Prop} {d d' : Driver A} (k : Same d d') (h : OInv P d) : OInv P d' := by
  refine ⟨by rw [k.ct]; exact h.ct, by rw [k.at']; exact h.at', ?_⟩
  intro p hp
  obtain ⟨q, hq, e1, e2, e3⟩ := k.conns p hp
  rw [k.authn, e1, e2, e3]
  exact h.src q hq

theorem complete_same (d : Driver A) (h : Nat) (s : Slot) : Same d (d.complete h s) := by
  refine ⟨rfl, rfl, rfl, ?_⟩
  intro p hp
  simp only [Driver.conns, Driver.complete, List.mem_append, List.mem_map] at hp ⊢
  rcases hp with ⟨q, hq, rfl⟩ | hp
  · exact ⟨q, .inl hq, (wake_fields q h).1, (wake_fields q h).2.1, (wake_fields q h).2.2.2.2⟩
  · exact ⟨p, .inr hp, rfl, rfl, rfl⟩

theorem onRequest_same (D : Decompressors) (d : Driver A) (p : Peer A) (h : Nat) (m : ReqRep.Message) :
    Same d (d.onRequest D p h m) := by
  unfold Driver.onRequest
  split
  · have := complete_same d h .dropped
    exact ⟨this.authn, this.ct, this.at', this.conns⟩
  · simp only
    split
    · exact ⟨rfl, rfl, rfl, fun p hp => ⟨p, hp, rfl, rfl, rfl⟩⟩
    · have := complete_same { d with bytesRx := d.bytesRx + m.payload.length } h .dropped
      exact ⟨this.authn, this.ct, this.at', this.conns⟩

theorem setPeer_same {d : Driver A} {k p p'} (hk : d.peers[k]? = some p) (hu : p'.uid = p.uid) (ha : p'.addr = p.addr)
    (hi : p'.input0 = p.input0) (tx nx : Nat) : Same d { d with peers := d.peers.set k p', bytesTx := tx, next := nx } := by
  refine ⟨rfl, rfl, rfl, ?_⟩
  intro q hq
  simp only [Driver.conns, List.mem_append] at hq ⊢
  rcases hq with hq | hq
  · rcases mem_set hq with hq | rfl
    · exact ⟨q, .inl hq, rfl, rfl, rfl⟩
    · exact ⟨p, .inl (List.mem_of_getElem? hk), hu, ha, hi⟩
  · exact ⟨q, .inr hq, rfl, rfl, rfl⟩

theorem closed_same {d : Driver A} {k p p'} (hk : d.peers[k]? = some p) (hu : p'.uid = p.uid) (ha : p'.addr = p.addr)
    (hi : p'.input0 = p.input0) :
    Same d { d with peers := d.peers.eraseIdx k, gone := d.gone ++ [p'], active := decr d.active } := by
  refine ⟨rfl, rfl, rfl, ?_⟩
  intro q hq
  simp only [Driver.conns, List.mem_append, List.mem_singleton] at hq ⊢
  rcases hq with hq | hq | rfl
  · exact ⟨q, .inl ((List.eraseIdx_sublist _ _).mem hq), rfl, rfl, rfl⟩
  · exact ⟨q, .inr hq, rfl, rfl, rfl⟩
  · exact ⟨p, .inl (List.mem_of_getElem? hk), hu, ha, hi⟩

theorem insert_oinv [DecidableEq A] {P : Conn A → Prop} {d : Driver A} (h : OInv P d) {c : Conn A} {a : A}
    {input : List ReadAns} (hc : P c) (ha : c.addr = some a) (hl : Left d.authn c input) :
    OInv P (d.insertPeer (Peer.new c.uid a input)) := by
  refine ⟨h.ct, h.at', ?_⟩
  intro q hq
  simp only [Driver.conns, Driver.insertPeer, List.mem_append, List.mem_filter, List.mem_singleton] at hq
  rcases hq with (hq | rfl) | hq | hq
  · exact h.src q (by simp [Driver.conns, hq.1])
  · exact ⟨c, hc, rfl, ha, hl⟩
  · exact h.src q (by simp [Driver.conns, hq])
  · exact h.src q (by simp [Driver.conns, hq.1])

theorem act_oinv [DecidableEq A] {D : Decompressors} {P : Conn A → Prop} {d d' : Driver A} (hd : DInv D d none)
    (h : OInv P d) (a : Act A) (hP : ∀ c, a = .accept c → P c) (hact : d.act D a = .ok d') : OInv P d' := by
  cases a with
  | peer k e =>
    simp only [Driver.act, Driver.stepPeer] at hact
    cases hk : d.peers[k]? with
    | none => simp only [hk] at hact; cases hact; exact h
    | some p =>
      obtain ⟨hc, hl⟩ := hd.peers p (List.mem_of_getElem? hk)
      obtain ⟨p', o, hit, hs⟩ := iter_spec hc hl (hd.future _ (Nat.le_refl _)) e
      simp only [hk, hit, R.bind_ok, R.pure_eq] at hact
      cases o with
      | sent m => cases hact; exact (setPeer_same hk hs.uid hs.addr hs.input0 _ d.next).oinv h
      | queued => cases hact; exact (setPeer_same hk hs.uid hs.addr hs.input0 d.bytesTx d.next).oinv h
      | error => cases hact; exact (setPeer_same hk hs.uid hs.addr hs.input0 d.bytesTx d.next).oinv h
      | pending => cases hact; exact (setPeer_same hk hs.uid hs.addr hs.input0 d.bytesTx d.next).oinv h
      | closed => cases hact; exact (closed_same hk hs.uid hs.addr hs.input0).oinv h
      | request h' m =>
        cases hact
        exact ((setPeer_same hk hs.uid hs.addr hs.input0 d.bytesTx (d.next + 1)).trans
          (onRequest_same _ _ _ _ _)).oinv h
  | join i =>
    simp only [Driver.act] at hact
    cases hact
    unfold Driver.stepJoin
    split
    · rename_i f c hf hc
      have hmem := List.mem_of_getElem? hc
      have her : OInv P { d with authTasks := d.authTasks.eraseIdx i } :=
        ⟨h.ct, fun c hc => h.at' c (Pub.eraseIdx_mem hc), h.src⟩
      simp only
      split
      · rename_i id wire rest lost a hs ha
        refine insert_oinv her (h.at' c hmem) ha ?_
        simp only [Left, hf]
        exact ⟨id, wire, lost, hs⟩
      · exact ⟨her.ct, her.at', her.src⟩
      · exact her
      · exact h
    · exact h
  | ready i ok =>
    simp only [Driver.act] at hact
    cases hact
    unfold Driver.stepConn
    split
    · exact h
    · rename_i c hc
      have hmem := h.ct c (List.mem_of_getElem? hc)
      have her : OInv P { d with connTasks := d.connTasks.eraseIdx i } :=
        ⟨fun c hc => h.ct c (Pub.eraseIdx_mem hc), h.at', h.src⟩
      simp only
      split
      · split
        · exact ⟨her.ct, her.at', her.src⟩
        · rename_i a ha
          split
          · refine ⟨her.ct, ?_, her.src⟩
            intro c' hc'
            simp only [List.mem_append, List.mem_singleton] at hc'
            rcases hc' with hc' | rfl
            · exact h.at' c' hc'
            · exact hmem
          · rename_i hf
            refine insert_oinv her hmem ha ?_
            simp only [Left, hf]
      · exact ⟨her.ct, her.at', her.src⟩
  | accept c =>
    simp only [Driver.act] at hact
    cases hact
    have push : OInv P { d with active := d.active + 1, connTasks := d.connTasks ++ [c] } := by
      refine ⟨?_, h.at', h.src⟩
      intro c' hc'
      simp only [List.mem_append, List.mem_singleton] at hc'
      rcases hc' with hc' | rfl
      · exact h.ct c' hc'
      · exact hP _ rfl
    unfold Driver.stepAccept
    split
    · split
      · exact h
      · exact push
    · exact push
  | recv =>
    simp only [Driver.act] at hact
    split at hact
    · cases hact; exact h
    · cases hact; exact ⟨h.ct, h.at', h.src⟩
  | respond i b =>
    simp only [Driver.act] at hact
    split at hact
    · cases hact; exact h
    · cases hact
      rename_i r _
      exact (complete_same _ r.handle _).oinv (d := { d with held := d.held.eraseIdx i }) ⟨h.ct, h.at', h.src⟩
  | drop i =>
    simp only [Driver.act] at hact
    split at hact
    · cases hact; exact h
    · cases hact
      rename_i r _
      exact (complete_same _ r.handle _).oinv (d := { d with held := d.held.eraseIdx i }) ⟨h.ct, h.at', h.src⟩

theorem run_oinv [DecidableEq A] {D : Decompressors} {P : Conn A → Prop} (acts : List (Act A)) {d d' : Driver A}
    (hd : DInv D d none) (h : OInv P d) (hP : ∀ c, .accept c ∈ acts → P c) (hr : d.run D acts = .ok d') :
    OInv P d' := by
  induction acts generalizing d with
  | nil => cases hr; exact h
  | cons a acts ih =>
    obtain ⟨d1, ha, hd1⟩ := act_inv hd a
    simp only [Driver.run, ha, R.bind_ok] at hr
    exact ih hd1 (act_oinv hd h a (fun c hc => hP c (by rw [hc]; exact List.mem_cons_self)) ha)
      (fun c hc => hP c (List.mem_cons_of_mem _ hc)) hr

/-- Every peer of a reachable state comes from a connection the listener reported. -/
theorem reach_origin [DecidableEq A] {D : Decompressors} (max authn comp) (acts : List (Act A)) {d : Driver A}
    (h : (Driver.new max authn comp : Driver A).run D acts = .ok d) (p : Peer A) (hp : p ∈ d.conns) :
    ∃ c, .accept c ∈ acts ∧ c.uid = p.uid ∧ c.addr = some p.addr ∧ Left authn c p.input0 := by
  have ho := run_oinv acts (new_inv D max authn comp)
    (P := fun c => .accept c ∈ acts) ⟨by simp [Driver.new], by simp [Driver.new], by simp [Driver.new, Driver.conns]⟩
    (fun c hc => hc) h
  have hau : d.authn = authn := (run_adm acts (new_inv D max authn comp) (new_ainv ..) h).2.2
  obtain ⟨c, h1, h2, h3, h4⟩ := ho.src p hp
  exact ⟨c, h1, h2, h3, by rw [← hau]; exact h4⟩

end MsgRs.Rep
