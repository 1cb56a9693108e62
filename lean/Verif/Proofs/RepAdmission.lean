import Verif.Proofs.RepDriver
import Verif.Proofs.PubDriver
/-!
# Admission of clients by the reply socket
-/
namespace MsgRs.Rep
open MsgRs
variable {A : Type}

/-- None of the connections waiting to be authenticated makes the authentication task panic. -/
def Driver.Calm (d : Driver A) : Prop :=
  ∀ f, d.authn = some f → ∀ c, c ∈ d.connTasks ∨ c ∈ d.authTasks → hsServer f c.hs ≠ .panicked

/-- What the driver's bookkeeping guarantees unconditionally. -/
structure AInv (d : Driver A) : Prop where
  le : d.count ≤ d.active
  max : ∀ m, d.max = some m → d.active ≤ m
  auth : ∀ f, d.authn = some f → ∀ p ∈ d.conns,
    ∃ e id wire lost, hsServer f e = .accepted id wire p.input0 lost

/-- What it guarantees when connected clients have different addresses. -/
structure XInv (d : Driver A) : Prop where
  eq : d.active = d.count
  addrs : d.addrs.Nodup
  calm : d.Calm

/-- How a step changes the things above. -/
structure Keeps (d d' : Driver A) : Prop where
  max : d'.max = d.max
  authn : d'.authn = d.authn
  ct : d'.connTasks = d.connTasks
  at' : d'.authTasks = d.authTasks
  active : d'.active = d.active
  addrs : d'.peers.map (·.addr) = d.peers.map (·.addr)
  conns : ∀ p ∈ d'.conns, ∃ q ∈ d.conns, p.input0 = q.input0

theorem Keeps.ainv {d d' : Driver A} (k : Keeps d d') (h : AInv d) : AInv d' := by
  have hl : d'.peers.length = d.peers.length := by
    have := congrArg List.length k.addrs
    simpa using this
  refine ⟨?_, ?_, ?_⟩
  · have := h.le
    simp only [Driver.count, k.ct, k.at', k.active, hl] at this ⊢
    exact this
  · intro m hm; rw [k.max] at hm; rw [k.active]; exact h.max m hm
  · intro f hf p hp
    obtain ⟨q, hq, he⟩ := k.conns p hp
    rw [he]; rw [k.authn] at hf
    exact h.auth f hf q hq

theorem Keeps.xinv {d d' : Driver A} (k : Keeps d d') (h : XInv d) : XInv d' := by
  have hl : d'.peers.length = d.peers.length := by
    have := congrArg List.length k.addrs
    simpa using this
  refine ⟨?_, ?_, ?_⟩
  · have := h.eq
    simp only [Driver.count, k.ct, k.at', k.active, hl] at this ⊢
    exact this
  · have := h.addrs
    simp only [Driver.addrs, k.ct, k.at', k.addrs] at this ⊢
    exact this
  · intro f hf c hc
    rw [k.authn] at hf; rw [k.ct, k.at'] at hc
    exact h.calm f hf c hc

theorem Keeps.refl (d : Driver A) : Keeps d d := ⟨rfl, rfl, rfl, rfl, rfl, rfl, fun p hp => ⟨p, hp, rfl⟩⟩

theorem Keeps.trans {d d' d'' : Driver A} (h : Keeps d d') (h' : Keeps d' d'') : Keeps d d'' :=
  ⟨h'.max.trans h.max, h'.authn.trans h.authn, h'.ct.trans h.ct, h'.at'.trans h.at', h'.active.trans h.active,
    h'.addrs.trans h.addrs, fun p hp => by
      obtain ⟨q, hq, he⟩ := h'.conns p hp
      obtain ⟨q', hq', he'⟩ := h.conns q hq
      exact ⟨q', hq', he.trans he'⟩⟩

theorem complete_keeps (d : Driver A) (h : Nat) (s : Slot) : Keeps d (d.complete h s) := by
  refine ⟨rfl, rfl, rfl, rfl, rfl, ?_, ?_⟩
  · simp only [Driver.complete, List.map_map]
    apply List.map_congr_left
    intro p _
    exact (wake_fields p h).2.1
  · intro p hp
    simp only [Driver.conns, Driver.complete, List.mem_append, List.mem_map] at hp ⊢
    rcases hp with ⟨q, hq, rfl⟩ | hp
    · exact ⟨q, .inl hq, (wake_fields q h).2.2.2.2⟩
    · exact ⟨p, .inr hp, rfl⟩

theorem onRequest_keeps (D : Decompressors) (d : Driver A) (p : Peer A) (h : Nat) (m : ReqRep.Message) :
    Keeps d (d.onRequest D p h m) := by
  unfold Driver.onRequest
  split
  · have := complete_keeps d h .dropped
    exact ⟨this.max, this.authn, this.ct, this.at', this.active, this.addrs, this.conns⟩
  · simp only
    split
    · exact ⟨rfl, rfl, rfl, rfl, rfl, rfl, fun p hp => ⟨p, hp, rfl⟩⟩
    · have := complete_keeps { d with bytesRx := d.bytesRx + m.payload.length } h .dropped
      exact ⟨this.max, this.authn, this.ct, this.at', this.active, this.addrs, this.conns⟩

theorem map_set_same {l : List (Peer A)} {k : Nat} {p p' : Peer A} (hk : l[k]? = some p) (ha : p'.addr = p.addr) :
    (l.set k p').map (·.addr) = l.map (·.addr) := by
  induction l generalizing k with
  | nil => simp at hk
  | cons x l ih =>
    cases k with
    | zero => simp only [List.getElem?_cons_zero, Option.some.injEq] at hk; subst hk; simp [ha]
    | succ k => simp only [List.getElem?_cons_succ] at hk; simp [ih hk]

theorem setPeer_keeps {d : Driver A} {k p p'} (hk : d.peers[k]? = some p) (ha : p'.addr = p.addr)
    (hi : p'.input0 = p.input0) (tx nx : Nat) : Keeps d { d with peers := d.peers.set k p', bytesTx := tx, next := nx } := by
  refine ⟨rfl, rfl, rfl, rfl, rfl, map_set_same hk ha, ?_⟩
  intro q hq
  simp only [Driver.conns, List.mem_append] at hq ⊢
  rcases hq with hq | hq
  · rcases mem_set hq with hq | rfl
    · exact ⟨q, .inl hq, rfl⟩
    · exact ⟨p, .inl (List.mem_of_getElem? hk), hi⟩
  · exact ⟨q, .inr hq, rfl⟩

/-- The peers after the stream of peer `k` ended. -/
theorem closed_inv {d : Driver A} {k p p'} (hk : d.peers[k]? = some p) (hi : p'.input0 = p.input0) (h : AInv d) :
    AInv { d with peers := d.peers.eraseIdx k, gone := d.gone ++ [p'], active := decr d.active } ∧
    (XInv d → XInv { d with peers := d.peers.eraseIdx k, gone := d.gone ++ [p'], active := decr d.active }) := by
  have hlen := Pub.eraseIdx_len hk
  have hp : 0 < d.active := by have := h.le; simp only [Driver.count] at this; omega
  constructor
  · refine ⟨?_, ?_, ?_⟩
    · have := h.le
      simp only [Driver.count, Pub.decr_pos hp] at this ⊢; omega
    · intro m hm; have := h.max m hm; simp only [Pub.decr_pos hp]; omega
    · intro f hf q hq
      simp only [Driver.conns, List.mem_append, List.mem_singleton] at hq
      rcases hq with hq | hq | rfl
      · exact h.auth f hf q (by simp [Driver.conns, (List.eraseIdx_sublist _ _).mem hq])
      · exact h.auth f hf q (by simp [Driver.conns, hq])
      · rw [hi]; exact h.auth f hf p (by simp [Driver.conns, List.mem_of_getElem? hk])
  · intro hx
    refine ⟨?_, ?_, hx.calm⟩
    · have := hx.eq
      simp only [Driver.count, Pub.decr_pos hp] at this ⊢; omega
    · refine hx.addrs.sublist ?_
      simp only [Driver.addrs]
      exact (List.Sublist.refl _).append ((List.Sublist.refl _).append ((List.eraseIdx_sublist _ _).map _))

theorem filter_ne_self [DecidableEq A] {l : List (Peer A)} {a : A} (h : a ∉ l.map (·.addr)) :
    l.filter (·.addr ≠ a) = l := by
  rw [List.filter_eq_self]
  intro p hp
  have : p.addr ≠ a := fun he => h (List.mem_map.mpr ⟨p, hp, he⟩)
  simpa using this

/-- Inserting a peer, in exchange for one connection being accepted or authenticated. -/
theorem insert_ainv [DecidableEq A] {d : Driver A} {uid : Nat} {a : A} {input : List ReadAns}
    (hle : d.count + 1 ≤ d.active) (hmax : ∀ m, d.max = some m → d.active ≤ m)
    (hauth : ∀ f, d.authn = some f → ∀ p ∈ d.conns, ∃ e id wire lost, hsServer f e = .accepted id wire p.input0 lost)
    (hnew : ∀ f, d.authn = some f → ∃ e id wire lost, hsServer f e = .accepted id wire input lost) :
    AInv (d.insertPeer (Peer.new uid a input)) := by
  refine ⟨?_, hmax, ?_⟩
  · have := List.length_filter_le (fun p : Peer A => decide (p.addr ≠ (Peer.new uid a input).addr)) d.peers
    simp only [Driver.count, Driver.insertPeer, List.length_append, List.length_cons, List.length_nil] at this hle ⊢
    omega
  · intro f hf q hq
    simp only [Driver.conns, Driver.insertPeer, List.mem_append, List.mem_filter, List.mem_singleton] at hq
    rcases hq with (hq | rfl) | hq | hq
    · exact hauth f hf q (by simp [Driver.conns, hq.1])
    · exact hnew f hf
    · exact hauth f hf q (by simp [Driver.conns, hq])
    · exact hauth f hf q (by simp [Driver.conns, hq.1])

theorem insert_peers [DecidableEq A] {d : Driver A} {p : Peer A} (h : p.addr ∉ d.peers.map (·.addr)) :
    (d.insertPeer p).peers = d.peers ++ [p] := by
  simp only [Driver.insertPeer]
  rw [filter_ne_self h]

theorem eraseIdx_perm {l : List α} {i : Nat} {x : α} (h : l[i]? = some x) : l.Perm (x :: l.eraseIdx i) := by
  induction l generalizing i with
  | nil => simp at h
  | cons y l ih =>
    cases i with
    | zero => simp only [List.getElem?_cons_zero, Option.some.injEq] at h; subst h; exact .refl _
    | succ i =>
      simp only [List.getElem?_cons_succ] at h
      exact ((ih h).cons y).trans (.swap x y _)

theorem act_adm [DecidableEq A] {D : Decompressors} {d d' : Driver A} (hd : DInv D d none) (h : AInv d) (a : Act A)
    (hact : d.act D a = .ok d') :
    AInv d' ∧ d'.max = d.max ∧ d'.authn = d.authn ∧
    ((∀ c, a = .accept c → (∀ x, c.addr = some x → x ∉ d.addrs) ∧
        ∀ f, d.authn = some f → hsServer f c.hs ≠ .panicked) → XInv d → XInv d') := by
  have keep : Keeps d d' → AInv d' ∧ d'.max = d.max ∧ d'.authn = d.authn ∧
    ((∀ c, a = .accept c → (∀ x, c.addr = some x → x ∉ d.addrs) ∧
        ∀ f, d.authn = some f → hsServer f c.hs ≠ .panicked) → XInv d → XInv d') :=
    fun k => ⟨k.ainv h, k.max, k.authn, fun _ => k.xinv⟩
  cases a with
  | peer k e =>
    simp only [Driver.act, Driver.stepPeer] at hact
    cases hk : d.peers[k]? with
    | none => simp only [hk] at hact; cases hact; exact keep (Keeps.refl d)
    | some p =>
      obtain ⟨hc, hl⟩ := hd.peers p (List.mem_of_getElem? hk)
      obtain ⟨p', o, hit, hs⟩ := iter_spec hc hl (hd.future _ (Nat.le_refl _)) e
      simp only [hk, hit, R.bind_ok, R.pure_eq] at hact
      cases o with
      | sent m => cases hact; exact keep (setPeer_keeps hk hs.addr hs.input0 _ d.next)
      | queued => cases hact; exact keep (setPeer_keeps hk hs.addr hs.input0 d.bytesTx d.next)
      | error => cases hact; exact keep (setPeer_keeps hk hs.addr hs.input0 d.bytesTx d.next)
      | pending => cases hact; exact keep (setPeer_keeps hk hs.addr hs.input0 d.bytesTx d.next)
      | closed =>
        cases hact
        obtain ⟨h1, h2⟩ := closed_inv hk hs.input0 h
        exact ⟨h1, rfl, rfl, fun _ => h2⟩
      | request h' m =>
        cases hact
        exact keep ((setPeer_keeps hk hs.addr hs.input0 d.bytesTx (d.next + 1)).trans (onRequest_keeps _ _ _ _ _))
  | join i =>
    simp only [Driver.act] at hact
    cases hact
    unfold Driver.stepJoin
    split
    · rename_i f c hf hc
      have hlen := Pub.eraseIdx_len hc
      have hmem := List.mem_of_getElem? hc
      simp only
      split
      · rename_i id wire rest lost a hs ha
        refine ⟨?_, rfl, rfl, ?_⟩
        · refine insert_ainv ?_ h.max h.auth ?_
          · have := h.le
            simp only [Driver.count] at this ⊢; omega
          · intro g hg
            simp only at hg
            rw [hf] at hg; cases hg
            exact ⟨_, _, _, _, hs⟩
        · intro _ hx
          have hperm : (d.authTasks.filterMap (·.addr)).Perm (a :: (d.authTasks.eraseIdx i).filterMap (·.addr)) := by
            have := (eraseIdx_perm hc).filterMap (·.addr)
            simpa [List.filterMap_cons, ha] using this
          have hnd : (d.connTasks.filterMap (·.addr) ++ ((a :: (d.authTasks.eraseIdx i).filterMap (·.addr)) ++ d.peers.map (·.addr))).Nodup :=
            ((List.Perm.refl _).append (hperm.append (.refl _))).nodup hx.addrs
          have hna : a ∉ d.peers.map (·.addr) := by
            rw [List.nodup_append] at hnd
            have := hnd.2.1
            rw [List.cons_append, List.nodup_cons] at this
            intro hm
            exact this.1 (by simp [List.mem_append]; right; simpa using hm)
          have hpe := insert_peers (d := { d with authTasks := d.authTasks.eraseIdx i }) (p := Peer.new c.uid a rest) hna
          refine ⟨?_, ?_, ?_⟩
          · have := hx.eq
            simp only [Driver.count] at this ⊢
            rw [hpe]
            simp only [Driver.insertPeer, List.length_append, List.length_cons, List.length_nil]
            omega
          · simp only [Driver.addrs]
            rw [hpe]
            simp only [Driver.insertPeer, List.map_append, List.map_cons, List.map_nil]
            refine List.Perm.nodup ?_ hnd
            refine (List.Perm.refl _).append ?_
            have : ((Peer.new c.uid a rest).addr) = a := rfl
            rw [this, List.cons_append]
            refine List.perm_middle.symm.trans ?_
            refine (List.Perm.refl _).append ?_
            exact (List.perm_append_singleton a _).symm
          · intro g hg c' hc'
            exact hx.calm g hg c' (hc'.imp (fun h => h) Pub.eraseIdx_mem)
      · rename_i hs
        have hp : 0 < d.active := by have := h.le; simp only [Driver.count] at this; omega
        refine ⟨⟨?_, ?_, h.auth⟩, rfl, rfl, ?_⟩
        · have := h.le
          simp only [Driver.count, Pub.decr_pos hp] at this ⊢; omega
        · intro m hm; have := h.max m hm; simp only [Pub.decr_pos hp]; omega
        · intro _ hx
          refine ⟨?_, ?_, ?_⟩
          · have := hx.eq
            simp only [Driver.count, Pub.decr_pos hp] at this ⊢; omega
          · refine hx.addrs.sublist ?_
            simp only [Driver.addrs]
            exact (List.Sublist.refl _).append (((List.eraseIdx_sublist _ _).filterMap _).append (List.Sublist.refl _))
          · intro g hg c' hc'
            exact hx.calm g hg c' (hc'.imp (fun h => h) Pub.eraseIdx_mem)
      · rename_i hs
        refine ⟨⟨?_, h.max, h.auth⟩, rfl, rfl, ?_⟩
        · have := h.le
          simp only [Driver.count] at this ⊢; omega
        · intro _ hx
          exact absurd hs (hx.calm f hf c (.inr hmem))
      · exact ⟨h, rfl, rfl, fun _ hx => hx⟩
    · exact ⟨h, rfl, rfl, fun _ hx => hx⟩
  | ready i ok =>
    simp only [Driver.act] at hact
    cases hact
    unfold Driver.stepConn
    split
    · exact ⟨h, rfl, rfl, fun _ hx => hx⟩
    · rename_i c hc
      have hlen := Pub.eraseIdx_len hc
      have hmem := List.mem_of_getElem? hc
      have hp : 0 < d.active := by have := h.le; simp only [Driver.count] at this; omega
      have drop : AInv { d with connTasks := d.connTasks.eraseIdx i, active := decr d.active } ∧
          (XInv d → XInv { d with connTasks := d.connTasks.eraseIdx i, active := decr d.active }) := by
        refine ⟨⟨?_, ?_, h.auth⟩, ?_⟩
        · have := h.le
          simp only [Driver.count, Pub.decr_pos hp] at this ⊢; omega
        · intro m hm; have := h.max m hm; simp only [Pub.decr_pos hp]; omega
        · intro hx
          refine ⟨?_, ?_, ?_⟩
          · have := hx.eq
            simp only [Driver.count, Pub.decr_pos hp] at this ⊢; omega
          · refine hx.addrs.sublist ?_
            simp only [Driver.addrs]
            exact ((List.eraseIdx_sublist _ _).filterMap _).append (List.Sublist.refl _)
          · intro g hg c' hc'
            exact hx.calm g hg c' (hc'.imp Pub.eraseIdx_mem (fun h => h))
      simp only
      split
      · split
        · exact ⟨drop.1, rfl, rfl, fun _ => drop.2⟩
        · rename_i a ha
          have hperm : (d.connTasks.filterMap (·.addr)).Perm (a :: (d.connTasks.eraseIdx i).filterMap (·.addr)) := by
            have := (eraseIdx_perm hc).filterMap (·.addr)
            simpa [List.filterMap_cons, ha] using this
          split
          · rename_i f hf
            refine ⟨⟨?_, h.max, h.auth⟩, rfl, rfl, ?_⟩
            · have := h.le
              simp only [Driver.count, List.length_append, List.length_cons, List.length_nil] at this ⊢; omega
            · intro _ hx
              refine ⟨?_, ?_, ?_⟩
              · have := hx.eq
                simp only [Driver.count, List.length_append, List.length_cons, List.length_nil] at this ⊢; omega
              · refine List.Perm.nodup ?_ hx.addrs
                simp only [Driver.addrs, List.filterMap_append]
                have h1 : List.filterMap (fun x : Conn A => x.addr) [c] = [a] := by simp [List.filterMap_cons, ha]
                rw [h1]
                refine (hperm.append (.refl _)).trans ?_
                rw [List.cons_append]
                refine List.perm_middle.symm.trans ?_
                refine (List.Perm.refl _).append ?_
                rw [List.append_assoc]
                exact List.perm_middle.symm
              · intro g hg c' hc'
                simp only [List.mem_append, List.mem_singleton] at hc'
                rcases hc' with h' | h' | h'
                · exact hx.calm g hg c' (.inl (Pub.eraseIdx_mem h'))
                · exact hx.calm g hg c' (.inr h')
                · subst h'; exact hx.calm g hg _ (.inl hmem)
          · rename_i hf
            refine ⟨?_, rfl, rfl, ?_⟩
            · refine insert_ainv ?_ h.max h.auth ?_
              · have := h.le
                simp only [Driver.count] at this ⊢; omega
              · intro g hg
                simp only at hg hf
                rw [hf] at hg; cases hg
            · intro _ hx
              have hnd : ((a :: (d.connTasks.eraseIdx i).filterMap (·.addr)) ++ (d.authTasks.filterMap (·.addr) ++ d.peers.map (·.addr))).Nodup :=
                (hperm.append (.refl _)).nodup hx.addrs
              have hna : a ∉ d.peers.map (·.addr) := by
                rw [List.cons_append, List.nodup_cons] at hnd
                intro hm
                exact hnd.1 (by simp only [List.mem_append]; exact .inr (.inr hm))
              have hpe := insert_peers (d := { d with connTasks := d.connTasks.eraseIdx i }) (p := Peer.new c.uid a c.hs.reads) hna
              refine ⟨?_, ?_, ?_⟩
              · have := hx.eq
                simp only [Driver.count] at this ⊢
                rw [hpe]
                simp only [Driver.insertPeer, List.length_append, List.length_cons, List.length_nil]
                omega
              · simp only [Driver.addrs]
                rw [hpe]
                simp only [Driver.insertPeer, List.map_append, List.map_cons, List.map_nil]
                refine List.Perm.nodup ?_ hnd
                have : ((Peer.new c.uid a c.hs.reads).addr) = a := rfl
                rw [this, List.cons_append]
                refine List.perm_middle.symm.trans ?_
                refine (List.Perm.refl _).append ?_
                refine List.perm_middle.symm.trans ?_
                refine (List.Perm.refl _).append ?_
                exact (List.perm_append_singleton a _).symm
              · intro g hg c' hc'
                exact hx.calm g hg c' (hc'.imp Pub.eraseIdx_mem (fun h => h))
      · exact ⟨drop.1, rfl, rfl, fun _ => drop.2⟩
  | accept c =>
    simp only [Driver.act] at hact
    cases hact
    have push : (∀ m, d.max = some m → d.active < m) →
        AInv { d with active := d.active + 1, connTasks := d.connTasks ++ [c] } ∧
        ((∀ x, c.addr = some x → x ∉ d.addrs) → (∀ f, d.authn = some f → hsServer f c.hs ≠ .panicked) →
          XInv d → XInv { d with active := d.active + 1, connTasks := d.connTasks ++ [c] }) := by
      intro hm
      refine ⟨⟨?_, ?_, h.auth⟩, ?_⟩
      · have := h.le
        simp only [Driver.count, List.length_append, List.length_cons, List.length_nil] at this ⊢; omega
      · intro m hm'; have := hm m hm'; simp only; omega
      · intro ha hp hx
        refine ⟨?_, ?_, ?_⟩
        · have := hx.eq
          simp only [Driver.count, List.length_append, List.length_cons, List.length_nil] at this ⊢; omega
        · simp only [Driver.addrs, List.filterMap_append]
          cases hca : c.addr with
          | none =>
            have h1 : List.filterMap (fun x : Conn A => x.addr) [c] = [] := by simp [List.filterMap_cons, hca]
            rw [h1, List.append_nil]
            exact hx.addrs
          | some x =>
            have h1 : List.filterMap (fun x : Conn A => x.addr) [c] = [x] := by simp [List.filterMap_cons, hca]
            rw [h1]
            have : (x :: d.addrs).Nodup := List.nodup_cons.mpr ⟨ha x hca, hx.addrs⟩
            refine List.Perm.nodup ?_ this
            rw [List.append_assoc]
            exact List.perm_middle.symm
        · intro g hg c' hc'
          simp only [List.mem_append, List.mem_singleton] at hc'
          rcases hc' with (h' | h') | h'
          · exact hx.calm g hg c' (.inl h')
          · subst h'; exact hp g hg
          · exact hx.calm g hg c' (.inr h')
    unfold Driver.stepAccept
    cases hm : d.max with
    | none =>
      obtain ⟨h1, h2⟩ := push (by simp [hm])
      refine ⟨by simpa only [hm] using h1, by simp, rfl, ?_⟩
      intro hn hx
      obtain ⟨hn1, hn2⟩ := hn c rfl
      simpa only [hm] using h2 hn1 hn2 hx
    | some m =>
      simp only
      split
      · exact ⟨h, hm, rfl, fun _ hx => hx⟩
      · rename_i hlt
        obtain ⟨h1, h2⟩ := push (fun m' h' => by rw [hm] at h'; cases h'; omega)
        refine ⟨by simpa only [hm] using h1, by simp, rfl, ?_⟩
        intro hn hx
        obtain ⟨hn1, hn2⟩ := hn c rfl
        simpa only [hm] using h2 hn1 hn2 hx
  | recv =>
    simp only [Driver.act] at hact
    split at hact
    · cases hact; exact keep (Keeps.refl d)
    · cases hact
      exact keep ⟨rfl, rfl, rfl, rfl, rfl, rfl, fun p hp => ⟨p, hp, rfl⟩⟩
  | respond i b =>
    simp only [Driver.act] at hact
    split at hact
    · cases hact; exact keep (Keeps.refl d)
    · cases hact
      refine keep (Keeps.trans ?_ (complete_keeps _ _ _))
      exact ⟨rfl, rfl, rfl, rfl, rfl, rfl, fun p hp => ⟨p, hp, rfl⟩⟩
  | drop i =>
    simp only [Driver.act] at hact
    split at hact
    · cases hact; exact keep (Keeps.refl d)
    · cases hact
      refine keep (Keeps.trans ?_ (complete_keeps _ _ _))
      exact ⟨rfl, rfl, rfl, rfl, rfl, rfl, fun p hp => ⟨p, hp, rfl⟩⟩

end MsgRs.Rep
