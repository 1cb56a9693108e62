import Verif.Proofs.RepRun
/-!
# Every request belongs to exactly one connection
-/
namespace MsgRs.Rep
open MsgRs
variable {A : Type}

/-- The handles of the requests read from a connection. -/
def Peer.handles (p : Peer A) : List Nat := p.issued.map (·.1)

/-- The handles given out so far are those of the connections, each once. -/
def OwnInv (d : Driver A) : Prop := (d.conns.flatMap Peer.handles).Perm (List.range d.next)

theorem set_flatMap_perm {α β : Type} {f : α → List β} {l : List α} {k : Nat} {p p' : α} (hk : l[k]? = some p) {x : List β}
    (hf : f p' = f p ++ x) : ((l.set k p').flatMap f).Perm (l.flatMap f ++ x) := by
  induction l generalizing k with
  | nil => simp at hk
  | cons a l ih =>
    cases k with
    | zero =>
      simp only [List.getElem?_cons_zero, Option.some.injEq] at hk
      subst hk
      simp only [List.set_cons_zero, List.flatMap_cons, hf, List.append_assoc]
      exact (List.perm_append_comm).append_left _
    | succ k =>
      simp only [List.getElem?_cons_succ] at hk
      simp only [List.set_cons_succ, List.flatMap_cons, List.append_assoc]
      exact (ih hk).append_left _

theorem erase_flatMap_perm {α β : Type} {f : α → List β} {l : List α} {k : Nat} {p : α} (hk : l[k]? = some p) :
    ((l.eraseIdx k).flatMap f ++ f p).Perm (l.flatMap f) := by
  induction l generalizing k with
  | nil => simp at hk
  | cons a l ih =>
    cases k with
    | zero =>
      simp only [List.getElem?_cons_zero, Option.some.injEq] at hk
      subst hk
      simp only [List.eraseIdx_cons_zero, List.flatMap_cons]
      exact List.perm_append_comm
    | succ k =>
      simp only [List.getElem?_cons_succ] at hk
      simp only [List.eraseIdx_cons_succ, List.flatMap_cons, List.append_assoc]
      exact (ih hk).append_left _

theorem wake_handles (p : Peer A) (x : Nat) : (p.wake x).handles = p.handles := by
  simp [Peer.handles, (wake_fields p x).2.2.1]

theorem complete_own {d : Driver A} (x : Nat) (s : Slot) : OwnInv (d.complete x s) ↔ OwnInv d := by
  have : (d.complete x s).conns.flatMap Peer.handles = d.conns.flatMap Peer.handles := by
    simp only [Driver.conns, Driver.complete, List.flatMap_append, List.flatMap_map, wake_handles]
  simp only [OwnInv, this]
  exact Iff.rfl

theorem onRequest_own (D : Decompressors) (d : Driver A) (p : Peer A) (h : Nat) (m : ReqRep.Message) :
    OwnInv (d.onRequest D p h m) ↔ OwnInv d := by
  unfold Driver.onRequest
  split
  · exact complete_own (d := d) h .dropped
  · simp only
    split
    · exact Iff.rfl
    · exact complete_own (d := { d with bytesRx := d.bytesRx + m.payload.length }) h .dropped

theorem insert_own [DecidableEq A] {d : Driver A} (uid : Nat) (a : A) (input : List ReadAns) (h : OwnInv d) :
    OwnInv (d.insertPeer (Peer.new uid a input)) := by
  refine List.Perm.trans ?_ h
  simp only [Driver.conns, Driver.insertPeer, List.flatMap_append]
  have h0 : ([Peer.new uid a input]).flatMap Peer.handles = [] := by simp [Peer.handles, Peer.new]
  rw [h0, List.append_nil]
  have hp := (List.filter_append_perm (fun p : Peer A => decide (p.addr ≠ (Peer.new uid a input).addr)) d.peers).flatMap_right Peer.handles
  rw [List.flatMap_append] at hp
  have he : d.peers.filter (fun x => !decide (x.addr ≠ (Peer.new uid a input).addr)) =
      d.peers.filter (fun x => decide (x.addr = (Peer.new uid a input).addr)) := by
    apply List.filter_congr
    intro x _
    simp
  rw [he] at hp
  refine List.Perm.trans ?_ (hp.append_right _)
  rw [List.append_assoc]
  exact (List.perm_append_comm).append_left _

theorem act_own [DecidableEq A] {D : Decompressors} {d d' : Driver A} (hd : DInv D d none)
    (h : OwnInv d) (a : Act A) (hact : d.act D a = .ok d') : OwnInv d' := by
  cases a with
  | peer k e =>
    simp only [Driver.act, Driver.stepPeer] at hact
    cases hk : d.peers[k]? with
    | none => simp only [hk] at hact; cases hact; exact h
    | some p =>
      obtain ⟨hc, hl⟩ := hd.peers p (List.mem_of_getElem? hk)
      obtain ⟨p', o, hit, hs⟩ := iter_spec hc hl (hd.future _ (Nat.le_refl _)) e
      simp only [hk, hit, R.bind_ok, R.pure_eq] at hact
      have hh : p'.handles = p.handles ++ o.reqs.map (·.1) := by simp [Peer.handles, hs.issued]
      have hset : ((d.peers.set k p' ++ d.gone).flatMap Peer.handles).Perm (d.conns.flatMap Peer.handles ++ o.reqs.map (·.1)) := by
        simp only [List.flatMap_append, Driver.conns]
        refine ((set_flatMap_perm hk hh).append_right _).trans ?_
        rw [List.append_assoc, List.append_assoc]
        exact (List.perm_append_comm).append_left _
      cases o with
      | sent m => cases hact; simp only [POut.reqs, List.map_nil, List.append_nil] at hset; exact hset.trans h
      | queued => cases hact; simp only [POut.reqs, List.map_nil, List.append_nil] at hset; exact hset.trans h
      | error => cases hact; simp only [POut.reqs, List.map_nil, List.append_nil] at hset; exact hset.trans h
      | pending => cases hact; simp only [POut.reqs, List.map_nil, List.append_nil] at hset; exact hset.trans h
      | closed =>
        cases hact
        refine List.Perm.trans ?_ h
        simp only [Driver.conns, List.flatMap_append, List.flatMap_cons, List.flatMap_nil, List.append_nil]
        have hh' : p'.handles = p.handles := by simpa [POut.reqs] using hh
        rw [hh']
        refine List.Perm.trans ?_ ((erase_flatMap_perm (f := Peer.handles) hk).append_right _)
        rw [List.append_assoc]
        exact (List.perm_append_comm).append_left _
      | request h' m =>
        obtain ⟨rfl, -⟩ := hs.handle h' m rfl
        cases hact
        rw [onRequest_own]
        simp only [OwnInv, Driver.conns, List.range_succ]
        exact hset.trans (h.append_right _)
  | join i =>
    simp only [Driver.act] at hact
    cases hact
    unfold Driver.stepJoin
    split
    · simp only
      split
      · exact insert_own _ _ _ h
      · exact h
      · exact h
      · exact h
    · exact h
  | ready i ok =>
    simp only [Driver.act] at hact
    cases hact
    unfold Driver.stepConn
    split
    · exact h
    · simp only
      split
      · split
        · exact h
        · split
          · exact h
          · exact insert_own _ _ _ h
      · exact h
  | accept c =>
    simp only [Driver.act] at hact
    cases hact
    unfold Driver.stepAccept
    split
    · split <;> exact h
    · exact h
  | recv =>
    simp only [Driver.act] at hact
    split at hact <;> (cases hact; exact h)
  | respond i b =>
    simp only [Driver.act] at hact
    split at hact
    · cases hact; exact h
    · cases hact; exact (complete_own _ _).2 h
  | drop i =>
    simp only [Driver.act] at hact
    split at hact
    · cases hact; exact h
    · cases hact; exact (complete_own _ _).2 h

theorem run_own [DecidableEq A] {D : Decompressors} (acts : List (Act A)) {d d' : Driver A} (hd : DInv D d none)
    (h : OwnInv d) (hr : d.run D acts = .ok d') : OwnInv d' := by
  induction acts generalizing d with
  | nil => cases hr; exact h
  | cons a acts ih =>
    obtain ⟨d1, ha, hd1⟩ := act_inv hd a
    simp only [Driver.run, ha, R.bind_ok] at hr
    exact ih hd1 (act_own hd h a ha) hr

theorem new_own (max authn comp) : OwnInv (Driver.new max authn comp : Driver A) := by
  simp [OwnInv, Driver.new, Driver.conns]

end MsgRs.Rep
