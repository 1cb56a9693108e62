import Verif.Proofs.RepRun
/-!
# The counters of the reply socket
-/
namespace MsgRs.Rep
open MsgRs
variable {A : Type} [DecidableEq A]

/-- What `bytes_tx` should be: the sizes of the messages handed to the connections. -/
def txOf (l : List (Peer A)) : Nat := (l.map fun p => (p.sent.map ReqRep.Message.size).sum).sum

/-- What `bytes_rx` should be: the payload sizes of the requests that could be decompressed. -/
def rxOf (log : List (Nat × Nat × ReqRep.Message × Fate)) : Nat :=
  (log.map fun x => if x.2.2.2 = .undecodable then 0 else x.2.2.1.payload.length).sum

structure SInv (d : Driver A) : Prop where
  tx : d.bytesTx = txOf d.conns
  rx : d.bytesRx = rxOf d.log

omit [DecidableEq A] in
theorem txOf_append (l m : List (Peer A)) : txOf (l ++ m) = txOf l + txOf m := by
  simp [txOf]

omit [DecidableEq A] in
theorem txOf_wake (l : List (Peer A)) (x : Nat) : txOf (l.map (Peer.wake x)) = txOf l := by
  simp only [txOf, List.map_map]
  congr 1
  apply List.map_congr_left
  intro p _
  simp only [Function.comp, Peer.wake]
  split <;> rfl

omit [DecidableEq A] in
theorem txOf_perm {l m : List (Peer A)} (h : l.Perm m) : txOf l = txOf m := (h.map _).sum_nat

omit [DecidableEq A] in
theorem txOf_set {l : List (Peer A)} {k : Nat} {p p' : Peer A} {ms : List ReqRep.Message} (hk : l[k]? = some p)
    (hs : p'.sent = p.sent ++ ms) : txOf (l.set k p') = txOf l + (ms.map ReqRep.Message.size).sum := by
  induction l generalizing k with
  | nil => simp at hk
  | cons x l ih =>
    cases k with
    | zero =>
      simp only [List.getElem?_cons_zero, Option.some.injEq] at hk; subst hk
      simp [txOf, hs]; omega
    | succ k =>
      simp only [List.getElem?_cons_succ] at hk
      have := ih hk
      simp only [txOf, List.set_cons_succ, List.map_cons, List.sum_cons] at this ⊢
      omega

omit [DecidableEq A] in
theorem rxOf_append (l m) : rxOf (l ++ m) = rxOf l + rxOf m := by simp [rxOf]

theorem filter_split_perm (l : List (Peer A)) (a : A) :
    (l.filter (·.addr ≠ a) ++ l.filter (·.addr = a)).Perm l := by
  induction l with
  | nil => exact .refl _
  | cons x l ih =>
    by_cases h : x.addr = a
    · simp only [List.filter_cons, h, ne_eq, not_true_eq_false, decide_false, Bool.false_eq_true, if_false, decide_true, if_true]
      refine (List.perm_middle).trans (ih.cons x)
    · simp only [List.filter_cons, h, ne_eq, not_false_eq_true, decide_true, if_true, decide_false, Bool.false_eq_true, if_false]
      exact ih.cons x

theorem insert_sinv {d : Driver A} (h : SInv d) (uid : Nat) (a : A) (input : List ReadAns) :
    SInv (d.insertPeer (Peer.new uid a input)) := by
  refine ⟨?_, h.rx⟩
  have := h.tx
  have h0 : txOf [Peer.new uid a input] = 0 := rfl
  generalize Peer.new uid a input = q at h0 ⊢
  have hp := txOf_perm (filter_split_perm d.peers q.addr)
  simp only [Driver.insertPeer, Driver.conns, txOf_append] at this hp ⊢
  omega

theorem conn_sinv {d : Driver A} (h : SInv d) (a : Nat) (ct at' : List (Conn A)) :
    SInv { d with active := a, connTasks := ct, authTasks := at' } := ⟨h.tx, h.rx⟩

theorem act_sinv {D : Decompressors} {d d' : Driver A} (hd : DInv D d none) (h : SInv d) (a : Act A)
    (ha : d.act D a = .ok d') : SInv d' := by
  cases a with
  | peer k e =>
    simp only [Driver.act, Driver.stepPeer] at ha
    cases hk : d.peers[k]? with
    | none => simp only [hk] at ha; cases ha; exact h
    | some p =>
      obtain ⟨hc, hl⟩ := hd.peers p (List.mem_of_getElem? hk)
      obtain ⟨p', o, hit, hs⟩ := iter_spec hc hl (hd.future _ (Nat.le_refl _)) e
      simp only [hk, hit, R.bind_ok, R.pure_eq] at ha
      have hset := txOf_set hk hs.sent
      have htx := h.tx
      simp only [Driver.conns, txOf_append] at htx
      cases o with
      | sent m =>
        cases ha
        refine ⟨?_, h.rx⟩
        simp only [Driver.conns, txOf_append, hset, POut.sents, List.map_cons, List.map_nil, List.sum_cons, List.sum_nil]
        omega
      | queued => cases ha; exact ⟨by simp only [Driver.conns, txOf_append, hset, POut.sents, List.map_nil, List.sum_nil]; omega, h.rx⟩
      | error => cases ha; exact ⟨by simp only [Driver.conns, txOf_append, hset, POut.sents, List.map_nil, List.sum_nil]; omega, h.rx⟩
      | pending => cases ha; exact ⟨by simp only [Driver.conns, txOf_append, hset, POut.sents, List.map_nil, List.sum_nil]; omega, h.rx⟩
      | closed =>
        cases ha
        refine ⟨?_, h.rx⟩
        have hp := txOf_perm (eraseIdx_perm hk)
        have hss := hs.sent
        simp only [POut.sents, List.append_nil] at hss
        simp only [Driver.conns, txOf_append]
        simp only [txOf, List.map_cons, List.map_nil, List.sum_cons, List.sum_nil, hss] at hp htx ⊢
        omega
      | request x m =>
        cases ha
        have hrx := h.rx
        unfold Driver.onRequest
        split
        · refine ⟨?_, ?_⟩
          · simp only [Driver.conns, Driver.complete, txOf_append, txOf_wake, hset, POut.sents, List.map_nil, List.sum_nil]; omega
          · simp only [Driver.complete, rxOf_append]
            simp [rxOf] at hrx ⊢
            exact hrx
        · simp only
          split
          · refine ⟨?_, ?_⟩
            · simp only [Driver.conns, txOf_append, hset, POut.sents, List.map_nil, List.sum_nil]; omega
            · simp only [rxOf_append]
              simp [rxOf] at hrx ⊢
              exact hrx
          · refine ⟨?_, ?_⟩
            · simp only [Driver.conns, Driver.complete, txOf_append, txOf_wake, hset, POut.sents, List.map_nil, List.sum_nil]; omega
            · simp only [Driver.complete, rxOf_append]
              simp [rxOf] at hrx ⊢
              exact hrx
  | join i =>
    cases ha
    unfold Driver.stepJoin
    split
    · simp only
      split
      · exact insert_sinv (conn_sinv h d.active d.connTasks _) _ _ _
      · exact conn_sinv h _ d.connTasks _
      · exact conn_sinv h d.active d.connTasks _
      · exact h
    · exact h
  | ready i ok =>
    cases ha
    unfold Driver.stepConn
    split
    · exact h
    · simp only
      split
      · split
        · exact conn_sinv h _ _ d.authTasks
        · split
          · exact conn_sinv h d.active _ _
          · exact insert_sinv (conn_sinv h d.active _ d.authTasks) _ _ _
      · exact conn_sinv h _ _ d.authTasks
  | accept c =>
    cases ha
    unfold Driver.stepAccept
    split
    · split
      · exact h
      · exact conn_sinv h _ _ d.authTasks
    · exact conn_sinv h _ _ d.authTasks
  | recv => simp only [Driver.act] at ha; split at ha <;> cases ha <;> exact ⟨h.tx, h.rx⟩
  | respond i b =>
    simp only [Driver.act] at ha
    split at ha
    · cases ha; exact h
    · cases ha
      refine ⟨?_, h.rx⟩
      have := h.tx
      simp only [Driver.conns, Driver.complete, txOf_append, txOf_wake] at this ⊢
      exact this
  | drop i =>
    simp only [Driver.act] at ha
    split at ha
    · cases ha; exact h
    · cases ha
      refine ⟨?_, h.rx⟩
      have := h.tx
      simp only [Driver.conns, Driver.complete, txOf_append, txOf_wake] at this ⊢
      exact this

theorem run_sinv {D : Decompressors} (acts : List (Act A)) {d d' : Driver A} (hd : DInv D d none) (h : SInv d)
    (hr : d.run D acts = .ok d') : SInv d' := by
  induction acts generalizing d with
  | nil => cases hr; exact h
  | cons a acts ih =>
    obtain ⟨d1, ha, hd1⟩ := act_inv hd a
    simp only [Driver.run, ha, R.bind_ok] at hr
    exact ih hd1 (act_sinv hd h a ha) hr

theorem new_sinv (max authn comp) : SInv (Driver.new max authn comp : Driver A) :=
  ⟨by simp [Driver.new, Driver.conns, txOf], by simp [Driver.new, rxOf]⟩

end MsgRs.Rep
