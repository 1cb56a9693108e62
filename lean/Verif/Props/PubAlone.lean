import Verif.Props.PubServerCalls
/-!
# C24 under a limit on clients: a session, once started, is alone
-/
namespace MsgRs.Props
open MsgRs Spec Pub
variable {A : Type}

/-- What may matter to session `i` once it is there: the calls on the socket and its own iterations. Not the other
sessions, and not the driver: which clients come, are let in or turned away. -/
def own (i : Nat) : SrvAct A → Bool
  | .session j _ => j == i
  | .driver _ => false
  | _ => true

/-- Two publishers that look alike to session `i`. -/
structure AliveIn (i : Nat) (s s' : Server A) : Prop where
  sock : s.sock = s'.sock
  log : s.log = s'.log
  dropped : s.dropped = s'.dropped
  ses : s.ses[i]? = s'.ses[i]?
  there : i < s.ses.length
  there' : i < s'.ses.length

theorem aliveIn_record {i : Nat} {s s' : Server A} (h : AliveIn i s s') (m : Option PubMsg) (r : Except PubErr Unit × Socket A) :
    AliveIn i (s.record m r) (s'.record m r) := by
  rcases r with ⟨_ | _, k⟩
  · exact ⟨rfl, h.log, h.dropped, h.ses, h.there, h.there'⟩
  · exact ⟨rfl, by simp only [Server.record]; rw [h.log], h.dropped, h.ses, h.there, h.there'⟩

theorem aliveIn_other {L : Lossy} {i : Nat} {s s' : Server A} (h : AliveIn i s s') (a : SrvAct A) (ha : own i a = false) :
    AliveIn i (s.act L a) s' := by
  cases a with
  | session j e =>
    have hj : j ≠ i := by simpa [own] using ha
    simp only [Server.act]
    split
    · refine ⟨h.sock, h.log, h.dropped, ?_, by simpa using h.there, h.there'⟩
      simp only; rw [List.getElem?_set_ne hj]; exact h.ses
    · exact h
  | driver e =>
    simp only [Server.act]
    split
    · refine ⟨h.sock, h.log, h.dropped, ?_, ?_, h.there'⟩
      · simp only; rw [List.getElem?_append_left h.there]; exact h.ses
      · simp only [List.length_append]; have := h.there; omega
    · exact h
  | _ => cases ha

theorem aliveIn_own {L : Lossy} {i : Nat} {s s' : Server A} (h : AliveIn i s s') (a : SrvAct A) (ha : own i a = true) :
    AliveIn i (s.act L a) (s'.act L a) := by
  have h0 := h
  obtain ⟨h1, h2, h3, h4, h5, h6⟩ := h
  cases a with
  | bind bind addrs =>
    simp only [Server.act, ← h3, ← h1]
    split
    · exact h0
    · split
      · exact h0
      · exact ⟨rfl, h2, by simpa using h3, h4, h5, h6⟩
      · exact ⟨rfl, h2, by simpa using h3, h4, h5, h6⟩
  | publish t p =>
    simp only [Server.act, ← h3, ← h1]
    split
    · exact h0
    · exact aliveIn_record h0 _ _
  | tryPublish t p =>
    simp only [Server.act, ← h3, ← h1]
    split
    · exact h0
    · exact aliveIn_record h0 _ _
  | drop =>
    simp only [Server.act, ← h3, ← h1]
    split
    · exact h0
    · exact ⟨rfl, h2, rfl, h4, h5, h6⟩
  | session j e =>
    have : j = i := by simpa [own] using ha
    subst this
    simp only [Server.act, ← h1, ← h4]
    split
    · refine ⟨rfl, h2, h3, ?_, by simpa using h5, by simpa using h6⟩
      simp only
      rw [List.getElem?_set_self h5, List.getElem?_set_self h6]
    · exact h0
  | driver e => cases ha

/-- C24 with any limit on clients: from the moment session `i` has been started, nothing but the calls on the socket and
its own iterations matters to it. Whatever the other sessions do or fail to do, and whichever clients come, are let in or
turned away: take all of that out of the rest of the history, and session `i` has taken and written the same, the socket
has accepted the same messages, and every call on it in between returned the same (it is the same socket at every point,
of which `pre` is any). -/
theorem C24_started_session (L : Lossy) (max : Option Nat) (authn : Option (Bytes → Bool)) (boundary minCompress bufferSize : Nat)
    (comp : Option Compressor) (acts rest : List (SrvAct A)) (i : Nat)
    (hi : i < ((Server.new max authn boundary minCompress bufferSize comp : Server A).run L acts).ses.length)
    (pre : List (SrvAct A)) (hpre : pre <+: rest) :
    let new : Server A := Server.new max authn boundary minCompress bufferSize comp
    (new.run L (acts ++ pre)).ses[i]? = (new.run L (acts ++ pre.filter (own i))).ses[i]? ∧
    (new.run L (acts ++ pre)).sock = (new.run L (acts ++ pre.filter (own i))).sock ∧
    (new.run L (acts ++ pre)).log = (new.run L (acts ++ pre.filter (own i))).log := by
  intro new
  have key : ∀ (acts : List (SrvAct A)) (s s' : Server A), AliveIn i s s' →
      AliveIn i (s.run L acts) (s'.run L (acts.filter (own i))) := by
    intro acts
    induction acts with
    | nil => intro s s' h; exact h
    | cons a acts ih =>
      intro s s' h
      have hrun : s.run L (a :: acts) = (s.act L a).run L acts := rfl
      rw [hrun]
      cases ha : own i a with
      | true => rw [List.filter_cons, if_pos ha]; exact ih _ _ (aliveIn_own h a ha)
      | false => rw [List.filter_cons, if_neg (by simp [ha])]; exact ih _ _ (aliveIn_other h a ha)
  have h := key pre (new.run L acts) (new.run L acts) ⟨rfl, rfl, rfl, rfl, hi, hi⟩
  have e : ∀ x : List (SrvAct A), new.run L (acts ++ x) = (new.run L acts).run L x := fun x => List.foldl_append ..
  rw [e, e]
  exact ⟨h.ses, h.sock, h.log⟩

/-- One client allowed and served; a second one is turned away; a third one comes when the first has left. -/
example :
    let sub : PubSub.Message := ⟨⟨0, 9, PubSub.subPrefix ++ [0x61], 1, 0, 0⟩, []⟩
    let conn : Nat → Conn Nat := fun u => ⟨u, some u, ⟨[.data (PubSub.encode sub), .pending], [], [], []⟩⟩
    let env := fun now => ({ tick := true, flushAns := [.ok 100, .ok 1], readyAns := [], closeAns := [], feed := .pending, now } : Env)
    let acts : List (SrvAct Nat) := [.bind some [80], .driver ⟨none, none, some (conn 1)⟩, .driver ⟨none, some (0, true), none⟩]
    let rest : List (SrvAct Nat) := [.driver ⟨none, none, some (conn 2)⟩, .session 0 (env 5), .publish ['a'] [1, 2],
        .driver ⟨none, some (0, true), none⟩, .session 0 (env 7), .session 1 (env 7), .session 0 (env 8), .session 0 (env 8)]
    let new : Server Nat := Server.new (some 1) none 8192 1024 4 none
    (new.run Lossy.strict acts).ses.length = 1 ∧ (rest.filter (own 0)).length = 5 ∧ rest.length = 8 ∧
    ((new.run Lossy.strict (acts ++ rest)).ses[0]?).map (·.task.sess.wr.wire) =
      some (PubSub.encode ⟨⟨0, 1, [0x61], 7, 0, 2⟩, [1, 2]⟩) := by
  refine ⟨?_, ?_, ?_, ?_⟩ <;> decide +kernel

end MsgRs.Props
