import Verif.Props.PubServer
/-!
# C24, C25 for the publisher as a whole
-/
namespace MsgRs.Props
open MsgRs Spec Pub
variable {A : Type}

/-! ## C25 -/

theorem tryBind_chan (k : Socket A) (bind : A → Option A) (addrs : List A) :
    (∀ k', k.tryBind bind addrs = .ok (.ok (), k') → k'.chan.isSome = true) ∧
    (∀ e k', k.tryBind bind addrs = .ok (.error e, k') → k'.chan = k.chan) := by
  unfold Socket.tryBind
  split
  · exact ⟨fun _ h => (by cases h), fun _ _ h => (by cases h)⟩
  · cases k.transport with
    | none => exact ⟨fun _ h => (by cases h), fun _ _ h => (by cases h)⟩
    | some cur =>
      simp only
      cases bindLoop bind cur addrs with
      | none => exact ⟨fun _ h => (by cases h), fun _ _ h => (by cases h; rfl)⟩
      | some l => exact ⟨fun _ h => (by cases h; rfl), fun _ _ h => (by cases h)⟩

theorem record_chan (s : Server A) (m : Option PubMsg) (r : Except PubErr Unit × Socket A) (h : r.2.chan.isSome = s.sock.chan.isSome) :
    (s.record m r).sock.chan.isSome = s.sock.chan.isSome := by
  rcases r with ⟨_ | _, _⟩ <;> exact h

theorem broadcast_chan (k : Socket A) (m : PubMsg) : (k.broadcast m).2.chan.isSome = k.chan.isSome := by
  unfold Socket.broadcast
  cases h : k.chan <;> simp [h]

theorem act_bound (L : Lossy) (s : Server A) (a : SrvAct A) :
    (s.act L a).sock.chan.isSome = true ↔ s.sock.chan.isSome = true ∨
      ∃ bind addrs k, a = .bind bind addrs ∧ s.dropped = false ∧ s.sock.tryBind bind addrs = .ok (.ok (), k) := by
  cases a with
  | bind bind addrs =>
    simp only [Server.act]
    obtain ⟨h1, h2⟩ := tryBind_chan s.sock bind addrs
    cases hd : s.dropped with
    | true => simp
    | false =>
      simp only [Bool.false_eq_true, if_false]
      split
      · rename_i heq
        refine ⟨.inl, fun h => ?_⟩
        rcases h with h | ⟨b, as, k, hb, -, hk⟩
        · exact h
        · cases hb; rw [heq] at hk; cases hk
      · rename_i u k heq
        exact ⟨fun _ => .inr ⟨bind, addrs, k, rfl, (by trivial), heq⟩, fun _ => h1 k heq⟩
      · rename_i err k heq
        simp only [h2 err k heq]
        refine ⟨.inl, fun h => ?_⟩
        rcases h with h | ⟨b, as, k, hb, -, hk⟩
        · exact h
        · cases hb; rw [heq] at hk; cases hk
  | publish t p =>
    simp only [Server.act, reduceCtorEq, false_and, exists_false, or_false]
    split
    · rfl
    · rw [record_chan]
      unfold Socket.publish
      split
      · rfl
      · exact broadcast_chan _ _
  | tryPublish t p =>
    simp only [Server.act, reduceCtorEq, false_and, exists_false, or_false]
    split
    · rfl
    · rw [record_chan]
      unfold Socket.tryPublish
      split
      · rfl
      · exact broadcast_chan _ _
  | driver e => simp only [Server.act, reduceCtorEq, false_and, exists_false, or_false]; split <;> rfl
  | session j e => simp only [Server.act, reduceCtorEq, false_and, exists_false, or_false]; split <;> rfl
  | drop => simp only [Server.act, reduceCtorEq, false_and, exists_false, or_false]; split <;> simp

/-- Some call to `bind` returned `Ok` during the history `acts` of `s`. -/
def bindReturnedOk (L : Lossy) (s : Server A) (acts : List (SrvAct A)) : Prop :=
  ∃ pre bind addrs post k, acts = pre ++ .bind bind addrs :: post ∧ (s.run L pre).dropped = false ∧
    (s.run L pre).sock.tryBind bind addrs = .ok (.ok (), k)

theorem run_bound (L : Lossy) (acts : List (SrvAct A)) : ∀ s : Server A,
    (s.run L acts).sock.chan.isSome = true ↔ s.sock.chan.isSome = true ∨ bindReturnedOk L s acts := by
  induction acts with
  | nil => intro s; simp [Server.run, bindReturnedOk]
  | cons a acts ih =>
    intro s
    have hrun : s.run L (a :: acts) = (s.act L a).run L acts := rfl
    rw [hrun, ih, act_bound, or_assoc]
    refine or_congr_right ⟨?_, ?_⟩
    · rintro (⟨bind, addrs, k, rfl, h1, h2⟩ | ⟨pre, bind, addrs, post, k, h1, h2, h3⟩)
      · exact ⟨[], bind, addrs, acts, k, rfl, h1, h2⟩
      · exact ⟨a :: pre, bind, addrs, post, k, by rw [h1]; rfl, h2, h3⟩
    · rintro ⟨pre, bind, addrs, post, k, h1, h2, h3⟩
      cases pre with
      | nil =>
        cases h1
        exact .inl ⟨bind, addrs, k, rfl, h2, h3⟩
      | cons a' pre =>
        cases h1
        exact .inr ⟨pre, bind, addrs, post, k, rfl, h2, h3⟩

/-- C25 in every history: as long as the socket is not dropped, a call of `publish` or `try_publish` whose message can be prepared returns `Ok` if and only if some earlier `bind` did, and the closed error
otherwise — whatever the driver and any number of sessions have done in between; and exactly the accepted messages are
handed to the sessions. -/
theorem C25_history (L : Lossy) (max : Option Nat) (authn : Option (Bytes → Bool)) (boundary minCompress bufferSize : Nat) (comp : Option Compressor)
    (acts : List (SrvAct A)) (hlive : .drop ∉ acts) (c : PubCall) (m : PubMsg) (hm : c.prepare minCompress comp = some m) :
    let new : Server A := Server.new max authn boundary minCompress bufferSize comp
    let s := new.run L acts
    let result := if c.viaTry then (s.sock.tryPublish c.topic c.payload).1 else (s.sock.publish c.topic c.payload).1
    let s' := s.act L (if c.viaTry then .tryPublish c.topic c.payload else .publish c.topic c.payload)
    (bindReturnedOk L new acts → result = .ok () ∧ s'.log = s.log ++ [m]) ∧
    (¬ bindReturnedOk L new acts → result = .error .socketClosed ∧ s' = s ∧ s.log = []) := by
  intro new s result s'
  obtain ⟨hI, -, -, -, -, hmc, hco⟩ := run_inv' (L := L) (Q := fun _ => True) acts
    (new_srvInv L _ max authn boundary minCompress bufferSize comp : SrvInv L _ new) (fun _ _ => trivial)
  have hmc' : s.sock.minCompress = minCompress := hmc
  have hco' : s.sock.comp = comp := hco
  have hd : s.dropped = false := by
    cases h : s.dropped with
    | false => rfl
    | true =>
      rcases (run_dropped L acts new).1 h with h | h
      · cases h
      · exact absurd h hlive
  have hb := run_bound L acts new
  have hnew : new.sock.chan.isSome = true ↔ False := by simp [new, Server.new, Socket.new]
  rw [hnew, false_or] at hb
  constructor
  · intro h
    obtain ⟨b, hb⟩ := Option.isSome_iff_exists.1 (hb.2 h)
    have hb' : s.sock.chan = some b := hb
    simp only [result, s', PubCall.prepare] at hm ⊢
    cases hv : c.viaTry with
    | true =>
      simp only [hv, if_true] at hm ⊢
      simp [Server.act, hd, Socket.tryPublish, hco', hm, Socket.broadcast, hb', Server.record]
    | false =>
      simp only [hv, Bool.false_eq_true, if_false] at hm ⊢
      simp [Server.act, hd, Socket.publish, hmc', hco', hm, Socket.broadcast, hb', Server.record]
  · intro h
    have hb' : s.sock.chan = none := by
      cases hc : s.sock.chan with
      | none => rfl
      | some b => exact absurd (hb.1 (by show s.sock.chan.isSome = true; rw [hc]; rfl)) h
    have hlog := (hI.unbound hb').2.2
    simp only [result, s', PubCall.prepare] at hm ⊢
    cases hv : c.viaTry with
    | true =>
      simp only [hv, if_true] at hm ⊢
      have hact : s.act L (.tryPublish c.topic c.payload) = s.record (tryPublishPrepare s.sock.comp c.topic c.payload) (s.sock.tryPublish c.topic c.payload) := by simp [Server.act, hd]
      have hr : s.sock.tryPublish c.topic c.payload = (.error .socketClosed, s.sock) := by simp [Socket.tryPublish, hco', hm, Socket.broadcast, hb']
      rw [hact, hr]
      exact ⟨rfl, rfl, hlog⟩
    | false =>
      simp only [hv, Bool.false_eq_true, if_false] at hm ⊢
      have hact : s.act L (.publish c.topic c.payload) = s.record (publishPrepare s.sock.minCompress s.sock.comp c.topic c.payload) (s.sock.publish c.topic c.payload) := by simp [Server.act, hd]
      have hr : s.sock.publish c.topic c.payload = (.error .socketClosed, s.sock) := by simp [Socket.publish, hmc', hco', hm, Socket.broadcast, hb']
      rw [hact, hr]
      exact ⟨rfl, rfl, hlog⟩

/-- A `bind` that fails, then one that succeeds would panic (the transport is gone); a first `bind` that succeeds on its second address: publishing works from then on, with no subscriber. -/
example : ∀ comp, bindReturnedOk Lossy.strict (Server.new none none 8192 1024 4 comp : Server Nat) [.publish ['a'] [], .bind (fun a => if a = 81 then some 81 else none) [80, 81]] :=
  fun _ => ⟨[.publish ['a'] []], _, _, [], _, rfl, rfl, rfl⟩

/-! ## C24 -/

/-- The driver's own work does not look at its sessions nor, without a limit, at their number. -/
theorem iter_blind (d : Driver A) (hmax : d.max = none) (e : DEnv A) (n : Nat) (ss : List (Conn A × List ReadAns)) :
    ∃ n' fresh, ({ d with active := n, sessions := ss } : Driver A).iter e = { d.iter e with active := n', sessions := ss ++ fresh } ∧
      (d.iter e).sessions = d.sessions ++ fresh := by
  have hj : ∀ (n : Nat) (ss : List (Conn A × List ReadAns)), ∃ n' fresh,
      ({ d with active := n, sessions := ss } : Driver A).stepJoin e = ({ (d.stepJoin e).1 with active := n', sessions := ss ++ fresh }, (d.stepJoin e).2) ∧
      (d.stepJoin e).1.sessions = d.sessions ++ fresh ∧ ((d.stepJoin e).2 = false → fresh = []) ∧ (d.stepJoin e).1.max = none := by
    intro n ss
    unfold Driver.stepJoin
    cases e.join with
    | none => exact ⟨n, [], by simp, by simp, fun _ => rfl, hmax⟩
    | some i =>
      cases hf : d.authn with
      | none => exact ⟨n, [], by simp [hf], by simp, fun _ => rfl, hmax⟩
      | some f =>
        simp only
        cases hc : d.authTasks[i]? with
        | none => exact ⟨n, [], by simp [hf], by simp, fun _ => rfl, hmax⟩
        | some c =>
          simp only
          cases hsServer f c.hs with
          | waiting w => exact ⟨n, [], by simp [hf], by simp, fun _ => rfl, hmax⟩
          | accepted id w rest lost => exact ⟨n, [(c, rest)], by simp [hf], rfl, fun h => (by cases h), hmax⟩
          | failed w => exact ⟨decr n, [], by simp [hf], by simp, fun _ => rfl, hmax⟩
          | panicked => exact ⟨n, [], by simp [hf], by simp, fun _ => rfl, hmax⟩
  have hk : ∀ (d : Driver A) (n : Nat) (ss : List (Conn A × List ReadAns)), d.max = none → ∃ n' fresh,
      ({ d with active := n, sessions := ss } : Driver A).stepConn e = ({ (d.stepConn e).1 with active := n', sessions := ss ++ fresh }, (d.stepConn e).2) ∧
      (d.stepConn e).1.sessions = d.sessions ++ fresh ∧ ((d.stepConn e).2 = false → fresh = []) ∧ (d.stepConn e).1.max = none := by
    intro d n ss hmax
    unfold Driver.stepConn
    cases e.ready with
    | none => exact ⟨n, [], by simp, by simp, fun _ => rfl, hmax⟩
    | some p =>
      obtain ⟨i, ok⟩ := p
      simp only
      cases hc : d.connTasks[i]? with
      | none => exact ⟨n, [], by simp, by simp, fun _ => rfl, hmax⟩
      | some c =>
        simp only
        cases ok with
        | false => exact ⟨decr n, [], by simp, by simp, fun _ => rfl, hmax⟩
        | true =>
          simp only [if_true, Driver.onIncoming]
          cases c.addr with
          | none => exact ⟨decr n, [], by simp, by simp, fun _ => rfl, hmax⟩
          | some a =>
            cases hf : d.authn with
            | none => exact ⟨n, [(c, c.hs.reads)], by simp [hf], rfl, fun h => (by cases h), hmax⟩
            | some f => exact ⟨n, [], by simp [hf], by simp, fun _ => rfl, hmax⟩
  have ha : ∀ (d : Driver A) (n : Nat) (ss : List (Conn A × List ReadAns)), d.max = none → ∃ n',
      (({ d with active := n, sessions := ss } : Driver A).stepAccept e).1 = { (d.stepAccept e).1 with active := n', sessions := ss } ∧
      (d.stepAccept e).1.sessions = d.sessions := by
    intro d n ss hmax
    unfold Driver.stepAccept
    cases e.accept with
    | none => exact ⟨n, rfl, rfl⟩
    | some c =>
      simp only [hmax]
      exact ⟨n + 1, rfl, (by trivial)⟩
  obtain ⟨n1, f1, h1, h2, h3, h4⟩ := hj n ss
  unfold Driver.iter
  rw [h1]
  rcases hd1 : d.stepJoin e with ⟨d1, b1⟩
  rw [hd1] at h2 h3 h4
  cases b1 with
  | true => exact ⟨n1, f1, rfl, h2⟩
  | false =>
    have hf1 := h3 rfl
    subst hf1
    simp only [List.append_nil] at h2 h4 ⊢
    obtain ⟨n2, f2, k1, k2, k3, k4⟩ := hk d1 n1 ss h4
    rw [k1]
    rcases hd2 : d1.stepConn e with ⟨d2, b2⟩
    rw [hd2] at k2 k3 k4
    cases b2 with
    | true => exact ⟨n2, f2, rfl, by rw [← h2]; exact k2⟩
    | false =>
      have hf2 := k3 rfl
      subst hf2
      simp only [List.append_nil] at k2 k4 ⊢
      obtain ⟨n3, g1, g2⟩ := ha d2 n2 ss k4
      exact ⟨n3, [], by rw [g1]; simp, by rw [g2, k2, h2]; simp⟩

/-- Two publishers that agree on everything but what the sessions other than `i` have done. -/
structure AgreeOn (i : Nat) (s s' : Server A) : Prop where
  sock : s.sock = s'.sock
  log : s.log = s'.log
  dropped : s.dropped = s'.dropped
  max : s.max = none ∧ s'.max = none
  authn : s.authn = s'.authn
  boundary : s.boundary = s'.boundary
  len : s.ses.length = s'.ses.length
  ses : s.ses[i]? = s'.ses[i]?
  drv : (s.drv = none ∧ s'.drv = none) ∨ ∃ d n ss, s.drv = some d ∧ d.max = none ∧ s'.drv = some { d with active := n, sessions := ss }

theorem iter_max (d : Driver A) (e : DEnv A) : (d.iter e).max = d.max := by
  have h1 : (d.stepJoin e).1.max = d.max := by
    unfold Driver.stepJoin
    split
    · split
      · rfl
      · simp only
        split <;> rfl
    · rfl
  have h2 : ∀ d : Driver A, (d.stepConn e).1.max = d.max := by
    intro d
    unfold Driver.stepConn
    split
    · rfl
    · split
      · rfl
      · simp only
        split
        · unfold Driver.onIncoming
          split
          · rename_i heq
            split at heq
            · cases heq
            · split at heq <;> (cases heq; rfl)
          · rename_i heq
            split at heq
            · cases heq; rfl
            · split at heq <;> cases heq
        · rfl
  have h3 : ∀ d : Driver A, (d.stepAccept e).1.max = d.max := by
    intro d
    unfold Driver.stepAccept
    split
    · rfl
    · split
      · split <;> rfl
      · rfl
  unfold Driver.iter
  rcases hj : d.stepJoin e with ⟨d1, b1⟩
  rw [hj] at h1
  cases b1 with
  | true => exact h1
  | false =>
    simp only at h1 ⊢
    have g := h2 d1
    rcases hk : d1.stepConn e with ⟨d2, b2⟩
    rw [hk] at g
    cases b2 with
    | true => exact g.trans h1
    | false => exact (h3 d2).trans (g.trans h1)

theorem drvEnd_agree {s s' : Server A} (h : (s.drv = none ∧ s'.drv = none) ∨ ∃ d n ss, s.drv = some d ∧ d.max = none ∧ s'.drv = some { d with active := n, sessions := ss })
    (p p' : Bool) (k k' : Nat) :
    let o := if p then s.drv.map (·.act (.sessionEnd k)) else s.drv
    let o' := if p' then s'.drv.map (·.act (.sessionEnd k')) else s'.drv
    (o = none ∧ o' = none) ∨ ∃ d n ss, o = some d ∧ d.max = none ∧ o' = some { d with active := n, sessions := ss } := by
  have key : ∀ (d : Driver A) (p : Bool) (k : Nat), ∃ n ss, (if p then some (d.act (.sessionEnd k)) else some d) = some { d with active := n, sessions := ss } := by
    intro d p k
    cases p with
    | false => exact ⟨d.active, d.sessions, rfl⟩
    | true =>
      simp only [if_true, Driver.act]
      cases d.sessions[k]? with
      | none => exact ⟨d.active, d.sessions, rfl⟩
      | some x => exact ⟨decr d.active, d.sessions.eraseIdx k, rfl⟩
  intro o o'
  rcases h with ⟨h1, h2⟩ | ⟨d, n, ss, h1, h2, h3⟩
  · left
    simp only [o, o', h1, h2]
    exact ⟨by cases p <;> rfl, by cases p' <;> rfl⟩
  · right
    obtain ⟨n1, ss1, g1⟩ := key d p k
    obtain ⟨n2, ss2, g2⟩ := key { d with active := n, sessions := ss } p' k'
    refine ⟨{ d with active := n1, sessions := ss1 }, n2, ss2, ?_, h2, ?_⟩
    · simp only [o, h1, Option.map_some]; exact g1
    · simp only [o', h3, Option.map_some]; exact g2

/-- An iteration of another session changes nothing `AgreeOn i` looks at. -/
theorem agree_other {L : Lossy} {i : Nat} {s s' : Server A} (h : AgreeOn i s s') (j : Nat) (hj : j ≠ i) (e : Env) : AgreeOn i (s.act L (.session j e)) s' := by
  simp only [Server.act]
  split
  · rename_i x b hx hc
    refine ⟨h.sock, h.log, h.dropped, h.max, h.authn, h.boundary, by simp [h.len], ?_, ?_⟩
    · simp only; rw [List.getElem?_set_ne hj]; exact h.ses
    · have := drvEnd_agree h.drv ((x.task.step L b e).over && !x.task.over) false (running (s.ses.take j)).length 0
      simpa using this
  · exact h

theorem record_agree {i : Nat} {s s' : Server A} (h : AgreeOn i s s') (m : Option PubMsg) (r : Except PubErr Unit × Socket A) : AgreeOn i (s.record m r) (s'.record m r) := by
  obtain ⟨h1, h2, h3, h4, h5, h6, h7, h8, h9⟩ := h
  rcases r with ⟨_ | _, k⟩
  · exact ⟨rfl, h2, h3, h4, h5, h6, h7, h8, h9⟩
  · exact ⟨rfl, by simp only [Server.record]; rw [h2], h3, h4, h5, h6, h7, h8, h9⟩

theorem agree_same {L : Lossy} {i : Nat} {s s' : Server A} (h : AgreeOn i s s') (a : SrvAct A) (ha : ∀ j e, a = .session j e → j = i) :
    AgreeOn i (s.act L a) (s'.act L a) := by
  have h0 := h
  obtain ⟨h1, h2, h3, h4, h5, h6, h7, h8, h9⟩ := h
  cases a with
  | bind bind addrs =>
    simp only [Server.act, ← h3, ← h1]
    split
    · exact h0
    · split
      · exact h0
      · refine ⟨rfl, h2, by simpa using h3, h4, h5, h6, h7, h8, .inr ⟨_, 0, [], rfl, h4.1, ?_⟩⟩
        simp only
        rw [h4.1, h4.2, h5]
      · exact ⟨rfl, h2, by simpa using h3, h4, h5, h6, h7, h8, h9⟩
  | publish t p =>
    simp only [Server.act, ← h3, ← h1]
    split
    · exact h0
    · exact record_agree h0 _ _
  | tryPublish t p =>
    simp only [Server.act, ← h3, ← h1]
    split
    · exact h0
    · exact record_agree h0 _ _
  | drop =>
    simp only [Server.act, ← h3, ← h1]
    split
    · exact h0
    · exact ⟨rfl, h2, rfl, h4, h5, h6, h7, h8, h9⟩
  | session j e =>
    have := ha j e rfl
    subst this
    simp only [Server.act, ← h1, ← h8]
    split
    · rename_i x b hx hc
      have hlt := (List.getElem?_eq_some_iff.1 hx).1
      refine ⟨rfl, h2, h3, h4, h5, h6, by simp [h7], ?_, drvEnd_agree h9 _ _ _ _⟩
      simp only
      rw [List.getElem?_set_self hlt, List.getElem?_set_self (by rw [← h7]; exact hlt)]
    · exact h0
  | driver e =>
    simp only [Server.act, ← h1]
    rcases h9 with ⟨g1, g2⟩ | ⟨d, n, ss, g1, g2, g3⟩
    · rw [g1, g2]
      exact h0
    · rw [g1, g3]
      cases hc : s.sock.chan with
      | none => exact h0
      | some b =>
        simp only
        obtain ⟨n', fresh, k1, k2⟩ := iter_blind d g2 e n ss
        rw [k1, k2]
        simp only [List.drop_left', ← h2, ← h6]
        refine ⟨rfl, rfl, h3, h4, h5, rfl, by simp [h7], ?_, .inr ⟨_, n', ss ++ fresh, rfl, (iter_max d e).trans g2, rfl⟩⟩
        simp only
        rw [List.getElem?_append, List.getElem?_append, h7, h8]

/-- Everything but what the session tasks other than `i` do. -/
def notOthers (i : Nat) : SrvAct A → Bool
  | .session j _ => j == i
  | _ => true

/-- C24 for the publisher as a whole (no limit on clients): take any history, and remove from it everything the session tasks other than `i` do — so that they never read, write or end. Session `i` has served
the same connection, taken and written the same, and the socket has accepted the same messages. -/
theorem C24_publisher (L : Lossy) (authn : Option (Bytes → Bool)) (boundary minCompress bufferSize : Nat) (comp : Option Compressor)
    (acts : List (SrvAct A)) (i : Nat) :
    let new : Server A := Server.new none authn boundary minCompress bufferSize comp
    let only := acts.filter (notOthers i)
    (new.run L acts).ses[i]? = (new.run L only).ses[i]? ∧
    (new.run L acts).sock = (new.run L only).sock ∧
    (new.run L acts).log = (new.run L only).log := by
  intro new only
  have key : ∀ (acts : List (SrvAct A)) (s s' : Server A), AgreeOn i s s' →
      AgreeOn i (s.run L acts) (s'.run L (acts.filter (notOthers i))) := by
    intro acts
    induction acts with
    | nil => intro s s' h; exact h
    | cons a acts ih =>
      intro s s' h
      have hrun : s.run L (a :: acts) = (s.act L a).run L acts := rfl
      rw [hrun]
      by_cases ha : ∀ j e, a = .session j e → j = i
      · have hp : notOthers i a = true := by
          cases a <;> try rfl
          have := ha _ _ rfl
          simpa [notOthers] using this
        rw [List.filter_cons, if_pos hp]
        exact ih _ _ (agree_same h a ha)
      · simp only [Classical.not_forall] at ha
        obtain ⟨j, e, rfl, hj⟩ := ha
        rw [List.filter_cons, if_neg (by simpa [notOthers] using hj)]
        exact ih _ _ (agree_other h j hj e)
  have h := key acts new new ⟨rfl, rfl, rfl, ⟨rfl, rfl⟩, rfl, rfl, rfl, rfl, .inl ⟨rfl, rfl⟩⟩
  exact ⟨h.ses, h.sock, h.log⟩

/-- Two clients; the second one works, the first may do anything. -/
example :
    let sub : PubSub.Message := ⟨⟨0, 9, PubSub.subPrefix ++ [0x61], 1, 0, 0⟩, []⟩
    let conn : Nat → Conn Nat := fun u => ⟨u, some u, ⟨[.data (PubSub.encode sub), .pending], [], [], []⟩⟩
    let env := fun now => ({ tick := true, flushAns := [.ok 100, .ok 1], readyAns := [], closeAns := [], feed := .pending, now } : Env)
    let s := (Server.new none none 8192 1024 4 none : Server Nat).run Lossy.strict
      [.bind some [80], .driver ⟨none, none, some (conn 1)⟩, .driver ⟨none, none, some (conn 2)⟩,
        .driver ⟨none, some (0, true), none⟩, .driver ⟨none, some (0, true), none⟩, .session 1 (env 5), .publish ['a'] [1, 2],
        .session 1 (env 7), .session 0 (env 7), .session 1 (env 8), .session 1 (env 8)]
    (s.ses[1]?).map (·.task.sess.wr.wire) = some (PubSub.encode ⟨⟨0, 1, [0x61], 7, 0, 2⟩, [1, 2]⟩) := by
  decide +kernel

end MsgRs.Props
