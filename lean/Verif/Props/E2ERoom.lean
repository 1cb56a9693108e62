import Verif.Props.PubServerTopics
import Verif.Props.SubRoom
/-!
# C67, C23: delivery when there is always room

Nothing here is assumed about what the two ends dropped: that nothing was dropped is derived from there having been room at
every moment of the two histories.
-/
namespace MsgRs.Props
open MsgRs Spec Pub

variable {A : Type}

theorem step_evs (L : Lossy) (b : Bcast PubMsg) (t : Task) (e : Env) :
    (t.step L b e).evs = t.evs ∨ ∃ ev, (t.step L b e).evs = t.evs ++ [ev] := by
  unfold Task.step
  split
  · exact .inl rfl
  · split
    · exact .inl rfl
    · exact .inr ⟨_, rfl⟩

/-- What one action does to a session's task. -/
theorem act_task (L : Lossy) (s : Server A) (a : SrvAct A) (i : Nat) (x : Ses A) (h : (s.act L a).ses[i]? = some x) :
    (∃ y, s.ses[i]? = some y ∧ (x.task = y.task ∨ ∃ b e, s.sock.chan = some b ∧ x.task = y.task.step L b e)) ∨ x.task.evs = [] := by
  have hrec : ∀ m r, (s.record m r).ses = s.ses := by
    rintro m ⟨_ | _, _⟩ <;> rfl
  have old : (s.act L a).ses = s.ses → ∃ y, s.ses[i]? = some y ∧ (x.task = y.task ∨ ∃ b e, s.sock.chan = some b ∧ x.task = y.task.step L b e) := by
    intro he; rw [he] at h; exact ⟨x, h, .inl rfl⟩
  cases a with
  | bind bind addrs =>
    left; apply old
    simp only [Server.act]
    split
    · rfl
    · split <;> rfl
  | publish t p => left; apply old; simp only [Server.act]; split; · rfl
                   · exact hrec _ _
  | tryPublish t p => left; apply old; simp only [Server.act]; split; · rfl
                      · exact hrec _ _
  | drop => left; apply old; simp only [Server.act]; split <;> rfl
  | session j e =>
    left
    simp only [Server.act] at h
    cases hx : s.ses[j]? with
    | none => simp only [hx] at h; exact ⟨x, h, .inl rfl⟩
    | some z =>
      cases hc : s.sock.chan with
      | none => simp only [hx, hc] at h; exact ⟨x, h, .inl rfl⟩
      | some b =>
        simp only [hx, hc] at h
        by_cases hj : i = j
        · subst hj
          have hlt := (List.getElem?_eq_some_iff.1 hx).1
          rw [List.getElem?_set_self hlt] at h
          cases h
          exact ⟨z, hx, .inr ⟨b, e, rfl, rfl⟩⟩
        · rw [List.getElem?_set_ne (fun h => hj h.symm)] at h
          exact ⟨x, h, .inl rfl⟩
  | driver e =>
    simp only [Server.act] at h
    cases hd : s.drv with
    | none => simp only [hd] at h; exact .inl ⟨x, h, .inl rfl⟩
    | some d =>
      cases hc : s.sock.chan with
      | none => simp only [hd, hc] at h; exact .inl ⟨x, h, .inl rfl⟩
      | some b =>
        simp only [hd, hc] at h
        by_cases hi : i < s.ses.length
        · rw [List.getElem?_append_left hi] at h
          exact .inl ⟨x, h, .inl rfl⟩
        · rw [List.getElem?_append_right (by omega)] at h
          right
          rw [List.getElem?_map] at h
          cases hz : ((d.iter e).sessions.drop d.sessions.length)[i - s.ses.length]? with
          | none => rw [hz] at h; cases h
          | some z => rw [hz] at h; cases h; rfl

theorem run_snoc (L : Lossy) (s : Server A) (acts : List (SrvAct A)) (a : SrvAct A) : s.run L (acts ++ [a]) = (s.run L acts).act L a := by
  simp [Server.run, List.foldl_append]

/-- Where the receiver of a session is, in the messages published before and after it connected. -/
theorem task_cursor {L : Lossy} {n : Nat} {acts₁ acts₂ : List Act} {i boundary : Nat} {input : List ReadAns}
    (h3 : ((Sys.new n).run L acts₁).tasks i = none) {t : Task}
    (h4 : ((Sys.new n).run L (acts₁ ++ .connect i boundary input :: acts₂)).tasks i = some t) :
    TInv L (published acts₁ ++ published acts₂) (published acts₁).length t := by
  have h1 := sinv_run (L := L) acts₁ (sinv_new L n)
  rw [List.nil_append] at h1
  have h2 := sinv_act (L := L) h1 (.connect i boundary input)
  have hpub : published [Act.connect i boundary input] = [] := rfl
  rw [hpub, List.append_nil] at h2
  let t0 : Task := { next := ((Sys.new n).run L acts₁).chan.resubscribe, sess := Session.new boundary input }
  have ht0 : (((Sys.new n).run L acts₁).act L (.connect i boundary input)).tasks i = some t0 := by
    simp [Sys.act, h3, t0]
  have hn0 : t0.next = (published acts₁).length := by simp [t0, Bcast.resubscribe, h1.chan.tail]
  have hti : TInv L (published acts₁) (published acts₁).length t0 := by
    refine ⟨inv_new L boundary input, by omega, by omega, ?_, ?_, ?_⟩
    · simp [t0, tookOf]
    · simp only [hn0]; simp [t0, tookOf, missedOf]
    · simp [t0, replay, Bcast.resubscribe, h1.chan.tail]
  obtain ⟨t', ht, hT⟩ := task_persists (L := L) acts₂ h2 ht0 hti
  have : ((Sys.new n).run L (acts₁ ++ .connect i boundary input :: acts₂)).tasks i = some t' := by
    simpa [Sys.run, List.foldl_append] using ht
  rw [this] at h4
  cases h4
  exact hT

/-- C23 for the publisher as a whole: in every history, a session that was never more than `session_buffer_size` messages behind what was published
has missed nothing: it has taken, in publish order, all the messages published since its client was admitted except for those still ahead of it. -/
theorem C23_publisher_in_time (L : Lossy) (max : Option Nat) (authn : Option (Bytes → Bool)) (boundary minCompress bufferSize : Nat) (comp : Option Compressor)
    (acts : List (SrvAct A)) (i : Nat) (x : Ses A)
    (hx : ((Server.new max authn boundary minCompress bufferSize comp : Server A).run L acts).ses[i]? = some x)
    (hroom : ∀ pre suf y, acts = pre ++ suf → ((Server.new max authn boundary minCompress bufferSize comp : Server A).run L pre).ses[i]? = some y →
      ((Server.new max authn boundary minCompress bufferSize comp : Server A).run L pre).log.length ≤ y.task.next + bufferSize) :
    missedOf x.task.evs = 0 ∧
    tookOf x.task.evs ++ ((Server.new max authn boundary minCompress bufferSize comp : Server A).run L acts).log.drop x.task.next
      = ((Server.new max authn boundary minCompress bufferSize comp : Server A).run L acts).log.drop x.since := by
  have hm : ∀ (r : List (SrvAct A)) (x : Ses A), ((Server.new max authn boundary minCompress bufferSize comp : Server A).run L r.reverse).ses[i]? = some x →
      (∀ pre suf y, r.reverse = pre ++ suf → ((Server.new max authn boundary minCompress bufferSize comp : Server A).run L pre).ses[i]? = some y →
        ((Server.new max authn boundary minCompress bufferSize comp : Server A).run L pre).log.length ≤ y.task.next + bufferSize) →
      missedOf x.task.evs = 0 := by
    intro r
    induction r with
    | nil => intro x hx _; simp [Server.run, Server.new] at hx
    | cons a r ih =>
      intro x hx hroom
      rw [List.reverse_cons, run_snoc] at hx
      have hroom' : ∀ pre suf y, r.reverse = pre ++ suf → ((Server.new max authn boundary minCompress bufferSize comp : Server A).run L pre).ses[i]? = some y →
          ((Server.new max authn boundary minCompress bufferSize comp : Server A).run L pre).log.length ≤ y.task.next + bufferSize := by
        intro pre suf y hp hy
        exact hroom pre (suf ++ [a]) y (by rw [List.reverse_cons, hp, List.append_assoc]) hy
      rcases act_task L _ a i x hx with ⟨y, hy, h⟩ | h
      · have h0 := ih y hy hroom'
        rcases h with h | ⟨b, e, hb, h⟩
        · rw [h]; exact h0
        · rw [h]
          rcases step_evs L b y.task e with h1 | ⟨ev, h1⟩
          · rw [h1]; exact h0
          · rw [h1]
            have hmiss : ∀ k, ev = .lagged k → False := by
              intro k hk
              subst hk
              obtain ⟨hI, -, -, -, hbs, -, -⟩ := run_inv' (L := L) (Q := fun _ => True) r.reverse
                (new_srvInv L _ max authn boundary minCompress bufferSize comp) (fun _ _ => trivial)
              obtain ⟨d, -, -, hB⟩ := hI.bound b hb
              obtain ⟨pacts, hp1, hp2⟩ := hB.sys
              have hs := sinv_run (L := L) pacts (sinv_new L ((Server.new max authn boundary minCompress bufferSize comp : Server A).run L r.reverse).sock.bufferSize)
              rw [List.nil_append, hp1, hp2] at hs
              have ht : (((Server.new max authn boundary minCompress bufferSize comp : Server A).run L r.reverse).sys b).tasks i = some y.task := by
                simp [Server.sys, hy]
              obtain ⟨n0, hT⟩ := hs.tasks i y.task ht
              have hlag := lag_exact (b := b) hs.chan hs.cap hT.inv hT.cur h1
              have hr := hroom r.reverse [a] y (by rw [List.reverse_cons]) hy
              have : ((Server.new max authn boundary minCompress bufferSize comp : Server A).run L r.reverse).sock.bufferSize = bufferSize := hbs
              rw [this] at hlag
              omega
            have : missedOf (y.task.evs ++ [ev]) = missedOf y.task.evs := by
              cases ev with
              | lagged k => exact (hmiss k rfl).elim
              | _ => simp [missedOf]
            rw [this]; exact h0
      · rw [h]; rfl
  have hmiss := hm acts.reverse x (by rw [List.reverse_reverse]; exact hx) (by rw [List.reverse_reverse]; exact hroom)
  refine ⟨hmiss, ?_⟩
  obtain ⟨hI, -, -, -, hbs, -, -⟩ := run_inv' (L := L) (Q := fun _ => True) acts
    (new_srvInv L _ max authn boundary minCompress bufferSize comp) (fun _ _ => trivial)
  generalize (Server.new max authn boundary minCompress bufferSize comp : Server A).run L acts = s at *
  cases hb : s.sock.chan with
  | none => have := (hI.unbound hb).2.1; rw [this] at hx; simp at hx
  | some b =>
    obtain ⟨d, -, -, hB⟩ := hI.bound b hb
    obtain ⟨-, -, hsince, acts₁, acts₂, h3, h4, h5, h6⟩ := hB.ses i x hx
    have hT := task_cursor (L := L) h3 (t := x.task) (by rw [h4]; simp [Server.sys, hx])
    rw [h5, h6, List.take_append_drop, List.length_take, Nat.min_eq_left hsince] at hT
    have h7 := replay_took _ _ _ _ hT.cur.walk hmiss
    have h8 := hT.cur.count
    rw [hmiss] at h8
    rw [h7]
    have h9 : s.log.drop x.task.next = (s.log.drop x.since).drop (tookOf x.task.evs).length := by
      rw [List.drop_drop]; congr 1; omega
    rw [h9, List.take_append_drop]

/-- C67, when there is always room. A publisher and a subscriber socket, each with any history of its own; a client of the publisher is connected to the subscriber
over a connection that stays open. Suppose

* there was room: the client's session at the publisher was at no moment more than `session_buffer_size` messages behind; at no moment 1024 messages of the
  connection were waiting at the subscriber for its background task, nor was the buffer for the user (`ingress_buffer_size`) full; at most 64 subscription commands and
  fewer bytes of them than the write buffer holds (see C46);
* both ends have drained: the control frames were sent and read, the session has taken all that was published and has handed its frames to the connection, the subscriber
  has read them and its background task has taken them;
* the subscriptions are to literal topics and reached the publisher before its session took the first message.

Then the user has received exactly the messages that the publish calls since the client was admitted were about on its topics, in order, with their payloads. -/
theorem C67_enough_room [DecidableEq A] (L : Lossy) (D : Decompressors) (max : Option Nat) (authn : Option (Bytes → Bool))
    (boundary minCompress bufferSize : Nat) (comp : Option Compressor) (hcomp : ∀ c, comp = some c → Spec.Inverts D c)
    (acts : List (SrvAct A)) (srv : Server A) (hsrv : srv = (Server.new max authn boundary minCompress bufferSize comp : Server A).run L acts)
    (i : Nat) (x : Ses A) (hx : srv.ses[i]? = some x)
    (hsmall : ∀ c ∈ pubCalls acts, ∀ m, c.prepare minCompress comp = some m → m.payload.length < 2 ^ 32)
    (opts : Sub.Options) (now : Nat) (d0 d : Sub.Driver A) (h0 : Sub.Driver.new opts now = .ok d0) (sacts : List (Sub.Act A))
    (hr : d0.run L D sacts = .ok d) (hopen : d.closed = false) (a : A) (u : Nat) (s : Sub.Session)
    (ha : d.Active a u) (hs : d.sessions[u]? = some s) (ho : s.over = false)
    -- the connection
    (hOpen : OpenAns s.input0 ∧ OpenAns x.input)
    (hToSub : dataOf s.input0 = x.task.sess.wr.wire ++ x.task.sess.wr.buf) (hToPub : dataOf x.input = s.wr.wire)
    -- there was room
    (hRoomPub : ∀ pre suf y, acts = pre ++ suf → ((Server.new max authn boundary minCompress bufferSize comp : Server A).run L pre).ses[i]? = some y →
      ((Server.new max authn boundary minCompress bufferSize comp : Server A).run L pre).log.length ≤ y.task.next + bufferSize)
    (hRoomSub : ∀ pre suf e, sacts = pre ++ suf → d0.run L D pre = .ok e →
      e.inbox.length < opts.ingress ∧ ∀ t : Sub.Session, e.sessions[u]? = some t → t.toDriver.length < 1024)
    (hq : s.offered.length ≤ 64) (hw : s.wr.wire.length < opts.readBuffer)
    -- both ends have drained
    (hc : s.cmds = []) (he : s.egress = []) (hb : s.wr.buf = [])
    (hPubRead : s.wr.wire.length + x.input.length + 1 ≤ Spec.pollsOf x.task.evs)
    (hTook : x.task.next = srv.log.length) (hSent : x.task.sess.pending = none)
    (hSubRead : (pubCalls acts).length + s.input0.length + 1 ≤ s.polls) (hTaken : s.toDriver = [])
    -- the subscriptions
    (hLit : ∀ op ∈ d.processed.filterMap Sub.Command.op, Spec.Literal op.pattern)
    (evs₁ evs₂ : List Pub.Ev) (hevs : x.task.evs = evs₁ ++ evs₂) (hBefore : Spec.tookOf evs₁ = [])
    (hAfter : Spec.opsOf L evs₂ = []) :
    ∃ pre e post, acts = pre ++ .driver e :: post ∧
      startedBy L (Server.new max authn boundary minCompress bufferSize comp : Server A) pre e i ∧
      ((Sub.ofConn u (d.received ++ d.inbox)).map fun m => (m.topic, m.payload)) =
        (((callsAfter pre (.driver e :: post)).filter fun c => (c.prepare minCompress comp).isSome).filter
          fun c => Spec.active (d.processed.filterMap Sub.Command.op) c.topic).map fun c => (c.topic, c.payload) := by
  subst hsrv
  have hreach : Sub.Reach L D d := ⟨opts, now, d0, sacts, h0, hr⟩
  have hal : s.alive = true := by
    obtain ⟨-, t, h1, h2⟩ := hreach.inv.act a u ha
    rw [hs] at h1; cases h1; exact h2
  have hd0 : d0.opts = opts ∧ d0.sessions = [] ∧ d0.fates = [] := by
    unfold Sub.Driver.new at h0
    split at h0
    · cases h0
    · cases h0; exact ⟨rfl, rfl, rfl⟩
  have hopt : d.opts = opts := by rw [(Sub.run_steps sacts d0 d hr).grow.2.2.2.2, hd0.1]
  have hno : Sub.NoLoss u d := by
    refine Sub.NoLoss.run sacts hr ⟨by rw [hd0.2.2]; simp, by rw [hd0.2.1]; simp⟩ hopen (fun t ht => ?_) (fun pre suf f hp hf => ?_)
    · rw [hs] at ht; cases ht; exact hal
    · obtain ⟨g1, g2⟩ := hRoomSub pre suf f hp hf
      rw [(Sub.run_steps pre d0 f hf).grow.2.2.2.2, hd0.1]
      exact ⟨g1, g2⟩
  have hin := C23_publisher_in_time L max authn boundary minCompress bufferSize comp acts i x hx hRoomPub
  obtain ⟨pre, e, post, h1, h2, acts₁, acts₂, b, h3, h4, h5, h6, h7⟩ := session_history' L max authn boundary minCompress bufferSize comp acts i x hx
  refine ⟨pre, e, post, h1, h2, ?_⟩
  have hmem : ∀ c ∈ callsAfter pre (.driver e :: post), c ∈ pubCalls acts := by
    intro c hc
    rw [h1]
    exact List.mem_of_mem_drop hc
  have hlen : (callsAfter pre (.driver e :: post)).length ≤ (pubCalls acts).length := by
    rw [h1]
    unfold callsAfter
    rw [List.length_drop]
    omega
  have hmap : ∀ calls : List PubCall, (calls.filter fun c => (c.prepare minCompress comp).isSome).map (PubCall.prepare minCompress comp) =
      (calls.filterMap (PubCall.prepare minCompress comp)).map some := by
    intro calls
    induction calls with
    | nil => rfl
    | cons c calls ih =>
      cases hc : c.prepare minCompress comp with
      | none => simp [hc, ih]
      | some m => simp [hc, ih]
  have ht : ((Sys.new bufferSize).run L (acts₁ ++ .connect i boundary x.input :: acts₂)).tasks i = some x.task := by
    rw [h5]; simp [Server.sys, hx]
  have hT := task_cursor (L := L) h4 ht
  have hcount := hT.cur.count
  rw [hin.1, hTook, ← h6, List.length_append] at hcount
  have htk : (tookOf x.task.evs).length = (published acts₂).length := by omega
  generalize callsAfter pre (.driver e :: post) = calls at *
  have hplen : (published acts₂).length = (calls.filter fun c => (c.prepare minCompress comp).isSome).length := by
    have := congrArg List.length (hmap calls)
    rw [List.length_map, List.length_map, ← h7] at this
    exact this.symm
  refine C67_everything_arrives L D bufferSize acts₁ acts₂ i boundary x.input x.task h4 ht minCompress comp hcomp _ ?_ ?_ d hreach hopen a u s
    ha hs ho hOpen hToSub hToPub hc he hb hPubRead htk hSent ?_ hTaken hin.1 (hno.drops s hs) hno.fates hq (by rw [hopt]; exact hw) hLit evs₁ evs₂ hevs hBefore hAfter
  · rw [hmap, h7]
  · intro m hm
    rw [h7] at hm
    obtain ⟨c, hc1, hc2⟩ := List.mem_filterMap.1 hm
    exact hsmall c (hmem c hc1) m hc2
  · have := List.length_filter_le (fun c : PubCall => (c.prepare minCompress comp).isSome) calls
    omega

namespace E2EServer
open E2E

/-- Whether along a history of the publisher a session is never more than `n` messages behind. -/
def inTime (n i : Nat) : Server Nat → List (SrvAct Nat) → Bool
  | s, acts =>
    (match s.ses[i]? with | some y => decide (s.log.length ≤ y.task.next + n) | none => true) &&
    match acts with
    | [] => true
    | a :: as => inTime n i (s.act Lossy.strict a) as

theorem inTime_spec {n i : Nat} (acts : List (SrvAct Nat)) (s : Server Nat) (h : inTime n i s acts = true) :
    ∀ pre suf y, acts = pre ++ suf → (s.run Lossy.strict pre).ses[i]? = some y → (s.run Lossy.strict pre).log.length ≤ y.task.next + n := by
  induction acts generalizing s with
  | nil =>
    intro pre suf y hp hy
    have : pre = [] := by cases pre with | nil => rfl | cons _ _ => cases hp
    subst this
    unfold inTime at h
    simp only [Server.run, List.foldl_nil] at hy ⊢
    rw [hy] at h
    simpa using h
  | cons a as ih =>
    intro pre suf y hp hy
    unfold inTime at h
    simp only [Bool.and_eq_true] at h
    cases pre with
    | nil =>
      simp only [Server.run, List.foldl_nil] at hy ⊢
      have h1 := h.1
      rw [hy] at h1
      simpa using h1
    | cons x xs =>
      simp only [List.cons_append, List.cons.injEq] at hp
      obtain ⟨rfl, hp⟩ := hp
      exact ih _ h.2 xs suf y hp hy

/-- There was room at the publisher, and its session has taken everything. -/
theorem srv_room : inTime 8 0 (Server.new none none 8192 10 8 none) srvActs = true ∧
    (match srv.ses[0]? with | some x => decide (x.task.next = srv.log.length) && decide (x.task.next = 4) | none => false) = true := by
  decide +kernel

/-- There was room at the subscriber. -/
theorem sub_room : (match (Sub.Driver.new {} 0 : R (Sub.Driver Nat)) with | .ok d => roomy {} 0 d subActs | .panic => false) = true := by decide +kernel

/-- All hypotheses of `C67_enough_room` are met by this pair: three messages, two of them on the topic. -/
example : ∃ (d : Sub.Driver Nat), Sub.Reach Lossy.strict noDec d ∧
    ((Sub.ofConn 0 (d.received ++ d.inbox)).map fun m => (m.topic, m.payload)) = [(['a'], [1]), (['a'], [3, 4])] ∧
    ∃ pre e post, srvActs = pre ++ .driver e :: post ∧
      ((Sub.ofConn 0 (d.received ++ d.inbox)).map fun m => (m.topic, m.payload)) =
        (((callsAfter pre (.driver e :: post)).filter fun c => (c.prepare 10 none).isSome).filter
          fun c => Spec.active (d.processed.filterMap Sub.Command.op) c.topic).map fun c => (c.topic, c.payload) := by
  have hp := srv_ok
  have hrp := srv_room.2
  have hrs := sub_room
  have hok := sub_ok
  unfold after at hok
  cases h0 : (Sub.Driver.new {} 0 : R (Sub.Driver Nat)) with
  | panic => rw [h0] at hok; cases hok
  | ok d0 =>
    rw [h0] at hok hrs
    simp only at hok hrs
    cases hrun : d0.run Lossy.strict noDec subActs with
    | panic => rw [hrun] at hok; cases hok
    | ok d =>
      rw [hrun] at hok
      simp only at hok
      refine ⟨d, ⟨{}, 0, d0, subActs, h0, hrun⟩, ?_⟩
      cases hx : srv.ses[0]? with
      | none => rw [hx] at hp; cases hp
      | some x =>
        rw [hx] at hp hrp
        cases hs : d.sessions[0]? with
        | none => rw [hs] at hok; simp at hok
        | some s =>
          rw [hs] at hok
          simp only [Bool.and_eq_true, decide_eq_true_eq, and_assoc] at hok hp hrp
          obtain ⟨h1, h2, h3, h4, h5, h6, h7, h8, h9, h10, h11, h12, h13, h14, h15, h16, h17⟩ := hok
          obtain ⟨p0, p1, p2, p3, p4, p5, p6, p7, p8⟩ := hp
          refine ⟨by rw [h16, h17]; rfl, ?_⟩
          obtain ⟨pre, e, post, q1, -, q3⟩ := C67_enough_room Lossy.strict noDec none none 8192 10 8 none (fun c h => by cases h)
            srvActs srv rfl 0 x hx (by decide +kernel) {} 0 d0 d h0 subActs hrun h11 5 0 s (by unfold Sub.Driver.Active; rw [h12]; decide) hs h4
            (by rw [h1, p0]; unfold OpenAns; decide) (by rw [h1, p1]; decide) (by rw [h2, p0]; decide)
            (inTime_spec srvActs _ srv_room.1) (roomy_spec subActs d0 hrs) (by rw [h9]; decide) (by rw [h2]; decide) h5 h6 h3
            (by rw [h2, p0]; exact p5) hrp.1 p2
            (by rw [h1]; exact Nat.le_trans (by decide +kernel) h10) h7 (by
              rw [h13]
              intro op hop
              simp only [List.filterMap_cons, List.filterMap_nil, Sub.Command.op, List.mem_singleton] at hop
              subst hop
              unfold Spec.Literal
              decide) (x.task.evs.take 40) (x.task.evs.drop 40) (List.take_append_drop 40 x.task.evs).symm p3 p4
          exact ⟨pre, e, post, q1, q3⟩

end E2EServer

end MsgRs.Props
