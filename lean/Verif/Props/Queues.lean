import Verif.Props.Memory
import Verif.Props.RepServer
import Verif.Proofs.SubReturns
/-!
# C104: the queues inside the sockets
-/
namespace MsgRs.Props
open MsgRs Spec

/-! ## What is bounded -/

theorem sub_cmdq {A : Type} [DecidableEq A] {L : Lossy} {D : Decompressors} {d : Sub.Driver A} (h : Sub.Reach L D d) : d.cmdq.length ≤ Sub.cmdCap := by
  obtain ⟨opts, now, d0, acts, h0, h1⟩ := h
  have hs := Sub.run_steps (L := L) (D := D) acts d0 d h1
  refine hs.induct (P := fun d => d.cmdq.length ≤ Sub.cmdCap) (fun d e h hi => ?_) ?_
  · have hconn : ∀ (d : Sub.Driver A) a, (d.connect a).cmdq = d.cmdq := by intro d a; unfold Sub.Driver.connect; split <;> rfl
    have hreset : ∀ (d : Sub.Driver A) a, (d.resetPublisher a).cmdq = d.cmdq := by intro d a; exact (Sub.hangUp_same d a).2.2.1
    cases h with
    | push c hc hl => simp only [List.length_append, List.length_singleton]; omega
    | command c q hq =>
      rw [hq] at hi
      rw [(Sub.command_opts { d with cmdq := q, processed := d.processed ++ [c] } c).2]
      simp only [List.length_cons] at hi
      exact Nat.le_of_succ_le hi
    | take a u s t ms payload _ _ _ _ => unfold Sub.Driver.deliver; split <;> (try split) <;> exact hi
    | lost a u s _ _ _ _ => rw [hreset]; exact hi
    | retry a b _ => rw [hconn]; exact hi
    | joinOk i a order out via input _ _ => unfold Sub.Driver.onConnection; split <;> exact hi
    | _ => exact hi
  · unfold Sub.Driver.new at h0
    split at h0 <;> cases h0
    exact Nat.zero_le _

/-- C104, subscriber: whatever its history, a subscriber holds at most `ingress_queue_size` messages its user has not received and 1024 commands its background task has not handled; for each publisher at most
1024 messages between session and background task, 64 commands for the session, and a write buffer of `read_buffer_size - 1` bytes and one frame of a subscription. -/
theorem C104_subscriber {A : Type} [DecidableEq A] (L : Lossy) (D : Decompressors) (d : Sub.Driver A) (h : Sub.Reach L D d) :
    d.inbox.length ≤ d.opts.ingress ∧ d.cmdq.length ≤ 1024 ∧
    ∀ s ∈ d.sessions, s.toDriver.length ≤ 1024 ∧ s.cmds.length ≤ 64 ∧ s.wr.buf.length ≤ d.opts.readBuffer - 1 + 65555 := by
  refine ⟨h.inv.cap, sub_cmdq h, fun s hs => ?_⟩
  obtain ⟨u, hu⟩ := List.mem_iff_getElem?.mp hs
  have hi := h.inv.sess u s hu
  exact ⟨hi.caps.2, hi.caps.1, by rw [← h.inv.bound u s hu]; exact hi.wbuf⟩

/-- A subscriber with a full inbox and messages still in the session. -/
example : after { ingress := 1 } [.call (.connect 5), .iter ⟨[], [], none⟩, .iter ⟨[], [], conn [.data (msgA 0 1 ++ msgA 0 2)]⟩, .session 0 {}, .iter ⟨[5], [], none⟩, .session 0 {}, .session 0 {}]
    (fun d => decide (d.inbox.length = 1) && decide (d.sessions.map (·.toDriver.length) = [1])) = true := by decide +kernel

/-- C104, replier: whatever its history, a reply socket holds at most 1024 requests its user has not received. -/
theorem C104_replier {A : Type} [DecidableEq A] (D : Decompressors) (max authn comp) (s : Rep.Socket A) (h : RepReach D max authn comp s) (d : Rep.Driver A)
    (hd : s.drv = some d) : d.inbox.length ≤ 1024 := by
  obtain ⟨acts, hr⟩ := h
  have hcomp : ∀ (d : Rep.Driver A) x sl, (d.complete x sl).inbox = d.inbox ∧ (d.complete x sl).cap = d.cap := fun _ _ _ => ⟨rfl, rfl⟩
  refine (sock_induct (D := D) (Q := fun _ => True) (P := fun d => d.inbox.length ≤ 1024 ∧ d.cap ≤ 1024) ?_ ?_ ?_ acts _ s (Rep.SockInv.new D max authn comp) rfl rfl rfl
    (fun d hd => by cases hd) (fun _ _ => trivial) hr d hd).1
  · exact ⟨Nat.zero_le _, Nat.le_refl _⟩
  · intro d a d' hv hP _ ha
    cases a with
    | peer k e =>
      simp only [Rep.Driver.act, Rep.Driver.stepPeer] at ha
      cases hk : d.peers[k]? with
      | none => rw [hk] at ha; cases ha; exact hP
      | some p =>
        rw [hk] at ha
        simp only at ha
        cases hit : p.iter d.comp d.slots d.next e with
        | panic => rw [hit] at ha; cases ha
        | ok r =>
          obtain ⟨p', o⟩ := r
          rw [hit] at ha
          simp only [R.bind_ok] at ha
          cases o with
          | request x m =>
            cases ha
            unfold Rep.Driver.onRequest
            cases tryDecompress D m.header.ctype m.payload with
            | none => exact hP
            | some pl =>
              simp only
              split
              · rename_i hlt
                refine ⟨?_, hP.2⟩
                simp only [List.length_append, List.length_singleton]
                have := hP.2
                omega
              · exact hP
          | closed => cases ha; exact hP
          | sent m => cases ha; exact hP
          | queued => cases ha; exact hP
          | error => cases ha; exact hP
          | pending => cases ha; exact hP
    | join i =>
      simp only [Rep.Driver.act] at ha
      cases ha
      unfold Rep.Driver.stepJoin
      repeat' split
      all_goals exact hP
    | ready i ok =>
      simp only [Rep.Driver.act] at ha
      cases ha
      unfold Rep.Driver.stepConn
      repeat' split
      all_goals (try simp only)
      all_goals (repeat' split)
      all_goals exact hP
    | accept c =>
      simp only [Rep.Driver.act] at ha
      cases ha
      unfold Rep.Driver.stepAccept
      repeat' split
      all_goals exact hP
    | recv =>
      simp only [Rep.Driver.act] at ha
      cases hin : d.inbox with
      | nil => rw [hin] at ha; cases ha; exact hP
      | cons r rs =>
        rw [hin] at ha
        cases ha
        have := hP.1
        rw [hin] at this
        simp only [List.length_cons] at this
        exact ⟨Nat.le_of_succ_le this, hP.2⟩
    | respond i b =>
      simp only [Rep.Driver.act] at ha
      split at ha <;> (cases ha; exact hP)
    | drop i =>
      simp only [Rep.Driver.act] at ha
      split at ha <;> (cases ha; exact hP)
  · intro d hP
    have key : ∀ (l : List (Rep.Request A)) (e : Rep.Driver A), e.inbox = [] ∧ e.cap = 0 →
        (l.foldl (fun d r => d.complete r.handle .dropped) e).inbox = [] ∧ (l.foldl (fun d r => d.complete r.handle .dropped) e).cap = 0 := by
      intro l
      induction l with
      | nil => intro e h; exact h
      | cons r l ih => intro e h; exact ih _ h
    have := key d.inbox { d with inbox := [], taken := d.taken ++ d.inbox, cap := 0 } ⟨rfl, rfl⟩
    unfold Rep.Driver.closeInbox
    exact ⟨by rw [this.1]; exact Nat.zero_le _, by rw [this.2]; exact Nat.zero_le _⟩

/-- C104, requester: at most 1024 calls are in the channel to the background task. -/
theorem C104_requester (D : Decompressors) (opts comp) (s : Req.Socket) (h : SocketReach D opts comp s) (d : Req.State) (hd : s.drv = some d) :
    d.queue.length ≤ 1024 := (h.inv.reach d hd).2.2.2

/-! ## What is not -/

/-- The background task of a reply socket whose only client is blocked: its write buffer is full and `k` answers wait behind it. -/
structure Jam (k : Nat) (rest : List ReadAns) (d : Rep.Driver Nat) : Prop where
  free : d.inbox = [] ∧ d.held = [] ∧ d.cap = 1024 ∧ d.comp = none
  peer : ∃ p, d.peers = [p] ∧ p.wr.boundary ≤ p.wr.buf.length ∧ p.wr.wire = [] ∧ p.egress.length = k ∧ p.pend = [] ∧ p.queue = [] ∧ p.input = rest ∧
    p.rd = { st := .header, buf := [], eof := false, readable := true, errored := false }

/-- An iteration of the task in which the client's connection takes nothing. -/
def jamEnv : Rep.PEnv := ⟨[], []⟩

theorem jam_iter {A : Type} (comp slots next) (p : Rep.Peer A) (h : p.wr.boundary ≤ p.wr.buf.length) :
    p.iter comp slots next jamEnv = p.completeStep comp slots next := by
  have hf : p.flushStep jamEnv = p := by
    unfold Rep.Peer.flushStep jamEnv
    split
    · simp [Writer.flush]
    · rfl
  unfold Rep.Peer.iter
  rw [hf]
  have : p.wr.ready jamEnv.readyAns = (.pending, p.wr) := by
    unfold Writer.ready jamEnv
    rw [if_pos h]
    rfl
  simp only [this]

theorem jam_more (D : Decompressors) {k : Nat} {rest : List ReadAns} {d : Rep.Driver Nat} (h : Jam k (.data (reqBytes 0 []) :: rest) d) :
    ∃ d', d.run D [.peer 0 jamEnv, .recv, .respond 0 [], .peer 0 jamEnv] = .ok d' ∧ Jam (k + 1) rest d' := by
  obtain ⟨⟨h1, h2, h3, h4⟩, p, q1, q2, q2', q3, q4, q5, q6, q7⟩ := h
  have hrd : p.rd.pollNext ReqRep.codec p.input =
      .ok (.item (ReqRep.Message.new 0 0 []), { st := .header, buf := [], eof := false, readable := true, errored := false }, rest) := by
    rw [q6, q7]
    cases rest <;> rfl
  -- the request is read
  have i1 : p.iter d.comp d.slots d.next jamEnv = .ok ({ p with
      rd := { st := .header, buf := [], eof := false, readable := true, errored := false }, input := rest, polls := p.polls + 1,
      pend := [(d.next, 0)], queue := [d.next], issued := p.issued ++ [(d.next, ReqRep.Message.new 0 0 [])] }, .request d.next (ReqRep.Message.new 0 0 [])) := by
    rw [jam_iter _ _ _ _ q2]
    unfold Rep.Peer.completeStep
    rw [q4, q5]
    simp only [Rep.popQueue, Rep.Peer.readStep]
    rw [hrd]
    rfl
  have hdec : tryDecompress D (ReqRep.Message.new 0 0 []).header.ctype (ReqRep.Message.new 0 0 []).payload = some [] := rfl
  let p1 : Rep.Peer Nat := { p with
      rd := { st := .header, buf := [], eof := false, readable := true, errored := false }, input := rest, polls := p.polls + 1,
      pend := [(d.next, 0)], queue := [d.next], issued := p.issued ++ [(d.next, ReqRep.Message.new 0 0 [])] }
  obtain ⟨d1, e1, f1⟩ : ∃ d1, d.act D (.peer 0 jamEnv) = .ok d1 ∧ d1.peers = [p1] ∧ d1.inbox = [⟨d.next, p.addr, []⟩] ∧ d1.held = [] ∧ d1.cap = 1024 ∧ d1.comp = none ∧
      d1.next = d.next + 1 ∧ d1.slots = d.slots := by
    refine ⟨_, by simp only [Rep.Driver.act, Rep.Driver.stepPeer]; rw [q1]; simp only [List.getElem?_cons_zero]; rw [i1]; rfl, ?_⟩
    unfold Rep.Driver.onRequest
    rw [hdec]
    simp only
    rw [if_pos (by rw [h1, h3]; simp)]
    simp [h1, h2, h3, h4, p1, List.set]
  obtain ⟨f1, f2, f3, f4, f5, f6, f7⟩ := f1
  -- received and answered
  have e2 : d1.act D .recv = .ok { d1 with inbox := [], held := [⟨d.next, p.addr, []⟩], taken := d1.taken ++ [⟨d.next, p.addr, []⟩] } := by
    simp only [Rep.Driver.act]
    rw [f2, f3]
    rfl
  have hw : Rep.Peer.wake d.next p1 = p1 := by
    unfold Rep.Peer.wake
    rw [if_neg (by simp [p1])]
  obtain ⟨d3, e3, g⟩ : ∃ d3, ({ d1 with inbox := [], held := [⟨d.next, p.addr, []⟩], taken := d1.taken ++ [⟨d.next, p.addr, []⟩] } : Rep.Driver Nat).act D (.respond 0 []) = .ok d3 ∧
      d3.peers = [p1] ∧ d3.inbox = [] ∧ d3.held = [] ∧ d3.cap = 1024 ∧ d3.comp = none ∧ d3.next = d.next + 1 ∧ d3.slots d.next = .responded [] := by
    refine ⟨_, by simp only [Rep.Driver.act, List.getElem?_cons_zero]; rfl, ?_⟩
    simp only [Rep.Driver.complete, f1, f4, f5, f6, f7, List.map_cons, List.map_nil, hw, List.eraseIdx_cons_zero, if_true, true_and]
  obtain ⟨g1, g2, g3, g4, g5, g6, g7⟩ := g
  -- the answer is queued
  let p2 : Rep.Peer Nat := { p1 with pend := [], queue := [], egress := p1.egress ++ [ReqRep.Message.new 0 0 []], answers := p1.answers ++ [(d.next, ReqRep.Message.new 0 0 [])] }
  have i2 : p1.iter d3.comp d3.slots d3.next jamEnv = .ok (p2, .queued) := by
    rw [jam_iter _ _ _ _ (by exact q2)]
    unfold Rep.Peer.completeStep
    have : Rep.popQueue d3.slots p1.pend p1.queue = (some (d.next, some (0, [])), [], []) := by
      have hl : ([(d.next, 0)] : List (Nat × UInt32)).lookup d.next = some 0 := by simp [List.lookup]
      simp only [p1, Rep.popQueue, g7, hl]
      simp
    rw [this, g5]
    rfl
  have e4 : d3.act D (.peer 0 jamEnv) = .ok { d3 with peers := [p2] } := by
    simp only [Rep.Driver.act, Rep.Driver.stepPeer]
    rw [g1]
    simp only [List.getElem?_cons_zero]
    rw [i2]
    rfl
  refine ⟨{ d3 with peers := [p2] }, by simp only [Rep.Driver.run, e1, e2, e3, e4, R.bind_ok], ⟨g2, g3, g4, g5⟩, _, rfl, q2, q2', ?_, rfl, rfl, rfl, rfl⟩
  simp [p1, p2, q3]

theorem rep_run_append {D : Decompressors} {s t u : Rep.Socket Nat} {xs ys : List (Rep.SAct Nat)} (h : s.run D xs = .ok t) (h' : t.run D ys = .ok u) :
    s.run D (xs ++ ys) = .ok u := by
  induction xs generalizing s with
  | nil => cases h; exact h'
  | cons a xs ih =>
    simp only [Rep.Socket.run, List.cons_append] at h ⊢
    cases ha : s.act D a with
    | panic => rw [ha] at h; cases h
    | ok s1 => rw [ha, R.bind_ok] at h; rw [R.bind_ok]; exact ih h

theorem jam_many (D : Decompressors) (n : Nat) : ∀ (k : Nat) (s : Rep.Socket Nat) (d : Rep.Driver Nat), s.drv = some d → s.dropped = false →
    Jam k (List.replicate n (.data (reqBytes 0 []))) d → ∃ acts s' d', s.run D acts = .ok s' ∧ s'.drv = some d' ∧ Jam (k + n) [] d' := by
  induction n with
  | zero => intro k s d hs _ h; exact ⟨[], s, d, rfl, hs, h⟩
  | succ n ih =>
    intro k s d hs hdr h
    obtain ⟨d', h1, h2⟩ := jam_more D (rest := List.replicate n (.data (reqBytes 0 []))) h
    have hsock : s.run D [.driver (.peer 0 jamEnv), .next, .driver (.respond 0 []), .driver (.peer 0 jamEnv)] = .ok { s with drv := some d' } := by
      simp only [Rep.Driver.run] at h1
      cases e1 : d.act D (.peer 0 jamEnv) with
      | panic => rw [e1] at h1; cases h1
      | ok d1 =>
        rw [e1, R.bind_ok] at h1
        cases e2 : d1.act D .recv with
        | panic => rw [e2] at h1; cases h1
        | ok d2 =>
          rw [e2, R.bind_ok] at h1
          cases e3 : d2.act D (.respond 0 []) with
          | panic => rw [e3] at h1; cases h1
          | ok d3 =>
            rw [e3, R.bind_ok] at h1
            cases e4 : d3.act D (.peer 0 jamEnv) with
            | panic => rw [e4] at h1; cases h1
            | ok d4 =>
              rw [e4, R.bind_ok] at h1
              cases h1
              have a1 : s.act D (.driver (.peer 0 jamEnv)) = .ok { s with drv := some d1 } := by
                simp only [Rep.Socket.act, hs, e1, R.bind_ok]; rfl
              have a2 : ({ s with drv := some d1 } : Rep.Socket Nat).act D .next = .ok { s with drv := some d2 } := by
                simp only [Rep.Socket.act, hdr, Bool.false_eq_true, if_false, Rep.Socket.pollNext]
                simp only [Rep.Driver.act] at e2
                cases hin : d1.inbox with
                | nil => rw [hin] at e2; cases e2; rfl
                | cons r rs => rw [hin] at e2; cases e2; rfl
              have a3 : ({ s with drv := some d2 } : Rep.Socket Nat).act D (.driver (.respond 0 [])) = .ok { s with drv := some d3 } := by
                simp only [Rep.Socket.act, e3, R.bind_ok]; rfl
              have a4 : ({ s with drv := some d3 } : Rep.Socket Nat).act D (.driver (.peer 0 jamEnv)) = .ok { s with drv := some d' } := by
                simp only [Rep.Socket.act, e4, R.bind_ok]; rfl
              simp only [Rep.Socket.run, a1, a2, a3, a4, R.bind_ok]
    obtain ⟨acts, s', d'', k1, k2, k3⟩ := ih (k + 1) { s with drv := some d' } d' rfl hdr h2
    refine ⟨_, s', d'', rep_run_append hsock k1, k2, by rw [show k + (n + 1) = k + 1 + n by omega]; exact k3⟩

/-- C104 fails for a reply socket: a client that sends requests and never reads the answers makes the socket hold as many answers as it likes: for every `n` there is a history in which one
client has been sent nothing and `n` answers wait in the queue behind its full write buffer. -/
theorem C104_refuted_replier (D : Decompressors) (n : Nat) : ∃ (s : Rep.Socket Nat) (d : Rep.Driver Nat) (p : Rep.Peer Nat), RepReach D none none none s ∧
    s.drv = some d ∧ d.peers = [p] ∧ p.wr.wire = [] ∧ n ≤ p.egress.length := by
  have h0 : ∀ (X : Bytes) (rest : List ReadAns), 8192 ≤ X.length → ∃ (s : Rep.Socket Nat) (d : Rep.Driver Nat),
      (Rep.Socket.new none none none : Rep.Socket Nat).run D [.bind some [7], .driver (.accept ⟨1, some 1, ⟨.data (reqBytes 0 []) :: rest, [], [], []⟩⟩), .driver (.ready 0 true),
        .driver (.peer 0 jamEnv), .next, .driver (.respond 0 X), .driver (.peer 0 jamEnv), .driver (.peer 0 jamEnv)] = .ok s ∧ s.drv = some d ∧ s.dropped = false ∧ Jam 0 rest d := by
    intro X rest hX
    have hlen : 8192 ≤ (([] : Bytes) ++ ReqRep.encode (ReqRep.Message.new 0 0 X)).length := by
      simp only [List.nil_append, ReqRep.encode, ReqRep.Message.new, List.length_append]
      omega
    cases rest <;> exact ⟨_, _, rfl, rfl, rfl, ⟨rfl, rfl, rfl, rfl⟩, _, rfl, hlen, rfl, rfl, rfl, rfl, rfl, rfl⟩
  obtain ⟨s, d, h1, h2, h3, h4⟩ := h0 (List.replicate 8192 0) (List.replicate n (.data (reqBytes 0 []))) (by rw [List.length_replicate]; exact Nat.le_refl _)
  obtain ⟨acts, s', d', k1, k2, -, p, k3, -, k4, k5, -⟩ := jam_many D n 0 s d h2 h3 h4
  exact ⟨s', d', p, ⟨_, rep_run_append h1 k1⟩, k2, k3, k4, by rw [k5]; omega⟩

/-! A request socket -/

/-- The background task of a request socket whose server is blocked: the write buffer is full and `k` requests wait behind it; nothing else is going on. -/
structure ReqJam (k : Nat) (s : Req.State) : Prop where
  up : s.ended = false ∧ s.closed = false ∧ s.queue = [] ∧ s.connTask = false ∧ s.flushIv = none
  conn : ∃ c, s.conn = .active c ∧ c.wr.boundary ≤ c.wr.buf.length ∧ c.wr.wire = [] ∧ c.input = [] ∧ c.rd = { st := .header }
  egress : s.egress.length = k

theorem reqJam_more (D : Decompressors) {k : Nat} {s : Req.State} (h : ReqJam k s) (b : Bytes) :
    ∃ s', s.run D [.request b, .iter {}] = .ok s' ∧ ReqJam (k + 1) s' := by
  obtain ⟨⟨h1, h2, h3, h4, h5⟩, ⟨c, c1, c2, c3, c4, c5⟩, h6⟩ := h
  have a1 : s.act D (.request b) = .ok { s with calls := s.calls ++ [{ payload := b, time := s.now }], queue := [(s.calls.length, b)] } := by
    simp only [Req.State.act, h2, Bool.false_eq_true, if_false]
    simp [h1, h3]
  let s1 : Req.State := { s with calls := s.calls ++ [{ payload := b, time := s.now }], queue := [(s.calls.length, b)] }
  have hfl : s1.flushStep {} = s1 := by
    unfold Req.State.flushStep Req.State.wantFlush
    have e1 : s1.flushIv = none := h5
    have e2 : s1.conn = .active c := c1
    have hw : c.wr.flush ({} : Req.Env).flushAns = (.pending, c.wr) := rfl
    by_cases hs : s1.shouldFlush = true
    · rw [if_pos hs, e1]
      simp only
      rw [e2]
      simp only [hw]
      rw [← e2]
    · rw [if_neg hs, e1]
      simp only [Option.map_none]
      rw [← e1]
  have htask : s1.taskStep {} = .ok s1 := by
    unfold Req.State.taskStep
    rw [if_neg (by show ¬ s.connTask = true; rw [h4]; simp)]
  have hp : c.rd.pollNext ReqRep.codec c.input = .ok (.pending, { st := .header }, []) := by
    rw [c4, c5]; rfl
  have hr : c.wr.ready ({} : Req.Env).readyAns = (.pending, c.wr) := by
    unfold Writer.ready; rw [if_pos c2]; rfl
  let c' : Req.Chan := { c with rd := { st := .header }, input := [], polls := c.polls + 1 }
  let s2 : Req.State := ({ s1 with conn := .active c' } : Req.State).tickLoop (s1.now + 1)
  obtain ⟨t1, -, t3, -, -, -, t7⟩ := Req.tickLoop_fields (s1.now + 1) { s1 with conn := .active c' }
  obtain ⟨-, t8, -, t10, t11, -⟩ := Req.tickLoop_steps (D := D) (s1.now + 1) { s1 with conn := .active c' } h1
  have t12 : s2.connTask = false := by
    have : ∀ n (s : Req.State), (s.tickLoop n).connTask = s.connTask := by
      intro n
      induction n with
      | zero => intro s; rfl
      | succ n ih =>
        intro s
        unfold Req.State.tickLoop
        rcases hq : s.checkIv.tick s.now with ⟨x, iv⟩
        cases x with
        | false => rfl
        | true => rw [ih]; rfl
    exact (this _ _).trans h4
  have a2 : s1.act D (.iter {}) = .ok ({ s2 with queue := [] }.onCommand s.calls.length b) := by
    simp only [Req.State.act]
    rw [if_neg (by show ¬ s.ended = true; rw [h1]; simp)]
    unfold Req.State.iter
    rw [hfl, htask, R.bind_ok]
    have e2 : s1.conn = .active c := c1
    rw [e2]
    simp only
    rw [hp]
    simp only [R.bind_ok]
    unfold Req.State.writeStep
    simp only
    rw [hr]
    simp only
    unfold Req.State.lateStep
    simp only
    have hq : (({ s1 with conn := .active c' } : Req.State).tickLoop (s1.now + 1)).queue = [(s.calls.length, b)] := t10
    have hq' : ({ s1 with conn := .active { c' with wr := c.wr } } : Req.State).tickLoop (s1.now + 1) = s2 := rfl
    simp only [c'] at hq hq'
    rw [hq]
    rfl
  have hrun : s.run D [.request b, .iter {}] = .ok ({ s2 with queue := [] }.onCommand s.calls.length b) := by
    simp only [Req.State.run]
    rw [a1, R.bind_ok]
    show (s1.act D (.iter {})).bind _ = _
    rw [a2]
    rfl
  refine ⟨_, hrun, ⟨t8, ?_, rfl, t12, ?_⟩, ⟨c', t1, c2, c3, rfl, rfl⟩, ?_⟩
  · exact t11.trans h2
  · exact t3.trans h5
  · show (s2.egress ++ [_]).length = k + 1
    have : s2.egress = s.egress := t7
    rw [this]
    simp [h6]

/-- C104 fails for a request socket: while its server takes nothing, the background task goes on receiving requests and putting them into a queue without a bound (and a request that times out
stays in it): for every `n` there is a history in which nothing was written to the connection and `n` requests wait behind the full write buffer. -/
theorem C104_refuted_requester (D : Decompressors) (n : Nat) : ∃ (s : Req.State) (c : Req.Chan), ReqReach D { boundary := 1 } none s ∧ s.conn = .active c ∧ c.wr.wire = [] ∧ n ≤ s.egress.length := by
  obtain ⟨s0, s, h0, h1, h2⟩ : ∃ s0 s, Req.State.new { boundary := 1 } none 0 = .ok s0 ∧
      s0.run D [.iter {}, .advance 20000000, .iter {}, .request [], .iter { task := some (some ⟨[], [], [], []⟩) }, .iter {}] = .ok s ∧ ReqJam 0 s :=
    ⟨_, _, rfl, rfl, ⟨rfl, rfl, rfl, rfl, rfl⟩, ⟨_, rfl, by decide, rfl, rfl, rfl⟩, rfl⟩
  have many : ∀ n, ∃ acts s', s.run D acts = .ok s' ∧ ReqJam n s' := by
    intro n
    induction n with
    | zero => exact ⟨[], s, rfl, h2⟩
    | succ n ih =>
      obtain ⟨acts, s1, k1, k2⟩ := ih
      obtain ⟨s2, k3, k4⟩ := reqJam_more D k2 []
      exact ⟨acts ++ [.request [], .iter {}], s2, by rw [Req.run_append, k1]; exact k3, k4⟩
  obtain ⟨acts, s', k1, k2⟩ := many n
  obtain ⟨c, q1, -, q3, -⟩ := k2.conn
  exact ⟨s', c, ⟨0, s0, _ ++ acts, h0, by rw [Req.run_append, h1]; exact k1⟩, q1, q3, by rw [k2.egress]; omega⟩

end MsgRs.Props
