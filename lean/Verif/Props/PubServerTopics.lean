import Verif.Props.TopicsSession
/-!
# C91, C67: the publisher as a whole, and what its clients get
-/
namespace MsgRs.Props
open MsgRs Spec Pub

variable {A : Type}

/-- C91, exactly what is subscribed: in every history of a publisher, what is sent (or about to be) over the connection of an
admitted client that uses literal topics is exactly the messages taken from the feed whose topic was subscribed, and not
unsubscribed since, over this connection, in the order taken. -/
theorem C91_exactly_subscribed (L : Lossy) (max : Option Nat) (authn : Option (Bytes → Bool)) (boundary minCompress bufferSize : Nat) (comp : Option Compressor)
    (acts : List (SrvAct A)) (i : Nat) (x : Ses A)
    (hx : ((Server.new max authn boundary minCompress bufferSize comp : Server A).run L acts).ses[i]? = some x)
    (hlit : ∀ op ∈ opsOf L x.task.evs, Literal op.pattern) :
    sentOf x.task.evs ++ x.task.sess.pending.toList = dueBy L active [] 0 x.task.evs := by
  obtain ⟨-, -, -, -, -, acts₁, acts₂, h3, h4, -⟩ := session_history L max authn boundary minCompress bufferSize comp acts i x hx
  obtain ⟨es, hrun⟩ := Pub.sys_task_run h3 h4
  exact C15_session L boundary x.input es x.task.sess x.task.evs hrun hlit

/-- C67 for the publisher as a whole: a client that was admitted, is connected to a subscriber socket, and whose literal
subscriptions reached the publisher before its session took the first message. If both ends have drained and nothing was dropped
for lack of room (as in `C67_everything_arrives`), the user of the subscriber socket has received exactly the messages the publish
calls since its admission were about on its topics, in order, with their payloads (a call whose compression failed published
nothing). -/
theorem C67_publisher_everything_arrives [DecidableEq A] (L : Lossy) (D : Decompressors) (max : Option Nat) (authn : Option (Bytes → Bool))
    (boundary minCompress bufferSize : Nat) (comp : Option Compressor) (hcomp : ∀ c, comp = some c → Spec.Inverts D c)
    (acts : List (SrvAct A)) (i : Nat) (x : Ses A)
    (hx : ((Server.new max authn boundary minCompress bufferSize comp : Server A).run L acts).ses[i]? = some x)
    (hsmall : ∀ c ∈ pubCalls acts, ∀ m, c.prepare minCompress comp = some m → m.payload.length < 2 ^ 32)
    (d : Sub.Driver A) (hd : Sub.Reach L D d) (hopen : d.closed = false) (a : A) (u : Nat) (s : Sub.Session)
    (ha : d.Active a u) (hs : d.sessions[u]? = some s) (ho : s.over = false)
    -- the connection
    (hOpen : OpenAns s.input0 ∧ OpenAns x.input)
    (hToSub : dataOf s.input0 = x.task.sess.wr.wire ++ x.task.sess.wr.buf) (hToPub : dataOf x.input = s.wr.wire)
    -- both ends have drained
    (hc : s.cmds = []) (he : s.egress = []) (hb : s.wr.buf = [])
    (hPubRead : s.wr.wire.length + x.input.length + 1 ≤ Spec.pollsOf x.task.evs) (hSent : x.task.sess.pending = none)
    (hSubRead : (pubCalls acts).length + s.input0.length + 1 ≤ s.polls) (hTaken : s.toDriver = [])
    -- nothing was dropped for lack of room
    (hLag : Spec.missedOf x.task.evs = 0) (hDrop : s.drops = 0)
    (hFull : ∀ y ∈ d.fates, y.1 = u → y.2.2 ≠ .full ∧ y.2.2 ≠ .gone)
    (hq : s.offered.length ≤ 64) (hw : s.wr.wire.length < d.opts.readBuffer)
    -- the subscriptions
    (hLit : ∀ op ∈ d.processed.filterMap Sub.Command.op, Spec.Literal op.pattern)
    (evs₁ evs₂ : List Pub.Ev) (hevs : x.task.evs = evs₁ ++ evs₂) (hBefore : Spec.tookOf evs₁ = [])
    (hAfter : Spec.opsOf L evs₂ = []) :
    ∃ pre e post, acts = pre ++ .driver e :: post ∧
      startedBy L (Server.new max authn boundary minCompress bufferSize comp : Server A) pre e i ∧
      ∃ calls, calls = (callsAfter pre (.driver e :: post)).filter (fun c => (c.prepare minCompress comp).isSome) ∧
        ((Spec.tookOf x.task.evs).length = calls.length →
          ((Sub.ofConn u (d.received ++ d.inbox)).map fun m => (m.topic, m.payload)) =
            (calls.filter fun c => Spec.active (d.processed.filterMap Sub.Command.op) c.topic).map fun c => (c.topic, c.payload)) := by
  obtain ⟨pre, e, post, h1, h2, acts₁, acts₂, h3, h4, h5⟩ := session_history L max authn boundary minCompress bufferSize comp acts i x hx
  refine ⟨pre, e, post, h1, h2, _, rfl, fun hTook => ?_⟩
  have hmem : ∀ c ∈ callsAfter pre (.driver e :: post), c ∈ pubCalls acts := by
    intro c hc
    rw [h1]
    exact List.mem_of_mem_drop hc
  have hlen : (callsAfter pre (.driver e :: post)).length ≤ (pubCalls acts).length := by
    rw [h1]
    unfold callsAfter
    rw [List.length_drop]
    omega
  have hmap : ∀ calls : List PubCall, (calls.filter fun c => (c.prepare minCompress comp).isSome).map (PubCall.prepare minCompress comp) =
      (calls.filterMap (PubCall.prepare minCompress comp)).map some := by
    intro calls
    induction calls with
    | nil => rfl
    | cons c calls ih =>
      cases hc : c.prepare minCompress comp with
      | none => simp [hc, ih]
      | some m => simp [hc, ih]
  generalize callsAfter pre (.driver e :: post) = calls at *
  have hplen : (published acts₂).length = (calls.filter fun c => (c.prepare minCompress comp).isSome).length := by
    have := congrArg List.length (hmap calls)
    rw [List.length_map, List.length_map, ← h5] at this
    exact this.symm
  refine C67_everything_arrives L D bufferSize acts₁ acts₂ i boundary x.input x.task h3 h4 minCompress comp hcomp _ ?_ ?_ d hd hopen a u s
    ha hs ho hOpen hToSub hToPub hc he hb hPubRead (hTook.trans hplen.symm) hSent ?_ hTaken hLag hDrop hFull hq hw hLit evs₁ evs₂ hevs hBefore hAfter
  · rw [hmap, h5]
  · intro m hm
    rw [h5] at hm
    obtain ⟨c, hc1, hc2⟩ := List.mem_filterMap.1 hm
    exact hsmall c (hmem c hc1) m hc2
  · have := List.length_filter_le (fun c : PubCall => (c.prepare minCompress comp).isSome) calls
    omega

namespace E2EServer
open E2E

/-- The connection the listener reports. -/
def client : Conn Nat := ⟨0, some 0, ⟨toPub, [], [], []⟩⟩

/-- The publisher's history: bind, a message nobody gets, accept, the subscription is read, three publish calls, everything is sent. -/
def srvActs : List (SrvAct Nat) :=
  [.bind some [80], .publish ['a'] [9], .driver ⟨none, none, some client⟩, .driver ⟨none, some (0, true), none⟩, .driver ⟨none, none, none⟩] ++
    List.replicate 40 (.session 0 E2E.env) ++ [.publish ['a'] [1], .tryPublish ['b'] [2], .publish ['a'] [3, 4]] ++
    List.replicate 12 (.session 0 E2E.env)

def srv : Server Nat := (Server.new none none 8192 10 8 none).run Lossy.strict srvActs

/-- The publisher's side. -/
theorem srv_ok : (match srv.ses[0]? with
    | some x => decide (x.input = toPub) && decide (x.task.sess.wr.wire ++ x.task.sess.wr.buf = pubBytes) && decide (x.task.sess.pending = none) &&
        decide (Spec.tookOf (x.task.evs.take 40) = []) && decide (Spec.opsOf Lossy.strict (x.task.evs.drop 40) = []) &&
        decide (subA.length + toPub.length + 1 ≤ Spec.pollsOf x.task.evs) && decide ((Spec.tookOf x.task.evs).length = 3) &&
        decide (Spec.missedOf x.task.evs = 0) && decide (opsOf Lossy.strict x.task.evs = [.sub ['a']])
    | none => false) = true := by decide +kernel

/-- All hypotheses of `C91_exactly_subscribed` and `C67_publisher_everything_arrives` are met by this pair. -/
example : ∃ (x : Ses Nat) (d : Sub.Driver Nat) (s : Sub.Session), srv.ses[0]? = some x ∧ Sub.Reach Lossy.strict noDec d ∧
    d.sessions[0]? = some s ∧ sentOf x.task.evs = dueBy Lossy.strict active [] 0 x.task.evs ∧
    ∃ pre e post calls, srvActs = pre ++ .driver e :: post ∧
      calls = (callsAfter pre (.driver e :: post)).filter (fun c => (c.prepare 10 none).isSome) ∧
      ((Spec.tookOf x.task.evs).length = calls.length →
        ((Sub.ofConn 0 (d.received ++ d.inbox)).map fun m => (m.topic, m.payload)) =
          (calls.filter fun c => Spec.active (d.processed.filterMap Sub.Command.op) c.topic).map fun c => (c.topic, c.payload)) := by
  have hp := srv_ok
  obtain ⟨d, hd, h⟩ := after_reach sub_ok
  cases hx : srv.ses[0]? with
  | none => rw [hx] at hp; cases hp
  | some x =>
    rw [hx] at hp
    cases hs : d.sessions[0]? with
    | none => rw [hs] at h; simp at h
    | some s =>
      rw [hs] at h
      simp only [Bool.and_eq_true, decide_eq_true_eq, and_assoc] at h hp
      obtain ⟨h1, h2, h3, h4, h5, h6, h7, h8, h9, h10, h11, h12, h13, h14, h15, h16, h17⟩ := h
      obtain ⟨p0, p1, p2, p3, p4, p5, p6, p7, p8⟩ := hp
      refine ⟨x, d, s, rfl, hd, hs, ?_, ?_⟩
      · have := C91_exactly_subscribed Lossy.strict none none 8192 10 8 none srvActs 0 x hx (by
          rw [p8]
          intro op hop
          rw [List.mem_singleton.1 hop]
          unfold Spec.Literal
          decide)
        rw [p2] at this
        exact (List.append_nil _).symm.trans this
      · obtain ⟨pre, e, post, q1, -, calls, q2, q3⟩ := C67_publisher_everything_arrives Lossy.strict noDec none none 8192 10 8 none (fun c h => by cases h)
          srvActs 0 x hx (by decide +kernel) d hd h11 5 0 s (by unfold Sub.Driver.Active; rw [h12]; decide) hs h4 (by rw [h1, p0]; unfold OpenAns; decide)
          (by rw [h1, p1]; decide) (by rw [h2, p0]; decide) h5 h6 h3 (by rw [h2, p0]; exact p5) p2
          (by rw [h1]; exact Nat.le_trans (by decide +kernel) h10) h7 p7 h8 (by
            intro y hy _
            have : y.2.2 ∈ d.fates.map (·.2.2) := List.mem_map.2 ⟨y, hy, rfl⟩
            rw [h15] at this
            have h0 : y.2.2 = .delivered := by simpa using this
            rw [h0]
            simp) (by rw [h9]; decide) (by rw [h2, h14]; decide) (by
            rw [h13]
            intro op hop
            simp only [List.filterMap_cons, List.filterMap_nil, Sub.Command.op, List.mem_singleton] at hop
            subst hop
            unfold Spec.Literal
            decide) (x.task.evs.take 40) (x.task.evs.drop 40) (List.take_append_drop 40 x.task.evs).symm p3 p4
        exact ⟨pre, e, post, calls, q1, q2, q3⟩

end E2EServer

end MsgRs.Props
