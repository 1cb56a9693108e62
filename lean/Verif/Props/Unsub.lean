import Verif.Proofs.SubGrow
import Verif.Props.E2EQuiet
/-!
# C109: after unsubscribing
-/
namespace MsgRs.Spec
open MsgRs

/-- The frames in a list that carry a message on `topic`. -/
def framesOn (topic : Str) (l : List PubSub.Message) : List PubSub.Message := l.filter fun f => decide (f.header.topic = utf8 topic)

/-- The received messages on `topic`. -/
def messagesOn {A : Type} (topic : Str) (l : List (Sub.InMsg A)) : List (Sub.InMsg A) := l.filter fun m => decide (m.topic = topic)

end MsgRs.Spec

namespace MsgRs.Props
open MsgRs Spec Pub

variable {A : Type}

/-! ## The publisher -/

theorem active_split (a b : List Op) (p : Str) (h : active (a ++ b) p = true) : active a p = true ∨ Op.sub p ∈ b := by
  revert h
  refine Trie.snoc_induction (P := fun b => active (a ++ b) p = true → active a p = true ∨ Op.sub p ∈ b) ?_ ?_ b
  · intro h; left; simpa using h
  · intro b op ih h
    rw [← List.append_assoc, Trie.active_snoc] at h
    cases op with
    | sub q =>
      by_cases hq : q = p
      · right; simp [hq]
      · simp only [hq, if_false] at h
        exact (ih h).imp id (fun h => by simp [h])
    | unsub q =>
      by_cases hq : q = p
      · simp [hq] at h
      · simp only [hq, if_false] at h
        exact (ih h).imp id (fun h => by simp [h])

/-- A session of a publisher stays, and only adds to its history. -/
theorem act_later (L : Lossy) (s : Server A) (a : SrvAct A) (i : Nat) (x : Ses A) (h : s.ses[i]? = some x) :
    ∃ y, (s.act L a).ses[i]? = some y ∧ y.input = x.input ∧ x.task.evs <+: y.task.evs := by
  have hrec : ∀ m r, (s.record m r).ses = s.ses := by
    rintro m ⟨_ | _, _⟩ <;> rfl
  have old : (s.act L a).ses = s.ses → ∃ y, (s.act L a).ses[i]? = some y ∧ y.input = x.input ∧ x.task.evs <+: y.task.evs :=
    fun he => ⟨x, by rw [he]; exact h, rfl, List.prefix_rfl⟩
  cases a with
  | bind bind addrs =>
    apply old
    simp only [Server.act]
    split
    · rfl
    · split <;> rfl
  | publish t p => apply old; simp only [Server.act]; split; · rfl
                   · exact hrec _ _
  | tryPublish t p => apply old; simp only [Server.act]; split; · rfl
                      · exact hrec _ _
  | drop => apply old; simp only [Server.act]; split <;> rfl
  | session j e =>
    cases hx : s.ses[j]? with
    | none => apply old; simp only [Server.act, hx]
    | some z =>
      cases hc : s.sock.chan with
      | none => apply old; simp only [Server.act, hx, hc]
      | some b =>
        simp only [Server.act, hx, hc]
        by_cases hj : i = j
        · subst hj
          rw [h] at hx; cases hx
          refine ⟨{ x with task := x.task.step L b e }, List.getElem?_set_self (List.getElem?_eq_some_iff.1 h).1, rfl, ?_⟩
          simp only [Task.step]
          split
          · exact List.prefix_rfl
          · split
            · exact List.prefix_rfl
            · exact List.prefix_append _ _
        · exact ⟨x, by rw [List.getElem?_set_ne (fun h => hj h.symm)]; exact h, rfl, List.prefix_rfl⟩
  | driver e =>
    cases hd : s.drv with
    | none => apply old; simp only [Server.act, hd]
    | some d =>
      cases hc : s.sock.chan with
      | none => apply old; simp only [Server.act, hd, hc]
      | some b =>
        simp only [Server.act, hd, hc]
        exact ⟨x, by rw [List.getElem?_append_left (List.getElem?_eq_some_iff.1 h).1]; exact h, rfl, List.prefix_rfl⟩

theorem run_later (L : Lossy) (acts : List (SrvAct A)) : ∀ (s : Server A) (i : Nat) (x : Ses A), s.ses[i]? = some x →
    ∃ y, (s.run L acts).ses[i]? = some y ∧ y.input = x.input ∧ x.task.evs <+: y.task.evs := by
  induction acts with
  | nil => intro s i x h; exact ⟨x, h, rfl, List.prefix_rfl⟩
  | cons a acts ih =>
    intro s i x h
    obtain ⟨y, h1, h2, h3⟩ := act_later L s a i x h
    obtain ⟨z, g1, g2, g3⟩ := ih _ i y h1
    exact ⟨z, g1, g2.trans h2, h3.trans g3⟩

theorem srv_run_append (L : Lossy) (s : Server A) (a b : List (SrvAct A)) : s.run L (a ++ b) = (s.run L a).run L b := by
  simp [Server.run, List.foldl_append]

/-- The history of a session of a publisher, split: what is due because of the later part is on topics that some pattern matches which was subscribed in the end of the
first part, or in the later part. -/
theorem due_later {L : Lossy} (a b : List Ev) (topic : Str) (hwf : ∀ op ∈ opsOf L (a ++ b), WellFormed op.pattern)
    (hleft : ∀ p, active (opsOf L a) p = true → ¬ Matches p topic) (hno : ∀ p, .sub p ∈ opsOf L b → ¬ Matches p topic) (k : Nat) :
    framesOn topic (due L (opsOf L a) k b) = [] := by
  unfold framesOn
  rw [List.filter_eq_nil_iff]
  intro f hf
  obtain ⟨e1, m, now, j, e2, h1, rfl, hc⟩ := Pub.mem_due b hf
  intro ht
  have ht : utf8 m.topic = utf8 topic := of_decide_eq_true ht
  have hmt : m.topic = topic := by
    have := congrArg L.dec ht
    simpa [L.dec_utf8] using this
  have hsub : ∀ op ∈ opsOf L a ++ opsOf L e1, op ∈ opsOf L (a ++ b) := by
    intro op hop
    rw [opsOf_append, h1, opsOf_append]
    rcases List.mem_append.1 hop with h | h
    · exact List.mem_append.2 (.inl h)
    · exact List.mem_append.2 (.inr (List.mem_append.2 (.inl h)))
  obtain ⟨p, hp, hm⟩ := C16_no_unsolicited _ (fun op hop => hwf op (hsub op hop)) m.topic hc
  rw [hmt] at hm
  rcases active_split _ _ p hp with h | h
  · exact hleft p h hm
  · refine hno p ?_ hm
    rw [h1, opsOf_append]
    exact List.mem_append.2 (.inl h)

/-- C109 (partial), the publisher: once the publisher has handled a client's unsubscription — no pattern active over the connection matches `topic` — and as long as the client does
not subscribe to a matching pattern again, nothing published on `topic`, before or after, is sent to the client any more, except a message that had already been taken for it.
Patterns must be well-formed (C16).
Missing: that the user gets nothing after `unsubscribe()` itself is false (`C109_refuted`). -/
theorem C109_publisher_partial (L : Lossy) (max : Option Nat) (authn : Option (Bytes → Bool)) (boundary minCompress bufferSize : Nat) (comp : Option Compressor)
    (acts later : List (SrvAct A)) (i : Nat) (x y : Ses A)
    (hx : ((Server.new max authn boundary minCompress bufferSize comp : Server A).run L acts).ses[i]? = some x)
    (hy : ((Server.new max authn boundary minCompress bufferSize comp : Server A).run L (acts ++ later)).ses[i]? = some y)
    (topic : Str) (hwf : ∀ op ∈ opsOf L y.task.evs, WellFormed op.pattern)
    (hleft : ∀ p, active (opsOf L x.task.evs) p = true → ¬ Matches p topic)
    (more : List Ev) (hmore : y.task.evs = x.task.evs ++ more) (hno : ∀ p, .sub p ∈ opsOf L more → ¬ Matches p topic) :
    framesOn topic (sentOf y.task.evs ++ y.task.sess.pending.toList) = framesOn topic (sentOf x.task.evs ++ x.task.sess.pending.toList) := by
  have key : ∀ (acts : List (SrvAct A)) (x : Ses A), ((Server.new max authn boundary minCompress bufferSize comp : Server A).run L acts).ses[i]? = some x →
      sentOf x.task.evs ++ x.task.sess.pending.toList = due L [] 0 x.task.evs := by
    intro acts x hx
    obtain ⟨pre, e, post, h1, h2, acts₁, acts₂, b, h3, h4, h5, h6, h7⟩ := session_history' L max authn boundary minCompress bufferSize comp acts i x hx
    have ht : ((Sys.new bufferSize).run L (acts₁ ++ .connect i boundary x.input :: acts₂)).tasks i = some x.task := by
      rw [h5]; simp [Server.sys, hx]
    obtain ⟨es, hrun⟩ := Pub.sys_task_run h4 ht
    exact (Pub.run_winv hrun).due
  rw [key _ y hy, key _ x hx, hmore, due_append, List.nil_append]
  have := due_later x.task.evs more topic (by rw [← hmore]; exact hwf) hleft hno (0 + (due L [] 0 x.task.evs).length)
  unfold framesOn at this ⊢
  rw [List.filter_append, this, List.append_nil]

/-! ## The user of the subscriber -/

theorem inMsgOf_more {D : Decompressors} (addrs more : List A) (fates : List (Nat × Sub.TopicMsg × Sub.Fate)) (h : ∀ x ∈ fates, x.1 < addrs.length) :
    fates.filterMap (Sub.inMsgOf D (addrs ++ more)) = fates.filterMap (Sub.inMsgOf D addrs) := by
  induction fates with
  | nil => rfl
  | cons x l ih =>
    have hx : Sub.inMsgOf D (addrs ++ more) x = Sub.inMsgOf D addrs x := by
      obtain ⟨u, t, f⟩ := x
      have hu := h _ List.mem_cons_self
      simp only at hu
      cases f <;> simp only [Sub.inMsgOf]
      rw [List.getElem?_append_left hu]
    simp only [List.filterMap_cons, hx]
    rw [ih (fun x hx => h x (List.mem_cons_of_mem _ hx))]

/-- C109 (partial), end to end: a client of a publisher is connected to a subscriber. At some moment nothing is left to do and no byte is under way between the two, and the
user of the subscriber is not subscribed to any pattern matching `topic` (it may have been earlier); at most 64 subscription commands and fewer bytes of them than the write
buffer holds were needed so far. Then whatever happens later on both sides — messages on `topic` published, other topics subscribed to or left, connections lost — as long as no
matching pattern is subscribed to, the user gets no message on `topic` over this connection beyond those already in its buffer.
Missing: the same at any moment after `unsubscribe()` returned, quiet or not, is false (`C109_refuted`). -/
theorem C109_quiet_partial [DecidableEq A] (L : Lossy) (D : Decompressors) (max : Option Nat) (authn : Option (Bytes → Bool))
    (boundary minCompress bufferSize : Nat) (comp : Option Compressor) (acts later : List (SrvAct A)) (i n : Nat) (x y : Ses A)
    (hx : ((Server.new max authn boundary minCompress bufferSize comp : Server A).run L acts).ses[i]? = some x)
    (hy : ((Server.new max authn boundary minCompress bufferSize comp : Server A).run L (acts ++ later)).ses[i]? = some y)
    (hsmall : ∀ c ∈ pubCalls (acts ++ later), ∀ m, c.prepare minCompress comp = some m → m.payload.length < 2 ^ 32)
    (d d' : Sub.Driver A) (hd : Sub.Reach L D d) (sacts : List (Sub.Act A)) (hr : d.run L D sacts = .ok d') (hopen : d.closed = false)
    (a : A) (u : Nat) (s s' : Sub.Session) (ha : d.Active a u) (hs : d.sessions[u]? = some s) (hs' : d'.sessions[u]? = some s')
    (hq : s.offered.length ≤ 64) (hw : s.wr.wire.length < d.opts.readBuffer)
    -- at the first moment everything is quiet
    (hpub : SessionIdle n x.task) (hsub : LinkIdle s) (hex : Exchanged x s)
    -- at the later moment the two are still at the ends of one connection
    (hconn : Connected y.input y.task.sess s')
    -- the user is not subscribed to the topic, and does not subscribe to it
    (topic : Str) (hwf : ∀ op ∈ d'.processed.filterMap Sub.Command.op, WellFormed op.pattern)
    (hleft : ∀ p, active (d.processed.filterMap Sub.Command.op) p = true → ¬ Matches p topic)
    (asked : List (Sub.Command A)) (hasked : d'.processed = d.processed ++ asked) (hno : ∀ p, .subscribe p ∈ asked → ¬ Matches p topic) :
    messagesOn topic (Sub.ofConn u (d'.received ++ d'.inbox)) <+: messagesOn topic (Sub.ofConn u (d.received ++ d.inbox)) := by
  have hst := Sub.run_steps sacts d d' hr
  have hd' : Sub.Reach L D d' := hd.run hr
  have hi := hd.inv.sess u s hs
  have hi' := hd'.inv.sess u s' hs'
  -- the subscriber's session has grown
  obtain ⟨asked', ha1, hgr⟩ := hst.sgrow
  have hask : asked' = asked := by
    rw [hasked] at ha1; exact (List.append_cancel_left ha1).symm
  subst hask
  obtain ⟨t, ht1, hg⟩ := hgr u s hs
  rw [hs'] at ht1; cases ht1
  -- the publisher's session has grown
  obtain ⟨y', hy1, hy2, more, hmore⟩ := run_later L later _ i x hx
  rw [← srv_run_append, hy] at hy1; cases hy1
  -- the operations the publisher knows
  obtain ⟨pre, e, post, h1, h2, acts₁, acts₂, b, h3, h4, h5, h6, h7⟩ := session_history' L max authn boundary minCompress bufferSize comp acts i x hx
  have ht : ((Sys.new bufferSize).run L (acts₁ ++ .connect i boundary x.input :: acts₂)).tasks i = some x.task := by
    rw [h5]; simp [Server.sys, hx]
  obtain ⟨pre', e', post', j1, j2, bacts₁, bacts₂, b', j3, j4, j5, j6, j7⟩ := session_history' L max authn boundary minCompress bufferSize comp (acts ++ later) i y hy
  have ht' : ((Sys.new bufferSize).run L (bacts₁ ++ .connect i boundary y.input :: bacts₂)).tasks i = some y.task := by
    rw [j5]; simp [Server.sys, hy]
  have hpubd : ∀ m ∈ published bacts₂, m.payload.length < 2 ^ 32 := by
    intro m hm
    rw [j7] at hm
    obtain ⟨c, hc1, hc2⟩ := List.mem_filterMap.1 hm
    refine hsmall c ?_ m hc2
    rw [j1]
    exact List.mem_of_mem_drop hc1
  obtain ⟨k1, k2, k3⟩ := got_prefix j4 ht' hpubd hi' hconn.toSub
  have hsm : ∀ m ∈ tookOf x.task.evs, m.payload.length < 2 ^ 32 := by
    intro m hm
    refine hpubd m (k3.subset ?_)
    rw [← hmore]
    unfold tookOf at hm ⊢
    rw [List.filterMap_append]
    exact List.mem_append.2 (.inl hm)
  obtain ⟨hsent, hgot, hops⟩ := quiet_core h4 ht hsm hi hpub.handed hpub.flushed hpub.dry hsub.dry hex.1 hex.2
  obtain ⟨S, f1, f2, f3⟩ := C46_told_partial L D d hd a u s ha hs hsub.running (.inl hq) (.inl hw) hsub.handled hsub.handed hsub.flushed
  obtain ⟨S', g1, g2, g3⟩ := hg.frames hi hi' hsub.running hsub.handled hsub.handed
  obtain ⟨es, hrun⟩ := Pub.sys_task_run j4 ht'
  have hopsY := ((C20_control_arrives L (S ++ S') (fun z hz => (List.mem_append.1 hz).elim (f1 z) (g1 z)) boundary y.input es y.task.sess y.task.evs hrun).1 (by
    rw [List.flatMap_append, ← f2]
    have := hconn.toPub
    rw [g2, hsub.flushed, List.append_nil] at this
    exact this)).1
  have hopsX := hops S f1 f2
  rw [← hmore, opsOf_append, hopsX, List.map_append] at hopsY
  have hopsM : opsOf L more <+: S'.map (·.2.1) := (List.prefix_append_right_inj _).1 hopsY
  have hnew : ∀ op ∈ opsOf L more, op ∈ asked'.filterMap Sub.Command.op := by
    intro op hop
    obtain ⟨z, hz, rfl⟩ := List.mem_map.1 (hopsM.subset hop)
    exact g3 z hz
  have hold : ∀ op ∈ opsOf L x.task.evs, op ∈ d.processed.filterMap Sub.Command.op := by
    obtain ⟨S0, q1, -, q3, q4⟩ := Sub.sent_frames hi
    rw [hsub.flushed, List.append_nil] at q3
    intro op hop
    rw [hops S0 q1 q3] at hop
    obtain ⟨z, hz, rfl⟩ := List.mem_map.1 hop
    obtain ⟨c, hc1, hc2⟩ := q4 z hz
    rw [← hc2]
    exact hd.topics.src u s hs c hc1
  -- what the publisher has sent since
  have hdue := due_later (L := L) x.task.evs more topic (by
      intro op hop
      rw [opsOf_append] at hop
      refine hwf op ?_
      rw [hasked, List.filterMap_append]
      exact List.mem_append.2 ((List.mem_append.1 hop).imp (hold op) (hnew op)))
    (fun p hp => hleft p (by rw [← f3 p, ← hopsX]; exact hp))
    (fun p hp => by
      obtain ⟨c, hc1, hc2⟩ := List.mem_filterMap.1 (hnew _ hp)
      cases c with
      | subscribe q => simp only [Sub.Command.op] at hc2; cases hc2; exact hno p hc1
      | _ => simp [Sub.Command.op] at hc2)
    (0 + (due L [] 0 x.task.evs).length)
  obtain ⟨g, z, l1, l2, l3⟩ := hg.got
  have hgpre : g <+: due L (opsOf L x.task.evs) (0 + (due L [] 0 x.task.evs).length) more := by
    have := k1.trans k2
    rw [l1, ← hmore, due_append, List.nil_append, hgot, hsent] at this
    exact (List.prefix_append_right_inj _).1 this
  have hz : ∀ m ∈ z, m.topic ≠ topic := by
    intro m hm hmt
    obtain ⟨f, hf, rfl⟩ := List.mem_map.1 (l3 m hm)
    obtain ⟨e1, pm, now, j, e2, -, rfl, -⟩ := Pub.mem_due more (hgpre.subset hf)
    have hin := hgpre.subset hf
    have : frame j pm now ∈ framesOn topic (due L (opsOf L x.task.evs) (0 + (due L [] 0 x.task.evs).length) more) := by
      unfold framesOn
      rw [List.mem_filter]
      refine ⟨hin, ?_⟩
      have : pm.topic = topic := by
        rw [← hmt]
        simp [Sub.TopicMsg.ofWire, frame, L.dec_utf8]
      simp [frame, this]
    rw [hdue] at this
    cases this
  -- what the driver took since
  obtain ⟨F, hF⟩ := hst.fates
  have htaken : ∀ m ∈ Sub.takenFrom F u, m ∈ z := by
    have e1 := hd.inv.fate u s hs
    have e2 := hd'.inv.fate u s' hs'
    rw [hsub.taken, List.append_nil] at e1
    rw [l2, e1, ← hF] at e2
    have e3 : Sub.takenFrom (d.fates ++ F) u = Sub.takenFrom d.fates u ++ Sub.takenFrom F u := by
      simp [Sub.takenFrom]
    rw [e3, List.append_assoc] at e2
    have e4 := List.append_cancel_left e2
    intro m hm
    rw [e4]
    exact List.mem_append.2 (.inl hm)
  obtain ⟨rest, r1, r2⟩ := hd.inv.inbox
  obtain ⟨rest', r3, -⟩ := hd'.inv.inbox
  rw [r2 hopen, List.append_nil] at r1
  have haddr := hst.grow.1
  have hsame : d.fates.filterMap (Sub.inMsgOf D d'.addrs) = d.fates.filterMap (Sub.inMsgOf D d.addrs) := by
    obtain ⟨more', hm'⟩ := haddr
    rw [← hm']
    exact inMsgOf_more _ _ _ (fun w hw => by rw [hd.inv.len]; exact hd.inv.fateLt w hw)
  have hnone : messagesOn topic (Sub.ofConn u (F.filterMap (Sub.inMsgOf D d'.addrs))) = [] := by
    unfold messagesOn Sub.ofConn
    rw [List.filter_eq_nil_iff]
    intro m hm hmt
    obtain ⟨hm1, hm2⟩ := List.mem_filter.1 hm
    obtain ⟨w, hw1, hw2⟩ := List.mem_filterMap.1 hm1
    obtain ⟨c1, -, c3⟩ := Sub.inMsgOf_conn hw2
    simp only [decide_eq_true_eq] at hm2 hmt
    refine hz w.2.1 (htaken _ ?_) ?_
    · unfold Sub.takenFrom
      refine List.mem_map.2 ⟨w, List.mem_filter.2 ⟨hw1, ?_⟩, rfl⟩
      simp [← c1, hm2]
    · rw [← hmt]
      unfold Sub.shownT at c3
      split at c3
      · simp only [Option.some.injEq, Prod.mk.injEq] at c3; exact c3.1
      · cases c3
  have hall : messagesOn topic (Sub.ofConn u (d'.received ++ d'.inbox)) <+:
      messagesOn topic (Sub.ofConn u (d'.fates.filterMap (Sub.inMsgOf D d'.addrs))) := by
    rw [r3]
    exact ((List.prefix_append _ _).filter _).filter _
  refine hall.trans ?_
  rw [← hF, List.filterMap_append, hsame, r1]
  unfold messagesOn Sub.ofConn at hnone ⊢
  rw [List.filter_append, List.filter_append, hnone, List.append_nil]
  exact List.prefix_rfl

/-! ## After `unsubscribe()` itself -/

/-- The user subscribes to `a`, gets connected, and a message on `a` arrives; the user unsubscribes, the background task handles that, and the publisher is told. -/
def leaving : List (Sub.Act Nat) :=
  [.call (.subscribe ['a']), .call (.connect 5), .iter ⟨[], [], none⟩, .iter ⟨[], [], none⟩, .iter ⟨[5], [], conn [.data (msgA 0 7)]⟩] ++
    List.replicate 8 (.session 0 eager) ++ [.iter ⟨[5], [], none⟩, .call (.unsubscribe ['a']), .iter ⟨[5], [], none⟩, .iter ⟨[5], [], none⟩] ++
    List.replicate 8 (.session 0 eager)

/-- C109 is false at any moment: nothing on the subscriber's side drops messages of topics left. A message on `a` that arrived before waits in the buffer, and the user gets it from
`recv` although it has unsubscribed from `a` and even the publisher has been told. -/
theorem C109_refuted :
    after {} leaving (fun d =>
      decide (d.processed = [.subscribe ['a'], .connect 5, .unsubscribe ['a']]) && decide (d.topics = []) && decide (d.received = []) &&
      (match d.sessions[0]? with
      | some s => decide (s.wr.wire = E2E.subA ++ E2EServer.unA)
      | none => false)) = true ∧
    after {} (leaving ++ [.call .recv]) (fun d => decide (d.received = [⟨5, ['a'], [7], 0⟩])) = true := by decide +kernel

namespace E2EServer
open E2E

/-- The publisher's history goes on: messages on both topics are published and the session sends what is due. -/
def srvLater : List (SrvAct Nat) :=
  [.publish ['a'] [5], .publish ['b'] [6]] ++ List.replicate 10 (.session 0 E2E.env)

def srvL : Server Nat := (Server.new none none 8192 10 8 none).run Lossy.strict (srvChange ++ srvLater)

def laterBytes : Bytes := PubSub.encode ⟨⟨0, 1, [98], 7, 2, 1⟩, [6]⟩

def toSubL : List ReadAns := toSubC ++ List.replicate 30 .pending ++ [.data laterBytes]

def subChangeL : List (Sub.Act Nat) :=
  [.call (.subscribe ['a']), .call (.connect 5), .iter ⟨[], [], none⟩, .iter ⟨[], [], none⟩, .iter ⟨[5], [], conn toSubL⟩] ++
    List.replicate 12 (.session 0 eager) ++ [.call (.unsubscribe ['a']), .call (.subscribe ['b'])] ++ List.replicate 8 (.iter ⟨[5], [], none⟩) ++
    List.replicate 8 (.session 0 eager) ++ [.call .recv]

/-- The subscriber's history goes on: it receives more, and subscribes to `c`. -/
def subLater : List (Sub.Act Nat) :=
  [.call (.subscribe ['c'])] ++ List.replicate 4 (.iter ⟨[5], [], none⟩) ++ List.replicate 30 (.session 0 eager) ++ List.replicate 4 (.iter ⟨[5], [], none⟩) ++
    [.call .recv, .call .recv]

theorem srvL_ok : (match srvL.ses[0]? with
    | some x => decide (x.input = toPubChange) && decide (x.task.sess.wr.wire = pubBytesC ++ laterBytes) &&
        decide (readSoFar x.input x.task.sess.input = subA ++ unA ++ subB)
    | none => false) = true := by decide +kernel

theorem subL_ok : after {} subChangeL (fun d =>
    (match d.sessions[0]? with
    | some s => decide (s.wr.wire = subA ++ unA ++ subB) && decide (s.wr.buf = []) && decide (s.over = false) &&
        decide (s.cmds = []) && decide (s.egress = []) && decide (s.toDriver = []) &&
        decide (s.offered.length ≤ 64) && decide (s.rd.pollNext PubSub.codec [] = .ok (.pending, s.rd, [])) &&
        decide (readSoFar s.input0 s.input = pubBytesC)
    | none => false) && decide (d.closed = false) && decide (d.pubs = [(5, .active 0)]) && decide (d.opts.readBuffer = 8192) &&
    decide (d.processed = [.subscribe ['a'], .connect 5, .unsubscribe ['a'], .subscribe ['b']]) &&
    (match d.run Lossy.strict noDec subLater with
    | .ok e => (match e.sessions[0]? with
        | some s => decide (readSoFar s.input0 s.input = pubBytesC ++ laterBytes) && decide (subA ++ unA ++ subB <+: s.wr.wire ++ s.wr.buf)
        | none => false) && decide (e.processed = d.processed ++ [.subscribe ['c']]) &&
        decide (e.received = [⟨5, ['a'], [1], 0⟩, ⟨5, ['b'], [4], 0⟩, ⟨5, ['b'], [6], 0⟩])
    | .panic => false)) = true := by decide +kernel

theorem notA (p : Str) (h : splitDots p = [p]) (hp : p ≠ ['a'] ∧ p ≠ ['*'] ∧ p ≠ ['>']) : ¬ Matches p ['a'] := by
  intro hm
  unfold Matches at hm
  rw [h, show splitDots ['a'] = [['a']] from by decide] at hm
  cases hm with
  | lit _ => exact hp.1 rfl
  | star _ => exact hp.2.1 rfl
  | gt => exact hp.2.2 rfl

theorem leftA (p : Str) (h : active [.sub ['a'], .unsub ['a'], .sub ['b']] p = true) : ¬ Matches p ['a'] := by
  have hm := Sub.active_mem _ _ h
  simp only [List.mem_cons, List.not_mem_nil, or_false, Op.sub.injEq, reduceCtorEq, false_or] at hm
  rcases hm with rfl | rfl
  · exact absurd h (by decide)
  · exact notA _ (by decide) (by decide)

theorem srv_ops : (match srvC.ses[0]?, srvL.ses[0]? with
    | some x, some y => decide (opsOf Lossy.strict x.task.evs = [.sub ['a'], .unsub ['a'], .sub ['b']]) &&
        decide (opsOf Lossy.strict y.task.evs = [.sub ['a'], .unsub ['a'], .sub ['b']])
    | _, _ => false) = true := by decide +kernel

/-- All hypotheses of both theorems are met: after the quiet moment messages on `a` and on `b` are published, and only that on `b` arrives. -/
example : ∃ d d' : Sub.Driver Nat, Sub.Reach Lossy.strict noDec d ∧ d'.received = [⟨5, ['a'], [1], 0⟩, ⟨5, ['b'], [4], 0⟩, ⟨5, ['b'], [6], 0⟩] ∧
    messagesOn ['a'] (Sub.ofConn 0 (d'.received ++ d'.inbox)) <+: messagesOn ['a'] (Sub.ofConn 0 (d.received ++ d.inbox)) ∧
    (∀ x y, srvC.ses[0]? = some x → srvL.ses[0]? = some y →
      framesOn ['a'] (sentOf y.task.evs ++ y.task.sess.pending.toList) = framesOn ['a'] (sentOf x.task.evs ++ x.task.sess.pending.toList)) := by
  have hp := srvC_ok
  have hl := srvL_ok
  obtain ⟨d, hd, hok⟩ := after_reach subL_ok
  cases hx : srvC.ses[0]? with
  | none => rw [hx] at hp; cases hp
  | some x =>
    rw [hx] at hp
    cases hy : srvL.ses[0]? with
    | none => rw [hy] at hl; cases hl
    | some y =>
      rw [hy] at hl
      cases hs : d.sessions[0]? with
      | none => rw [hs] at hok; simp at hok
      | some s =>
        cases hr : d.run Lossy.strict noDec subLater with
        | panic => rw [hr] at hok; simp at hok
        | ok d' =>
          cases hs' : d'.sessions[0]? with
          | none => rw [hr] at hok; simp [hs'] at hok
          | some s' =>
            rw [hs, hr] at hok
            simp only [hs', Bool.and_eq_true, decide_eq_true_eq, and_assoc] at hok hp hl
            obtain ⟨h1, h2, h3, h4, h5, h6, h7, h8, h9, h10, h11, h12, h13, h14, h15, h16, h17⟩ := hok
            obtain ⟨p0, p1, p2, p3, p4, p5, p6⟩ := hp
            obtain ⟨q0, q1, q2⟩ := hl
            have hops : d'.processed.filterMap Sub.Command.op = [.sub ['a'], .unsub ['a'], .sub ['b'], .sub ['c']] := by rw [h16, h13]; rfl
            refine ⟨d, d', hd, h17, ?_, ?_⟩
            · refine C109_quiet_partial Lossy.strict noDec none none 8192 10 8 none srvChange srvLater 0 _ x y hx hy (by decide +kernel)
                d d' hd subLater hr h10 5 0 s s' (by unfold Sub.Driver.Active; rw [h11]; decide) hs hs' h7 (by rw [h1, h12]; decide)
                ⟨p4, p3, p2, p5⟩ ⟨h3, h4, h5, h2, h8, h6⟩ ⟨by rw [h9, p1], by rw [p6, h1]⟩
                ⟨by rw [h14, q1]; exact List.prefix_append _ _, by rw [q2]; exact h15⟩ ['a'] ?_ ?_ [.subscribe ['c']] h16 ?_
              · rw [hops]
                intro op hop
                simp only [List.mem_cons, List.not_mem_nil, or_false] at hop
                rcases hop with rfl | rfl | rfl | rfl <;> (unfold WellFormed; decide)
              · intro p hp
                have hp' : active [.sub ['a'], .unsub ['a'], .sub ['b']] p = true := by rw [h13] at hp; exact hp
                exact leftA p hp'
              · intro p hp
                simp only [List.mem_cons, List.not_mem_nil, or_false] at hp
                cases hp
                exact notA _ (by decide) (by decide)
            · intro x' y' hx' hy'
              cases hx'; cases hy'
              have ho := srv_ops
              rw [hx, hy] at ho
              simp only [Bool.and_eq_true, decide_eq_true_eq] at ho
              obtain ⟨o1, o2⟩ := ho
              obtain ⟨y', g1, -, more, g2⟩ := run_later Lossy.strict srvLater _ 0 x hx
              have g3 : srvL.ses[0]? = some y' := by rw [← g1]; unfold srvL; rw [srv_run_append]; rfl
              rw [hy] at g3; cases g3
              have hmore : opsOf Lossy.strict more = [] := by
                rw [← g2, opsOf_append, o1] at o2
                simpa using o2
              refine C109_publisher_partial Lossy.strict none none 8192 10 8 none srvChange srvLater 0 x y hx hy ['a'] ?_ ?_ more g2.symm ?_
              · rw [o2]
                intro op hop
                simp only [List.mem_cons, List.not_mem_nil, or_false] at hop
                rcases hop with rfl | rfl | rfl <;> (unfold WellFormed; decide)
              · rw [o1]; exact leftA
              · rw [hmore]; intro p hp; cases hp

end E2EServer

end MsgRs.Props
