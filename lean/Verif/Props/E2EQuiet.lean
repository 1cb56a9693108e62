import Verif.Props.E2ERoom
import Verif.Props.Asleep
import Verif.Spec.QuietPub
/-!
# C100: when everything is quiet, everything wanted has been delivered
-/
namespace MsgRs.Props
open MsgRs Spec Pub

variable {A : Type}

theorem wanted_congr {w w' : List Op → Str → Bool} (l : List Happened) : ∀ (ops : List Op),
    (∀ pre suf c, l = pre ++ .call c :: suf → w (ops ++ opsIn pre) c.topic = w' (ops ++ opsIn pre) c.topic) →
    wanted w ops l = wanted w' ops l := by
  induction l with
  | nil => intro ops _; rfl
  | cons a l ih =>
    intro ops h
    cases a with
    | op o =>
      refine ih (ops ++ [o]) (fun pre suf c hl => ?_)
      have := h (.op o :: pre) suf c (by rw [hl]; rfl)
      simpa [opsIn] using this
    | call c =>
      have h0 := h [] l c rfl
      rw [show opsIn [] = [] from rfl, List.append_nil] at h0
      have hi := ih ops (fun pre suf c' hl => by
        have := h (.call c :: pre) suf c' (by rw [hl]; rfl)
        simpa [opsIn] using this)
      simp only [wanted, h0, hi]

/-- The session's history, in terms of subscriptions and calls. -/
theorem weave {L : Lossy} {D : Decompressors} {minCompress : Nat} {comp : Option Compressor} (hcomp : ∀ c, comp = some c → Spec.Inverts D c)
    (evs : List Ev) : ∀ (cs : List PubCall), cs.map (PubCall.prepare minCompress comp) = (tookOf evs).map some →
    ∃ l, opsIn l = opsOf L evs ∧ callsIn l = cs ∧ ∀ ops k, (due L ops k evs).filterMap (Sub.shown L D) =
      wanted (fun ops t => Trie.contains (filterAfter ops) t) ops l := by
  induction evs with
  | nil =>
    intro cs h
    cases cs with
    | nil => exact ⟨[], rfl, rfl, fun _ _ => rfl⟩
    | cons c cs => cases h
  | cons ev evs ih =>
    intro cs h
    have other : tookOf (ev :: evs) = tookOf evs → opsOf L (ev :: evs) = opsOf L evs → (∀ ops k, due L ops k (ev :: evs) = due L ops k evs) →
        ∃ l, opsIn l = opsOf L (ev :: evs) ∧ callsIn l = cs ∧ ∀ ops k, (due L ops k (ev :: evs)).filterMap (Sub.shown L D) =
          wanted (fun ops t => Trie.contains (filterAfter ops) t) ops l := by
      intro h1 h2 h3
      rw [h1] at h
      obtain ⟨l, g1, g2, g3⟩ := ih cs h
      exact ⟨l, by rw [g1, h2], g2, fun ops k => by rw [h3, g3]⟩
    cases ev with
    | took m now =>
      cases cs with
      | nil => simp [tookOf] at h
      | cons c cs =>
        have h1 : c.prepare minCompress comp = some m ∧ cs.map (PubCall.prepare minCompress comp) = (tookOf evs).map some := by
          simpa [tookOf] using h
        obtain ⟨l, g1, g2, g3⟩ := ih cs h1.2
        refine ⟨.call c :: l, ?_, ?_, ?_⟩
        · show opsIn l = _
          rw [g1]; rfl
        · show c :: callsIn l = _
          rw [g2]
        · intro ops k
          have ht := prepare_topic h1.1
          have hp : ∀ k now, Sub.shown L D (frame k m now) = some (c.topic, c.payload) := by
            intro k now
            have := prepare_payload hcomp h1.1
            simp only [Sub.shown, frame, L.dec_utf8, this, ht]
          simp only [due, wanted, ht]
          split
          · rw [List.filterMap_cons, hp, g3]
          · rw [g3]
    | incoming m =>
      obtain ⟨l, g1, g2, g3⟩ := ih cs h
      cases hm : controlOp L m with
      | none =>
        refine ⟨l, ?_, g2, ?_⟩
        · rw [g1]; simp [opsOf, hm]
        · intro ops k
          simp only [due, hm, Option.toList_none, List.append_nil]
          exact g3 _ _
      | some o =>
        refine ⟨.op o :: l, ?_, g2, ?_⟩
        · show o :: opsIn l = _
          rw [g1]; simp [opsOf, hm]
        · intro ops k
          simp only [due, hm, Option.toList_some, wanted]
          exact g3 _ _
    | _ => exact other rfl rfl (fun _ _ => rfl)

/-- The shared core: what two quiet ends know of each other. -/
theorem quiet_core {L : Lossy} {n : Nat} {acts₁ acts₂ : List Act} {i boundary : Nat} {input : List ReadAns}
    (hfresh : ((Sys.new n).run L acts₁).tasks i = none) {t : Task}
    (ht : ((Sys.new n).run L (acts₁ ++ .connect i boundary input :: acts₂)).tasks i = some t)
    (hsmall : ∀ m ∈ tookOf t.evs, m.payload.length < 2 ^ 32) {s : Sub.Session} (hi : Sub.SInv L s)
    (hpend : t.sess.pending = none) (hbuf : t.sess.wr.buf = []) (hdry : Dry PubSub.codec t.sess.rd) (hdry' : Dry PubSub.codec s.rd)
    (h1 : readSoFar s.input0 s.input = t.sess.wr.wire) (h2 : readSoFar input t.sess.input = s.wr.wire) :
    sentOf t.evs = due L [] 0 t.evs ∧ s.got = sentOf t.evs ∧
    ∀ l : List (UInt64 × Op × PubSub.Message), (∀ x ∈ l, controlFrame x.1 x.2.1 = .ok x.2.2) →
      s.wr.wire = l.flatMap (fun x => PubSub.encode x.2.2) → opsOf L t.evs = l.map (·.2.1) := by
  obtain ⟨es, hrun⟩ := Pub.sys_task_run hfresh ht
  have hwi := Pub.run_winv hrun
  have hsent : sentOf t.evs = due L [] 0 t.evs := by
    have := hwi.due
    rwa [hpend, Option.toList_none, List.append_nil] at this
  refine ⟨hsent, ?_, ?_⟩
  · refine hi.reads.dry hdry' ?_
    have hwf : ∀ f ∈ sentOf t.evs, f.WF := fun f hf => hwi.wf hsmall f (by rw [← hsent]; exact hf)
    have hdr := drains_encoded PubSub.codec PubSub.encode PubSub.decode_nil PubSub.Message.WF
      (fun m x h => PubSub.decode_encode m x h) (sentOf t.evs) hwf
    have hbytes : t.sess.wr.wire ++ t.sess.wr.buf = (sentOf t.evs).flatMap PubSub.encode := hwi.bytes
    rw [hbuf, List.append_nil] at hbytes
    rw [← hbytes, ← h1] at hdr
    exact hdr
  · intro l hl hw
    have hdr := drains_encoded PubSub.codec PubSub.encode PubSub.decode_nil PubSub.Message.WF
      (fun m x h => PubSub.decode_encode m x h) (l.map (·.2.2)) (by
        intro m hm
        obtain ⟨x, hx, rfl⟩ := List.mem_map.mp hm
        exact (controlFrame_op L (hl x hx)).2)
    rw [List.flatMap_map, ← hw, ← h2] at hdr
    have h4 : incomingOf t.evs = l.map (·.2.2) := (Pub.run_tracks hrun).dry hdry hdr
    rw [opsOf_incoming, h4]
    clear hw hdr h4
    induction l with
    | nil => rfl
    | cons x l ih =>
      simp only [List.map_cons, List.filterMap_cons, (controlFrame_op L (hl x (by simp))).1]
      rw [ih (fun y hy => hl y (by simp [hy]))]

theorem calls_map (minCompress : Nat) (comp : Option Compressor) (calls : List PubCall) :
    (calls.filter fun c => (c.prepare minCompress comp).isSome).map (PubCall.prepare minCompress comp) =
      (calls.filterMap (PubCall.prepare minCompress comp)).map some := by
  induction calls with
  | nil => rfl
  | cons c calls ih =>
    cases hc : c.prepare minCompress comp with
    | none => simp [hc, ih]
    | some m => simp [hc, ih]

/-- What a quiet pair has in common, for whatever subscriptions. -/
theorem quiet_history [DecidableEq A] (L : Lossy) (D : Decompressors) (max : Option Nat) (authn : Option (Bytes → Bool))
    (boundary minCompress bufferSize : Nat) (comp : Option Compressor) (hcomp : ∀ c, comp = some c → Spec.Inverts D c)
    (acts : List (SrvAct A)) (srv : Server A) (hsrv : srv = (Server.new max authn boundary minCompress bufferSize comp : Server A).run L acts)
    (i : Nat) (x : Ses A) (hx : srv.ses[i]? = some x)
    (hsmall : ∀ c ∈ pubCalls acts, ∀ m, c.prepare minCompress comp = some m → m.payload.length < 2 ^ 32)
    (opts : Sub.Options) (now : Nat) (d0 d : Sub.Driver A) (h0 : Sub.Driver.new opts now = .ok d0) (sacts : List (Sub.Act A))
    (hr : d0.run L D sacts = .ok d) (hopen : d.closed = false) (a : A) (u : Nat) (s : Sub.Session)
    (ha : d.Active a u) (hs : d.sessions[u]? = some s)
    (hRoomPub : ∀ pre suf y, acts = pre ++ suf → ((Server.new max authn boundary minCompress bufferSize comp : Server A).run L pre).ses[i]? = some y →
      ((Server.new max authn boundary minCompress bufferSize comp : Server A).run L pre).log.length ≤ y.task.next + bufferSize)
    (hRoomSub : ∀ pre suf e, sacts = pre ++ suf → d0.run L D pre = .ok e →
      e.inbox.length < opts.ingress ∧ ∀ t : Sub.Session, e.sessions[u]? = some t → t.toDriver.length < 1024)
    (hq : s.offered.length ≤ 64) (hw : s.wr.wire.length < opts.readBuffer)
    (hpub : SessionIdle srv.log.length x.task) (hsub : LinkIdle s) (hex : Exchanged x s) :
    ∃ pre e post l, acts = pre ++ .driver e :: post ∧
      startedBy L (Server.new max authn boundary minCompress bufferSize comp : Server A) pre e i ∧
      callsIn l = (callsAfter pre (.driver e :: post)).filter (fun c => (c.prepare minCompress comp).isSome) ∧
      (∀ t, active (opsIn l) t = active (d.processed.filterMap Sub.Command.op) t) ∧
      (∀ op ∈ opsIn l, op ∈ d.processed.filterMap Sub.Command.op) ∧
      ((Sub.ofConn u (d.received ++ d.inbox)).map fun m => (m.topic, m.payload)) =
        wanted (fun ops t => Trie.contains (filterAfter ops) t) [] l := by
  subst hsrv
  have hreach : Sub.Reach L D d := ⟨opts, now, d0, sacts, h0, hr⟩
  have hal : s.alive = true := by
    obtain ⟨-, t, h1, h2⟩ := hreach.inv.act a u ha
    rw [hs] at h1; cases h1; exact h2
  have hd0 : d0.opts = opts ∧ d0.sessions = [] ∧ d0.fates = [] := by
    unfold Sub.Driver.new at h0
    split at h0
    · cases h0
    · cases h0; exact ⟨rfl, rfl, rfl⟩
  have hopt : d.opts = opts := by rw [(Sub.run_steps sacts d0 d hr).grow.2.2.2.2, hd0.1]
  have hno : Sub.NoLoss u d := by
    refine Sub.NoLoss.run sacts hr ⟨by rw [hd0.2.2]; simp, by rw [hd0.2.1]; simp⟩ hopen (fun t ht => ?_) (fun pre suf f hp hf => ?_)
    · rw [hs] at ht; cases ht; exact hal
    · obtain ⟨g1, g2⟩ := hRoomSub pre suf f hp hf
      rw [(Sub.run_steps pre d0 f hf).grow.2.2.2.2, hd0.1]
      exact ⟨g1, g2⟩
  have hin := C23_publisher_in_time L max authn boundary minCompress bufferSize comp acts i x hx hRoomPub
  obtain ⟨pre, e, post, h1, h2, acts₁, acts₂, b, h3, h4, h5, h6, h7⟩ := session_history' L max authn boundary minCompress bufferSize comp acts i x hx
  have ht : ((Sys.new bufferSize).run L (acts₁ ++ .connect i boundary x.input :: acts₂)).tasks i = some x.task := by
    rw [h5]; simp [Server.sys, hx]
  have hT := task_cursor (L := L) h4 ht
  have hcount := hT.cur.count
  rw [hin.1, hpub.taken, ← h6, List.length_append] at hcount
  have htook : tookOf x.task.evs = published acts₂ := by
    have h8 := replay_took _ _ _ _ hT.cur.walk hin.1
    rw [h8, List.drop_left, List.take_of_length_le (by omega)]
  have hsm : ∀ m ∈ tookOf x.task.evs, m.payload.length < 2 ^ 32 := by
    intro m hm
    rw [htook, h7] at hm
    obtain ⟨c, hc1, hc2⟩ := List.mem_filterMap.1 hm
    refine hsmall c ?_ m hc2
    rw [h1]
    exact List.mem_of_mem_drop hc1
  have hi := hreach.inv.sess u s hs
  obtain ⟨hsent, hgot, hops⟩ := quiet_core h4 ht hsm hi hpub.handed hpub.flushed hpub.dry hsub.dry hex.1 hex.2
  obtain ⟨l, g1, g2, g3⟩ := weave (L := L) (D := D) (minCompress := minCompress) (comp := comp) hcomp x.task.evs
    ((callsAfter pre (.driver e :: post)).filter fun c => (c.prepare minCompress comp).isSome) (by rw [calls_map, htook, h7])
  obtain ⟨S, k1, k2, k3⟩ := C46_told_partial L D d hreach a u s ha hs hsub.running (.inl hq) (.inl (by rw [hopt]; exact hw)) hsub.handled hsub.handed hsub.flushed
  obtain ⟨S', j1, -, j3, j4⟩ := Sub.sent_frames hi
  rw [hsub.flushed, List.append_nil] at j3
  refine ⟨pre, e, post, l, h1, h2, g2, ?_, ?_, ?_⟩
  · intro t
    rw [g1, hops S k1 k2, k3 t]
  · intro op hop
    rw [g1, hops S' j1 j3] at hop
    obtain ⟨y, hy, rfl⟩ := List.mem_map.1 hop
    obtain ⟨c, hc1, hc2⟩ := j4 y hy
    rw [← hc2]
    exact hreach.topics.src u s hs c hc1
  · rw [C50_complete L D d hreach hopen u s hs (hno.drops s hs) hsub.taken hno.fates, hgot, hsent]
    exact g3 [] 0

theorem opsIn_prefix {l pre suf : List Happened} {a : Happened} (h : l = pre ++ a :: suf) : ∀ op ∈ opsIn pre, op ∈ opsIn l := by
  intro op hop
  rw [h]
  unfold opsIn at hop ⊢
  rw [List.filterMap_append]
  exact List.mem_append.2 (.inl hop)

/-- C100: a publisher and a subscriber socket have run for any time, each with any history of its own; a client of the publisher is connected to the subscriber, and there was
always room (the session was never more than `session_buffer_size` messages behind; at no moment 1024 messages of the connection were waiting for the subscriber's background
task, nor was the buffer for the user full; at most 64 subscription commands and fewer bytes of them than the write buffer holds). Now everything is quiet: both ends have
nothing left to do and no byte is under way between them. The subscriptions are to literal topics.

Then there is one history `l` of changes of subscriptions (each requested by the user; at the end they are what the user asked for) and publish calls (exactly those since
the client was admitted, in order, but for calls whose compression failed) such that the user has received exactly the messages that were published while their topic was
subscribed to, in order, with their payloads. -/
theorem C100_quiet_delivered [DecidableEq A] (L : Lossy) (D : Decompressors) (max : Option Nat) (authn : Option (Bytes → Bool))
    (boundary minCompress bufferSize : Nat) (comp : Option Compressor) (hcomp : ∀ c, comp = some c → Spec.Inverts D c)
    (acts : List (SrvAct A)) (srv : Server A) (hsrv : srv = (Server.new max authn boundary minCompress bufferSize comp : Server A).run L acts)
    (i : Nat) (x : Ses A) (hx : srv.ses[i]? = some x)
    (hsmall : ∀ c ∈ pubCalls acts, ∀ m, c.prepare minCompress comp = some m → m.payload.length < 2 ^ 32)
    (opts : Sub.Options) (now : Nat) (d0 d : Sub.Driver A) (h0 : Sub.Driver.new opts now = .ok d0) (sacts : List (Sub.Act A))
    (hr : d0.run L D sacts = .ok d) (hopen : d.closed = false) (a : A) (u : Nat) (s : Sub.Session)
    (ha : d.Active a u) (hs : d.sessions[u]? = some s)
    -- there was room
    (hRoomPub : ∀ pre suf y, acts = pre ++ suf → ((Server.new max authn boundary minCompress bufferSize comp : Server A).run L pre).ses[i]? = some y →
      ((Server.new max authn boundary minCompress bufferSize comp : Server A).run L pre).log.length ≤ y.task.next + bufferSize)
    (hRoomSub : ∀ pre suf e, sacts = pre ++ suf → d0.run L D pre = .ok e →
      e.inbox.length < opts.ingress ∧ ∀ t : Sub.Session, e.sessions[u]? = some t → t.toDriver.length < 1024)
    (hq : s.offered.length ≤ 64) (hw : s.wr.wire.length < opts.readBuffer)
    -- everything is quiet
    (hpub : SessionIdle srv.log.length x.task) (hsub : LinkIdle s) (hex : Exchanged x s)
    (hLit : ∀ op ∈ d.processed.filterMap Sub.Command.op, Spec.Literal op.pattern) :
    ∃ pre e post l, acts = pre ++ .driver e :: post ∧
      startedBy L (Server.new max authn boundary minCompress bufferSize comp : Server A) pre e i ∧
      callsIn l = (callsAfter pre (.driver e :: post)).filter (fun c => (c.prepare minCompress comp).isSome) ∧
      (∀ t, active (opsIn l) t = active (d.processed.filterMap Sub.Command.op) t) ∧
      (∀ op ∈ opsIn l, op ∈ d.processed.filterMap Sub.Command.op) ∧
      ((Sub.ofConn u (d.received ++ d.inbox)).map fun m => (m.topic, m.payload)) = wanted active [] l := by
  obtain ⟨pre, e, post, l, h1, h2, h3, h4, h5, h6⟩ := quiet_history L D max authn boundary minCompress bufferSize comp hcomp acts srv hsrv i x hx hsmall
    opts now d0 d h0 sacts hr hopen a u s ha hs hRoomPub hRoomSub hq hw hpub hsub hex
  refine ⟨pre, e, post, l, h1, h2, h3, h4, h5, ?_⟩
  rw [h6]
  refine wanted_congr l [] (fun p q c hl => ?_)
  rw [List.nil_append]
  have := C15_literal_exact (opsIn p) (fun op hop => hLit op (h5 op (opsIn_prefix hl op hop))) c.topic
  cases hx : active (opsIn p) c.topic <;> cases hy : Trie.contains (filterAfter (opsIn p)) c.topic <;> simp_all

open Classical in
/-- C100 with wildcards: as `C100_quiet_delivered`, for well-formed patterns and topics without a `>` token. The user has received exactly the messages published
while a pattern without `>` that it was subscribed to passed their topic (`PassedBy`, C17: the pattern matches, and no pattern shadows it). -/
theorem C100_quiet_wildcards [DecidableEq A] (L : Lossy) (D : Decompressors) (max : Option Nat) (authn : Option (Bytes → Bool))
    (boundary minCompress bufferSize : Nat) (comp : Option Compressor) (hcomp : ∀ c, comp = some c → Spec.Inverts D c)
    (acts : List (SrvAct A)) (srv : Server A) (hsrv : srv = (Server.new max authn boundary minCompress bufferSize comp : Server A).run L acts)
    (i : Nat) (x : Ses A) (hx : srv.ses[i]? = some x)
    (hsmall : ∀ c ∈ pubCalls acts, ∀ m, c.prepare minCompress comp = some m → m.payload.length < 2 ^ 32)
    (opts : Sub.Options) (now : Nat) (d0 d : Sub.Driver A) (h0 : Sub.Driver.new opts now = .ok d0) (sacts : List (Sub.Act A))
    (hr : d0.run L D sacts = .ok d) (hopen : d.closed = false) (a : A) (u : Nat) (s : Sub.Session)
    (ha : d.Active a u) (hs : d.sessions[u]? = some s)
    (hRoomPub : ∀ pre suf y, acts = pre ++ suf → ((Server.new max authn boundary minCompress bufferSize comp : Server A).run L pre).ses[i]? = some y →
      ((Server.new max authn boundary minCompress bufferSize comp : Server A).run L pre).log.length ≤ y.task.next + bufferSize)
    (hRoomSub : ∀ pre suf e, sacts = pre ++ suf → d0.run L D pre = .ok e →
      e.inbox.length < opts.ingress ∧ ∀ t : Sub.Session, e.sessions[u]? = some t → t.toDriver.length < 1024)
    (hq : s.offered.length ≤ 64) (hw : s.wr.wire.length < opts.readBuffer)
    (hpub : SessionIdle srv.log.length x.task) (hsub : LinkIdle s) (hex : Exchanged x s)
    (hwf : ∀ op ∈ d.processed.filterMap Sub.Command.op, Spec.WellFormed op.pattern)
    (hts : ∀ c ∈ pubCalls acts, ['>'] ∉ splitDots c.topic) :
    ∃ pre e post l, acts = pre ++ .driver e :: post ∧
      startedBy L (Server.new max authn boundary minCompress bufferSize comp : Server A) pre e i ∧
      callsIn l = (callsAfter pre (.driver e :: post)).filter (fun c => (c.prepare minCompress comp).isSome) ∧
      (∀ t, active (opsIn l) t = active (d.processed.filterMap Sub.Command.op) t) ∧
      (∀ op ∈ opsIn l, op ∈ d.processed.filterMap Sub.Command.op) ∧
      ((Sub.ofConn u (d.received ++ d.inbox)).map fun m => (m.topic, m.payload)) =
        wanted (fun ops topic => decide (∃ p, PassedBy ops topic p)) [] l := by
  obtain ⟨pre, e, post, l, h1, h2, h3, h4, h5, h6⟩ := quiet_history L D max authn boundary minCompress bufferSize comp hcomp acts srv hsrv i x hx hsmall
    opts now d0 d h0 sacts hr hopen a u s ha hs hRoomPub hRoomSub hq hw hpub hsub hex
  refine ⟨pre, e, post, l, h1, h2, h3, h4, h5, ?_⟩
  rw [h6]
  refine wanted_congr l [] (fun p q c hl => ?_)
  rw [List.nil_append]
  have hc : c ∈ pubCalls acts := by
    have : c ∈ callsIn l := by
      rw [hl]; unfold callsIn; rw [List.filterMap_append]
      exact List.mem_append.2 (.inr (by simp))
    rw [h3] at this
    rw [h1]
    exact List.mem_of_mem_drop (List.mem_filter.1 this).1
  have := C17_exactly (opsIn p) (fun op hop => hwf op (h5 op (opsIn_prefix hl op hop))) c.topic (hts c hc)
  by_cases hx : ∃ p', PassedBy (opsIn p) c.topic p'
  · simp [hx, this]
  · have : ¬ Trie.contains (filterAfter (opsIn p)) c.topic = true := fun h => hx (this.1 h)
    simp [hx, this]

/-- A session of a publisher returned `Pending` from a poll having found nothing to do, its flush interval had elapsed (or there is none), and the connection took what it was
offered: it has nothing left to do. -/
theorem C100_session_idle (L : Lossy) (max : Option Nat) (authn : Option (Bytes → Bool)) (boundary minCompress bufferSize : Nat) (comp : Option Compressor)
    (acts : List (SrvAct A)) (i : Nat) (x y : Ses A) (e : Pub.Env)
    (hx : ((Server.new max authn boundary minCompress bufferSize comp : Server A).run L acts).ses[i]? = some x)
    (hy : ((Server.new max authn boundary minCompress bufferSize comp : Server A).run L (acts ++ [.session i e])).ses[i]? = some y)
    (hidle : y.task.evs = x.task.evs ++ [.idle]) (htick : e.tick = true) (hflush : (x.task.sess.wr.flush e.flushAns).1 = .ok) :
    SessionIdle ((Server.new max authn boundary minCompress bufferSize comp : Server A).run L (acts ++ [.session i e])).log.length y.task := by
  obtain ⟨pre, de, post, h1, h2, acts₁, acts₂, b, h3, h4, h5, h6, -⟩ := session_history' L max authn boundary minCompress bufferSize comp acts i x hx
  have ht : ((Sys.new bufferSize).run L (acts₁ ++ .connect i boundary x.input :: acts₂)).tasks i = some x.task := by
    rw [h5]; simp [Server.sys, hx]
  have key := (C90_publisher_session L bufferSize acts₁ acts₂ i boundary x.input h4 x.task ht e).1
  have hchan : ((Sys.new bufferSize).run L (acts₁ ++ .connect i boundary x.input :: acts₂)).chan = b := by rw [h5]; rfl
  rw [hchan] at key
  rw [run_snoc] at hy ⊢
  have hact : ((Server.new max authn boundary minCompress bufferSize comp : Server A).run L acts).act L (.session i e) =
      { (Server.new max authn boundary minCompress bufferSize comp : Server A).run L acts with
        ses := ((Server.new max authn boundary minCompress bufferSize comp : Server A).run L acts).ses.set i { x with task := x.task.step L b e }
        drv := if (x.task.step L b e).over && !x.task.over then
            ((Server.new max authn boundary minCompress bufferSize comp : Server A).run L acts).drv.map
              (·.act (.sessionEnd (running (((Server.new max authn boundary minCompress bufferSize comp : Server A).run L acts).ses.take i)).length))
          else ((Server.new max authn boundary minCompress bufferSize comp : Server A).run L acts).drv } := by
    simp only [Server.act, hx, h3]
  rw [hact] at hy ⊢
  simp only at hy ⊢
  rw [List.getElem?_set_self (List.getElem?_eq_some_iff.mp hx).1] at hy
  cases hy
  simp only at hidle ⊢
  obtain ⟨k1, k2, -, k4, -, k6⟩ := key hidle
  have hT := task_cursor (L := L) h4 ht
  obtain ⟨hI, -⟩ := run_inv' (L := L) (Q := fun _ => True) acts (new_srvInv L _ max authn boundary minCompress bufferSize comp) (fun _ _ => trivial)
  obtain ⟨pacts, hp1, hp2⟩ := ((hI.bound b h3).choose_spec.2.2).sys
  have hs := sinv_run (L := L) pacts (sinv_new L ((Server.new max authn boundary minCompress bufferSize comp : Server A).run L acts).sock.bufferSize)
  rw [List.nil_append, hp1, hp2, ← h6] at hs
  have hT' := task_step hs.chan e hT
  have hc := hT'.cur.count
  refine ⟨?_, k2, ?_, k4⟩
  · have hb : (((Server.new max authn boundary minCompress bufferSize comp : Server A).run L acts).sys b).chan = b := rfl
    rw [hb] at hc
    rw [← h6, List.length_append]
    omega
  · exact (k6 htick).resolve_right (fun h => h hflush)

/-- A connection of a subscriber returned `Pending` from a poll, it had not reported its end, it took what it was offered, and the background task has taken everything from it: it
has nothing left to do. -/
theorem C100_link_idle (L : Lossy) (s t : Sub.Session) (e : Sub.SEnv) (h : s.iter L e = .ok (t, .pending)) (hrun : t.over = false)
    (hend : s.rd.pollNext PubSub.codec s.input ≠ .ok (.ended, t.rd, t.input)) (htook : t.egress = [] ∧ t.wr.buf = []) (htaken : t.toDriver = []) :
    LinkIdle t := by
  obtain ⟨h1, -, h3, -⟩ := C90_subscriber_session L s t e h
  exact ⟨hrun, h1, htook.1, htook.2, (h3.resolve_right hend).1, htaken⟩

namespace E2EServer
open E2E

/-- The subscriber's frames for leaving topic `a` and for topic `b`. -/
def unA : Bytes := PubSub.encode ⟨⟨0, 11, PubSub.unsubPrefix ++ [97], 0, 0, 0⟩, []⟩
def subB : Bytes := PubSub.encode ⟨⟨0, 9, PubSub.subPrefix ++ [98], 0, 0, 0⟩, []⟩

/-- What the publisher's connection answers to reads. -/
def toPubChange : List ReadAns := [.data subA, .pending, .data (unA ++ subB)]

/-- The publisher's history: while the client is subscribed to `a`, messages on `a` and `b` are published; then it changes to `b`, and again messages on both are published. -/
def srvChange : List (SrvAct Nat) :=
  [.bind some [80], .driver ⟨none, none, some ⟨0, some 0, ⟨toPubChange, [], [], []⟩⟩⟩, .driver ⟨none, some (0, true), none⟩, .driver ⟨none, none, none⟩] ++
    List.replicate 2 (.session 0 E2E.env) ++ [.publish ['a'] [1], .publish ['b'] [2]] ++ List.replicate 10 (.session 0 E2E.env) ++
    [.publish ['a'] [3], .publish ['b'] [4]] ++ List.replicate 10 (.session 0 E2E.env)

def srvC : Server Nat := (Server.new none none 8192 10 8 none).run Lossy.strict srvChange

def pubBytesC : Bytes :=
  PubSub.encode ⟨⟨0, 1, [97], 7, 0, 1⟩, [1]⟩ ++ PubSub.encode ⟨⟨0, 1, [98], 7, 1, 1⟩, [4]⟩

def toSubC : List ReadAns := [.pending, .data (pubBytesC.take 10), .data (pubBytesC.drop 10)]

/-- The subscriber's history. -/
def subChange : List (Sub.Act Nat) :=
  [.call (.subscribe ['a']), .call (.connect 5), .iter ⟨[], [], none⟩, .iter ⟨[], [], none⟩, .iter ⟨[5], [], conn toSubC⟩] ++
    List.replicate 12 (.session 0 eager) ++ [.call (.unsubscribe ['a']), .call (.subscribe ['b'])] ++ List.replicate 8 (.iter ⟨[5], [], none⟩) ++
    List.replicate 8 (.session 0 eager) ++ [.call .recv]

/-- The publisher's side. -/
theorem srvC_ok : (match srvC.ses[0]? with
    | some x => decide (x.input = toPubChange) && decide (x.task.sess.wr.wire = pubBytesC) && decide (x.task.sess.wr.buf = []) &&
        decide (x.task.sess.pending = none) && decide (x.task.next = srvC.log.length) &&
        decide (x.task.sess.rd.pollNext PubSub.codec [] = .ok (.pending, x.task.sess.rd, [])) &&
        decide (readSoFar x.input x.task.sess.input = subA ++ unA ++ subB)
    | none => false) = true := by decide +kernel

theorem srvC_room : inTime 8 0 (Server.new none none 8192 10 8 none) srvChange = true := by decide +kernel

/-- The subscriber's side: the user has received one message and another one waits. -/
theorem subC_ok : after {} subChange (fun d =>
    (match d.sessions[0]? with
    | some s => decide (s.wr.wire = subA ++ unA ++ subB) && decide (s.wr.buf = []) && decide (s.over = false) &&
        decide (s.cmds = []) && decide (s.egress = []) && decide (s.toDriver = []) &&
        decide (s.offered.length ≤ 64) && decide (s.rd.pollNext PubSub.codec [] = .ok (.pending, s.rd, [])) &&
        decide (readSoFar s.input0 s.input = pubBytesC)
    | none => false) && decide (d.closed = false) && decide (d.pubs = [(5, .active 0)]) &&
    decide (d.processed = [.subscribe ['a'], .connect 5, .unsubscribe ['a'], .subscribe ['b']]) &&
    decide (d.received = [⟨5, ['a'], [1], 0⟩]) && decide (d.inbox = [⟨5, ['b'], [4], 0⟩])) = true := by decide +kernel

theorem subC_room : (match (Sub.Driver.new {} 0 : R (Sub.Driver Nat)) with | .ok d => roomy {} 0 d subChange | .panic => false) = true := by decide +kernel

/-- All hypotheses of `C100_quiet_delivered` are met by this pair: four messages, of which the first and the last were wanted. -/
example : ∃ (d : Sub.Driver Nat), Sub.Reach Lossy.strict noDec d ∧
    ((Sub.ofConn 0 (d.received ++ d.inbox)).map fun m => (m.topic, m.payload)) = [(['a'], [1]), (['b'], [4])] ∧
    ∃ pre e post l, srvChange = pre ++ .driver e :: post ∧
      callsIn l = (callsAfter pre (.driver e :: post)).filter (fun c => (c.prepare 10 none).isSome) ∧
      (∀ t, active (opsIn l) t = active [.sub ['a'], .unsub ['a'], .sub ['b']] t) ∧
      ((Sub.ofConn 0 (d.received ++ d.inbox)).map fun m => (m.topic, m.payload)) = wanted active [] l := by
  have hp := srvC_ok
  have hrs := subC_room
  have hok := subC_ok
  unfold after at hok
  cases h0 : (Sub.Driver.new {} 0 : R (Sub.Driver Nat)) with
  | panic => rw [h0] at hok; cases hok
  | ok d0 =>
    rw [h0] at hok hrs
    simp only at hok hrs
    cases hrun : d0.run Lossy.strict noDec subChange with
    | panic => rw [hrun] at hok; cases hok
    | ok d =>
      rw [hrun] at hok
      simp only at hok
      refine ⟨d, ⟨{}, 0, d0, subChange, h0, hrun⟩, ?_⟩
      cases hx : srvC.ses[0]? with
      | none => rw [hx] at hp; cases hp
      | some x =>
        rw [hx] at hp
        cases hs : d.sessions[0]? with
        | none => rw [hs] at hok; simp at hok
        | some s =>
          rw [hs] at hok
          simp only [Bool.and_eq_true, decide_eq_true_eq, and_assoc] at hok hp
          obtain ⟨h1, h2, h3, h4, h5, h6, h7, h8, h9, h10, h11, h12, h13, h14⟩ := hok
          obtain ⟨p0, p1, p2, p3, p4, p5, p6⟩ := hp
          refine ⟨by rw [h13, h14]; rfl, ?_⟩
          obtain ⟨pre, e, post, l, q1, -, q3, q4, -, q6⟩ := C100_quiet_delivered Lossy.strict noDec none none 8192 10 8 none (fun c h => by cases h)
            srvChange srvC rfl 0 x hx (by decide +kernel) {} 0 d0 d h0 subChange hrun h10 5 0 s (by unfold Sub.Driver.Active; rw [h11]; decide) hs
            (inTime_spec srvChange _ srvC_room) (roomy_spec subChange d0 hrs) h7 (by rw [h1]; decide)
            ⟨p4, p3, p2, p5⟩ ⟨h3, h4, h5, h2, h8, h6⟩ ⟨by rw [h9, p1], by rw [p6, h1]⟩ (by
              rw [h12]
              intro op hop
              simp only [List.filterMap_cons, List.filterMap_nil, Sub.Command.op, List.mem_cons, List.not_mem_nil, or_false] at hop
              rcases hop with rfl | rfl | rfl <;> (unfold Spec.Literal; decide))
          refine ⟨pre, e, post, l, q1, q3, fun t => ?_, q6⟩
          rw [q4, h12]
          rfl

end E2EServer

end MsgRs.Props
