import Verif.Proofs.EndToEnd
import Verif.Props.Sub
import Verif.Props.Pub
import Verif.Props.Compression
import Verif.Props.Topics
import Verif.Props.SubTold
import Verif.Spec.SubRuns
/-!
# Property C61: a publisher and a subscriber at the two ends of a connection

The publisher is a `Pub.Sys` after any history in which session `i` connects at some point; the subscriber is any
reachable `Sub.Driver` with a session `u`. They are at the two ends of one connection: so far, each end has read some prefix of
the bytes the other end has written (`wr.wire` are those the connection took, `wr.buf` those it was given and still buffers),
cut into reads in any way. Everything else — what else the two sockets do, and when — is arbitrary.
-/
namespace MsgRs.Props
open MsgRs

/-- The two sessions are, at this moment, at the two ends of one connection (`input` are the answers of the connection
to all reads of the publisher's session, past and to come). -/
structure Connected (input : List ReadAns) (p : Pub.Session) (s : Sub.Session) : Prop where
  /-- What the subscriber has read are bytes the publisher has written. -/
  toSub : Spec.readSoFar s.input0 s.input <+: p.wr.wire ++ p.wr.buf
  /-- What the publisher has read are bytes the subscriber has written. -/
  toPub : Spec.readSoFar input p.input <+: s.wr.wire ++ s.wr.buf

variable {A : Type} [DecidableEq A]

theorem prepare_topic {minSize : Nat} {comp : Option Compressor} {c : Spec.PubCall} {m : PubMsg}
    (h : c.prepare minSize comp = some m) : m.topic = c.topic := by
  unfold Spec.PubCall.prepare publishPrepare tryPublishPrepare PubMsg.compress PubMsg.new at h
  simp only at h
  repeat' split at h
  all_goals cases h
  all_goals rfl

theorem prepare_payload {D : Decompressors} {minSize : Nat} {comp : Option Compressor}
    (hinv : ∀ c, comp = some c → Spec.Inverts D c) {c : Spec.PubCall} {m : PubMsg}
    (h : c.prepare minSize comp = some m) : tryDecompress D m.ctype.toByte m.payload = some c.payload := by
  rw [(C12_tag_identifies D m.payload).2.1]
  unfold Spec.PubCall.prepare publishPrepare tryPublishPrepare PubMsg.compress PubMsg.new at h
  simp only at h
  split at h
  · split at h
    · split at h
      · rename_i cc _ q hq
        cases h
        exact hinv cc rfl _ _ hq
      · cases h
    · cases h; rfl
  · split at h
    · split at h
      · split at h
        · rename_i cc _ q hq
          cases h
          exact hinv cc rfl _ _ hq
        · cases h
      · cases h; rfl
    · cases h; rfl

/-- The frames the subscriber has read are the first ones the publisher's session sent it. -/
theorem got_prefix {L : Lossy} {n : Nat} {acts₁ acts₂ : List Pub.Act} {i boundary : Nat} {input : List ReadAns}
    {t : Pub.Task} (hfresh : ((Pub.Sys.new n).run L acts₁).tasks i = none)
    (ht : ((Pub.Sys.new n).run L (acts₁ ++ .connect i boundary input :: acts₂)).tasks i = some t)
    (hsmall : ∀ m ∈ Spec.published acts₂, m.payload.length < 2 ^ 32) {s : Sub.Session} (hi : Sub.SInv L s)
    (hconn : Spec.readSoFar s.input0 s.input <+: t.sess.wr.wire ++ t.sess.wr.buf) :
    s.got <+: Spec.sentOf t.evs ∧ Spec.sentOf t.evs <+: Spec.due L [] 0 t.evs ∧
      (Spec.tookOf t.evs).Sublist (Spec.published acts₂) := by
  obtain ⟨es, hrun⟩ := Pub.sys_task_run hfresh ht
  have hw := Pub.run_winv hrun
  obtain ⟨t', ht', htook, -⟩ := C23_feed_subsequence L n acts₁ acts₂ i boundary input hfresh
  rw [ht] at ht'
  cases ht'
  refine ⟨?_, ⟨_, hw.due⟩, htook⟩
  have hwf : ∀ f ∈ Spec.sentOf t.evs, f.WF := fun f hf =>
    hw.wf (fun m hm => hsmall m (htook.subset hm)) f (by rw [← hw.due]; exact List.mem_append.2 (.inl hf))
  have hd := drains_encoded PubSub.codec PubSub.encode PubSub.decode_nil PubSub.Message.WF
    (fun m x h => PubSub.decode_encode m x h) (Spec.sentOf t.evs) hwf
  obtain ⟨y, hy⟩ := hconn
  have hb : t.sess.wr.wire ++ t.sess.wr.buf = (Spec.sentOf t.evs).flatMap PubSub.encode := hw.bytes
  rw [← hb, ← hy] at hd
  exact hi.reads.prefix hd

/-- C61, first part: the messages the user of the subscriber gets over a connection are — with topic and payload as
given to `publish` or `try_publish` — among those published after the publisher accepted the connection, in publish
order, each at most as often as it was published. -/
theorem C61_published_in_order (L : Lossy) (D : Decompressors) (n : Nat) (acts₁ acts₂ : List Pub.Act) (i boundary : Nat)
    (input : List ReadAns) (t : Pub.Task) (hfresh : ((Pub.Sys.new n).run L acts₁).tasks i = none)
    (ht : ((Pub.Sys.new n).run L (acts₁ ++ .connect i boundary input :: acts₂)).tasks i = some t)
    (minCompress : Nat) (comp : Option Compressor) (hcomp : ∀ c, comp = some c → Spec.Inverts D c)
    (calls : List Spec.PubCall)
    (hcalls : calls.map (Spec.PubCall.prepare minCompress comp) = (Spec.published acts₂).map some)
    (hsmall : ∀ m ∈ Spec.published acts₂, m.payload.length < 2 ^ 32)
    (d : Sub.Driver A) (hd : Sub.Reach L D d) (u : Nat) (s : Sub.Session) (hs : d.sessions[u]? = some s)
    (hconn : Connected input t.sess s) :
    ((Sub.ofConn u (d.received ++ d.inbox)).map fun m => (m.topic, m.payload)).Sublist
      (calls.map fun c => (c.topic, c.payload)) := by
  have hi := hd.inv.sess u s hs
  obtain ⟨h1, h2, h3⟩ := got_prefix hfresh ht hsmall hi hconn.toSub
  have h4 := (C50_attributed_in_order L D d hd).2 u s hs
  let G : PubMsg → Option (Str × Bytes) := fun m =>
    match tryDecompress D m.ctype.toByte m.payload with
    | some p => some (m.topic, p)
    | none => none
  have hFG : ∀ k m now, Sub.shown L D (Spec.frame k m now) = G m := by
    intro k m now
    simp only [Sub.shown, Spec.frame, G, L.dec_utf8]
    cases tryDecompress D m.ctype.toByte m.payload <;> rfl
  have h5 := Pub.due_map (L := L) (Sub.shown L D) G hFG t.evs [] 0
  have h6 : ((Spec.published acts₂).filterMap G) = calls.map fun c => (c.topic, c.payload) := by
    have : ∀ (cs : List Spec.PubCall) (ms : List PubMsg), cs.map (Spec.PubCall.prepare minCompress comp) = ms.map some →
        ms.filterMap G = cs.map fun c => (c.topic, c.payload) := by
      intro cs
      induction cs with
      | nil => intro ms h; cases ms with
        | nil => rfl
        | cons m ms => cases h
      | cons c cs ih =>
        intro ms h
        cases ms with
        | nil => cases h
        | cons m ms =>
          simp only [List.map_cons, List.cons.injEq] at h
          have hG : G m = some (c.topic, c.payload) := by
            simp only [G, prepare_payload hcomp h.1, prepare_topic h.1]
          rw [List.filterMap_cons, hG, ih ms h.2]
          rfl
    exact this calls _ hcalls
  rw [← h6]
  refine h4.trans (((h1.trans h2).sublist.filterMap _).trans (h5.trans (h3.filterMap _)))

/-- C61, second part: every message the user of the subscriber gets over a connection is on a topic matched by a
pattern to which this user subscribed, and whose subscription was in force for the publisher when it took the message
from the application: after a prefix of the control frames sent over this connection, the pattern is subscribed. The
patterns must be well-formed (`>` only at the end; see `C16_malformed_pattern_sticks`). -/
theorem C61_only_subscribed (L : Lossy) (D : Decompressors) (n : Nat) (acts₁ acts₂ : List Pub.Act) (i boundary : Nat)
    (input : List ReadAns) (t : Pub.Task) (hfresh : ((Pub.Sys.new n).run L acts₁).tasks i = none)
    (ht : ((Pub.Sys.new n).run L (acts₁ ++ .connect i boundary input :: acts₂)).tasks i = some t)
    (hsmall : ∀ m ∈ Spec.published acts₂, m.payload.length < 2 ^ 32)
    (d : Sub.Driver A) (hd : Sub.Reach L D d) (u : Nat) (s : Sub.Session) (hs : d.sessions[u]? = some s)
    (hconn : Connected input t.sess s)
    (hwf : ∀ op ∈ d.processed.filterMap Sub.Command.op, Spec.WellFormed op.pattern) :
    ∃ sent : List (UInt64 × Spec.Op × PubSub.Message),
      (∀ x ∈ sent, Spec.controlFrame x.1 x.2.1 = .ok x.2.2) ∧
      s.wr.wire ++ s.wr.buf = sent.flatMap (fun x => PubSub.encode x.2.2) ∧
      ∀ m ∈ Sub.ofConn u (d.received ++ d.inbox), ∃ p k,
        Spec.Matches p m.topic ∧ Sub.Command.subscribe p ∈ d.processed ∧
        Spec.active ((sent.take k).map (·.2.1)) p = true := by
  have hi := hd.inv.sess u s hs
  have htp := hd.topics
  obtain ⟨h1, h2, h3⟩ := got_prefix hfresh ht hsmall hi hconn.toSub
  obtain ⟨es, hrun⟩ := Pub.sys_task_run hfresh ht
  obtain ⟨S, g1, g2, g3, g4⟩ := Sub.sent_frames hi
  refine ⟨S, g1, g3, fun m hm => ?_⟩
  have hops := ((C20_control_arrives L S g1 boundary input es t.sess t.evs hrun).1 (by rw [← g3]; exact hconn.toPub)).1
  have h4 := ((C50_attributed_in_order L D d hd).2 u s hs).subset (List.mem_map.2 ⟨m, hm, rfl⟩)
  obtain ⟨f, hf, hfm⟩ := List.mem_filterMap.1 h4
  obtain ⟨evs₁, pm, now, j, evs₂, he, rfl, hc⟩ := Pub.mem_due t.evs ((h1.trans h2).subset hf)
  have htop : m.topic = pm.topic := by
    simp only [Sub.shown, Spec.frame] at hfm
    split at hfm
    · simp only [L.dec_utf8, Option.some.injEq, Prod.mk.injEq] at hfm; exact hfm.1.symm
    · cases hfm
  rw [List.nil_append] at hc
  have hpre : Spec.opsOf L evs₁ <+: S.map (·.2.1) := by
    refine List.IsPrefix.trans ?_ hops
    rw [he, Pub.opsOf_append]
    exact List.prefix_append _ _
  have hsrc : ∀ op ∈ Spec.opsOf L evs₁, op ∈ d.processed.filterMap Sub.Command.op := by
    intro op hop
    obtain ⟨x, hx, rfl⟩ := List.mem_map.1 (hpre.subset hop)
    obtain ⟨c, hc', hcx⟩ := g4 x hx
    rw [← hcx]
    exact htp.src u s hs c hc'
  obtain ⟨p, hp, hmatch⟩ := C16_no_unsolicited (Spec.opsOf L evs₁) (fun op hop => hwf op (hsrc op hop)) pm.topic hc
  refine ⟨p, (Spec.opsOf L evs₁).length, htop ▸ hmatch, ?_, ?_⟩
  · have h5 := hsrc _ (Sub.active_mem _ p hp)
    obtain ⟨c, hc1, hc2⟩ := List.mem_filterMap.1 h5
    cases c with
    | subscribe q => simp only [Sub.Command.op] at hc2; cases hc2; exact hc1
    | _ => simp [Sub.Command.op] at hc2
  · rw [List.map_take, ← List.prefix_iff_eq_take.1 hpre]
    exact hp

/-! ## C67 -/

/-- With no subscription operation after the first message was taken, the messages due are those whose topic passes
the filter. -/
theorem due_fixed {L : Lossy} {β : Type} (F : PubSub.Message → Option β) (G : PubMsg → Option β)
    (hFG : ∀ k m now, F (Spec.frame k m now) = G m) (ops : List Spec.Op) (evs : List Pub.Ev) : ∀ (k : Nat),
    Spec.opsOf L evs = [] →
    (Spec.due L ops k evs).filterMap F =
      ((Spec.tookOf evs).filter (fun m => Trie.contains (Spec.filterAfter ops) m.topic)).filterMap G := by
  induction evs with
  | nil => intro k _; rfl
  | cons ev evs ih =>
    intro k hop
    cases ev with
    | took m now =>
      have e : Spec.tookOf (Pub.Ev.took m now :: evs) = m :: Spec.tookOf evs := rfl
      have hop' : Spec.opsOf L evs = [] := hop
      rw [e]
      simp only [Spec.due]
      by_cases hc : Trie.contains (Spec.filterAfter ops) m.topic = true
      · rw [if_pos hc, List.filter_cons_of_pos (by exact hc), List.filterMap_cons, List.filterMap_cons, hFG, ih _ hop']
      · rw [if_neg hc, List.filter_cons_of_neg (by exact hc), ih _ hop']
    | incoming x =>
      have h1 : Spec.opsOf L (Pub.Ev.incoming x :: evs) = (Spec.controlOp L x).toList ++ Spec.opsOf L evs := by
        simp only [Spec.opsOf, List.filterMap_cons]
        cases Spec.controlOp L x <;> rfl
      rw [h1, List.append_eq_nil_iff] at hop
      simp only [Spec.due, hop.1, List.append_nil]
      exact ih _ hop.2
    | _ => exact ih _ hop

/-- A session that has taken nothing owes nothing. -/
theorem due_nothing {L : Lossy} (evs : List Pub.Ev) : ∀ (ops : List Spec.Op) (k : Nat), Spec.tookOf evs = [] →
    Spec.due L ops k evs = [] := by
  induction evs with
  | nil => intro ops k _; rfl
  | cons ev evs ih =>
    intro ops k h
    cases ev with
    | took m now => simp [Spec.tookOf] at h
    | incoming x => exact ih _ _ h
    | _ => exact ih _ _ h

/-- `C67_everything_arrives`, once everything sent has been read at both ends. -/
theorem arrives_core (L : Lossy) (D : Decompressors) {acts₂ : List Pub.Act}
    {t : Pub.Task} {minCompress : Nat} {comp : Option Compressor} (hcomp : ∀ c, comp = some c → Spec.Inverts D c)
    (calls : List Spec.PubCall)
    (hcalls : calls.map (Spec.PubCall.prepare minCompress comp) = (Spec.published acts₂).map some)
    (d : Sub.Driver A) (hd : Sub.Reach L D d) (hopen : d.closed = false) (a : A) (u : Nat) (s : Sub.Session)
    (ha : d.Active a u) (hs : d.sessions[u]? = some s) (ho : s.over = false)
    (hc : s.cmds = []) (he : s.egress = []) (hb : s.wr.buf = []) (hTaken : s.toDriver = [])
    (hDrop : s.drops = 0) (hFull : ∀ x ∈ d.fates, x.1 = u → x.2.2 ≠ .full ∧ x.2.2 ≠ .gone)
    (hq : s.offered.length ≤ 64) (hw : s.wr.wire.length < d.opts.readBuffer)
    (hLit : ∀ op ∈ d.processed.filterMap Sub.Command.op, Spec.Literal op.pattern)
    (evs₁ evs₂ : List Pub.Ev) (hevs : t.evs = evs₁ ++ evs₂) (hBefore : Spec.tookOf evs₁ = [])
    (hAfter : Spec.opsOf L evs₂ = [])
    (htook : Spec.tookOf t.evs = Spec.published acts₂) (hsent : Spec.sentOf t.evs = Spec.due L [] 0 t.evs)
    (hgot : s.got = Spec.sentOf t.evs)
    (hops : ∀ l : List (UInt64 × Spec.Op × PubSub.Message), (∀ x ∈ l, Spec.controlFrame x.1 x.2.1 = .ok x.2.2) →
      s.wr.wire = l.flatMap (fun x => PubSub.encode x.2.2) → Spec.opsOf L t.evs = l.map (·.2.1)) :
    ((Sub.ofConn u (d.received ++ d.inbox)).map fun m => (m.topic, m.payload)) =
      (calls.filter fun c => Spec.active (d.processed.filterMap Sub.Command.op) c.topic).map
        fun c => (c.topic, c.payload) := by
  have hi := hd.inv.sess u s hs
  -- the publisher knows the subscriptions
  obtain ⟨S, k1, k2, k3⟩ := C46_told_partial L D d hd a u s ha hs ho (.inl hq) (.inl hw) hc he hb
  have hopsS := hops S k1 k2
  obtain ⟨S', j1, -, j3, j4⟩ := Sub.sent_frames hi
  rw [hb, List.append_nil] at j3
  have hopsS' := hops S' j1 j3
  have hopsEq : Spec.opsOf L t.evs = Spec.opsOf L evs₁ := by
    rw [hevs, Pub.opsOf_append, hAfter, List.append_nil]
  have hlitS : ∀ op ∈ Spec.opsOf L evs₁, Spec.Literal op.pattern := by
    intro op hop
    rw [← hopsEq, hopsS'] at hop
    obtain ⟨x, hx, rfl⟩ := List.mem_map.1 hop
    obtain ⟨c, hc1, hc2⟩ := j4 x hx
    rw [← hc2]
    exact hLit _ (hd.topics.src u s hs c hc1)
  -- put together
  rw [C50_complete L D d hd hopen u s hs hDrop hTaken hFull, hgot, hsent]
  let G : PubMsg → Option (Str × Bytes) := fun m =>
    match tryDecompress D m.ctype.toByte m.payload with
    | some p => some (m.topic, p)
    | none => none
  have hFG : ∀ k m now, Sub.shown L D (Spec.frame k m now) = G m := by
    intro k m now
    simp only [Sub.shown, Spec.frame, G, L.dec_utf8]
    cases tryDecompress D m.ctype.toByte m.payload <;> rfl
  have htook2 : Spec.tookOf evs₂ = Spec.published acts₂ := by
    rw [← htook, hevs]
    simp only [Spec.tookOf, List.filterMap_append]
    have : List.filterMap _ evs₁ = [] := hBefore
    rw [this, List.nil_append]
  have hdue : Spec.due L [] 0 t.evs = Spec.due L (Spec.opsOf L evs₁) 0 evs₂ := by
    rw [hevs, Pub.due_append, due_nothing evs₁ [] 0 hBefore]
    simp
  rw [hdue, due_fixed (Sub.shown L D) G hFG _ _ _ hAfter, htook2]
  have hmatch : ∀ topic, Trie.contains (Spec.filterAfter (Spec.opsOf L evs₁)) topic =
      Spec.active (d.processed.filterMap Sub.Command.op) topic := by
    intro topic
    rw [← k3 topic, ← hopsS, hopsEq]
    have := C15_literal_exact (Spec.opsOf L evs₁) hlitS topic
    cases hx : Spec.active (Spec.opsOf L evs₁) topic <;>
      cases hy : Trie.contains (Spec.filterAfter (Spec.opsOf L evs₁)) topic <;> simp_all
  have key : ∀ (cs : List Spec.PubCall) (ms : List PubMsg), cs.map (Spec.PubCall.prepare minCompress comp) = ms.map some →
      (ms.filter (fun m => Trie.contains (Spec.filterAfter (Spec.opsOf L evs₁)) m.topic)).filterMap G =
        (cs.filter fun c => Spec.active (d.processed.filterMap Sub.Command.op) c.topic).map fun c => (c.topic, c.payload) := by
    intro cs
    induction cs with
    | nil => intro ms h; cases ms with
      | nil => rfl
      | cons m ms => cases h
    | cons c cs ih =>
      intro ms h
      cases ms with
      | nil => cases h
      | cons m ms =>
        simp only [List.map_cons, List.cons.injEq] at h
        have hG : G m = some (c.topic, c.payload) := by
          simp only [G, prepare_payload hcomp h.1, prepare_topic h.1]
        have hm := hmatch m.topic
        rw [prepare_topic h.1] at hm
        cases hx : Spec.active (d.processed.filterMap Sub.Command.op) c.topic with
        | true =>
          rw [List.filter_cons_of_pos (by simp only [prepare_topic h.1]; rw [hm, hx]), List.filter_cons_of_pos (by simp [hx]),
            List.filterMap_cons, hG, ih ms h.2]
          rfl
        | false =>
          rw [List.filter_cons_of_neg (by simp only [prepare_topic h.1]; rw [hm, hx]; simp), List.filter_cons_of_neg (by simp [hx]),
            ih ms h.2]
  exact key calls _ hcalls

/-- C67: everything arrives. A publisher session and a connected subscriber session are at the two ends of a
connection that stays open. Suppose

* both ends have drained what there was to do: the subscriber has sent all its control frames and the publisher has
  read them, the publisher's session has taken every message published after it connected and has handed every
  frame to the connection, the subscriber has read all of them and its driver has taken them;
* nothing was dropped for lack of room: the session never lagged, the connection's channel was never full, nor was the
  ingress buffer; at most 64 subscription commands and fewer bytes than the write buffer holds (see C46);
* all subscriptions are to literal topics, and reached the publisher before it took the first message.

Then the user of the subscriber got exactly the messages published on the topics it is subscribed to, in publish order,
with the published payloads. -/
theorem C67_everything_arrives (L : Lossy) (D : Decompressors) (n : Nat) (acts₁ acts₂ : List Pub.Act) (i boundary : Nat)
    (input : List ReadAns) (t : Pub.Task) (hfresh : ((Pub.Sys.new n).run L acts₁).tasks i = none)
    (ht : ((Pub.Sys.new n).run L (acts₁ ++ .connect i boundary input :: acts₂)).tasks i = some t)
    (minCompress : Nat) (comp : Option Compressor) (hcomp : ∀ c, comp = some c → Spec.Inverts D c)
    (calls : List Spec.PubCall)
    (hcalls : calls.map (Spec.PubCall.prepare minCompress comp) = (Spec.published acts₂).map some)
    (hsmall : ∀ m ∈ Spec.published acts₂, m.payload.length < 2 ^ 32)
    (d : Sub.Driver A) (hd : Sub.Reach L D d) (hopen : d.closed = false) (a : A) (u : Nat) (s : Sub.Session)
    (ha : d.Active a u) (hs : d.sessions[u]? = some s) (ho : s.over = false)
    -- the connection
    (hOpen : OpenAns s.input0 ∧ OpenAns input)
    (hToSub : dataOf s.input0 = t.sess.wr.wire ++ t.sess.wr.buf) (hToPub : dataOf input = s.wr.wire)
    -- both ends have drained
    (hc : s.cmds = []) (he : s.egress = []) (hb : s.wr.buf = [])
    (hPubRead : s.wr.wire.length + input.length + 1 ≤ Spec.pollsOf t.evs)
    (hTook : (Spec.tookOf t.evs).length = (Spec.published acts₂).length) (hSent : t.sess.pending = none)
    (hSubRead : (Spec.published acts₂).length + s.input0.length + 1 ≤ s.polls) (hTaken : s.toDriver = [])
    -- nothing was dropped for lack of room
    (hLag : Spec.missedOf t.evs = 0) (hDrop : s.drops = 0)
    (hFull : ∀ x ∈ d.fates, x.1 = u → x.2.2 ≠ .full ∧ x.2.2 ≠ .gone)
    (hq : s.offered.length ≤ 64) (hw : s.wr.wire.length < d.opts.readBuffer)
    -- the subscriptions
    (hLit : ∀ op ∈ d.processed.filterMap Sub.Command.op, Spec.Literal op.pattern)
    (evs₁ evs₂ : List Pub.Ev) (hevs : t.evs = evs₁ ++ evs₂) (hBefore : Spec.tookOf evs₁ = [])
    (hAfter : Spec.opsOf L evs₂ = []) :
    ((Sub.ofConn u (d.received ++ d.inbox)).map fun m => (m.topic, m.payload)) =
      (calls.filter fun c => Spec.active (d.processed.filterMap Sub.Command.op) c.topic).map
        fun c => (c.topic, c.payload) := by
  have hi := hd.inv.sess u s hs
  obtain ⟨es, hrun⟩ := Pub.sys_task_run hfresh ht
  obtain ⟨h1, h2, h3⟩ := got_prefix hfresh ht hsmall hi (by rw [← hToSub]; exact hi.reads.soFar)
  have htook : Spec.tookOf t.evs = Spec.published acts₂ := h3.eq_of_length hTook
  have hwi := Pub.run_winv hrun
  -- what the publisher owes was sent
  have hsent : Spec.sentOf t.evs = Spec.due L [] 0 t.evs := by
    have := hwi.due
    rwa [hSent, Option.toList_none, List.append_nil] at this
  have hlen : (Spec.sentOf t.evs).length ≤ (Spec.published acts₂).length := by
    have h4 := (Pub.due_map (L := L) (β := Unit) (fun _ => some ()) (fun _ => some ()) (fun _ _ _ => rfl) t.evs [] 0).length_le
    rw [← hsent, htook] at h4
    simpa using h4
  -- everything sent was read
  have hgot : s.got = Spec.sentOf t.evs := by
    have hwf : ∀ f ∈ Spec.sentOf t.evs, f.WF := fun f hf =>
      hwi.wf (fun m hm => hsmall m (h3.subset hm)) f (by rw [← hsent]; exact hf)
    have hdr := drains_encoded PubSub.codec PubSub.encode PubSub.decode_nil PubSub.Message.WF
      (fun m x h => PubSub.decode_encode m x h) (Spec.sentOf t.evs) hwf
    have hbytes : t.sess.wr.wire ++ t.sess.wr.buf = (Spec.sentOf t.evs).flatMap PubSub.encode := hwi.bytes
    rw [← hbytes, ← hToSub] at hdr
    obtain ⟨rest, g1, -, -, -, g2⟩ := hi.all hOpen.1 _ hdr
    have hle := congrArg List.length g1
    rw [List.length_append] at hle
    rcases g2 with ⟨g2, -⟩ | g2
    · rw [g2, List.append_nil] at g1; exact g1.symm
    · omega
  have hshort : ∀ l : List (UInt64 × Spec.Op × PubSub.Message),
      l.length ≤ (l.flatMap fun x => PubSub.encode x.2.2).length := by
    intro l
    induction l with
    | nil => simp
    | cons x l ih =>
      have : 1 ≤ (PubSub.encode x.2.2).length := by simp [PubSub.encode]
      simp only [List.flatMap_cons, List.length_append, List.length_cons]
      omega
  have hops : ∀ l : List (UInt64 × Spec.Op × PubSub.Message), (∀ x ∈ l, Spec.controlFrame x.1 x.2.1 = .ok x.2.2) →
      s.wr.wire = l.flatMap (fun x => PubSub.encode x.2.2) → Spec.opsOf L t.evs = l.map (·.2.1) := by
    intro l hl hwl
    refine (C20_control_arrives L l hl boundary input es t.sess t.evs hrun).2 hOpen.2 (by rw [hToPub, hwl]) ?_
    have := hshort l
    rw [← hwl] at this
    omega
  exact arrives_core L D hcomp calls hcalls d hd hopen a u s ha hs ho hc he hb hTaken hDrop hFull hq hw hLit evs₁ evs₂ hevs hBefore hAfter
    htook hsent hgot hops

/-! ### A run that meets the hypotheses of C61 and C67 -/

namespace E2E
open Pub

/-- The subscriber's control frame for topic `a`. -/
def subA : Bytes := PubSub.encode ⟨⟨0, 9, PubSub.subPrefix ++ [97], 0, 0, 0⟩, []⟩

/-- What the publisher's connection answers to reads: the frame in two pieces. -/
def toPub : List ReadAns := [.data (subA.take 7), .pending, .data (subA.drop 7)]

/-- The publisher's messages for topic `a`, as the connection carries them. -/
def pubBytes : Bytes :=
  PubSub.encode ⟨⟨0, 1, [97], 7, 0, 1⟩, [1]⟩ ++ PubSub.encode ⟨⟨0, 1, [97], 7, 1, 2⟩, [3, 4]⟩

def toSub : List ReadAns := [.pending, .data (pubBytes.take 10), .data (pubBytes.drop 10)]

def env : Pub.Env := { tick := true, flushAns := [.ok 1000, .ok 1], readyAns := [], closeAns := [], feed := .pending, now := 7 }

/-- The messages published: on `a`, on `b`, on `a`. -/
def calls : List Spec.PubCall := [⟨false, ['a'], [1]⟩, ⟨true, ['b'], [2]⟩, ⟨false, ['a'], [3, 4]⟩]

/-- The publisher's history: session 0 connects, reads the subscription, polls on, takes and sends everything. -/
def pubActs : List Pub.Act :=
  List.replicate 40 (.step 0 env) ++ calls.filterMap (fun c => (c.prepare 10 none).map Pub.Act.publish) ++
    List.replicate 12 (.step 0 env)

def pubTask : Option Task := ((Sys.new 8).run Lossy.strict ([] ++ .connect 0 8192 toPub :: pubActs)).tasks 0

/-- The subscriber's history: subscribe to `a`, connect, send the control frame, read, deliver. -/
def subActs : List (Sub.Act Nat) :=
  [.call (.subscribe ['a']), .call (.connect 5), .iter ⟨[], [], none⟩, .iter ⟨[], [], none⟩, .iter ⟨[5], [], conn toSub⟩] ++
    List.replicate 12 (.session 0 eager) ++ List.replicate 4 (.iter ⟨[5], [], none⟩) ++ [.call .recv]

/-- The publisher's side. -/
theorem pub_ok : (match pubTask with
    | some t => decide (t.sess.wr.wire ++ t.sess.wr.buf = pubBytes) && decide (t.sess.pending = none) &&
        decide (Spec.tookOf (t.evs.take 40) = []) && decide (Spec.opsOf Lossy.strict (t.evs.drop 40) = []) &&
        decide (subA.length + toPub.length + 1 ≤ Spec.pollsOf t.evs) && decide ((Spec.tookOf t.evs).length = 3) && decide (Spec.missedOf t.evs = 0)
    | none => false) = true := by decide +kernel

/-- The subscriber's side: the user has received one message and another one waits. -/
theorem sub_ok : after {} subActs (fun d =>
    (match d.sessions[0]? with
    | some s => decide (s.input0 = toSub) && decide (s.wr.wire = subA) && decide (s.wr.buf = []) && decide (s.over = false) &&
        decide (s.cmds = []) && decide (s.egress = []) && decide (s.toDriver = []) && decide (s.drops = 0) &&
        decide (s.offered = [.subscribe ['a']]) && decide (8 ≤ s.polls)
    | none => false) && decide (d.closed = false) && decide (d.pubs = [(5, .active 0)]) &&
    decide (d.processed = [.subscribe ['a'], .connect 5]) && decide (d.opts.readBuffer = 8192) &&
    decide (d.fates.map (·.2.2) = [.delivered, .delivered]) &&
    decide (d.received = [⟨5, ['a'], [1], 0⟩]) && decide (d.inbox = [⟨5, ['a'], [3, 4], 0⟩])) = true := by decide +kernel

/-- All hypotheses of C61 and C67 are met by this pair. -/
example : ∃ (t : Task) (d : Sub.Driver Nat) (s : Sub.Session), pubTask = some t ∧ Sub.Reach Lossy.strict noDec d ∧
    d.sessions[0]? = some s ∧ Connected toPub t.sess s ∧
    (Sub.ofConn 0 (d.received ++ d.inbox)).map (fun m => (m.topic, m.payload)) =
      (calls.filter fun c => Spec.active (d.processed.filterMap Sub.Command.op) c.topic).map (fun c => (c.topic, c.payload)) ∧
    d.received.length = 1 ∧ d.inbox.length = 1 := by
  have hp := pub_ok
  obtain ⟨d, hd, h⟩ := after_reach sub_ok
  cases ht : pubTask with
  | none => rw [ht] at hp; cases hp
  | some t =>
    rw [ht] at hp
    cases hs : d.sessions[0]? with
    | none => rw [hs] at h; simp at h
    | some s =>
      rw [hs] at h
      simp only [Bool.and_eq_true, decide_eq_true_eq, and_assoc] at h hp
      obtain ⟨h1, h2, h3, h4, h5, h6, h7, h8, h9, h10, h11, h12, h13, h14, h15, h16, h17⟩ := h
      obtain ⟨p1, p2, p3, p4, p5, p6, p7⟩ := hp
      refine ⟨t, d, s, rfl, hd, hs, ⟨?_, ?_⟩, ?_, by rw [h16]; rfl, by rw [h17]; rfl⟩
      · refine (hd.inv.sess 0 s hs).reads.soFar.trans ?_
        rw [h1, p1]; decide
      · obtain ⟨es, hrun⟩ := Pub.sys_task_run (L := Lossy.strict) (acts₁ := []) rfl ht
        refine (Pub.run_tracks hrun).soFar.trans ?_
        rw [h2, h3]; decide
      · refine C67_everything_arrives Lossy.strict noDec 8 [] pubActs 0 8192 toPub t rfl ht 10 none (fun c h => by cases h) calls
          (by decide) (by decide) d hd h11 5 0 s (by unfold Sub.Driver.Active; rw [h12]; decide) hs h4 ?_ ?_ ?_ h5 h6 h3 ?_ ?_ p2 ?_ h7 p7 h8 ?_ ?_ ?_ ?_
          (t.evs.take 40) (t.evs.drop 40) (List.take_append_drop 40 t.evs).symm p3 p4
        · rw [h1]
          refine ⟨?_, ?_⟩ <;> (unfold OpenAns; decide)
        · rw [h1, p1]; decide
        · rw [h2]; decide
        · rw [h2]; exact p5
        · rw [p6]; rfl
        · rw [h1]
          exact Nat.le_trans (by decide) h10
        · intro x hx _
          have : x.2.2 ∈ d.fates.map (·.2.2) := List.mem_map.2 ⟨x, hx, rfl⟩
          rw [h15] at this
          have h0 : x.2.2 = .delivered := by simpa using this
          rw [h0]
          simp
        · rw [h9]; decide
        · rw [h2, h14]; decide
        · rw [h13]
          intro op hop
          simp only [List.filterMap_cons, List.filterMap_nil, Sub.Command.op, List.mem_singleton] at hop
          subst hop
          unfold Spec.Literal
          decide

end E2E

end MsgRs.Props
