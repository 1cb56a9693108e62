import Verif.Props.E2EAccount
/-!
# C118 at any moment: whatever has not been received yet is under way, or accounted for
-/
namespace MsgRs.Props
open MsgRs Spec Pub

variable {A : Type}

/-- A walk over the messages published does not look beyond its end. -/
theorem replay_take (log : List PubMsg) (q : Nat) (evs : List Ev) : ∀ p, replay log p evs = some q → replay (log.take q) p evs = some q := by
  induction evs with
  | nil => intro p h; exact h
  | cons ev evs ih =>
    intro p h
    cases ev with
    | took m n =>
      simp only [replay] at h ⊢
      split at h
      · rename_i hm
        have hle := replay_le _ _ _ _ h
        rw [List.getElem?_take_of_lt (by omega), hm, if_pos rfl]
        exact ih _ h
      · cases h
    | lagged k => exact ih _ h
    | _ => exact ih _ h

/-- Every frame sent by a publisher can be decompressed. -/
theorem due_shown {L : Lossy} {D : Decompressors} {minCompress : Nat} {comp : Option Compressor} (hcomp : ∀ c, comp = some c → Spec.Inverts D c)
    (evs : List Ev) : ∀ (ops : List Op) (k : Nat), (∀ m ∈ tookOf evs, ∃ c : PubCall, c.prepare minCompress comp = some m) →
    ∀ f ∈ due L ops k evs, Sub.shown L D f ≠ none := by
  induction evs with
  | nil => intro ops k _ f hf; cases hf
  | cons ev evs ih =>
    intro ops k hm f hf
    cases ev with
    | took m n =>
      have hrest : ∀ m ∈ tookOf evs, ∃ c : PubCall, c.prepare minCompress comp = some m :=
        fun m' h' => hm m' (by simp only [tookOf] at h' ⊢; exact List.mem_cons_of_mem _ h')
      simp only [due] at hf
      split at hf
      · rcases List.mem_cons.1 hf with rfl | hf
        · obtain ⟨c, hc⟩ := hm m (by simp [tookOf])
          have := prepare_payload hcomp hc
          simp [Sub.shown, frame, this]
        · exact ih _ _ hrest f hf
      · exact ih _ _ hrest f hf
    | _ => exact ih _ _ hm f hf

/-- What two ends of a connection have in common at any moment, for whatever subscriptions. -/
theorem moment_history [DecidableEq A] (L : Lossy) (D : Decompressors) (max : Option Nat) (authn : Option (Bytes → Bool))
    (boundary minCompress bufferSize : Nat) (comp : Option Compressor) (hcomp : ∀ c, comp = some c → Spec.Inverts D c)
    (acts : List (SrvAct A)) (i : Nat) (x : Ses A)
    (hx : ((Server.new max authn boundary minCompress bufferSize comp : Server A).run L acts).ses[i]? = some x)
    (hsmall : ∀ c ∈ pubCalls acts, ∀ m, c.prepare minCompress comp = some m → m.payload.length < 2 ^ 32)
    (opts : Sub.Options) (now : Nat) (d0 d : Sub.Driver A) (h0 : Sub.Driver.new opts now = .ok d0) (sacts : List (Sub.Act A))
    (hr : d0.run L D sacts = .ok d) (hopen : d.closed = false) (u : Nat) (s : Sub.Session)
    (hs : d.sessions[u]? = some s) (hconn : Connected x.input x.task.sess s) :
    ∃ pre e post l later read, acts = pre ++ .driver e :: post ∧
      startedBy L (Server.new max authn boundary minCompress bufferSize comp : Server A) pre e i ∧
      everyCall l ++ later = (callsAfter pre (.driver e :: post)).filter (fun c => (c.prepare minCompress comp).isSome) ∧
      (∀ op ∈ opsIn (notMissed l), op ∈ d.processed.filterMap Sub.Command.op) ∧
      (missedCalls l ≠ [] → ∃ before after y, acts = before ++ after ∧
        ((Server.new max authn boundary minCompress bufferSize comp : Server A).run L before).ses[i]? = some y ∧
        y.task.next + bufferSize < ((Server.new max authn boundary minCompress bufferSize comp : Server A).run L before).log.length) ∧
      read <+: wanted (fun ops t => Trie.contains (filterAfter ops) t) [] (notMissed l) ∧
      ((Sub.ofConn u (d.received ++ d.inbox)).map fun m => (m.topic, m.payload)).Sublist read ∧
      read.length = (Sub.ofConn u (d.received ++ d.inbox)).length + s.toDriver.length + s.drops + turnedAway d u ∧
      (∀ a, d.Active a u → 0 < s.drops + turnedAway d u → ∃ before after f, sacts = before ++ after ∧ d0.run L D before = .ok f ∧
        (opts.ingress ≤ f.inbox.length ∨ ∃ t : Sub.Session, f.sessions[u]? = some t ∧ 1024 ≤ t.toDriver.length)) := by
  have hreach : Sub.Reach L D d := ⟨opts, now, d0, sacts, h0, hr⟩
  have hd0 : d0.opts = opts ∧ d0.sessions = [] ∧ d0.fates = [] := by
    unfold Sub.Driver.new at h0
    split at h0
    · cases h0
    · cases h0; exact ⟨rfl, rfl, rfl⟩
  obtain ⟨pre, e, post, h1, h2, acts₁, acts₂, b, h3, h4, h5, h6, h7⟩ := session_history' L max authn boundary minCompress bufferSize comp acts i x hx
  have ht : ((Sys.new bufferSize).run L (acts₁ ++ .connect i boundary x.input :: acts₂)).tasks i = some x.task := by
    rw [h5]; simp [Server.sys, hx]
  have hT := task_cursor (L := L) h4 ht
  have hwalk := replay_take _ _ _ _ hT.cur.walk
  have hbound := hT.cur.bound
  have hlen : (List.take x.task.next (published acts₁ ++ published acts₂)).length = x.task.next := by
    rw [List.length_take]; omega
  have hsm : ∀ m ∈ published acts₂, m.payload.length < 2 ^ 32 := by
    intro m hm
    rw [h7] at hm
    obtain ⟨c, hc1, hc2⟩ := List.mem_filterMap.1 hm
    refine hsmall c ?_ m hc2
    rw [h1]
    exact List.mem_of_mem_drop hc1
  have hi := hreach.inv.sess u s hs
  obtain ⟨k1, k2, k3⟩ := got_prefix h4 ht hsm hi hconn.toSub
  have hgot := k1.trans k2
  obtain ⟨l, g1, g2, g3, g4⟩ := weaveFated (L := L) (D := D) (minCompress := minCompress) (comp := comp) hcomp
    (List.take x.task.next (published acts₁ ++ published acts₂)) x.task.evs (published acts₁).length
    (((callsAfter pre (.driver e :: post)).filter fun c => (c.prepare minCompress comp).isSome).take (x.task.next - (published acts₁).length))
    (by rw [hlen]; exact hwalk)
    (by rw [List.map_take, calls_map, List.drop_take, List.drop_left, h7, List.map_take])
  obtain ⟨es, hrun⟩ := Pub.sys_task_run h4 ht
  obtain ⟨S, j1, j2, j3, j4⟩ := Sub.sent_frames hi
  have hops := ((C20_control_arrives L S j1 boundary x.input es x.task.sess x.task.evs hrun).1 (by rw [← j3]; exact hconn.toPub)).1
  have hall : ∀ f ∈ s.got, Sub.shown L D f ≠ none := by
    intro f hf
    refine due_shown (minCompress := minCompress) hcomp x.task.evs [] 0 ?_ f (hgot.subset hf)
    intro m hm
    have hm := k3.subset hm
    rw [h7] at hm
    obtain ⟨c, -, hc2⟩ := List.mem_filterMap.1 hm
    exact ⟨c, hc2⟩
  have hgotlen : (s.got.filterMap (Sub.shown L D)).length = s.got.length := by
    clear hgot k1
    generalize s.got = G at hall
    induction G with
    | nil => rfl
    | cons f G ih =>
      have h1 := hall f List.mem_cons_self
      cases hf : Sub.shown L D f with
      | none => exact absurd hf h1
      | some y => simp [hf, ih (fun g hg => hall g (List.mem_cons_of_mem _ hg))]
  refine ⟨pre, e, post, l, _, s.got.filterMap (Sub.shown L D), h1, h2, by rw [g2]; exact List.take_append_drop _ _, ?_, ?_, ?_, ?_, ?_, ?_⟩
  · intro op hop
    rw [g1] at hop
    obtain ⟨y, hy, rfl⟩ := List.mem_map.1 (hops.subset hop)
    obtain ⟨c, hc1, hc2⟩ := j4 y hy
    rw [← hc2]
    exact hreach.topics.src u s hs c hc1
  · intro hne
    refine Classical.byContradiction fun hno => hne ?_
    have := C23_publisher_in_time L max authn boundary minCompress bufferSize comp acts i x hx (by
      intro p q y hp hy
      refine Classical.byContradiction fun hlt => hno ⟨p, q, y, hp, hy, by omega⟩)
    rw [this.1] at g3
    exact List.length_eq_zero_iff.1 g3
  · rw [← g4 [] 0]
    exact hgot.filterMap _
  · exact (C50_attributed_in_order L D d hreach).2 u s hs
  · rw [hgotlen]
    have hfate := hreach.inv.fate u s hs
    have hlt : u < d.addrs.length := by rw [hreach.inv.len]; exact (List.getElem?_eq_some_iff.1 hs).1
    obtain ⟨rest, hin, hrest⟩ := hreach.inv.inbox
    rw [hrest hopen, List.append_nil] at hin
    have hc := Sub.taken_count (D := D) d.addrs u d.addrs[u] (List.getElem?_eq_getElem hlt) d.fates (hreach.notGone hopen) hreach.undecodable (by
      intro y hy hyu
      have hmem : y.2.1 ∈ Sub.takenFrom d.fates u :=
        List.mem_map.2 ⟨y, List.mem_filter.2 ⟨hy, by simpa using hyu⟩, rfl⟩
      have hmem : y.2.1 ∈ s.fwd := by rw [hfate]; exact List.mem_append.2 (.inl hmem)
      obtain ⟨f, hf, hfe⟩ := List.mem_map.1 (hi.fwd.subset hmem)
      rw [← hfe]
      exact hall f hf)
    rw [hin] at hc
    have hdr := hi.drops
    rw [hfate, List.length_append, hc] at hdr
    unfold turnedAway
    omega
  · intro a ha hpos
    have hal : s.alive = true := by
      obtain ⟨-, t, h1, h2⟩ := hreach.inv.act a u ha
      rw [hs] at h1; cases h1; exact h2
    refine Classical.byContradiction fun hno => ?_
    have hnl : Sub.NoLoss u d := by
      refine Sub.NoLoss.run sacts hr ⟨by rw [hd0.2.2]; simp, by rw [hd0.2.1]; simp⟩ hopen (fun t ht => ?_) (fun p q f hp hf => ?_)
      · rw [hs] at ht; cases ht; exact hal
      · have hopt : f.opts = opts := by rw [(Sub.run_steps p d0 f hf).grow.2.2.2.2, hd0.1]
        refine ⟨Classical.byContradiction fun hlt => hno ⟨p, q, f, hp, hf, .inl (by rw [hopt] at hlt; omega)⟩, fun t ht => ?_⟩
        refine Classical.byContradiction fun hlt => hno ⟨p, q, f, hp, hf, .inr ⟨t, ht, ?_⟩⟩
        simpa [Sub.toDriverCap] using hlt
    have h8 := hnl.drops s hs
    have h9 : turnedAway d u = 0 := by
      unfold turnedAway
      rw [List.length_eq_zero_iff, List.filter_eq_nil_iff]
      intro y hy
      simp only [Bool.and_eq_true, decide_eq_true_eq, not_and]
      intro hyu hf
      exact (hnl.fates y hy hyu).1 hf
    omega

/-- C118 at any moment, quiet or not, whether the connection still works or not, and also after the user disconnected: a client of a publisher is (or was) connected to
session `u` of a subscriber that has not been dropped: what each end has read was written by the other. The subscriptions are to literal topics.

Then the publish calls since the client was admitted (but for those whose compression failed) are, in order, those that came to their turn for this client or were missed (the
history `l`), and `later` ones that did not come to their turn yet. Some are missed only if at some moment the session was more than `session_buffer_size` messages behind.
Of those that came to their turn, those whose topic was subscribed to at that turn are sent to the subscriber, in order; the first of these are the messages `read` by the
subscriber, the others are under way. Of the `read` ones, the user has some, in order; the others wait for the background task (`s.toDriver`) or were dropped, with a line in
the log, at one of two places (`s.drops`, `turnedAway`). While the connection is in use, they are only dropped if at some moment 1024 messages of the connection, or the whole
buffer for the user, were waiting. -/
theorem C118_any_moment [DecidableEq A] (L : Lossy) (D : Decompressors) (max : Option Nat) (authn : Option (Bytes → Bool))
    (boundary minCompress bufferSize : Nat) (comp : Option Compressor) (hcomp : ∀ c, comp = some c → Spec.Inverts D c)
    (acts : List (SrvAct A)) (i : Nat) (x : Ses A)
    (hx : ((Server.new max authn boundary minCompress bufferSize comp : Server A).run L acts).ses[i]? = some x)
    (hsmall : ∀ c ∈ pubCalls acts, ∀ m, c.prepare minCompress comp = some m → m.payload.length < 2 ^ 32)
    (opts : Sub.Options) (now : Nat) (d0 d : Sub.Driver A) (h0 : Sub.Driver.new opts now = .ok d0) (sacts : List (Sub.Act A))
    (hr : d0.run L D sacts = .ok d) (hopen : d.closed = false) (u : Nat) (s : Sub.Session)
    (hs : d.sessions[u]? = some s) (hconn : Connected x.input x.task.sess s)
    (hLit : ∀ op ∈ d.processed.filterMap Sub.Command.op, Spec.Literal op.pattern) :
    ∃ pre e post l later read, acts = pre ++ .driver e :: post ∧
      startedBy L (Server.new max authn boundary minCompress bufferSize comp : Server A) pre e i ∧
      everyCall l ++ later = (callsAfter pre (.driver e :: post)).filter (fun c => (c.prepare minCompress comp).isSome) ∧
      (∀ op ∈ opsIn (notMissed l), op ∈ d.processed.filterMap Sub.Command.op) ∧
      (missedCalls l ≠ [] → ∃ before after y, acts = before ++ after ∧
        ((Server.new max authn boundary minCompress bufferSize comp : Server A).run L before).ses[i]? = some y ∧
        y.task.next + bufferSize < ((Server.new max authn boundary minCompress bufferSize comp : Server A).run L before).log.length) ∧
      read <+: wanted active [] (notMissed l) ∧
      ((Sub.ofConn u (d.received ++ d.inbox)).map fun m => (m.topic, m.payload)).Sublist read ∧
      read.length = (Sub.ofConn u (d.received ++ d.inbox)).length + s.toDriver.length + s.drops + turnedAway d u ∧
      (∀ a, d.Active a u → 0 < s.drops + turnedAway d u → ∃ before after f, sacts = before ++ after ∧ d0.run L D before = .ok f ∧
        (opts.ingress ≤ f.inbox.length ∨ ∃ t : Sub.Session, f.sessions[u]? = some t ∧ 1024 ≤ t.toDriver.length)) := by
  obtain ⟨pre, e, post, l, later, read, h1, h2, h3, h4, h5, h6, h7, h8, h9⟩ := moment_history L D max authn boundary minCompress bufferSize comp hcomp acts i x hx hsmall
    opts now d0 d h0 sacts hr hopen u s hs hconn
  have hw : wanted active [] (notMissed l) = wanted (fun ops t => Trie.contains (filterAfter ops) t) [] (notMissed l) := by
    refine (wanted_congr (notMissed l) [] (fun p q c hl => ?_)).symm
    rw [List.nil_append]
    have := C15_literal_exact (opsIn p) (fun op hop => hLit op (h4 op (opsIn_prefix hl op hop))) c.topic
    cases hx : active (opsIn p) c.topic <;> cases hy : Trie.contains (filterAfter (opsIn p)) c.topic <;> simp_all
  exact ⟨pre, e, post, l, later, read, h1, h2, h3, h4, h5, by rw [hw]; exact h6, h7, h8, h9⟩

open Classical in
/-- C118 at any moment, with wildcards: as `C118_any_moment`, for well-formed patterns and topics without a `>` token; wanted are the messages whose topic a pattern subscribed to
at their turn passed (`PassedBy`, C17). -/
theorem C118_any_moment_wildcards [DecidableEq A] (L : Lossy) (D : Decompressors) (max : Option Nat) (authn : Option (Bytes → Bool))
    (boundary minCompress bufferSize : Nat) (comp : Option Compressor) (hcomp : ∀ c, comp = some c → Spec.Inverts D c)
    (acts : List (SrvAct A)) (i : Nat) (x : Ses A)
    (hx : ((Server.new max authn boundary minCompress bufferSize comp : Server A).run L acts).ses[i]? = some x)
    (hsmall : ∀ c ∈ pubCalls acts, ∀ m, c.prepare minCompress comp = some m → m.payload.length < 2 ^ 32)
    (opts : Sub.Options) (now : Nat) (d0 d : Sub.Driver A) (h0 : Sub.Driver.new opts now = .ok d0) (sacts : List (Sub.Act A))
    (hr : d0.run L D sacts = .ok d) (hopen : d.closed = false) (u : Nat) (s : Sub.Session)
    (hs : d.sessions[u]? = some s) (hconn : Connected x.input x.task.sess s)
    (hwf : ∀ op ∈ d.processed.filterMap Sub.Command.op, Spec.WellFormed op.pattern)
    (hts : ∀ c ∈ pubCalls acts, ['>'] ∉ splitDots c.topic) :
    ∃ pre e post l later read, acts = pre ++ .driver e :: post ∧
      startedBy L (Server.new max authn boundary minCompress bufferSize comp : Server A) pre e i ∧
      everyCall l ++ later = (callsAfter pre (.driver e :: post)).filter (fun c => (c.prepare minCompress comp).isSome) ∧
      (∀ op ∈ opsIn (notMissed l), op ∈ d.processed.filterMap Sub.Command.op) ∧
      (missedCalls l ≠ [] → ∃ before after y, acts = before ++ after ∧
        ((Server.new max authn boundary minCompress bufferSize comp : Server A).run L before).ses[i]? = some y ∧
        y.task.next + bufferSize < ((Server.new max authn boundary minCompress bufferSize comp : Server A).run L before).log.length) ∧
      read <+: wanted (fun ops topic => decide (∃ p, PassedBy ops topic p)) [] (notMissed l) ∧
      ((Sub.ofConn u (d.received ++ d.inbox)).map fun m => (m.topic, m.payload)).Sublist read ∧
      read.length = (Sub.ofConn u (d.received ++ d.inbox)).length + s.toDriver.length + s.drops + turnedAway d u ∧
      (∀ a, d.Active a u → 0 < s.drops + turnedAway d u → ∃ before after f, sacts = before ++ after ∧ d0.run L D before = .ok f ∧
        (opts.ingress ≤ f.inbox.length ∨ ∃ t : Sub.Session, f.sessions[u]? = some t ∧ 1024 ≤ t.toDriver.length)) := by
  obtain ⟨pre, e, post, l, later, read, h1, h2, h3, h4, h5, h6, h7, h8, h9⟩ := moment_history L D max authn boundary minCompress bufferSize comp hcomp acts i x hx hsmall
    opts now d0 d h0 sacts hr hopen u s hs hconn
  have hw : wanted (fun ops topic => decide (∃ p, PassedBy ops topic p)) [] (notMissed l) =
      wanted (fun ops t => Trie.contains (filterAfter ops) t) [] (notMissed l) := by
    refine (wanted_congr (notMissed l) [] (fun p q c hl => ?_)).symm
    rw [List.nil_append]
    have hc : c ∈ pubCalls acts := by
      have : c ∈ everyCall l ++ later := List.mem_append.2 (.inl (everyCall_mem (by rw [hl]; simp)))
      rw [h3] at this
      rw [h1]
      exact List.mem_of_mem_drop (List.mem_filter.1 this).1
    have := C17_exactly (opsIn p) (fun op hop => hwf op (h4 op (opsIn_prefix hl op hop))) c.topic (hts c hc)
    by_cases hx : ∃ p', PassedBy (opsIn p) c.topic p'
    · simp [hx, this]
    · have : ¬ Trie.contains (filterAfter (opsIn p)) c.topic = true := fun h => hx (this.1 h)
      simp [hx, this]
  exact ⟨pre, e, post, l, later, read, h1, h2, h3, h4, h5, by rw [hw]; exact h6, h7, h8, h9⟩

namespace E2EServer
open E2E

/-- As `srvLag`, and a fourth message is published. -/
def srvMid : List (SrvAct Nat) := srvLag ++ [.publish ['a'] [4]]

def srvM : Server Nat := (Server.new none none 8192 10 2 none).run Lossy.strict srvMid

/-- The subscriber has read one message and the beginning of another; its background task has not taken anything. -/
def subMid : List (Sub.Act Nat) :=
  [.call (.subscribe ['a']), .call (.connect 5), .iter ⟨[], [], none⟩, .iter ⟨[], [], none⟩, .iter ⟨[5], [], conn [.pending, .data (pubBytesG.take 30)]⟩] ++
    List.replicate 12 (.session 0 eager)

theorem srvM_ok : (match srvM.ses[0]? with
    | some x => decide (x.input = [.data subA]) && decide (x.task.sess.wr.wire = pubBytesG) && decide (x.task.sess.wr.buf = []) &&
        decide (readSoFar x.input x.task.sess.input = subA)
    | none => false) = true := by decide +kernel

theorem subM_ok : after {} subMid (fun d =>
    (match d.sessions[0]? with
    | some s => decide (s.wr.wire = subA) && decide (s.wr.buf = []) && decide (s.toDriver.length = 1) && decide (s.drops = 0) &&
        decide (readSoFar s.input0 s.input = pubBytesG.take 30)
    | none => false) && decide (d.closed = false) &&
    decide (d.processed = [.subscribe ['a'], .connect 5]) && decide (turnedAway d 0 = 0) &&
    decide (d.received = []) && decide (d.inbox = [])) = true := by decide +kernel

/-- All hypotheses of `C118_any_moment` are met by this pair: of four messages one was missed, one waits for the background task of the subscriber, one is under way, and the
last has not come to its turn. -/
example : ∃ (d : Sub.Driver Nat) (s : Sub.Session), Sub.Reach Lossy.strict noDec d ∧ d.sessions[0]? = some s ∧
    ∃ pre e post l later read, srvMid = pre ++ .driver e :: post ∧
      everyCall l ++ later = (callsAfter pre (.driver e :: post)).filter (fun c => (c.prepare 10 none).isSome) ∧
      read <+: wanted active [] (notMissed l) ∧ read.length = 1 := by
  have hp := srvM_ok
  have hok := subM_ok
  unfold after at hok
  cases h0 : (Sub.Driver.new {} 0 : R (Sub.Driver Nat)) with
  | panic => rw [h0] at hok; cases hok
  | ok d0 =>
    rw [h0] at hok
    simp only at hok
    cases hrun : d0.run Lossy.strict noDec subMid with
    | panic => rw [hrun] at hok; cases hok
    | ok d =>
      rw [hrun] at hok
      simp only at hok
      cases hx : srvM.ses[0]? with
      | none => rw [hx] at hp; cases hp
      | some x =>
        rw [hx] at hp
        cases hs : d.sessions[0]? with
        | none => rw [hs] at hok; simp at hok
        | some s =>
          rw [hs] at hok
          simp only [Bool.and_eq_true, decide_eq_true_eq, and_assoc] at hok hp
          obtain ⟨h1, h2, h3, h4, h5, h6, h7, h8, h9, h10⟩ := hok
          obtain ⟨p0, p1, p2, p3⟩ := hp
          refine ⟨d, s, ⟨_, 0, d0, subMid, h0, hrun⟩, hs, ?_⟩
          obtain ⟨pre, e, post, l, later, read, q1, -, q3, -, -, q6, -, q8, -⟩ := C118_any_moment Lossy.strict noDec none none 8192 10 2 none (fun c h => by cases h)
            srvMid 0 x hx (by decide +kernel) {} 0 d0 d h0 subMid hrun h6 0 s hs
            ⟨by rw [h5, p1, p2, List.append_nil]; exact List.take_prefix _ _, by rw [p3, h1, h2, List.append_nil]; exact List.prefix_rfl⟩ (by
              rw [h7]
              intro op hop
              simp only [List.filterMap_cons, List.filterMap_nil, Sub.Command.op, List.mem_cons, List.not_mem_nil, or_false] at hop
              rcases hop with rfl <;> (unfold Spec.Literal; decide))
          refine ⟨pre, e, post, l, later, read, q1, q3, q6, ?_⟩
          rw [q8, h3, h4, h8, h9, h10]
          rfl

end E2EServer

end MsgRs.Props
