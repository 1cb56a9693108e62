import Verif.Proofs.SubTold
import Verif.Props.Sub
import Verif.Props.Pub
/-!
# Properties C46, C47, C52, C53 of the subscriber socket: what publishers are told, and what can go wrong

The vocabulary is that of `Props/Sub.lean`.
-/
namespace MsgRs.Props
open MsgRs MsgRs.Sub
variable {A : Type} [DecidableEq A]

/-! ## C46 -/

/-- C46 (partial): a connection that has written everything it was given has sent the publisher exactly one control
frame for each subscription command it was offered, and the subscriptions these frames stand for are those the user
has. Conditions: the connection was offered at most 64 commands (or at least, its command channel never refused
one); and the bytes it sent do not reach the size of its write buffer (`readBuffer`, 8192 by default), or at least, no frame was lost to a failed write
(`lost`) and none overtaken by another (`rotated`), the latter being harmless if the user never unsubscribed.
Missing: without these conditions it is false (`C46_65_topics_refuted`, `C52_reordered_refuted`). -/
theorem C46_told_partial (L : Lossy) (D : Decompressors) (d : Driver A) (h : Reach L D d) (a : A) (u : Nat) (s : Session)
    (ha : d.Active a u) (hs : d.sessions[u]? = some s) (ho : s.over = false)
    (hq : s.offered.length ≤ 64 ∨ s.queued = s.offered)
    (hw : s.wr.wire.length < d.opts.readBuffer ∨
      (s.lost = [] ∧ (s.rotated = false ∨ ∀ t, .unsubscribe t ∉ d.processed)))
    (hc : s.cmds = []) (he : s.egress = []) (hb : s.wr.buf = []) :
    ∃ sent : List (UInt64 × Spec.Op × PubSub.Message),
      (∀ x ∈ sent, Spec.controlFrame x.1 x.2.1 = .ok x.2.2) ∧
      s.wr.wire = sent.flatMap (fun x => PubSub.encode x.2.2) ∧
      ∀ t, Spec.active (sent.map (·.2.1)) t = Spec.active (d.processed.filterMap Command.op) t := by
  obtain ⟨hl, hor⟩ : s.lost = [] ∧ (s.rotated = false ∨ ∀ t, .unsubscribe t ∉ d.processed) := by
    rcases hw with hw | hw
    · have hno : ¬ (s.rotated = true ∨ s.lost ≠ []) := by
        intro hx
        have h1 := (h.inv.sess u s hs).full hx
        have h2 := h.inv.bound u s hs
        unfold Writer.total at h1
        rw [hb, List.append_nil] at h1
        omega
      refine ⟨Classical.byContradiction fun hx => hno (.inr hx), .inl ?_⟩
      cases hr : s.rotated with
      | false => rfl
      | true => exact absurd (.inl hr) hno
    · exact hw
  have hi := h.inv.sess u s hs
  have htp := h.topics
  have hqo : s.queued = s.offered := by
    rcases hq with hq | hq
    · exact hi.small ho hq
    · exact hq
  have hho : s.handled.map (·.2) = s.offered := by
    have := hi.queued ho
    rw [hc, List.append_nil] at this
    rw [← this, hqo]
  obtain ⟨H, h1, h2, h3⟩ := handled_frames hi
  have hperm := hi.perm
  rw [hl, he, List.append_nil, List.append_nil, ← h2] at hperm
  have hop : H.map (·.2.1) = s.offered.map Cmd.op := by rw [h3, ← hho, List.map_map]; rfl
  have hwire : ∀ H' : List (UInt64 × Spec.Op × PubSub.Message), H'.map (·.2.2) = s.sent →
      s.wr.wire = H'.flatMap (fun x => PubSub.encode x.2.2) := by
    intro H' hH
    have := hi.wire
    unfold Writer.total at this
    rw [hb, List.append_nil] at this
    rw [this, ← hH, List.flatMap_map]
  have hact : ∀ t, Spec.active (s.offered.map Cmd.op) t = Spec.active (d.processed.filterMap Command.op) t := by
    intro t
    rw [htp.offered a u s ha hs t]
    cases hx : Spec.active (d.processed.filterMap Command.op) t with
    | true => exact decide_eq_true ((htp.topics t).2 hx)
    | false =>
      refine decide_eq_false fun hm => ?_
      rw [(htp.topics t).1 hm] at hx
      cases hx
  by_cases hr : s.rotated = false
  · have hord := hi.order hr
    rw [he, List.append_nil, ← h2] at hord
    have heq := hord.eq_of_length hperm.length_eq
    exact ⟨H, h1, hwire H heq.symm, fun t => by rw [hop]; exact hact t⟩
  · obtain ⟨H', g1, g2⟩ := perm_map_lift s.sent H hperm
    refine ⟨H', fun x hx => h1 x (g1.subset hx), hwire H' g2, fun t => ?_⟩
    rcases hor with hor | hor
    · exact absurd hor hr
    · have hp2 : (H'.map (·.2.1)).Perm (s.offered.map Cmd.op) := by rw [← hop]; exact g1.map _
      have hno : ∀ t, Spec.Op.unsub t ∉ s.offered.map Cmd.op := by
        intro t hm
        obtain ⟨c, hc1, hc2⟩ := List.mem_map.1 hm
        have := htp.src u s hs c hc1
        rw [hc2] at this
        obtain ⟨y, hy1, hy2⟩ := List.mem_filterMap.1 this
        cases y with
        | unsubscribe t' => cases hy2; exact hor t hy1
        | _ => cases hy2
      rw [← hact t, active_subs_only _ hno, active_subs_only _ (fun t ht => hno t (hp2.subset ht))]
      simp [hp2.mem_iff]

/-- C46 (partial), liveness: a connection that takes what is written to it gets there: after at most `3 n + 3`
iterations of the session, where `n` is the number of commands waiting, everything was written (while there is nothing
to read). `B` bounds the bytes and `K` the frames waiting. Missing: more commands than the channel to the session holds
(`C46_65_topics_refuted`), and frames that do not fit the write buffer. -/
theorem C46_gets_written_partial (L : Lossy) (D : Decompressors) (d : Driver A) (h : Reach L D d) (a : A) (u : Nat) (s : Session)
    (ha : d.Active a u) (hs : d.sessions[u]? = some s) (ho : s.over = false)
    (hidle : s.Idle) (hfl : s.flush = false → s.wr.buf = []) (hshort : ∀ c ∈ d.processed, c.short 65525)
    (B K : Nat) (hB : s.todo ≤ B) (hK : s.egress.length + 1 ≤ K) (es : List SEnv) (hw : ∀ e ∈ es, e.Willing B K)
    (hlen : 3 * s.cmds.length + 3 ≤ es.length) :
    ∃ e s', d.run L D (es.map (Act.session u)) = .ok e ∧ e.Active a u ∧ e.sessions[u]? = some s' ∧
      e.processed = d.processed ∧ s'.cmds = [] ∧ s'.egress = [] ∧ s'.wr.buf = [] ∧
      s'.offered = s.offered ∧ s'.queued = s.queued ∧ s'.lost = s.lost ∧ s'.rotated = s.rotated ∧ s'.over = false := by
  obtain ⟨e, h1, h2, h3, h4, -⟩ := run_session (L := L) (D := D) es d u s hs
  have hi := h.inv.sess u s hs
  have halive : s.alive = true := by
    obtain ⟨-, s0, g1, g2⟩ := h.inv.act a u ha
    rw [hs] at g1; cases g1; exact g2
  have hcm : ∀ c ∈ s.cmds, ∀ now, ∃ m, c.msg now = .ok m := by
    intro c hc now
    have hmo : c ∈ s.offered := hi.offered.subset (by rw [hi.queued ho]; exact List.mem_append_right _ hc)
    obtain ⟨x, hx1, hx2⟩ := List.mem_filterMap.1 (h.topics.src u s hs c hmo)
    exact Cmd.msg_ok hx2 (hshort x hx1) now
  have hready : Ready B K s := ⟨hidle, ho, halive, hfl, hcm, hB, by omega, by omega⟩
  obtain ⟨g1, g2, g3⟩ := willing_run (L := L) es s hready hw
  have h0 : (es.foldl (Session.step L) s).work = 0 := by
    rcases g3 with g3 | g3
    · exact g3
    · have : s.work ≤ 3 * s.cmds.length + 3 := by
        unfold Session.work
        split <;> split <;> omega
      omega
  obtain ⟨k1, k2, k3⟩ := work_zero g1 h0
  exact ⟨e, _, h1, by unfold Driver.Active; rw [h3]; exact ha, h2, h4, k1, k2, k3, g2.offered, g2.queued, g2.lost,
    g2.rotated, g2.over.trans ho⟩

/-- Three subscriptions and one unsubscription, before and after connecting; everything was written. -/
def fourCommands : List (Act Nat) :=
  [.call (.subscribe ['a']), .call (.subscribe ['b']), .iter ⟨[], [], none⟩, .iter ⟨[], [], none⟩,
   .call (.connect 5), .iter ⟨[], [], none⟩, .iter ⟨[5], [['b'], ['a']], conn []⟩, .iter ⟨[5], [], none⟩,
   .session 0 eager, .call (.unsubscribe ['a']), .iter ⟨[5], [], none⟩, .call (.subscribe ['c']), .iter ⟨[5], [], none⟩] ++
  List.replicate 12 (.session 0 eager)

example : after {} fourCommands (fun d => decide (d.pubs = [(5, .active 0)]) &&
    decide (d.sessions.map (fun s => (s.over, s.offered.length, s.cmds.length, s.egress.length, s.wr.buf.length, s.wr.wire.length)) =
      [(false, 4, 0, 0, 0, 118)])) = true := by decide +kernel

/-- `eager` is a willing connection. -/
example : eager.Willing 100000 8 := by
  have h : ∀ w : Writer, w.buf.length ≤ 100000 → (w.flush [.ok 100000, .ok 1]).1 = .ok := by
    intro w hw
    unfold Writer.flush
    split
    · rfl
    · rw [if_neg (by omega)]
      unfold Writer.flush
      simp only [List.drop_eq_nil_of_le hw, List.isEmpty_nil, if_true]
  refine ⟨h, fun i hi w hw => ?_⟩
  have : eager.sendAns.getD i [] = [.ok 100000, .ok 1] := by
    rw [List.getD_eq_getElem?_getD, show eager.sendAns = List.replicate 8 [.ok 100000, .ok 1] from rfl, List.getElem?_replicate, if_pos hi]
    rfl
  rw [this]
  exact h w hw

/-- A new connection is idle. -/
example (b : Nat) (via : HsEnv) : (Session.new b via []).Idle := rfl

/-! ### The 65th topic -/

/-- 65 different topics. -/
def topics65 : List Str := (List.range 65).map fun n => [Char.ofNat (200 + n)]

/-- The user subscribes to 65 topics, then connects to a publisher whose connection takes everything at once. -/
def subscribe65 : List (Act Nat) :=
  topics65.flatMap (fun t => [.call (.subscribe t), .iter ⟨[], [], none⟩]) ++
  [.call (.connect 5), .iter ⟨[], [], none⟩, .iter ⟨[5], [], conn []⟩] ++ List.replicate 140 (.session 0 eager)

/-- C46 (refuted as stated): 65 topics subscribed before connecting; the connection takes everything that is
written, everything was written, and only 64 control frames were sent: the publisher is never told of the 65th
topic, and nobody is told that it was not. -/
theorem C46_65_topics_refuted :
    ∃ (d : Driver Nat) (s : Session), Reach Lossy.strict noDec d ∧ d.Active 5 0 ∧ d.sessions = [s] ∧ s.over = false ∧
      d.topics = topics65 ∧ s.cmds = [] ∧ s.egress = [] ∧ s.wr.buf = [] ∧ s.lost = [] ∧ s.sent.length = 64 ∧
      s.wr.wire = s.sent.flatMap PubSub.encode := by
  have h : after {} subscribe65 (fun d => decide (d.topics = topics65) && decide (d.pubs = [(5, .active 0)]) &&
      decide (d.sessions.map (fun s => (s.over, s.cmds.length, s.egress.length, s.wr.buf.length, s.lost.length, s.sent.length)) =
        [(false, 0, 0, 0, 0, 64)])) = true := by decide +kernel
  obtain ⟨d, hr, hd⟩ := after_reach h
  simp only [Bool.and_eq_true, decide_eq_true_eq] at hd
  obtain ⟨⟨h1, h2⟩, h3⟩ := hd
  cases hss : d.sessions with
  | nil => rw [hss] at h3; cases h3
  | cons s ss =>
    rw [hss] at h3
    simp only [List.map_cons, List.cons.injEq, List.map_eq_nil_iff, Prod.mk.injEq] at h3
    obtain ⟨⟨k1, k2, k3, k4, k5, k6⟩, k7⟩ := h3
    rw [List.length_eq_zero_iff] at k2 k3 k4 k5
    refine ⟨d, s, hr, by simp [Driver.Active, h2, lookup], by rw [hss, k7], k1, h1, k2, k3, k4, k5, k6, ?_⟩
    have := (hr.inv.sess 0 s (by rw [hss]; rfl)).wire
    unfold Writer.total at this
    rw [k4, List.append_nil] at this
    exact this

/-! ## C52 -/

/-- C52 (partial): as long as the bytes handed to a connection do not reach the size of its write buffer
(`readBuffer`, 8192 by default), or at least no frame was overtaken, the frames handed to it (`wire` and the write buffer) are the control
frames of a subsequence of the commands it was offered, in order; and what is still queued follows in order. Missing: beyond
that it is false (`C52_reordered_refuted`). -/
theorem C52_in_order_partial (L : Lossy) (D : Decompressors) (d : Driver A) (h : Reach L D d) (u : Nat) (s : Session)
    (hs : d.sessions[u]? = some s)
    (hw : s.wr.wire.length + s.wr.buf.length < d.opts.readBuffer ∨ s.rotated = false) :
    ∃ sent waiting : List (UInt64 × Spec.Op × PubSub.Message),
      (∀ x ∈ sent ++ waiting, Spec.controlFrame x.1 x.2.1 = .ok x.2.2) ∧
      s.wr.wire ++ s.wr.buf = sent.flatMap (fun x => PubSub.encode x.2.2) ∧ waiting.map (·.2.2) = s.egress ∧
      ((sent ++ waiting).map (·.2.1) ++ s.cmds.map Cmd.op).Sublist (s.offered.map Cmd.op ++ s.cmds.map Cmd.op) ∧
      (s.over = false → ((sent ++ waiting).map (·.2.1) ++ s.cmds.map Cmd.op).Sublist (s.offered.map Cmd.op)) := by
  have hi := h.inv.sess u s hs
  have hrot : s.rotated = false := by
    rcases hw with hw | hw
    · cases hr : s.rotated with
      | false => rfl
      | true =>
        have h1 := hi.full (.inl hr)
        rw [h.inv.bound u s hs] at h1
        unfold Writer.total at h1
        rw [List.length_append] at h1
        omega
    · exact hw
  obtain ⟨H, h1, h2, h3⟩ := handled_frames hi
  have hord := hi.order hrot
  rw [← h2] at hord
  obtain ⟨H', g1, g2⟩ := List.sublist_map_iff.1 hord
  obtain ⟨S, W, rfl, hS, hW⟩ := List.append_eq_map_iff.1 g2
  have hh : ((S ++ W).map (·.2.1)).Sublist ((s.handled.map (·.2)).map Cmd.op) := by
    have := g1.map (fun x => x.2.1)
    rw [h3] at this
    rw [List.map_map]
    exact this
  have hoff := hi.offered.map Cmd.op
  refine ⟨S, W, fun x hx => h1 x (g1.subset hx), ?_, hW, ?_, fun ho => ?_⟩
  · have := hi.wire
    unfold Writer.total at this
    rw [this, ← hS, List.flatMap_map]
  · refine (hh.trans ?_).append (List.Sublist.refl _)
    exact ((hi.queuedPre.sublist).map Cmd.op).trans hoff
  · have : s.queued.map Cmd.op = (s.handled.map (·.2)).map Cmd.op ++ s.cmds.map Cmd.op := by
      rw [hi.queued ho, List.map_append]
    rw [this] at hoff
    exact (hh.append (List.Sublist.refl _)).trans hoff

/-- C52: after a connection was established, the commands it is offered are (a subsequence of) those the
user gave, in that order. -/
theorem C52_offered_in_order (L : Lossy) (D : Decompressors) (d e : Driver A) (h : Reach L D d) (acts : List (Act A))
    (hr : d.run L D acts = .ok e) (u : Nat) (s : Session) (hs : d.sessions[u]? = some s) :
    ∃ s' extra new, e.sessions[u]? = some s' ∧ s'.offered = s.offered ++ extra ∧ e.processed = d.processed ++ new ∧
      (extra.map Cmd.op).Sublist (new.filterMap Command.op) :=
  offered_steps h.inv (run_steps acts d e hr) u s hs

/-- Topic names of the witness: 40 times `x`, and `y`. -/
def topicX : Str := List.replicate 40 'x'
def topicY : Str := ['y']

/-- The write buffer holds 64 bytes. While the connection takes nothing, the user subscribes to a long topic and to `y` and
unsubscribes from `y`; then the connection takes everything. -/
def reorder : List (Act Nat) :=
  [.call (.connect 5), .iter ⟨[], [], none⟩, .iter ⟨[5], [], conn []⟩, .iter ⟨[5], [], none⟩,
   .call (.subscribe topicX), .iter ⟨[5], [], none⟩, .session 0 stuck, .session 0 stuck,
   .call (.subscribe topicY), .iter ⟨[5], [], none⟩, .session 0 stuck, .session 0 stuck,
   .call (.unsubscribe topicY), .iter ⟨[5], [], none⟩, .session 0 stuck, .session 0 stuck,
   .session 0 eager, .session 0 eager, .session 0 eager, .session 0 eager]

/-- The control frames at time 0. -/
def frameBytes (op : Spec.Op) : Bytes :=
  match Spec.controlFrame 0 op with
  | .ok m => PubSub.encode m
  | .panic => []

/-- C52 (refuted as stated): the publisher gets the unsubscription from `y` before the subscription; nothing was
lost and everything written, so it goes on sending messages on `y`, which the user unsubscribed from. -/
theorem C52_reordered_refuted :
    ∃ (d : Driver Nat) (s : Session), Reach Lossy.strict noDec d ∧ d.Active 5 0 ∧ d.sessions = [s] ∧ s.over = false ∧
      d.processed = [.connect 5, .subscribe topicX, .subscribe topicY, .unsubscribe topicY] ∧
      s.cmds = [] ∧ s.egress = [] ∧ s.wr.buf = [] ∧ s.lost = [] ∧
      s.wr.wire = frameBytes (.sub topicX) ++ frameBytes (.unsub topicY) ++ frameBytes (.sub topicY) ∧
      Spec.active [.sub topicX, .unsub topicY, .sub topicY] topicY = true ∧
      Spec.active (d.processed.filterMap Command.op) topicY = false := by
  have h : after { readBuffer := 64 } reorder (fun d =>
      decide (d.processed = [.connect 5, .subscribe topicX, .subscribe topicY, .unsubscribe topicY]) &&
      decide (d.pubs = [(5, .active 0)]) &&
      decide (d.sessions.map (fun s => (s.over, s.cmds.length, s.egress.length, s.wr.buf.length, s.lost.length)) =
        [(false, 0, 0, 0, 0)]) &&
      decide (d.sessions.map (fun s => s.wr.wire) = [frameBytes (.sub topicX) ++ frameBytes (.unsub topicY) ++ frameBytes (.sub topicY)])) = true := by
    decide +kernel
  obtain ⟨d, hr, hd⟩ := after_reach h
  simp only [Bool.and_eq_true, decide_eq_true_eq] at hd
  obtain ⟨⟨⟨h1, h2⟩, h3⟩, h4⟩ := hd
  cases hss : d.sessions with
  | nil => rw [hss] at h3; cases h3
  | cons s ss =>
    rw [hss] at h3 h4
    simp only [List.map_cons, List.cons.injEq, List.map_eq_nil_iff, Prod.mk.injEq] at h3 h4
    obtain ⟨⟨k1, k2, k3, k4, k5⟩, k7⟩ := h3
    rw [List.length_eq_zero_iff] at k2 k3 k4 k5
    refine ⟨d, s, hr, by simp [Driver.Active, h2, lookup], by rw [hss, k7], k1, h1, k2, k3, k4, k5, h4.1, by decide, ?_⟩
    rw [h1]
    decide

/-- Within the limits: the commands of `fourCommands` are in order on the wire. -/
example : after {} fourCommands (fun d => decide (d.sessions.map (·.wr.wire) =
    [frameBytes (.sub ['b']) ++ frameBytes (.sub ['a']) ++ frameBytes (.unsub ['a']) ++ frameBytes (.sub ['c'])])) = true := by
  decide +kernel

/-! ## C47 -/

/-- C47 (refuted as stated): the user connects to endpoint 5 and disconnects while the attempt is in progress; both
commands are handled. The attempt then succeeds, and messages from the endpoint are delivered. -/
theorem C47_pending_attempt_refuted :
    ∃ d : Driver Nat, Reach Lossy.strict noDec d ∧ d.processed = [.connect 5, .disconnect 5] ∧ d.cmdq = [] ∧ d.Active 5 0 ∧
      d.inbox.map (fun m => (m.source, m.payload)) = [(5, [7])] := by
  have h : after {} [.call (.connect 5), .iter ⟨[], [], none⟩, .call (.disconnect 5), .iter ⟨[5], [], none⟩,
      .iter ⟨[], [], conn [.data (msgA 0 7)]⟩, .session 0 {}, .iter ⟨[5], [], none⟩] (fun d =>
      decide (d.processed = [.connect 5, .disconnect 5]) && decide (d.cmdq = []) && decide (d.pubs = [(5, .active 0)]) &&
      decide (d.inbox.map (fun m => (m.source, m.payload)) = [(5, [7])])) = true := by decide +kernel
  obtain ⟨d, hr, hd⟩ := after_reach h
  simp only [Bool.and_eq_true, decide_eq_true_eq] at hd
  obtain ⟨⟨⟨h1, h2⟩, h3⟩, h4⟩ := hd
  exact ⟨d, hr, h1, h2, by simp [Driver.Active, h3, lookup], h4⟩

/-! ## C53 -/

/-- C53 (partial): each time the driver looks at a connection it takes one message; one that cannot be decompressed is
skipped, and looking again delivers the one behind it. Missing: the driver does not always look again
(`C53_stalls_refuted`). -/
theorem C53_skipped_partial (D : Decompressors) (d : Driver A) (hc : d.closed = false) (a : A) (u : Nat)
    (s : Session) (ha : d.Active a u) (hs : d.sessions[u]? = some s) (t t' : TopicMsg) (ts : List TopicMsg)
    (ht : s.toDriver = t :: t' :: ts) (hbad : tryDecompress D t.ctype t.payload = none) (p : Bytes)
    (hok : tryDecompress D t'.ctype t'.payload = some p) (hroom : d.inbox.length < d.opts.ingress) :
    ∃ d1 d2, d.pollPub D a = .ok (d1, false) ∧ d1.pollPub D a = .ok (d2, true) ∧
      d2.inbox = d.inbox ++ [⟨a, t'.topic, p, u⟩] := by
  have hlt := (List.getElem?_eq_some_iff.1 hs).1
  have hget : (d.sessions.set u { s with toDriver := t' :: ts })[u]? = some { s with toDriver := t' :: ts } := by simp [hlt]
  have h1 : d.pollPub D a = .ok ({ d with sessions := d.sessions.set u { s with toDriver := t' :: ts }, fates := d.fates ++ [(u, t, .undecodable)] }, false) := by
    simp only [Driver.pollPub, show lookup a d.pubs = some (.active u) from ha, hs, Session.driverRecv, ht, hbad]
  have h2 : Driver.pollPub D { d with sessions := d.sessions.set u { s with toDriver := t' :: ts }, fates := d.fates ++ [(u, t, .undecodable)] } a =
      .ok (Driver.deliver { d with sessions := (d.sessions.set u { s with toDriver := t' :: ts }).set u { s with toDriver := ts }, fates := d.fates ++ [(u, t, .undecodable)] } a u t' p, true) := by
    simp only [Driver.pollPub, show lookup a d.pubs = some (.active u) from ha, hget, Session.driverRecv, hok]
  refine ⟨_, _, h1, h2, ?_⟩
  simp only [Driver.deliver, hc, hroom, if_true, Bool.false_eq_true, if_false]

/-- Such a state: two messages waiting, the first with an unknown compression type. -/
example : after {} [.call (.connect 5), .iter ⟨[], [], none⟩, .iter ⟨[5], [], conn [.data (msgA 9 7 ++ msgA 0 8)]⟩,
      .iter ⟨[5], [], none⟩, .session 0 {}, .session 0 {}] (fun d => decide (d.pubs = [(5, .active 0)]) && decide (d.closed = false) &&
      decide (d.sessions.map (fun s => s.toDriver.map (fun t => (t.ctype, t.payload))) = [[(9, [7]), (0, [8])]])) = true ∧
    tryDecompress noDec 9 [7] = none ∧ tryDecompress noDec 0 [8] = some [8] := by decide +kernel

/-- Things that happen without the driver running or the user doing anything: its sessions run, time passes. -/
def Act.quiet : Act A → Bool
  | .session _ _ => true
  | .advance _ => true
  | _ => false

/-- Nothing wakes a driver that is not listening to any of its sessions. -/
theorem quiet_run (L : Lossy) (D : Decompressors) (acts : List (Act A)) (d e : Driver A) (hq : ∀ x ∈ acts, Act.quiet x = true)
    (hr : d.run L D acts = .ok e) (hw : d.woken = false) (ha : ∀ s ∈ d.sessions, s.armed = false) :
    e.woken = false ∧ e.inbox = d.inbox ∧ e.received = d.received ∧ ∀ s ∈ e.sessions, s.armed = false := by
  have hstep : ∀ (s : Session) (x : SEnv), s.armed = false → (s.step L x).armed = false := by
    intro s x hs
    refine (step_steps (L := L) s x).induct (P := fun s => s.armed = false) ?_ hs
    intro p q hpq hp
    cases hpq
    all_goals try (simp only [Session.onIncoming]; split)
    all_goals first | rfl | exact hp
  induction acts generalizing d with
  | nil => simp only [Driver.run] at hr; cases hr; exact ⟨hw, rfl, rfl, ha⟩
  | cons x acts ih =>
    have hx := hq x List.mem_cons_self
    simp only [Driver.run] at hr
    cases x with
    | session u y =>
      simp only [Driver.act] at hr
      cases hu : d.sessions[u]? with
      | none =>
        rw [hu] at hr
        exact ih d (fun z hz => hq z (List.mem_cons_of_mem _ hz)) hr hw ha
      | some s =>
        rw [hu] at hr
        have hs := ha s (List.mem_of_getElem? hu)
        have h2 := ih { d with sessions := d.sessions.set u (s.step L y), woken := d.woken || (s.armed && !(s.step L y).armed) }
          (fun z hz => hq z (List.mem_cons_of_mem _ hz)) hr (by simp [hw, hs]) (by
            intro z hz
            rcases List.mem_or_eq_of_mem_set hz with hz | rfl
            · exact ha z hz
            · exact hstep s y hs)
        exact h2
    | advance dt => exact ih { d with now := d.now + dt } (fun z hz => hq z (List.mem_cons_of_mem _ hz)) hr hw ha
    | _ => cases hx

/-- A publisher sends a message with an unknown compression type, then a good one; both arrive. -/
def stall : List (Act Nat) :=
  [.call (.connect 5), .iter ⟨[], [], none⟩, .iter ⟨[5], [], conn [.data (msgA 9 7 ++ msgA 0 8)]⟩,
   .iter ⟨[5], [], none⟩, .session 0 {}, .session 0 {}, .iter ⟨[5], [], none⟩]

/-- C53 (refuted as stated): the bad message is skipped, the good one behind it waits in the connection's channel, and
the driver's task has returned `Pending` without asking to be woken by anything: no connection attempt is in progress, no
command waits, and whatever the connection does (it may receive any number of further messages), however much time
passes, the driver is not woken and the user gets nothing — until the user issues some command. -/
theorem C53_stalls_refuted :
    ∃ (d : Driver Nat) (s : Session), Reach Lossy.strict noDec d ∧ d.Active 5 0 ∧ d.sessions = [s] ∧ s.over = false ∧
      d.tasks = [] ∧ d.cmdq = [] ∧ d.inbox = [] ∧ d.woken = false ∧ s.toDriver.map (·.payload) = [[8]] ∧
      tryDecompress noDec 0 [8] = some [8] ∧
      ∀ (acts : List (Act Nat)) (e : Driver Nat), (∀ x ∈ acts, Act.quiet x = true) →
        d.run Lossy.strict noDec acts = .ok e → e.woken = false ∧ e.inbox = [] ∧ e.received = [] := by
  have h : after {} stall (fun d => decide (d.pubs = [(5, .active 0)]) && decide (d.tasks = []) && decide (d.cmdq = []) &&
      decide (d.inbox = []) && decide (d.received = []) && decide (d.woken = false) &&
      decide (d.sessions.map (fun s => (s.over, s.armed, s.toDriver.map (·.payload))) = [(false, false, [[8]])])) = true := by
    decide +kernel
  obtain ⟨d, hr, hd⟩ := after_reach h
  simp only [Bool.and_eq_true, decide_eq_true_eq] at hd
  obtain ⟨⟨⟨⟨⟨⟨h1, h2⟩, h3⟩, h4⟩, h5⟩, h6⟩, h7⟩ := hd
  cases hss : d.sessions with
  | nil => rw [hss] at h7; cases h7
  | cons s ss =>
    rw [hss] at h7
    simp only [List.map_cons, List.cons.injEq, List.map_eq_nil_iff, Prod.mk.injEq] at h7
    obtain ⟨⟨k1, k2, k3⟩, rfl⟩ := h7
    refine ⟨d, s, hr, by simp [Driver.Active, h1, lookup], hss, k1, h2, h3, h4, h6, k3, by decide, ?_⟩
    intro acts e hq hrun
    obtain ⟨g1, g2, g3, -⟩ := quiet_run _ _ acts d e hq hrun h6 (by
      intro x hx
      rw [hss] at hx
      simp only [List.mem_singleton] at hx
      subst hx
      exact k2)
    exact ⟨g1, g2.trans h4, g3.trans h5⟩

/-- C20, with the commands of a subscriber: the message its session makes of `subscribe(t)` or `unsubscribe(t)` exists for every topic that fits and is read by the
publisher as exactly that. -/
theorem C20_commands (L : Lossy) (now : UInt64) (t : Str) :
    ((utf8 t).length ≤ 65527 → ∃ m, (Cmd.subscribe t).msg now = .ok m ∧ Pub.msgToControl L m = .subscribe t) ∧
    ((utf8 t).length ≤ 65525 → ∃ m, (Cmd.unsubscribe t).msg now = .ok m ∧ Pub.msgToControl L m = .unsubscribe t) :=
  C20_control_meaning L now t

example : ∃ m, (Cmd.unsubscribe "SUB.MSG.UNSUB".toList).msg 5 = .ok m ∧ Pub.msgToControl Lossy.strict m = .unsubscribe "SUB.MSG.UNSUB".toList :=
  (C20_commands _ 5 _).2 (by decide +kernel)

end MsgRs.Props
