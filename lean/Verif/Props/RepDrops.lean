import Verif.Props.RepSocketServe
/-!
# Dropped requests delay the responses of their connection by one poll each (C43)
-/
namespace MsgRs.Props
open MsgRs MsgRs.Rep
variable {A : Type}

/-- The requests of a connection that the application has dropped and the connection's task has not noticed yet. -/
def unnoticed (slots : Nat → Rep.Slot) (p : Peer A) : Nat :=
  p.pend.countP fun x => match slots x.1 with | .dropped => true | _ => false

/-- `n` consecutive polls of one connection, all of which return `Pending`, while the application neither answers nor drops anything. The last one gets the
environments `es`. -/
inductive PendingPolls (comp : Option Compressor) (slots : Nat → Rep.Slot) (next : Nat) : Nat → Peer A → List PEnv → Peer A → Prop where
  | one {p p' : Peer A} {es : List PEnv} (h : p.poll comp slots next es = .ok (some (p', .pending))) : PendingPolls comp slots next 1 p es p'
  | more {n : Nat} {p q p' : Peer A} {fs es : List PEnv} (h : p.poll comp slots next fs = .ok (some (q, .pending)))
      (t : PendingPolls comp slots next n q es p') : PendingPolls comp slots next (n + 1) p es p'

theorem readStep_pend {next : Nat} {p p' : Peer A} (h : p.readStep next = .ok (p', .pending)) : p'.pend = p.pend ∧ p'.queue = p.queue := by
  unfold Peer.readStep at h
  cases hr : p.rd.pollNext ReqRep.codec p.input with
  | panic => rw [hr] at h; cases h
  | ok t =>
    obtain ⟨o, rd, input⟩ := t
    rw [hr] at h
    simp only [R.bind_ok, R.pure_eq] at h
    cases o <;> simp only at h <;> cases h <;> exact ⟨rfl, rfl⟩

theorem readStep_goes {next : Nat} {p p' : Peer A} {o : POut} (h : p.readStep next = .ok (p', o)) : o ≠ .queued ∧ ∀ m, o ≠ .sent m := by
  unfold Peer.readStep at h
  cases hr : p.rd.pollNext ReqRep.codec p.input with
  | panic => rw [hr] at h; cases h
  | ok t =>
    obtain ⟨r, rd, input⟩ := t
    rw [hr] at h
    simp only [R.bind_ok, R.pure_eq] at h
    cases r <;> simp only at h <;> cases h <;> exact ⟨by simp, by simp⟩

theorem unnoticed_filter_le (slots : Nat → Rep.Slot) (p q : Peer A) (f : Nat × UInt32 → Bool) (h : q.pend = p.pend.filter f) :
    unnoticed slots q ≤ unnoticed slots p := by
  unfold unnoticed
  rw [h]
  exact List.filter_sublist.countP_le

theorem countP_filter_lt {α : Type} (P f : α → Bool) (l : List α) (x : α) (hx : x ∈ l) (hP : P x = true) (hf : f x = false) :
    (l.filter f).countP P + 1 ≤ l.countP P := by
  induction l with
  | nil => cases hx
  | cons y l ih =>
    rcases List.mem_cons.mp hx with rfl | hx
    · rw [List.filter_cons_of_neg (by simp [hf]), List.countP_cons_of_pos hP]
      have := (List.filter_sublist (p := f) (l := l)).countP_le (p := P)
      omega
    · have := ih hx
      simp only [List.filter_cons, List.countP_cons]
      split <;> (try simp only [List.countP_cons]) <;> omega

/-- An iteration that returns `Pending` has looked at every completed request, or has taken out one that was dropped. -/
theorem completeStep_drops {comp slots next} {p p' : Peer A} {o : POut} (hqd : ∀ h ∈ p.queue, h ∈ p.pend.map (·.1))
    (hwk : ∀ h ∈ p.pend.map (·.1), slots h ≠ .waiting → h ∈ p.queue) (h : p.completeStep comp slots next = .ok (p', o)) :
    (o = .pending → (∀ x ∈ p'.pend.map (·.1), slots x = .waiting) ∨ unnoticed slots p' + 1 ≤ unnoticed slots p) ∧
    (o = .queued → unnoticed slots p' ≤ unnoticed slots p) := by
  have hs := popQueue_spec slots p.pend p.queue hqd
  unfold Peer.completeStep at h
  rcases hq : popQueue slots p.pend p.queue with ⟨r, pend, queue⟩
  rw [hq] at hs h
  cases r with
  | none =>
    simp only at hs h
    obtain ⟨rfl, rfl, h3⟩ := hs
    constructor
    · rintro rfl
      obtain ⟨e1, -⟩ := readStep_pend h
      left
      intro x hx
      rw [e1] at hx
      rcases hw : slots x with _ | b | _
      · rfl
      · have := h3 x (hwk x hx (by rw [hw]; simp)); rw [hw] at this; cases this
      · have := h3 x (hwk x hx (by rw [hw]; simp)); rw [hw] at this; cases this
    · rintro rfl
      exact absurd rfl (readStep_goes h).1
  | some t =>
    obtain ⟨x, r⟩ := t
    simp only at hs h
    obtain ⟨q1, hq1, -, rfl, hr⟩ := hs
    cases r with
    | some ib =>
      obtain ⟨id, b⟩ := ib
      simp only at h
      split at h <;> cases h <;>
        exact ⟨(fun g => nomatch g), (fun _ => unnoticed_filter_le slots _ _ (fun y => decide (y.1 ≠ x)) rfl)⟩
    | none =>
      simp only at h hr
      refine ⟨?_, fun g => absurd g (readStep_goes h).1⟩
      rintro rfl
      right
      obtain ⟨e1, -⟩ := readStep_pend h
      obtain ⟨y, hy, rfl⟩ := List.mem_map.mp (hqd x (by rw [hq1]; simp))
      unfold unnoticed
      rw [e1]
      exact countP_filter_lt _ _ _ y hy (by simp only [hr]) (by simp)

theorem iter_drops {comp slots next} {p p' : Peer A} {e : PEnv} {o : POut} (hc : PCore comp slots next p) (hl : PLive slots p)
    (h : p.iter comp slots next e = .ok (p', o)) :
    (o = .pending → (∀ x ∈ p'.pend.map (·.1), slots x = .waiting) ∨ unnoticed slots p' + 1 ≤ unnoticed slots p) ∧
    (o = .queued ∨ (∃ m, o = .sent m) → unnoticed slots p' ≤ unnoticed slots p) := by
  obtain ⟨-, hl1, w, b, hf⟩ := flushStep_inv hc hl e
  have hp1 : (p.flushStep e).pend = p.pend := by rw [hf]
  have go : ∀ wr, ({ p.flushStep e with wr } : Peer A).completeStep comp slots next = .ok (p', o) →
      (o = .pending → (∀ x ∈ p'.pend.map (·.1), slots x = .waiting) ∨ unnoticed slots p' + 1 ≤ unnoticed slots p) ∧
      (o = .queued ∨ (∃ m, o = .sent m) → unnoticed slots p' ≤ unnoticed slots p) := by
    intro wr hk
    have hu : unnoticed slots ({ p.flushStep e with wr } : Peer A) = unnoticed slots p := by unfold unnoticed; rw [← hp1]
    have hns : ∀ m, o ≠ .sent m := by
      intro m
      unfold Peer.completeStep at hk
      split at hk
      · split at hk <;> cases hk <;> simp
      · exact (readStep_goes hk).2 m
    obtain ⟨k1, k2⟩ := completeStep_drops (p := { p.flushStep e with wr }) hl1.queued hl1.woken hk
    rw [hu] at k1 k2
    refine ⟨k1, fun g => ?_⟩
    rcases g with g | ⟨m, g⟩
    · exact k2 g
    · exact absurd g (hns m)
  have snd : ∀ wr m ms, (.ok (({ p.flushStep e with wr := Writer.send wr (ReqRep.encode m), egress := ms, shouldFlush := true, sent := (p.flushStep e).sent ++ [m] } : Peer A),
      POut.sent m) : R _) = .ok (p', o) →
      (o = .pending → (∀ x ∈ p'.pend.map (·.1), slots x = .waiting) ∨ unnoticed slots p' + 1 ≤ unnoticed slots p) ∧
      (o = .queued ∨ (∃ m, o = .sent m) → unnoticed slots p' ≤ unnoticed slots p) := by
    intro wr m ms hk
    cases hk
    refine ⟨(fun g => nomatch g), fun _ => ?_⟩
    unfold unnoticed
    rw [← hp1]
    exact Nat.le_refl _
  unfold Peer.iter at h
  simp only at h
  split at h
  · exact go _ h
  · exact go _ h
  · exact snd _ _ _ h

/-- C43: each poll of a connection that returns `Pending` either has dealt with all completed requests or has noticed one more dropped request. -/
theorem poll_drops {comp slots next} (es : List PEnv) {p p' : Peer A} (h : PCore comp slots next p)
    (hl : PLive slots p) (hnext : slots next = .waiting) (hp : p.poll comp slots next es = .ok (some (p', .pending))) :
    (∀ x ∈ p'.pend.map (·.1), slots x = .waiting) ∨ unnoticed slots p' + 1 ≤ unnoticed slots p := by
  induction es generalizing p with
  | nil => cases hp
  | cons e es ih =>
    obtain ⟨q, o', hi, hs⟩ := iter_spec h hl hnext e
    have hd := iter_drops h hl hi
    simp only [Peer.poll, hi, R.bind_ok, R.pure_eq] at hp
    have go : (o' = .queued ∨ ∃ m, o' = .sent m) → q.poll comp slots next es = .ok (some (p', .pending)) →
        (∀ x ∈ p'.pend.map (·.1), slots x = .waiting) ∨ unnoticed slots p' + 1 ≤ unnoticed slots p := by
      intro ho hq
      have hcore : PCore comp slots next q := by
        have := hs.core; rcases ho with rfl | ⟨m, rfl⟩ <;> exact this
      have hlive : PLive slots q := hs.live (by rcases ho with rfl | ⟨m, rfl⟩ <;> simp)
      have hle := hd.2 ho
      exact (ih hcore hlive hq).imp (fun g => g) (fun g => by omega)
    cases o' with
    | sent m => exact go (.inr ⟨m, rfl⟩) hp
    | queued => exact go (.inl rfl) hp
    | request x m => cases hp
    | error => cases hp
    | closed => cases hp
    | pending => cases hp; exact hd.1 rfl

theorem unnoticed_zero {slots : Nat → Rep.Slot} {p : Peer A} (h : ∀ x ∈ p.pend.map (·.1), slots x = .waiting) : unnoticed slots p = 0 := by
  unfold unnoticed
  rw [List.countP_eq_zero]
  intro y hy
  simp [h y.1 (List.mem_map_of_mem hy)]

/-- Enough polls: nothing completed is left, and the last poll went through all of them. -/
theorem polls_drops {comp slots next} {n : Nat} {p p' : Peer A} {es : List PEnv} (t : PendingPolls comp slots next n p es p')
    (h : PCore comp slots next p) (hl : PLive slots p) (hnext : slots next = .waiting) (hn : unnoticed slots p < n) :
    (∀ x ∈ p'.pend.map (·.1), slots x = .waiting) ∧ p'.issued = p.issued ∧ PCore comp slots next p' ∧
      (p'.egress = [] ∨ ∃ e ∈ es, ∃ w : Writer, (w.ready e.readyAns).1 = .pending) := by
  induction t with
  | one hp =>
    obtain ⟨p0, e, -, -, h3, -, -, hs, h7, -⟩ := poll_last _ h hl hnext hp
    refine ⟨?_, by rw [hs.issued, h3]; simp [POut.reqs], hs.core, (hs.blocked rfl).imp (fun g => g) (fun g => ⟨e, h7, _, g⟩)⟩
    exact (poll_drops _ h hl hnext hp).resolve_right (by omega)
  | @more n p q p' fs es hp t ih =>
    obtain ⟨p0, e, -, -, h3, -, -, hs, -, -⟩ := poll_last _ h hl hnext hp
    have hq : q.issued = p.issued := by rw [hs.issued, h3]; simp [POut.reqs]
    have hpos : 0 < n := by cases t <;> omega
    have := ih hs.core (hs.live (by simp)) (by
      rcases poll_drops _ h hl hnext hp with g | g
      · rw [unnoticed_zero g]; exact hpos
      · omega)
    exact ⟨this.1, this.2.1.trans hq, this.2.2⟩

/-- C43, what dropped requests cost, for every history of a reply socket (partial): after as many polls of a connection as the application has dropped requests of it
that the connection has not noticed yet, plus one, all of them returning `Pending`, every request of this connection that the application has answered has its
response queued (unless it cannot be compressed), and the queue has been handed to the connection unless the connection does not accept data. So a dropped request
delays the responses of its connection by at most one poll, and no response is lost because of it. Missing: the property asks that no further poll be needed, and
nothing triggers one (`C43_drop_delays_response_refuted`). -/
theorem C43_reply_socket_enough_partial (D : Decompressors) [DecidableEq A] (max authn comp) (s : Rep.Socket A) (h : RepReach D max authn comp s) (d : Driver A)
    (hd : s.drv = some d) (p : Peer A) (hp : p ∈ d.peers) (n : Nat) (es : List PEnv) (p' : Peer A)
    (hpoll : PendingPolls d.comp d.slots d.next n p es p') (hn : unnoticed d.slots p < n)
    (x : Nat) (rq : ReqRep.Message) (b : Bytes) (hx : (x, rq) ∈ p.issued) (hb : d.slots x = .responded b) :
    (replyPrepare comp rq.header.id b = none ∨
      ∃ m, replyPrepare comp rq.header.id b = some m ∧ (x, m) ∈ p'.answers) ∧
    p'.sent ++ p'.egress = p'.answers.map (·.2) ∧
    (p'.egress = [] ∨ ∃ e ∈ es, ∃ w : Writer, (w.ready e.readyAns).1 = .pending) := by
  obtain ⟨hdi, -, hdc⟩ := h.inv.drv d hd
  have hcomp : d.comp = comp := by
    obtain ⟨acts, hr⟩ := h
    rw [hdc]
    exact (served_run acts hr).2.2.1
  obtain ⟨hc, hl⟩ := hdi.peers p hp
  obtain ⟨hw, hi, hcore, hblk⟩ := polls_drops hpoll hc hl (hdi.future _ (Nat.le_refl _)) hn
  refine ⟨?_, hcore.out, hblk⟩
  rcases hcore.done x rq (hi ▸ hx) with g | g | g | ⟨b', g1, g2⟩
  · obtain ⟨⟨y, m⟩, hy, rfl⟩ := List.mem_map.mp g
    obtain ⟨rq', b', g1, g2, g3⟩ := hcore.answers y m hy
    have hnd : (p'.issued.map (·.1)).Nodup := hcore.sorted.imp (fun hlt => by omega)
    have hx' : (y, rq) ∈ p'.issued := hi ▸ hx
    have := List.nodup_map_inj hnd g1 hx' rfl
    cases this
    rw [hb] at g2; cases g2
    exact .inr ⟨m, hcomp ▸ g3, hy⟩
  · have := hw x g; rw [hb] at this; cases this
  · rw [hb] at g; cases g
  · rw [hb] at g1; cases g1
    exact .inl (hcomp ▸ g2)

set_option maxHeartbeats 4000000 in
/-- The bound is reached: one request of a connection is dropped and another is answered. One poll is not enough to send the response, two are. -/
example (D : Decompressors) :
    let c : Conn Nat := ⟨1, some 1, ⟨[.data (reqBytes 1 [1] ++ reqBytes 2 [2])], [], [], []⟩⟩
    let e : PEnv := ⟨[.ok 100, .ok 1], []⟩
    let acts : List (Act Nat) := [.accept c, .ready 0 true, .peer 0 e, .recv, .peer 0 e, .recv, .peer 0 e, .drop 0, .respond 0 [9]]
    ∃ d p q t, (Driver.new none none none : Driver Nat).run D acts = .ok d ∧ d.peers = [p] ∧ unnoticed d.slots p = 1 ∧
      d.slots 1 = .responded [9] ∧ p.poll d.comp d.slots d.next [e] = .ok (some (q, .pending)) ∧ q.answers = [] ∧
      q.poll d.comp d.slots d.next [e, e, e] = .ok (some (t, .pending)) ∧ t.wr.wire = reqBytes 2 [9] := by
  refine ⟨_, _, _, _, rfl, rfl, rfl, rfl, rfl, rfl, rfl, rfl⟩
end MsgRs.Props
