import Verif.Model.RepDriver
import Verif.Proofs.Reading
import Verif.Proofs.Writer
import Verif.Proofs.Codecs
/-!
# Invariants of one peer of the reply socket
-/
namespace MsgRs.Rep
open MsgRs
variable {A : Type}

theorem _root_.List.nodup_map_inj {α β : Type} {f : α → β} {l : List α} (h : (l.map f).Nodup) {x y : α} (hx : x ∈ l)
    (hy : y ∈ l) (he : f x = f y) : x = y := by
  induction l with
  | nil => cases hx
  | cons z l ih =>
    simp only [List.map_cons, List.nodup_cons, List.mem_map, not_exists, not_and] at h
    simp only [List.mem_cons] at hx hy
    rcases hx with rfl | hx <;> rcases hy with rfl | hy
    · rfl
    · exact absurd he.symm (h.1 y hy)
    · exact absurd he (h.1 x hx)
    · exact ih h.2 hx hy

/-- What stays true of a connection for ever, also after it is gone. -/
structure PCore (comp : Option Compressor) (slots : Nat → Slot) (next : Nat) (p : Peer A) : Prop where
  seen : Seen ReqRep.codec p.input0 p.polls (p.issued.map (·.2)) p.input
  sorted : (p.issued.map (·.1)).Pairwise (· < ·)
  fresh : ∀ h m, (h, m) ∈ p.issued → h < next
  pend : ∀ h id, (h, id) ∈ p.pend → ∃ m, (h, m) ∈ p.issued ∧ m.header.id = id
  once : (p.answers.map (·.1) ++ p.pend.map (·.1)).Nodup
  answers : ∀ h m, (h, m) ∈ p.answers → ∃ rq b, (h, rq) ∈ p.issued ∧ slots h = .responded b ∧
    replyPrepare comp rq.header.id b = some m
  out : p.sent ++ p.egress = p.answers.map (·.2)
  bytes : p.wr.wire ++ p.wr.buf = p.sent.flatMap ReqRep.encode
  done : ∀ x rq, (x, rq) ∈ p.issued → x ∈ p.answers.map (·.1) ∨ x ∈ p.pend.map (·.1) ∨ slots x = .dropped ∨
    ∃ b, slots x = .responded b ∧ replyPrepare comp rq.header.id b = none

/-- What is true while it is being served. -/
structure PLive (slots : Nat → Slot) (p : Peer A) : Prop where
  reads : ReadInv ReqRep.codec p.input0 p.polls (p.issued.map (·.2)) p.rd p.input
  flush : p.shouldFlush = false → p.wr.buf = []
  queued : ∀ h ∈ p.queue, h ∈ p.pend.map (·.1)
  queueNodup : p.queue.Nodup
  woken : ∀ h ∈ p.pend.map (·.1), slots h ≠ .waiting → h ∈ p.queue

/-- The parts of the state that sending and flushing touch. -/
theorem PCore.write {comp slots next} {p : Peer A} (h : PCore comp slots next p) (wr : Writer)
    (hw : wr.wire ++ wr.buf = p.wr.wire ++ p.wr.buf) (b : Bool) :
    PCore comp slots next { p with wr, shouldFlush := b } :=
  ⟨h.seen, h.sorted, h.fresh, h.pend, h.once, h.answers, h.out, hw.trans h.bytes, h.done⟩

theorem flushStep_inv {comp slots next} {p : Peer A} (h : PCore comp slots next p) (hl : PLive slots p) (e : PEnv) :
    PCore comp slots next (p.flushStep e) ∧ PLive slots (p.flushStep e) ∧
      ∃ w b, p.flushStep e = { p with wr := w, shouldFlush := b } := by
  unfold Peer.flushStep
  split
  · rename_i hs
    have hf := Writer.flush_spec p.wr e.flushAns
    rcases hq : p.wr.flush e.flushAns with ⟨o, w⟩
    rw [hq] at hf
    obtain ⟨h1, -, -, h4, -⟩ := hf
    have h1' : w.wire ++ w.buf = p.wr.wire ++ p.wr.buf := h1
    cases o with
    | ok =>
      refine ⟨h.write w h1' false, ⟨hl.reads, fun _ => h4 rfl, hl.queued, hl.queueNodup, hl.woken⟩, _, _, rfl⟩
    | pending =>
      refine ⟨by simpa [hs] using h.write w h1' true, ⟨hl.reads, fun hh => by simp [hs] at hh, hl.queued, hl.queueNodup, hl.woken⟩, w, true, by simp [hs]⟩
    | err =>
      refine ⟨by simpa [hs] using h.write w h1' true, ⟨hl.reads, fun hh => by simp [hs] at hh, hl.queued, hl.queueNodup, hl.woken⟩, w, true, by simp [hs]⟩
  · exact ⟨h, hl, p.wr, p.shouldFlush, rfl⟩

theorem lookup_mem {pend : List (Nat × UInt32)} {h : Nat} {id : UInt32} (hl : pend.lookup h = some id) :
    (h, id) ∈ pend := by
  induction pend with
  | nil => simp at hl
  | cons x l ih =>
    obtain ⟨a, b⟩ := x
    simp only [List.lookup] at hl
    split at hl
    · rename_i heq
      simp only [beq_iff_eq] at heq
      cases hl; subst heq; simp
    · exact List.mem_cons_of_mem _ (ih hl)

theorem lookup_some {pend : List (Nat × UInt32)} {h : Nat} (hm : h ∈ pend.map (·.1)) :
    ∃ id, pend.lookup h = some id := by
  induction pend with
  | nil => simp at hm
  | cons x l ih =>
    obtain ⟨a, b⟩ := x
    simp only [List.lookup]
    split
    · exact ⟨b, rfl⟩
    · rename_i hne
      simp only [List.map_cons, List.mem_cons] at hm
      rcases hm with hm | hm
      · subst hm; simp at hne
      · exact ih hm

/-- What `FuturesUnordered::poll_next` does. -/
theorem popQueue_spec (slots : Nat → Slot) (pend : List (Nat × UInt32)) (q : List Nat)
    (hq : ∀ h ∈ q, h ∈ pend.map (·.1)) :
    match popQueue slots pend q with
    | (none, pend', q') => pend' = pend ∧ q' = [] ∧ ∀ h ∈ q, slots h = .waiting
    | (some (h, r), pend', q') => ∃ q1, q = q1 ++ h :: q' ∧ (∀ x ∈ q1, slots x = .waiting) ∧
        pend' = pend.filter (·.1 ≠ h) ∧
        (match r with
        | some (id, b) => slots h = .responded b ∧ (h, id) ∈ pend
        | none => slots h = .dropped) := by
  induction q with
  | nil => simp [popQueue]
  | cons h q ih =>
    obtain ⟨id, hid⟩ := lookup_some (hq h (by simp))
    unfold popQueue
    cases hs : slots h with
    | waiting =>
      simp only [hid]
      have := ih (fun x hx => hq x (by simp [hx]))
      rcases hp : popQueue slots pend q with ⟨o, pend', q'⟩
      rw [hp] at this
      cases o with
      | none =>
        obtain ⟨h1, h2, h3⟩ := this
        refine ⟨h1, h2, fun x hx => ?_⟩
        simp only [List.mem_cons] at hx
        rcases hx with rfl | hx
        · exact hs
        · exact h3 x hx
      | some t =>
        obtain ⟨h', r⟩ := t
        obtain ⟨q1, h1, h2, h3⟩ := this
        refine ⟨h :: q1, by simp [h1], fun x hx => ?_, h3⟩
        simp only [List.mem_cons] at hx
        rcases hx with rfl | hx
        · exact hs
        · exact h2 x hx
    | responded b =>
      simp only [hid]
      exact ⟨[], rfl, by simp, by simp [hs, lookup_mem hid]⟩
    | dropped =>
      simp only [hid]
      exact ⟨[], rfl, by simp, by simp [hs]⟩

theorem mem_filter_ne {pend : List (Nat × UInt32)} {h : Nat} {x : Nat × UInt32} :
    x ∈ pend.filter (·.1 ≠ h) ↔ x ∈ pend ∧ x.1 ≠ h := by simp

/-- The rest of the queue after a completed future was removed. -/
theorem afterPop {slots : Nat → Slot} {p : Peer A} (hl : PLive slots p) {h q1 q'}
    (hq : p.queue = q1 ++ h :: q') (hw : ∀ x ∈ q1, slots x = .waiting) (wr : Writer) (b : Bool)
    (eg : List ReqRep.Message) (an : List (Nat × ReqRep.Message)) (hf : b = false → wr.buf = []) :
    PLive slots { p with pend := p.pend.filter (·.1 ≠ h), queue := q', wr, shouldFlush := b, egress := eg, answers := an } := by
  have hnd := hl.queueNodup
  rw [hq] at hnd
  have hnd' := (List.nodup_append.mp hnd).2.1
  refine ⟨hl.reads, hf, ?_, (List.nodup_cons.mp hnd').2, ?_⟩
  · intro x hx
    have hxh : x ≠ h := fun he => (List.nodup_cons.mp hnd').1 (he ▸ hx)
    have := hl.queued x (by rw [hq]; simp [hx])
    simp only [List.mem_map] at this ⊢
    obtain ⟨y, hy, rfl⟩ := this
    exact ⟨y, mem_filter_ne.mpr ⟨hy, hxh⟩, rfl⟩
  · intro x hx hs
    simp only [List.mem_map] at hx
    obtain ⟨y, hy, rfl⟩ := hx
    obtain ⟨hy1, hy2⟩ := mem_filter_ne.mp hy
    have := hl.woken y.1 (List.mem_map.mpr ⟨y, hy1, rfl⟩) hs
    rw [hq] at this
    simp only [List.mem_append, List.mem_cons] at this
    rcases this with h' | h' | h'
    · exact absurd (hw _ h') hs
    · exact absurd h' hy2
    · exact h'

/-- What reading does to a peer. -/
theorem readStep_spec {comp slots next} {p : Peer A} (h : PCore comp slots next p) (hl : PLive slots p)
    (hnext : slots next = .waiting) :
    ∃ p' o, p.readStep next = .ok (p', o) ∧ p'.uid = p.uid ∧ p'.addr = p.addr ∧ p'.input0 = p.input0 ∧
      p'.sent = p.sent ∧ p'.egress = p.egress ∧ p'.answers = p.answers ∧ p'.wr = p.wr ∧
      (∀ n, n ≥ next + 1 → PCore comp slots n p') ∧ (o ≠ .closed → PLive slots p') ∧
      match o with
      | .request h' m => h' = next ∧ p'.issued = p.issued ++ [(next, m)] ∧
          p'.pend = p.pend ++ [(next, m.header.id)] ∧ p'.queue = p.queue ++ [next]
      | .pending | .error | .closed => p'.issued = p.issued ∧ p'.pend = p.pend ∧ p'.queue = p.queue ∧
          PCore comp slots next p'
      | .sent _ | .queued => False := by
  have mono : ∀ {q : Peer A}, PCore comp slots next q → ∀ n, n ≥ next + 1 → PCore comp slots n q :=
    fun hq n hn => ⟨hq.seen, hq.sorted, fun h m hm => by have := hq.fresh h m hm; omega, hq.pend, hq.once,
      hq.answers, hq.out, hq.bytes, hq.done⟩
  obtain ⟨o, rd, input, hp, hstep⟩ := hl.reads.step ReqRep.inc
  unfold Peer.readStep
  rw [hp]
  simp only [R.bind_ok, R.pure_eq]
  cases o with
  | item m =>
    simp only at hstep ⊢
    have hfr : next ∉ p.issued.map (·.1) := by
      intro hm
      obtain ⟨x, hx, hxe⟩ := List.mem_map.mp hm
      have := h.fresh x.1 x.2 hx
      omega
    have hpn : next ∉ p.pend.map (·.1) := by
      intro hm
      obtain ⟨x, hx, hxe⟩ := List.mem_map.mp hm
      obtain ⟨m', hm', -⟩ := h.pend x.1 x.2 hx
      exact hfr (List.mem_map.mpr ⟨_, hm', hxe⟩)
    have han : next ∉ p.answers.map (·.1) := by
      intro hm
      obtain ⟨x, hx, hxe⟩ := List.mem_map.mp hm
      obtain ⟨rq, b, hrq, -⟩ := h.answers x.1 x.2 hx
      exact hfr (List.mem_map.mpr ⟨_, hrq, hxe⟩)
    refine ⟨_, _, rfl, rfl, rfl, rfl, rfl, rfl, rfl, rfl, ?_, ?_, rfl, rfl, rfl, rfl⟩
    · intro n hn
      refine ⟨?_, ?_, ?_, ?_, ?_, ?_, h.out, h.bytes, ?_⟩
      · simpa using hstep.seen
      · simp only [List.map_append, List.map_cons, List.map_nil]
        rw [List.pairwise_append]
        refine ⟨h.sorted, by simp, ?_⟩
        intro a ha b hb
        simp only [List.mem_singleton] at hb
        subst hb
        obtain ⟨x, hx, rfl⟩ := List.mem_map.mp ha
        exact h.fresh x.1 x.2 hx
      · intro h' m' hm'
        simp only [List.mem_append, List.mem_singleton] at hm'
        rcases hm' with hm' | hm'
        · have := h.fresh h' m' hm'; omega
        · cases hm'; omega
      · intro h' id hm'
        simp only [List.mem_append, List.mem_singleton] at hm'
        rcases hm' with hm' | hm'
        · obtain ⟨m', h1, h2⟩ := h.pend h' id hm'
          exact ⟨m', by simp [h1], h2⟩
        · cases hm'; exact ⟨m, by simp, rfl⟩
      · simp only [List.map_append, List.map_cons, List.map_nil]
        rw [← List.append_assoc, List.nodup_append]
        refine ⟨h.once, by simp, ?_⟩
        intro a ha b hb
        simp only [List.mem_singleton] at hb
        subst hb
        intro he
        subst he
        simp only [List.mem_append] at ha
        exact ha.elim han hpn
      · intro h' m' hm'
        obtain ⟨rq, b, h1, h2, h3⟩ := h.answers h' m' hm'
        exact ⟨rq, b, by simp [h1], h2, h3⟩
      · intro x rq hx
        simp only [List.mem_append, List.mem_singleton] at hx
        rcases hx with hx | hx
        · rcases h.done x rq hx with h1 | h1 | h1
          · exact .inl h1
          · exact .inr (.inl (by simp only [List.map_append, List.mem_append]; exact .inl h1))
          · exact .inr (.inr h1)
        · cases hx; exact .inr (.inl (by simp))
    · intro _
      refine ⟨?_, hl.flush, ?_, ?_, ?_⟩
      · simpa using hstep
      · intro x hx
        simp only [List.mem_append, List.mem_singleton] at hx
        simp only [List.map_append, List.map_cons, List.map_nil, List.mem_append, List.mem_singleton]
        exact hx.imp (hl.queued x) (fun h => h)
      · rw [List.nodup_append]
        refine ⟨hl.queueNodup, by simp, ?_⟩
        intro a ha b hb
        simp only [List.mem_singleton] at hb
        subst hb
        exact fun he => hpn (he ▸ hl.queued a ha)
      · intro x hx hs
        simp only [List.map_append, List.map_cons, List.map_nil, List.mem_append, List.mem_singleton] at hx ⊢
        exact hx.imp (fun h' => hl.woken x h' hs) (fun h => h)
  | pending =>
    simp only at hstep ⊢
    have hc : PCore comp slots next { p with rd, input, polls := p.polls + 1 } :=
      ⟨hstep.seen, h.sorted, h.fresh, h.pend, h.once, h.answers, h.out, h.bytes, h.done⟩
    exact ⟨_, _, rfl, rfl, rfl, rfl, rfl, rfl, rfl, rfl, mono hc,
      fun _ => ⟨hstep, hl.flush, hl.queued, hl.queueNodup, hl.woken⟩, rfl, rfl, rfl, hc⟩
  | err e =>
    simp only at hstep ⊢
    have hc : PCore comp slots next { p with rd, input, polls := p.polls + 1 } :=
      ⟨hstep.seen, h.sorted, h.fresh, h.pend, h.once, h.answers, h.out, h.bytes, h.done⟩
    exact ⟨_, _, rfl, rfl, rfl, rfl, rfl, rfl, rfl, rfl, mono hc,
      fun _ => ⟨hstep, hl.flush, hl.queued, hl.queueNodup, hl.woken⟩, rfl, rfl, rfl, hc⟩
  | ended =>
    simp only at hstep ⊢
    have hc : PCore comp slots next { p with rd, input, polls := p.polls + 1 } :=
      ⟨hstep, h.sorted, h.fresh, h.pend, h.once, h.answers, h.out, h.bytes, h.done⟩
    exact ⟨_, _, rfl, rfl, rfl, rfl, rfl, rfl, rfl, rfl, mono hc, fun hne => absurd rfl hne,
      rfl, rfl, rfl, hc⟩

/-- The next free handle after an iteration. -/
def POut.next (next : Nat) : POut → Nat
  | .request _ _ => next + 1
  | _ => next

/-- The request an iteration read, if any. -/
def POut.reqs : POut → List (Nat × ReqRep.Message)
  | .request h m => [(h, m)]
  | _ => []

/-- The message an iteration handed to the connection, if any. -/
def POut.sents : POut → List ReqRep.Message
  | .sent m => [m]
  | _ => []

/-- What an iteration does to a peer. -/
structure IterSpec (comp : Option Compressor) (slots : Nat → Slot) (next : Nat) (p : Peer A) (e : PEnv)
    (p' : Peer A) (o : POut) : Prop where
  uid : p'.uid = p.uid
  addr : p'.addr = p.addr
  input0 : p'.input0 = p.input0
  core : PCore comp slots (o.next next) p'
  live : o ≠ .closed → PLive slots p'
  issued : p'.issued = p.issued ++ o.reqs
  handle : ∀ h m, o = .request h m → h = next ∧ h ∈ p'.queue ∧ h ∈ p'.pend.map (·.1)
  sent : p'.sent = p.sent ++ o.sents
  answers : o ≠ .queued → p'.answers = p.answers
  pendSub : ∀ x ∈ p'.pend, x ∈ p.pend ∨ ∃ m, o = .request x.1 m
  /-- All completed requests have been dealt with, unless one of them was dropped. -/
  idle : o = .pending → (∀ h ∈ p.pend.map (·.1), slots h ≠ .dropped) →
    p'.queue = [] ∧ ∀ h ∈ p'.pend.map (·.1), slots h = .waiting
  blocked : o = .pending → p'.egress = [] ∨ ((p.flushStep e).wr.ready e.readyAns).1 = .pending

theorem completeStep_spec {comp slots next} {p : Peer A} (h : PCore comp slots next p) (hl : PLive slots p)
    (hnext : slots next = .waiting) (e : PEnv) (p0 : Peer A)
    (hp0 : ∃ w b, p = { p0 with wr := w, shouldFlush := b })
    (hblk : p.egress = [] ∨ ((p0.flushStep e).wr.ready e.readyAns).1 = .pending) :
    ∃ p' o, p.completeStep comp slots next = .ok (p', o) ∧ IterSpec comp slots next p0 e p' o := by
  obtain ⟨w0, b0, hp0⟩ := hp0
  have e1 : p.uid = p0.uid := by rw [hp0]
  have e2 : p.addr = p0.addr := by rw [hp0]
  have e3 : p.input0 = p0.input0 := by rw [hp0]
  have e4 : p.issued = p0.issued := by rw [hp0]
  have e5 : p.sent = p0.sent := by rw [hp0]
  have e6 : p.answers = p0.answers := by rw [hp0]
  have e7 : p.pend = p0.pend := by rw [hp0]
  have hs := popQueue_spec slots p.pend p.queue hl.queued
  unfold Peer.completeStep
  rcases hq : popQueue slots p.pend p.queue with ⟨r, pend, queue⟩
  rw [hq] at hs
  -- reading, after the queue was looked at
  have read : ∀ q : Peer A, q = { p with pend, queue } → PCore comp slots next q → PLive slots q →
      (∀ x ∈ q.pend, x ∈ p.pend) →
      ((∀ h ∈ p.pend.map (·.1), slots h ≠ .dropped) → q.queue = []) →
      ∃ p' o, q.readStep next = .ok (p', o) ∧ IterSpec comp slots next p0 e p' o := by
    intro q hqe hqc hql hsub hidle
    obtain ⟨p', o, h1, h2, h3, h4, h5, h6, h7, h8, h9, h10, h11⟩ := readStep_spec hqc hql hnext
    have f1 : q.uid = p0.uid := by rw [hqe]; exact e1
    have f2 : q.addr = p0.addr := by rw [hqe]; exact e2
    have f3 : q.input0 = p0.input0 := by rw [hqe]; exact e3
    have f4 : q.issued = p0.issued := by rw [hqe]; exact e4
    have f5 : q.sent = p0.sent := by rw [hqe]; exact e5
    have f6 : q.answers = p0.answers := by rw [hqe]; exact e6
    have f7 : q.egress = p.egress := by rw [hqe]
    refine ⟨p', o, h1, ?_⟩
    cases o with
    | sent m => exact h11.elim
    | queued => exact h11.elim
    | request h' m =>
      obtain ⟨g1, g2, g3, g4⟩ := h11
      exact ⟨h2.trans f1, h3.trans f2, h4.trans f3, h9 _ (Nat.le_refl _), h10, by simp [POut.reqs, g1, g2, f4],
        fun h'' m'' he => (by cases he; exact ⟨g1, by simp [g1, g4], by simp [g1, g3]⟩), by simp [POut.sents, h5, f5], fun _ => h7.trans f6,
        fun x hx => by
          rw [g3] at hx
          simp only [List.mem_append, List.mem_singleton] at hx
          rcases hx with hx | hx
          · exact .inl (e7 ▸ hsub x hx)
          · exact .inr ⟨m, by rw [hx, g1]⟩,
        fun he => (by cases he), fun he => (by cases he)⟩
    | error =>
      obtain ⟨g1, g2, g3, g4⟩ := h11
      exact ⟨h2.trans f1, h3.trans f2, h4.trans f3, g4, h10, by simp [POut.reqs, g1, f4], fun _ _ he => (by cases he),
        by simp [POut.sents, h5, f5], fun _ => h7.trans f6, fun x hx => .inl (e7 ▸ hsub x (g2 ▸ hx)),
        fun he => (by cases he), fun he => (by cases he)⟩
    | closed =>
      obtain ⟨g1, g2, g3, g4⟩ := h11
      exact ⟨h2.trans f1, h3.trans f2, h4.trans f3, g4, h10, by simp [POut.reqs, g1, f4], fun _ _ he => (by cases he),
        by simp [POut.sents, h5, f5], fun _ => h7.trans f6, fun x hx => .inl (e7 ▸ hsub x (g2 ▸ hx)),
        fun he => (by cases he), fun he => (by cases he)⟩
    | pending =>
      obtain ⟨g1, g2, g3, g4⟩ := h11
      refine ⟨h2.trans f1, h3.trans f2, h4.trans f3, g4, h10, by simp [POut.reqs, g1, f4], fun _ _ he => (by cases he),
        by simp [POut.sents, h5, f5], fun _ => h7.trans f6, fun x hx => .inl (e7 ▸ hsub x (g2 ▸ hx)), ?_, ?_⟩
      · intro _ hd
        have hq0 : p'.queue = [] := by rw [g3]; exact hidle (by rw [e7]; exact hd)
        refine ⟨hq0, fun x hx => ?_⟩
        cases hsx : slots x with
        | waiting => rfl
        | responded b =>
          have := (h10 (by simp)).woken x hx (by simp [hsx])
          rw [hq0] at this; simp at this
        | dropped =>
          have := (h10 (by simp)).woken x hx (by simp [hsx])
          rw [hq0] at this; simp at this
      · intro _
        rw [h6, f7]; exact hblk
  cases r with
  | none =>
    obtain ⟨rfl, rfl, hw⟩ := hs
    simp only
    refine read _ rfl ⟨h.seen, h.sorted, h.fresh, h.pend, h.once, h.answers, h.out, h.bytes, h.done⟩ ?_ (fun x hx => hx) (fun _ => rfl)
    exact ⟨hl.reads, hl.flush, by simp, by simp, fun x hx hsx => absurd (hw x (hl.woken x hx hsx)) hsx⟩
  | some t =>
    obtain ⟨h', r⟩ := t
    obtain ⟨q1, hqq, hw, hpe, hr⟩ := hs
    have hsubl : (pend.map (·.1)).Sublist (p.pend.map (·.1)) := by
      rw [hpe]; exact List.filter_sublist.map _
    have hpend : ∀ x ∈ pend, x ∈ p.pend := by
      intro x hx; rw [hpe] at hx; exact (mem_filter_ne.mp hx).1
    -- every other request is where it was
    have rest : ∀ {x rq}, (x, rq) ∈ p.issued → x ∈ p.answers.map (·.1) ∨ x ∈ pend.map (·.1) ∨ x = h' ∨ slots x = .dropped ∨
        ∃ b, slots x = .responded b ∧ replyPrepare comp rq.header.id b = none := by
      intro x rq hx
      rcases h.done x rq hx with h1 | h1 | h1
      · exact .inl h1
      · by_cases he : x = h'
        · exact .inr (.inr (.inl he))
        · obtain ⟨y, hy, hye⟩ := List.mem_map.mp h1
          exact .inr (.inl (List.mem_map.mpr ⟨y, by rw [hpe]; exact mem_filter_ne.mpr ⟨hy, by rw [hye]; exact he⟩, hye⟩))
      · exact .inr (.inr (.inr h1))
    have doneDrop : slots h' = .dropped → ∀ x rq, (x, rq) ∈ p.issued → x ∈ p.answers.map (·.1) ∨ x ∈ pend.map (·.1) ∨
        slots x = .dropped ∨ ∃ b, slots x = .responded b ∧ replyPrepare comp rq.header.id b = none := by
      intro hd x rq hx
      rcases rest hx with h1 | h1 | h1 | h1
      · exact .inl h1
      · exact .inr (.inl h1)
      · exact .inr (.inr (.inl (by rw [h1]; exact hd)))
      · exact .inr (.inr h1)
    have doneFail : ∀ {id b}, slots h' = .responded b → (h', id) ∈ p.pend → replyPrepare comp id b = none →
        ∀ x rq, (x, rq) ∈ p.issued → x ∈ p.answers.map (·.1) ∨ x ∈ pend.map (·.1) ∨
        slots x = .dropped ∨ ∃ b, slots x = .responded b ∧ replyPrepare comp rq.header.id b = none := by
      intro id b hsb hpd hn x rq hx
      rcases rest hx with h1 | h1 | h1 | h1
      · exact .inl h1
      · exact .inr (.inl h1)
      · obtain ⟨rq', hrq, hid⟩ := h.pend h' id hpd
        have hnd : (p.issued.map (·.1)).Nodup := h.sorted.imp (fun hlt => by omega)
        have := List.nodup_map_inj hnd hrq hx h1.symm
        cases this
        exact .inr (.inr (.inr ⟨b, by rw [h1]; exact hsb, by rw [hid]; exact hn⟩))
      · exact .inr (.inr h1)
    cases r with
    | none =>
      simp only at hr ⊢
      refine read _ rfl ⟨h.seen, h.sorted, h.fresh, fun a b hm => h.pend a b (hpend _ hm),
        h.once.sublist (List.Sublist.append_left hsubl _), h.answers, h.out, h.bytes, ?_⟩ ?_ hpend ?_
      · exact doneDrop hr
      · have := afterPop hl hqq hw p.wr p.shouldFlush p.egress p.answers hl.flush
        rw [← hpe] at this
        exact this
      · intro hd
        have := hl.queued h' (by rw [hqq]; simp)
        exact absurd hr (hd _ this)
    | some t =>
      obtain ⟨id, b⟩ := t
      obtain ⟨hr1, hr2⟩ := hr
      simp only
      have hlive := fun eg an => afterPop hl hqq hw p.wr p.shouldFlush eg an hl.flush
      cases hrep : replyPrepare comp id b with
      | none =>
        simp only
        refine ⟨_, _, rfl, ⟨e1, e2, e3, ?_, ?_, by simp [POut.reqs, e4], fun _ _ he => (by cases he), by simp [POut.sents, e5],
          fun hne => absurd rfl hne, fun x hx => .inl (e7 ▸ hpend x hx), fun he => (by cases he), fun he => (by cases he)⟩⟩
        · exact ⟨h.seen, h.sorted, h.fresh, fun a b hm => h.pend a b (hpend _ hm),
            h.once.sublist (List.Sublist.append_left hsubl _), h.answers, h.out, h.bytes, doneFail hr1 hr2 hrep⟩
        · intro _
          have := hlive p.egress p.answers
          rw [← hpe] at this
          exact this
      | some m =>
        simp only
        obtain ⟨rq, hrq1, hrq2⟩ := h.pend h' id hr2
        refine ⟨_, _, rfl, ⟨e1, e2, e3, ?_, ?_, by simp [POut.reqs, e4], fun _ _ he => (by cases he), by simp [POut.sents, e5],
          fun hne => absurd rfl hne, fun x hx => .inl (e7 ▸ hpend x hx), fun he => (by cases he), fun he => (by cases he)⟩⟩
        · refine ⟨h.seen, h.sorted, h.fresh, fun a b hm => h.pend a b (hpend _ hm), ?_, ?_, ?_, h.bytes, ?_⟩
          · have h1 := h.once
            rw [List.nodup_append] at h1
            obtain ⟨h1, h2, h3⟩ := h1
            simp only [List.map_append, List.map_cons, List.map_nil, List.append_assoc, List.singleton_append]
            rw [List.nodup_append]
            refine ⟨h1, ?_, ?_⟩
            · rw [List.nodup_cons]
              refine ⟨?_, h2.sublist hsubl⟩
              intro hm
              obtain ⟨x, hx, hxe⟩ := List.mem_map.mp hm
              rw [hpe] at hx
              exact (mem_filter_ne.mp hx).2 hxe
            · intro a ha c hc
              simp only [List.mem_cons] at hc
              rcases hc with rfl | hc
              · exact h3 a ha _ (List.mem_map.mpr ⟨_, hr2, rfl⟩)
              · exact h3 a ha c (hsubl.mem hc)
          · intro a c hm
            simp only [List.mem_append, List.mem_singleton] at hm
            rcases hm with hm | hm
            · exact h.answers a c hm
            · cases hm
              exact ⟨rq, b, hrq1, hr1, by rw [hrq2]; exact hrep⟩
          · have := h.out
            simp only [List.map_append, List.map_cons, List.map_nil]
            rw [← List.append_assoc, this]
          · intro x rq' hx
            simp only [List.map_append, List.mem_append, List.map_cons, List.map_nil, List.mem_singleton]
            rcases rest hx with h1 | h1 | h1 | h1
            · exact .inl (.inl h1)
            · exact .inr (.inl h1)
            · exact .inl (.inr h1)
            · exact .inr (.inr h1)
        · intro _
          have := hlive (p.egress ++ [m]) (p.answers ++ [(h', m)])
          rw [← hpe] at this
          exact this

theorem sendCase {comp slots next} {p : Peer A} {e : PEnv} {w' : Writer}
    (hc2 : PCore comp slots next { p.flushStep e with wr := w' })
    (hl2 : PLive slots { p.flushStep e with wr := w' }) {w b}
    (hf : p.flushStep e = { p with wr := w, shouldFlush := b }) {m ms} (hg : (p.flushStep e).egress = m :: ms) :
    ∃ p' o, (R.ok ({ p.flushStep e with wr := w'.send (ReqRep.encode m), egress := ms, shouldFlush := true, sent := (p.flushStep e).sent ++ [m] }, POut.sent m) : R (Peer A × POut)) = .ok (p', o) ∧
      IterSpec comp slots next p e p' o := by
  refine ⟨_, _, rfl, ⟨by rw [hf], by rw [hf], by rw [hf], ?_, ?_, by rw [hf]; simp [POut.reqs], fun _ _ he => (by cases he), by rw [hf]; rfl,
    fun _ => by rw [hf], fun x hx => .inl (by rw [hf] at hx; exact hx), fun he => (by cases he), fun he => (by cases he)⟩⟩
  · refine ⟨hc2.seen, hc2.sorted, hc2.fresh, hc2.pend, hc2.once, hc2.answers, ?_, ?_, hc2.done⟩
    · have := hc2.out
      simp only [hg] at this
      simpa using this
    · have := hc2.bytes
      simp only [Writer.send, List.flatMap_append, List.flatMap_cons, List.flatMap_nil, List.append_nil] at this ⊢
      rw [← this, List.append_assoc]
  · intro _
    exact ⟨hl2.reads, fun hh => by simp at hh, hl2.queued, hl2.queueNodup, hl2.woken⟩

theorem iter_spec {comp slots next} {p : Peer A} (h : PCore comp slots next p) (hl : PLive slots p)
    (hnext : slots next = .waiting) (e : PEnv) :
    ∃ p' o, p.iter comp slots next e = .ok (p', o) ∧ IterSpec comp slots next p e p' o := by
  obtain ⟨hc1, hl1, w, b, hf⟩ := flushStep_inv h hl e
  unfold Peer.iter
  simp only
  have hrs := Writer.ready_spec (p.flushStep e).wr e.readyAns
  rcases hr : (p.flushStep e).wr.ready e.readyAns with ⟨o, w'⟩
  rw [hr] at hrs
  obtain ⟨h1, -, -, h4⟩ := hrs
  have h1' : w'.wire ++ w'.buf = (p.flushStep e).wr.wire ++ (p.flushStep e).wr.buf := h1
  have hc2 : PCore comp slots next { p.flushStep e with wr := w' } :=
    hc1.write w' h1' (p.flushStep e).shouldFlush
  have hl2 : PLive slots { p.flushStep e with wr := w' } :=
    ⟨hl1.reads, fun hh => by
      have hb := hl1.flush hh
      have := h4 hb
      simp only at this
      show w'.buf = []
      rw [this]; exact hb, hl1.queued, hl1.queueNodup, hl1.woken⟩
  have hp0 : ∃ w b, ({ p.flushStep e with wr := w' } : Peer A) = { p with wr := w, shouldFlush := b } :=
    ⟨w', b, by rw [hf]⟩
  have heg : (p.flushStep e).egress = p.egress := by rw [hf]
  cases o with
  | pending =>
    simp only
    exact completeStep_spec hc2 hl2 hnext e p hp0 (.inr (by rw [hr]))
  | ok =>
    cases hg : (p.flushStep e).egress with
    | nil =>
      simp only
      have := completeStep_spec hc2 hl2 hnext e p hp0 (.inl hg)
      simpa only [hg] using this
    | cons m ms =>
      simp only
      exact sendCase hc2 hl2 hf hg
  | err =>
    cases hg : (p.flushStep e).egress with
    | nil =>
      simp only
      have := completeStep_spec hc2 hl2 hnext e p hp0 (.inl hg)
      simpa only [hg] using this
    | cons m ms =>
      simp only
      exact sendCase hc2 hl2 hf hg

/-- A poll is a number of iterations that go on, and one that returns. -/
theorem poll_last {comp slots next} (es : List PEnv) {p p' : Peer A} {o : POut} (h : PCore comp slots next p)
    (hl : PLive slots p) (hnext : slots next = .waiting) (hp : p.poll comp slots next es = .ok (some (p', o))) :
    ∃ p0 e, PCore comp slots next p0 ∧ PLive slots p0 ∧ p0.issued = p.issued ∧ (∀ x ∈ p0.pend, x ∈ p.pend) ∧
      p0.iter comp slots next e = .ok (p', o) ∧ IterSpec comp slots next p0 e p' o ∧ e ∈ es ∧
      (∀ m, o ≠ .sent m) ∧ o ≠ .queued := by
  induction es generalizing p with
  | nil => cases hp
  | cons e es ih =>
    obtain ⟨q, o', hi, hs⟩ := iter_spec h hl hnext e
    simp only [Peer.poll, hi, R.bind_ok, R.pure_eq] at hp
    have go : (o' = .queued ∨ ∃ m, o' = .sent m) → q.poll comp slots next es = .ok (some (p', o)) →
        ∃ p0 e0, PCore comp slots next p0 ∧ PLive slots p0 ∧ p0.issued = p.issued ∧ (∀ x ∈ p0.pend, x ∈ p.pend) ∧
      p0.iter comp slots next e0 = .ok (p', o) ∧ IterSpec comp slots next p0 e0 p' o ∧ e0 ∈ e :: es ∧
      (∀ m, o ≠ .sent m) ∧ o ≠ .queued := by
      intro ho hq
      have hcore : PCore comp slots next q := by
        have := hs.core; rcases ho with rfl | ⟨m, rfl⟩ <;> exact this
      have hlive : PLive slots q := hs.live (by rcases ho with rfl | ⟨m, rfl⟩ <;> simp)
      obtain ⟨p0, e0, h1, h2, h3, h4, h5, h6, h7, h8⟩ := ih hcore hlive hq
      refine ⟨p0, e0, h1, h2, h3.trans ?_, ?_, h5, h6, by simp [h7], h8⟩
      · rw [hs.issued]; rcases ho with rfl | ⟨m, rfl⟩ <;> simp [POut.reqs]
      · intro x hx
        rcases hs.pendSub x (h4 x hx) with h9 | ⟨m, h9⟩
        · exact h9
        · rcases ho with rfl | ⟨m', rfl⟩ <;> cases h9
    cases o' with
    | sent m => exact go (.inr ⟨m, rfl⟩) hp
    | queued => exact go (.inl rfl) hp
    | request x m => cases hp; exact ⟨p, e, h, hl, rfl, fun x hx => hx, hi, hs, by simp, by simp, by simp⟩
    | error => cases hp; exact ⟨p, e, h, hl, rfl, fun x hx => hx, hi, hs, by simp, by simp, by simp⟩
    | closed => cases hp; exact ⟨p, e, h, hl, rfl, fun x hx => hx, hi, hs, by simp, by simp, by simp⟩
    | pending => cases hp; exact ⟨p, e, h, hl, rfl, fun x hx => hx, hi, hs, by simp, by simp, by simp⟩

end MsgRs.Rep
