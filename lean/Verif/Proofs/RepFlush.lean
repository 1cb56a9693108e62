import Verif.Proofs.RepRun
/-!
# The reply socket flushes what it has sent
-/
namespace MsgRs.Rep
open MsgRs

variable {A : Type}

theorem flushStep_boundary (p : Peer A) (e : PEnv) : (p.flushStep e).wr.boundary = p.wr.boundary := by
  unfold Peer.flushStep
  split
  · have hf := Writer.flush_spec p.wr e.flushAns
    rcases hq : p.wr.flush e.flushAns with ⟨o, w⟩
    rw [hq] at hf
    cases o <;> exact hf.2.1
  · rfl

theorem readStep_wr {p p' : Peer A} {next : Nat} {o : POut} (h : p.readStep next = .ok (p', o)) : p'.wr = p.wr := by
  unfold Peer.readStep at h
  cases hp : p.rd.pollNext ReqRep.codec p.input with
  | panic => rw [hp] at h; cases h
  | ok r =>
    obtain ⟨x, rd, input⟩ := r
    rw [hp] at h
    simp only [R.bind_ok, R.pure_eq] at h
    cases x <;> cases h <;> rfl

theorem completeStep_wr {comp} {slots : Nat → Slot} {p p' : Peer A} {next : Nat} {o : POut}
    (h : p.completeStep comp slots next = .ok (p', o)) : p'.wr = p.wr := by
  unfold Peer.completeStep at h
  split at h
  · split at h <;> (cases h; rfl)
  · have := readStep_wr h; exact this

/-- What an iteration does to the write half. -/
theorem iter_wr {comp} {slots : Nat → Slot} {p p' : Peer A} {next : Nat} {e : PEnv} {o : POut}
    (h : p.iter comp slots next e = .ok (p', o)) :
    p'.wr.boundary = p.wr.boundary ∧ (o = .pending → p'.wr = ((p.flushStep e).wr.ready e.readyAns).2) := by
  have hb := flushStep_boundary p e
  unfold Peer.iter at h
  simp only at h
  have hr := (Writer.ready_spec (p.flushStep e).wr e.readyAns).2.1
  rcases hw : (p.flushStep e).wr.ready e.readyAns with ⟨x, wr⟩
  rw [hw] at h hr
  have done : ∀ {q : Peer A}, Peer.completeStep comp slots next q = .ok (p', o) → q.wr = wr →
      p'.wr.boundary = p.wr.boundary ∧ (o = .pending → p'.wr = wr) := by
    intro q hq hqw
    have := completeStep_wr hq
    refine ⟨?_, fun _ => this.trans hqw⟩
    rw [this, hqw]; exact hr.trans hb
  cases x with
  | pending => exact done h rfl
  | ok =>
    cases hg : (p.flushStep e).egress with
    | nil => rw [hg] at h; exact done h rfl
    | cons m ms => rw [hg] at h; cases h; exact ⟨hr.trans hb, fun h => by cases h⟩
  | err =>
    cases hg : (p.flushStep e).egress with
    | nil => rw [hg] at h; exact done h rfl
    | cons m ms => rw [hg] at h; cases h; exact ⟨hr.trans hb, fun h => by cases h⟩

/-- All connections buffer up to the same number of bytes. -/
def Bounded (d : Driver A) : Prop := ∀ p ∈ d.peers, p.wr.boundary = 8192

theorem Bounded.complete {d : Driver A} (h : Bounded d) (x : Nat) (s : Slot) : Bounded (d.complete x s) := by
  intro p hp
  obtain ⟨q, hq, rfl⟩ := List.mem_map.mp hp
  unfold Peer.wake
  split
  · exact h q hq
  · exact h q hq

theorem Bounded.onRequest {D : Decompressors} {d : Driver A} (h : Bounded d) (p : Peer A) (x : Nat) (m : ReqRep.Message) :
    Bounded (d.onRequest D p x m) := by
  unfold Driver.onRequest
  split
  · exact h.complete x .dropped
  · simp only
    split
    · exact h
    · exact Bounded.complete (d := { d with bytesRx := _ }) h x .dropped

theorem Bounded.insertPeer [DecidableEq A] {d : Driver A} (h : Bounded d) (uid : Nat) (a : A) (input : List ReadAns) :
    Bounded (d.insertPeer (Peer.new uid a input)) := by
  intro p hp
  simp only [Driver.insertPeer, List.mem_append, List.mem_filter, List.mem_singleton] at hp
  rcases hp with hp | rfl
  · exact h p hp.1
  · rfl

theorem Bounded.act [DecidableEq A] {D : Decompressors} {d d' : Driver A} {a : Act A} (h : Bounded d)
    (ha : d.act D a = .ok d') : Bounded d' := by
  cases a with
  | peer k e =>
    simp only [Driver.act, Driver.stepPeer] at ha
    cases hk : d.peers[k]? with
    | none => rw [hk] at ha; cases ha; exact h
    | some p =>
      rw [hk] at ha
      simp only at ha
      cases hi : p.iter d.comp d.slots d.next e with
      | panic => rw [hi] at ha; cases ha
      | ok r =>
        obtain ⟨p', o⟩ := r
        rw [hi] at ha
        simp only [R.bind_ok, R.pure_eq] at ha
        have hset : ∀ q ∈ d.peers.set k p', q.wr.boundary = 8192 := by
          intro q hq
          rcases List.mem_or_eq_of_mem_set hq with hq | rfl
          · exact h q hq
          · exact (iter_wr hi).1.trans (h p (List.mem_of_getElem? hk))
        cases o with
        | request x m =>
          cases ha
          exact Bounded.onRequest (d := { d with peers := d.peers.set k p', next := d.next + 1 }) hset p' x m
        | closed => cases ha; intro q hq; exact h q (List.mem_of_mem_eraseIdx hq)
        | sent m => cases ha; exact hset
        | queued => cases ha; exact hset
        | error => cases ha; exact hset
        | pending => cases ha; exact hset
  | join i =>
    cases ha
    unfold Driver.stepJoin
    split
    · simp only
      split
      · exact Bounded.insertPeer (d := { d with authTasks := _ }) h _ _ _
      · exact h
      · exact h
      · exact h
    · exact h
  | ready i ok =>
    cases ha
    unfold Driver.stepConn
    split
    · exact h
    · simp only
      split
      · split
        · exact h
        · split
          · exact h
          · exact Bounded.insertPeer (d := { d with connTasks := _ }) h _ _ _
      · exact h
  | accept c =>
    cases ha
    unfold Driver.stepAccept
    split
    · split <;> exact h
    · exact h
  | recv =>
    unfold Driver.act at ha
    simp only at ha
    split at ha <;> (cases ha; exact h)
  | respond i b =>
    unfold Driver.act at ha
    simp only at ha
    split at ha
    · cases ha; exact h
    · cases ha; exact Bounded.complete (d := { d with held := _ }) h _ (.responded b)
  | drop i =>
    unfold Driver.act at ha
    simp only at ha
    split at ha
    · cases ha; exact h
    · cases ha; exact Bounded.complete (d := { d with held := _ }) h _ .dropped

theorem Bounded.run [DecidableEq A] {D : Decompressors} (acts : List (Act A)) {d d' : Driver A} (h : Bounded d)
    (ha : d.run D acts = .ok d') : Bounded d' := by
  induction acts generalizing d with
  | nil => cases ha; exact h
  | cons a acts ih =>
    unfold Driver.run at ha
    cases hx : d.act D a with
    | panic => rw [hx] at ha; cases ha
    | ok u => rw [hx] at ha; exact ih (h.act hx) ha

/-- `poll` keeps the limit. -/
theorem poll_boundary {comp} {slots : Nat → Slot} {next : Nat} (es : List PEnv) {p p' : Peer A} {o : POut}
    (h : p.poll comp slots next es = .ok (some (p', o))) : p'.wr.boundary = p.wr.boundary := by
  induction es generalizing p with
  | nil => cases h
  | cons e es ih =>
    unfold Peer.poll at h
    cases hi : p.iter comp slots next e with
    | panic => rw [hi] at h; cases h
    | ok r =>
      obtain ⟨q, x⟩ := r
      rw [hi] at h
      simp only [R.bind_ok, R.pure_eq] at h
      have hb := (iter_wr hi).1
      cases x with
      | sent m => exact (ih h).trans hb
      | queued => exact (ih h).trans hb
      | request y m => cases h; exact hb
      | error => cases h; exact hb
      | closed => cases h; exact hb
      | pending => cases h; exact hb

/-- An iteration that returns `Pending` leaves all bytes on the wire unless the connection did not take them. -/
theorem iter_flushed {comp} {slots : Nat → Slot} {p p' : Peer A} {next : Nat} {e : PEnv} (hl : PLive slots p)
    (hb : p.wr.boundary = 8192) (h : p.iter comp slots next e = .ok (p', .pending)) :
    (p'.wr.buf = [] ∧ ((p.flushStep e).wr.ready e.readyAns).1 ≠ .pending) ∨
    (p.wr.buf ≠ [] ∧ p.wr.total = p'.wr.total ∧ (p.wr.flush e.flushAns).1 ≠ .ok) := by
  have h1 := (iter_wr h).2 rfl
  have hb' := (flushStep_boundary p e).trans hb
  have empty : (p.flushStep e).wr.buf = [] → p'.wr.buf = [] ∧ ((p.flushStep e).wr.ready e.readyAns).1 ≠ .pending := by
    intro hz
    unfold Writer.ready at h1 ⊢
    rw [hb', hz, if_neg (by simp)] at h1
    rw [hb', hz, if_neg (by simp), h1]
    exact ⟨hz, by simp⟩
  have tot : p'.wr.total = (p.flushStep e).wr.total := by
    rw [h1]; exact (Writer.ready_spec (p.flushStep e).wr e.readyAns).1
  unfold Peer.flushStep at *
  by_cases hs : p.shouldFlush = true
  · rw [if_pos hs] at *
    have hf := Writer.flush_spec p.wr e.flushAns
    rcases hq : p.wr.flush e.flushAns with ⟨o, w⟩
    rw [hq] at hf
    by_cases hz : p.wr.buf = []
    · left
      rw [hq] at empty
      have := hf.2.2.2.2 hz
      simp only at this
      subst this
      cases o <;> exact empty hz
    · cases o with
      | ok => left; rw [hq] at empty; exact empty (hf.2.2.2.1 rfl)
      | pending => right; rw [hq] at tot; exact ⟨hz, (tot.trans hf.1).symm, by simp⟩
      | err => right; rw [hq] at tot; exact ⟨hz, (tot.trans hf.1).symm, by simp⟩
  · left
    rw [if_neg hs] at *
    exact empty (hl.flush (by simpa using hs))

end MsgRs.Rep
