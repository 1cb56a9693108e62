import Verif.Proofs.SubDeliver
/-!
# A session with a connection that takes what is written
-/
namespace MsgRs.Sub
open MsgRs

variable {L : Lossy}

/-- The connection has nothing to read at the moment. -/
def Session.Idle (s : Session) : Prop := s.rd.pollNext PubSub.codec s.input = .ok (.pending, s.rd, s.input)

/-- During this iteration, the connection takes whatever is written to it, if it is at most `B` bytes at a time,
for up to `K` attempts to send. -/
def SEnv.Willing (B K : Nat) (e : SEnv) : Prop :=
  (∀ w : Writer, w.buf.length ≤ B → (w.flush e.flushAns).1 = .ok) ∧
  ∀ i < K, ∀ w : Writer, w.buf.length ≤ B → (w.flush (e.sendAns.getD i [])).1 = .ok

/-- Bytes that may still have to be written: those in the write buffer, the frames queued, at most 65560 per
command. -/
def Session.todo (s : Session) : Nat :=
  s.wr.buf.length + (s.egress.flatMap PubSub.encode).length + 65560 * s.cmds.length

/-- How far a session is from having written everything. -/
def Session.work (s : Session) : Nat :=
  3 * s.cmds.length + (if s.egress = [] then 0 else 2) + (if s.flush then 1 else 0)

/-- A session that can write everything out. -/
structure Ready (B K : Nat) (s : Session) : Prop where
  idle : s.Idle
  over : s.over = false
  alive : s.alive = true
  flush : s.flush = false → s.wr.buf = []
  cmds : ∀ c ∈ s.cmds, ∀ now, ∃ m, c.msg now = .ok m
  todo : s.todo ≤ B
  egress : s.egress.length ≤ K
  pos : 1 ≤ K

/-- What writing changes nothing about. -/
structure Kept (s t : Session) : Prop where
  got : t.got = s.got
  queued : t.queued = s.queued
  offered : t.offered = s.offered
  lost : t.lost = s.lost
  rotated : t.rotated = s.rotated
  over : t.over = s.over
  alive : t.alive = s.alive
  input0 : t.input0 = s.input0
  via : t.via = s.via

theorem Kept.refl (s : Session) : Kept s s := ⟨rfl, rfl, rfl, rfl, rfl, rfl, rfl, rfl, rfl⟩

theorem Kept.trans {s t u : Session} (h : Kept s t) (g : Kept t u) : Kept s u :=
  ⟨g.1.trans h.1, g.2.trans h.2, g.3.trans h.3, g.4.trans h.4, g.5.trans h.5, g.6.trans h.6, g.7.trans h.7, g.8.trans h.8, g.9.trans h.9⟩

theorem wready_buf (w : Writer) (as : List WriteAns) (B : Nat) (hb : w.buf.length ≤ B)
    (hf : ∀ w : Writer, w.buf.length ≤ B → (w.flush as).1 = .ok) :
    (w.ready as).1 = .ok ∧ (w.ready as).2.buf.length ≤ w.buf.length := by
  unfold Writer.ready
  split
  · have := (Writer.flush_spec w as).2.2.2.1 (hf w hb)
    exact ⟨hf w hb, by simp [this]⟩
  · exact ⟨rfl, Nat.le_refl _⟩

/-- The send loop with a willing connection sends everything. -/
theorem sendLoop_willing (ms : List PubSub.Message) (s : Session) (p : Bool) (as : List (List WriteAns)) (B : Nat)
    (hb : s.wr.buf.length + (ms.flatMap PubSub.encode).length ≤ B)
    (hw : ∀ i < ms.length, ∀ w : Writer, w.buf.length ≤ B → (w.flush (as.getD i [])).1 = .ok) :
    ∃ t, s.sendLoop p ms as = (t, p || !ms.isEmpty) ∧ t.egress = [] ∧ t.sent = s.sent ++ ms ∧
      t.wr.buf.length ≤ s.wr.buf.length + (ms.flatMap PubSub.encode).length ∧
      t.flush = (s.flush || !ms.isEmpty) ∧ (ms = [] → t.wr = s.wr) ∧ t.cmds = s.cmds ∧ t.handled = s.handled ∧
      t.rd = s.rd ∧ t.input = s.input ∧ Kept s t := by
  induction ms generalizing s p as with
  | nil =>
    exact ⟨{ s with egress := [] }, by simp [Session.sendLoop], rfl, by simp, by simp, by simp, fun _ => rfl, rfl, rfl,
      rfl, rfl, ⟨rfl, rfl, rfl, rfl, rfl, rfl, rfl, rfl, rfl⟩⟩
  | cons m ms ih =>
    unfold Session.sendLoop
    simp only [List.flatMap_cons, List.length_append] at hb
    have h0 : ∀ w : Writer, w.buf.length ≤ B → (w.flush (as.headD [])).1 = .ok := by
      have := hw 0 (by simp)
      cases as with
      | nil => simpa using this
      | cons a as => simpa using this
    obtain ⟨h1, h2⟩ := wready_buf s.wr (as.headD []) B (by omega) h0
    rcases hr : s.wr.ready (as.headD []) with ⟨o, wr⟩
    rw [hr] at h1 h2
    simp only at h1 h2
    subst h1
    simp only
    obtain ⟨t, g1, g2, g3, g4, g5, g6, g7, g8, g9, g10, g11⟩ := ih
      { s with wr := wr.send (PubSub.encode m), flush := true, sent := s.sent ++ [m] } true as.tail
      (by simp only [Writer.send_buf, List.length_append]; omega) (by
        intro i hi
        have := hw (i + 1) (by simp; omega)
        cases as with
        | nil => simpa using this
        | cons a as => simpa using this)
    refine ⟨t, by rw [g1]; simp, g2, by rw [g3]; simp, ?_, by rw [g5]; simp, by simp, g7, g8, g9, g10, ?_⟩
    · refine Nat.le_trans g4 ?_
      simp only [Writer.send_buf, List.length_append, List.flatMap_cons]
      omega
    · exact ⟨g11.1, g11.2, g11.3, g11.4, g11.5, g11.6, g11.7, g11.8, g11.9⟩

theorem encode_length (m : PubSub.Message) :
    (PubSub.encode m).length = 20 + m.header.topic.length + m.payload.length := by
  simp [PubSub.encode, putU16, putU32, putU64]
  omega

theorem cmd_length {c : Cmd} {now : UInt64} {m : PubSub.Message} (h : c.msg now = .ok m) :
    (PubSub.encode m).length ≤ 65560 := by
  rw [encode_length]
  cases c with
  | subscribe t =>
    simp only [Cmd.msg, PubSub.Message.newSub, PubSub.Message.new] at h
    split at h
    · rename_i hl; cases h
      show 20 + (PubSub.subPrefix ++ utf8 t).length + 0 ≤ 65560
      omega
    · cases h
  | unsubscribe t =>
    simp only [Cmd.msg, PubSub.Message.newUnsub, PubSub.Message.new] at h
    split at h
    · rename_i hl; cases h
      show 20 + (PubSub.unsubPrefix ++ utf8 t).length + 0 ≤ 65560
      omega
    · cases h

/-- One iteration with a willing connection makes progress, and loses and reorders nothing. -/
theorem willing_step {B K : Nat} {s : Session} (h : Ready B K s) (e : SEnv) (he : e.Willing B K) :
    Ready B K (s.step L e) ∧ Kept s (s.step L e) ∧
    ((s.step L e).work < s.work ∨ (s.work = 0 ∧ (s.step L e).work = 0)) := by
  have hB : s.wr.buf.length + (s.egress.flatMap PubSub.encode).length + 65560 * s.cmds.length ≤ B := h.todo
  -- the flush
  have hfl : ∃ wr, s.flushStep e = { s with wr, flush := false } ∧ wr.buf = [] := by
    unfold Session.flushStep
    cases hf : s.flush with
    | false => exact ⟨s.wr, by rw [if_neg (by simp), ← hf], h.flush hf⟩
    | true =>
      have h1 := he.1 s.wr (by omega)
      have h2 := (Writer.flush_spec s.wr e.flushAns).2.2.2.1 h1
      rcases hr : s.wr.flush e.flushAns with ⟨o, wr⟩
      rw [hr] at h1 h2
      simp only at h1 h2
      subst h1
      exact ⟨wr, by simp, h2⟩
  obtain ⟨wr, hfl, hwr⟩ := hfl
  have hidle : s.rd.pollNext PubSub.codec s.input = .ok (.pending, s.rd, s.input) := h.idle
  -- the sends
  obtain ⟨t, g1, g2, g3, g4, g5, g6, g7, g8, g9, g10, g11⟩ := sendLoop_willing s.egress
    { s with wr, flush := false, polls := s.polls + 1 } false e.sendAns B
    (by simp only [hwr, List.length_nil]; omega) (fun i hi w hw => he.2 i (Nat.lt_of_lt_of_le hi h.egress) w hw)
  have hk : Kept s t := ⟨g11.1, g11.2, g11.3, g11.4, g11.5, g11.6, g11.7, g11.8, g11.9⟩
  simp only at g7 g8 g9 g10
  simp only [Bool.false_or] at g5
  simp only [hwr, List.length_nil, Nat.zero_add] at g4
  have hti : t.Idle := by unfold Session.Idle; rw [g9, g10]; exact hidle
  have hto : t.over = false := hk.over.trans h.over
  have hta : t.alive = true := hk.alive.trans h.alive
  have htf : t.flush = false → t.wr.buf = [] := by
    intro hf
    rw [g5] at hf
    have : s.egress = [] := by simpa using hf
    rw [g6 this]; exact hwr
  by_cases heg : s.egress = []
  · -- nothing to send: a command is handled
    have hf0 : t.flush = false := by rw [g5, heg]; rfl
    have hw0 : t.wr.buf = [] := htf hf0
    have hstep : s.iter L e = .ok (t.cmdStep e) := by
      unfold Session.iter
      rw [hfl]
      have hp : (!s.egress.isEmpty) = false := by rw [heg]; rfl
      simp only [hidle, R.bind_ok, g1, R.pure_eq, hp, Bool.false_or, Bool.false_eq_true, if_false]
    cases hc : s.cmds with
    | nil =>
      have hcs : t.cmdStep e = (t, .pending) := by
        unfold Session.cmdStep
        rw [g7, hc]
        simp [hta]
      have hst : s.step L e = t := by
        unfold Session.step
        rw [h.over, hstep, hcs]
        rfl
      rw [hst]
      refine ⟨⟨hti, hto, hta, htf, by rw [g7]; exact h.cmds, ?_, by rw [g2]; simp, h.pos⟩, hk, ?_⟩
      · unfold Session.todo; rw [hw0, g2, g7, hc]; simp
      · have hwt : t.work = 0 := by unfold Session.work; rw [g7, hc, g2, hf0]; simp
        by_cases hz : s.work = 0
        · exact .inr ⟨hz, hwt⟩
        · exact .inl (by rw [hwt]; omega)
    | cons c cs =>
      obtain ⟨m, hm⟩ := h.cmds c (by rw [hc]; simp) e.now
      have hcs : t.cmdStep e = ({ t with cmds := cs, handled := t.handled ++ [(e.now, c)], egress := [m] }, .again) := by
        unfold Session.cmdStep
        rw [g7, hc]
        simp only [hm, g2, List.nil_append]
      have hst : s.step L e = { t with cmds := cs, handled := t.handled ++ [(e.now, c)], egress := [m] } := by
        unfold Session.step
        rw [h.over, hstep, hcs]
        rfl
      rw [hst]
      refine ⟨⟨hti, hto, hta, htf, ?_, ?_, by simpa using h.pos, h.pos⟩,
        hk.trans ⟨rfl, rfl, rfl, rfl, rfl, rfl, rfl, rfl, rfl⟩, .inl ?_⟩
      · intro c' hc'; exact h.cmds c' (by rw [hc]; exact List.mem_cons_of_mem _ hc')
      · unfold Session.todo
        have := cmd_length hm
        rw [hc] at hB
        simp only [hw0, List.flatMap_cons, List.flatMap_nil, List.append_nil, List.length_nil, List.length_cons] at hB ⊢
        omega
      · unfold Session.work
        simp only [hf0, hc, heg, List.length_cons]
        simp
        omega
  · have hp : (!s.egress.isEmpty) = true := by simpa using heg
    have hstep : s.iter L e = .ok (t, .again) := by
      unfold Session.iter
      rw [hfl]
      simp only [hidle, R.bind_ok, g1, R.pure_eq, hp, Bool.false_or, if_true]
    have hst : s.step L e = t := by
      unfold Session.step
      rw [h.over, hstep]
      rfl
    rw [hst]
    refine ⟨⟨hti, hto, hta, htf, by rw [g7]; exact h.cmds, ?_, by rw [g2]; simp, h.pos⟩, hk, .inl ?_⟩
    · unfold Session.todo
      rw [g2, g7]
      simp
      omega
    · unfold Session.work
      rw [g2, g7, g5, hp]
      simp only [heg, if_true, if_false]
      omega

/-- Iterations with a willing connection. -/
theorem willing_run {B K : Nat} (es : List SEnv) (s : Session) (h : Ready B K s) (he : ∀ e ∈ es, e.Willing B K) :
    Ready B K (es.foldl (Session.step L) s) ∧ Kept s (es.foldl (Session.step L) s) ∧
    ((es.foldl (Session.step L) s).work = 0 ∨ (es.foldl (Session.step L) s).work + es.length ≤ s.work) := by
  induction es generalizing s with
  | nil => exact ⟨h, Kept.refl s, .inr (by simp)⟩
  | cons e es ih =>
    obtain ⟨h1, h2, h3⟩ := willing_step (L := L) h e (he e List.mem_cons_self)
    obtain ⟨g1, g2, g3⟩ := ih (s.step L e) h1 (fun x hx => he x (List.mem_cons_of_mem _ hx))
    refine ⟨g1, h2.trans g2, ?_⟩
    simp only [List.foldl_cons, List.length_cons]
    rcases g3 with g3 | g3
    · exact .inl g3
    · rcases h3 with h3 | ⟨h3, h4⟩
      · exact .inr (by omega)
      · exact .inl (by omega)

/-- Everything is written out. -/
theorem work_zero {s : Session} {B K : Nat} (h : Ready B K s) (h0 : s.work = 0) :
    s.cmds = [] ∧ s.egress = [] ∧ s.wr.buf = [] := by
  unfold Session.work at h0
  have h1 : s.cmds.length = 0 := by omega
  have h2 : (if s.egress = [] then 0 else 2) = 0 := by omega
  have h3 : (if s.flush = true then 1 else 0) = 0 := by omega
  refine ⟨List.length_eq_zero_iff.1 h1, ?_, h.flush ?_⟩
  · by_cases he : s.egress = []
    · exact he
    · simp [he] at h2
  · cases hf : s.flush with
    | false => rfl
    | true => simp [hf] at h3

end MsgRs.Sub
