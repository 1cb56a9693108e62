import Verif.Proofs.Memory
import Verif.Props.PubServer
/-!
# What the sessions of a publisher hold
-/
namespace MsgRs.Pub
open MsgRs Spec
variable {A : Type}

theorem encode_length' (m : PubSub.Message) : (PubSub.encode m).length = 20 + m.header.topic.length + m.payload.length := by
  simp [PubSub.encode]; omega

theorem intoWire_length {m : PubMsg} {now : UInt64} {seq : UInt32} {w : PubSub.Message} (h : m.intoWire now seq = .ok w) :
    (PubSub.encode w).length = wireLen m := by
  rw [encode_length']
  unfold PubMsg.intoWire PubSub.Message.new at h
  split at h
  · cases h; rfl
  · cases h

theorem flush_buf_le (w : Writer) (as : List WriteAns) : (w.flush as).2.buf.length ≤ w.buf.length := by
  obtain ⟨h1, -, ⟨x, h3⟩, -⟩ := Writer.flush_spec w as
  have := congrArg List.length h1
  simp only [Writer.total, List.length_append, ← h3] at this
  omega

theorem flush_fine (as : List WriteAns) : ∀ w : Writer, writesFine as → (w.flush as).1 ≠ .err := by
  induction as with
  | nil => intro w _; simp [Writer.flush]
  | cons a as ih =>
    intro w h
    have ha := h a (.head _)
    cases a with
    | pending => simp [Writer.flush]
    | err => exact absurd rfl ha.1
    | ok n =>
      have hn : n ≠ 0 := by rintro rfl; exact ha.2 rfl
      unfold Writer.flush
      split
      · simp
      · exact ih _ fun x hx => h x (.tail _ hx)

/-- What `poll_ready` leaves, when it does not make the writer wait. -/
theorem ready_mem (w : Writer) (as : List WriteAns) : (w.ready as).2.buf.length ≤ w.buf.length ∧ (w.ready as).2.boundary = w.boundary ∧
    (writesFine as → (w.ready as).1 ≠ .pending → (w.ready as).2.buf.length ≤ w.boundary - 1) := by
  unfold Writer.ready
  split
  · refine ⟨flush_buf_le w as, (Writer.flush_spec w as).2.1, fun hf hp => ?_⟩
    have : (w.flush as).1 = .ok := by
      have := flush_fine as w hf
      cases h : (w.flush as).1 <;> simp_all
    rw [(Writer.flush_spec w as).2.2.2.1 this]
    exact Nat.zero_le _
  · exact ⟨Nat.le_refl _, rfl, fun _ _ => by simp only; omega⟩

/-- Bounds on the sending side of a session. -/
structure WrMem (boundary F : Nat) (s : Session) : Prop where
  bd : s.wr.boundary = boundary
  free : s.pending = none → s.wr.buf.length ≤ boundary - 1 + F
  one : ∀ p, s.pending = some p → s.wr.buf.length ≤ boundary - 1 ∧ (PubSub.encode p).length ≤ F

theorem wrMem_held {boundary F : Nat} {s : Session} (h : WrMem boundary F s) : heldFor s ≤ boundary - 1 + F := by
  unfold heldFor
  cases hp : s.pending with
  | none => exact h.free hp
  | some p => have := h.one p hp; simp only; omega

theorem wrMem_less {boundary F : Nat} {s s' : Session} (h : WrMem boundary F s) (hb : s'.wr.boundary = s.wr.boundary)
    (hl : s'.wr.buf.length ≤ s.wr.buf.length) (hp : s'.pending = s.pending) : WrMem boundary F s' :=
  ⟨hb.trans h.bd, fun hn => Nat.le_trans hl (h.free (hp ▸ hn)),
    fun p hn => ⟨Nat.le_trans hl (h.one p (hp ▸ hn)).1, (h.one p (hp ▸ hn)).2⟩⟩

theorem flushStep_mem (s : Session) (e : Env) : (s.flushStep e).pending = s.pending ∧ (s.flushStep e).wr.boundary = s.wr.boundary ∧
    (s.flushStep e).wr.buf.length ≤ s.wr.buf.length ∧ (s.flushStep e).rd = s.rd ∧ (s.flushStep e).input = s.input ∧ (s.flushStep e).seq = s.seq := by
  unfold Session.flushStep
  have h1 := flush_buf_le s.wr e.flushAns
  have h2 := (Writer.flush_spec s.wr e.flushAns).2.1
  split
  · rcases hf : s.wr.flush e.flushAns with ⟨o, wr⟩
    rw [hf] at h1 h2
    cases o <;> exact ⟨rfl, h2, h1, rfl, rfl, rfl⟩
  · exact ⟨rfl, rfl, Nat.le_refl _, rfl, rfl, rfl⟩

/-- One iteration: the sending side stays within its bounds, and so does the receiving side. -/
theorem iter_mem {L : Lossy} {s s' : Session} {e : Env} {ev : Ev} {boundary F N C : Nat} (hN : PubSub.codec.Needs N)
    (h : s.iter L e = .ok (s', ev)) :
    (WrMem boundary F s → writesFine e.readyAns → (∀ m now, ev = .took m now → wireLen m ≤ F) → WrMem boundary F s') ∧
    (RdMem N C s.rd s.input → s'.rd.buf.length ≤ N + C ∧ (ev ≠ .ended → RdMem N C s'.rd s'.input)) := by
  obtain ⟨f1, f2, f3, f4, f5, f6⟩ := flushStep_mem s e
  unfold Session.iter at h
  obtain ⟨g1, g2, g3⟩ := ready_mem (s.flushStep e).wr e.readyAns
  generalize s.flushStep e = s1 at *
  simp only at h
  rw [← f4, ← f5]
  have hw1 : WrMem boundary F s → WrMem boundary F s1 := fun hw => wrMem_less hw f2 f3 f1
  rcases hr : s1.wr.ready e.readyAns with ⟨o, wr⟩
  rw [hr] at h g1 g2 g3
  simp only at g1 g2 g3
  have keep : ∀ s2 : Session, s2.pending = s1.pending → s2.wr.boundary = wr.boundary → s2.wr.buf.length ≤ wr.buf.length →
      (WrMem boundary F s → WrMem boundary F s2) := fun s2 k1 k2 k3 hw =>
    wrMem_less (hw1 hw) (k2.trans g2) (Nat.le_trans k3 g1) k1
  cases o with
  | pending => cases h; exact ⟨fun hw _ _ => keep _ rfl rfl (Nat.le_refl _) hw, fun hrd => ⟨hrd.buf, fun _ => hrd⟩⟩
  | ok | err =>
    simp only at h
    have hsmall : WrMem boundary F s → writesFine e.readyAns → wr.buf.length ≤ boundary - 1 := by
      intro hw hfine
      have := g3 hfine (by simp)
      rw [(hw1 hw).bd] at this
      exact this
    cases hp : s1.pending with
    | some m =>
      rw [hp] at h
      cases h
      refine ⟨fun hw hfine _ => ⟨?_, fun _ => ?_, by simp⟩, fun hrd => ⟨hrd.buf, fun _ => hrd⟩⟩
      · simp only [Writer.send_boundary]; exact g2.trans (hw1 hw).bd
      · have h1 := hsmall hw hfine
        have h2 := ((hw1 hw).one m hp).2
        simp only [Writer.send_buf, List.length_append]
        omega
    | none =>
      rw [hp] at h
      simp only at h
      split at h
      · rename_i m hfeed
        unfold Session.onOutgoing at h
        simp only at h
        split at h
        · cases hi : m.intoWire e.now s1.seq with
          | panic => rw [hi] at h; cases h
          | ok w =>
            rw [hi] at h
            simp only [R.bind_ok, R.pure_eq] at h
            cases h
            refine ⟨fun hw hfine hF => ⟨g2.trans (hw1 hw).bd, by simp, fun p hpp => ?_⟩, fun hrd => ⟨hrd.buf, fun _ => hrd⟩⟩
            cases hpp
            refine ⟨hsmall hw hfine, ?_⟩
            rw [intoWire_length hi]
            exact hF m _ rfl
        · cases h
          exact ⟨fun hw _ _ => keep _ hp.symm rfl (Nat.le_refl _) hw, fun hrd => ⟨hrd.buf, fun _ => hrd⟩⟩
      · cases h
        exact ⟨fun hw _ _ => keep _ hp.symm rfl (Nat.le_refl _) hw, fun hrd => ⟨hrd.buf, fun _ => hrd⟩⟩
      · cases h
        refine ⟨fun hw _ _ => keep _ hp.symm ?_ ?_ hw, fun hrd => ⟨hrd.buf, by simp⟩⟩
        · exact (Writer.flush_spec wr e.closeAns).2.1
        · exact flush_buf_le wr e.closeAns
      · cases hq : s1.rd.pollNext PubSub.codec s1.input with
        | panic => rw [hq] at h; cases h
        | ok x =>
          obtain ⟨o, rd, input⟩ := x
          rw [hq] at h
          simp only [R.bind_ok, R.pure_eq] at h
          have hm : RdMem N C s1.rd s1.input → _ := fun hrd => pollNext_mem hN _ _ hrd hq
          cases o with
          | item m =>
            cases h
            have hon : ∀ s2 : Session, (s2.onIncoming L m).pending = s2.pending ∧ (s2.onIncoming L m).wr = s2.wr ∧
                (s2.onIncoming L m).rd = s2.rd ∧ (s2.onIncoming L m).input = s2.input := by
              intro s2; unfold Session.onIncoming; split <;> exact ⟨rfl, rfl, rfl, rfl⟩
            obtain ⟨k1, k2, k3, k4⟩ := hon { s1 with wr, pending := none, rd, input }
            refine ⟨fun hw _ _ => keep _ (k1.trans hp.symm) (by rw [k2]) (by rw [k2]; exact Nat.le_refl _) hw, fun hrd => ?_⟩
            rw [k3, k4]
            exact ⟨(hm hrd).1, fun _ => (hm hrd).2 (.inr ⟨m, rfl⟩)⟩
          | err x =>
            cases h
            refine ⟨fun hw _ _ => keep _ hp.symm ?_ ?_ hw, fun hrd => ⟨(hm hrd).1, by simp⟩⟩
            · exact (Writer.flush_spec wr e.closeAns).2.1
            · exact flush_buf_le wr e.closeAns
          | ended => cases h; exact ⟨fun hw _ _ => keep _ hp.symm rfl (Nat.le_refl _) hw, fun hrd => ⟨(hm hrd).1, by simp⟩⟩
          | pending => cases h; exact ⟨fun hw _ _ => keep _ hp.symm rfl (Nat.le_refl _) hw, fun hrd => ⟨(hm hrd).1, fun _ => (hm hrd).2 (.inl rfl)⟩⟩

/-- Bounds on a session task. -/
structure SesMem (Fine : Bool) (boundary F N C : Nat) (t : Task) : Prop where
  wr : Fine = true → (∀ m ∈ tookOf t.evs, wireLen m ≤ F) → WrMem boundary F t.sess
  rd : t.sess.rd.buf.length ≤ N + C
  live : t.over = false → RdMem N C t.sess.rd t.sess.input

theorem tookOf_snoc (evs : List Ev) (ev : Ev) : tookOf (evs ++ [ev]) = tookOf evs ++ tookOf [ev] := by
  simp [tookOf]

theorem step_mem {L : Lossy} {b : Bcast PubMsg} {t : Task} {e : Env} {fine : Bool} {boundary F N C : Nat} (hN : PubSub.codec.Needs N)
    (h : SesMem fine boundary F N C t) (hf : fine = true → writesFine e.readyAns) : SesMem fine boundary F N C (t.step L b e) := by
  unfold Task.step
  split
  · exact h
  · rename_i ho
    split
    · exact ⟨h.wr, h.rd, by simp⟩
    · rename_i s ev hi
      obtain ⟨k1, k2⟩ := iter_mem (boundary := boundary) (F := F) (C := C) hN hi
      have hl := h.live (by simpa using ho)
      refine ⟨fun hfine hF => ?_, (k2 hl).1, fun hov => (k2 hl).2 (by simpa using hov)⟩
      rw [tookOf_snoc] at hF
      refine k1 (h.wr hfine fun m hm => hF m (List.mem_append_left _ hm)) (hf hfine) ?_
      rintro m now rfl
      exact hF m (List.mem_append_right _ (by simp [tookOf]))

theorem sesMem_new {fine : Bool} {boundary F N C next : Nat} {input : List ReadAns} (h : chunksUpTo C input) :
    SesMem fine boundary F N C { next, sess := Session.new boundary input } :=
  ⟨fun _ _ => ⟨rfl, fun _ => Nat.zero_le _, fun p hp => (by cases hp)⟩, Nat.zero_le _, fun _ => rdMem_new _ h⟩

/-- What is true of a server's sessions is true of them after one more action, if it holds of new sessions and steps keep it. -/
theorem act_tasks {L : Lossy} {s : Server A} (P : Nat → Ses A → Prop) (a : SrvAct A)
    (hnew : ∀ e d b x i, a = .driver e → s.drv = some d → s.sock.chan = some b → x ∈ ((d.iter e).sessions.drop d.sessions.length) →
      P i { conn := x.1, input := x.2, since := s.log.length, task := { next := b.resubscribe, sess := Session.new s.boundary x.2 } })
    (hstep : ∀ i e x b, a = .session i e → s.ses[i]? = some x → s.sock.chan = some b → P i x → P i { x with task := x.task.step L b e })
    (h : ∀ i x, s.ses[i]? = some x → P i x) : ∀ i x, (s.act L a).ses[i]? = some x → P i x := by
  have hrec : ∀ m r, (s.record m r).ses = s.ses := by
    rintro m ⟨_ | _, _⟩ <;> rfl
  have old : (s.act L a).ses = s.ses → ∀ i x, (s.act L a).ses[i]? = some x → P i x := by
    intro he i x hx; rw [he] at hx; exact h i x hx
  cases a with
  | bind bind addrs =>
    refine old ?_
    simp only [Server.act]
    split
    · rfl
    · split <;> rfl
  | publish t p =>
    refine old ?_
    simp only [Server.act]
    split
    · rfl
    · exact hrec _ _
  | tryPublish t p =>
    refine old ?_
    simp only [Server.act]
    split
    · rfl
    · exact hrec _ _
  | drop =>
    refine old ?_
    simp only [Server.act]
    split <;> rfl
  | driver e =>
    intro i x hx
    simp only [Server.act] at hx
    split at hx
    · rename_i d b hd hb
      simp only at hx
      rw [List.getElem?_append] at hx
      split at hx
      · exact h i x hx
      · rw [List.getElem?_map] at hx
        cases hy : ((d.iter e).sessions.drop d.sessions.length)[i - s.ses.length]? with
        | none => rw [hy] at hx; cases hx
        | some y =>
          rw [hy] at hx
          simp only [Option.map_some, Option.some.injEq] at hx
          subst hx
          exact hnew e d b y i rfl hd hb (List.mem_of_getElem? hy)
    · exact h i x hx
  | session j e =>
    intro i x hx
    simp only [Server.act] at hx
    split at hx
    · rename_i y b hy hb
      simp only at hx
      rw [List.getElem?_set] at hx
      split at hx
      · rename_i hji
        subst hji
        split at hx
        · cases hx; exact hstep j e y b rfl hy hb (h j y hy)
        · cases hx
      · exact h i x hx
    · exact h i x hx

end MsgRs.Pub
