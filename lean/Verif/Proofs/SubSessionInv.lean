import Verif.Proofs.SubSession
import Verif.Proofs.Mean
import Verif.Proofs.Memory
/-!
# What holds of a publisher session at any time
-/
namespace MsgRs.Sub
open MsgRs

/-- The wire messages of the commands handled so far. -/
def Session.handledMsgs (s : Session) : List PubSub.Message :=
  s.handled.filterMap fun x => match x.2.msg x.1 with
    | .ok m => some m
    | .panic => none

/-- On a connection that stays open and carries a proper stream of messages `ms`: what was read is the beginning of
`ms`, and every poll either brought one more message or used up an answer of the connection, unless everything was
read. -/
def ReadsAll (s : Session) : Prop :=
  OpenAns s.input0 → ∀ ms, Drains PubSub.codec PubSub.codec.init (dataOf s.input0) ms none →
    ∃ rest, ms = s.got ++ rest ∧ OpenAns s.input ∧ s.rd.Good PubSub.codec ∧
      Drains PubSub.codec s.rd.st (s.rd.buf ++ dataOf s.input) rest none ∧
      ((rest = [] ∧ s.input = []) ∨ s.polls + s.input.length ≤ s.got.length + s.input0.length)

theorem ReadsAll.step {s : Session} (h : ReadsAll s) {o : FOut PubSub.Err PubSub.Message} {rd : Reader PubSub.State}
    {input : List ReadAns} (hp : s.rd.pollNext PubSub.codec s.input = .ok (o, rd, input)) :
    (∀ m, o = .item m → OpenAns s.input0 → ∀ ms, Drains PubSub.codec PubSub.codec.init (dataOf s.input0) ms none →
      ∃ rest, ms = (s.got ++ [m]) ++ rest ∧ OpenAns input ∧ rd.Good PubSub.codec ∧
        Drains PubSub.codec rd.st (rd.buf ++ dataOf input) rest none ∧
        ((rest = [] ∧ input = []) ∨ s.polls + 1 + input.length ≤ (s.got ++ [m]).length + s.input0.length)) ∧
    ((∀ m, o ≠ .item m) → OpenAns s.input0 → ∀ ms, Drains PubSub.codec PubSub.codec.init (dataOf s.input0) ms none →
      ∃ rest, ms = s.got ++ rest ∧ OpenAns input ∧ rd.Good PubSub.codec ∧
        Drains PubSub.codec rd.st (rd.buf ++ dataOf input) rest none ∧
        ((rest = [] ∧ input = []) ∨ s.polls + 1 + input.length ≤ s.got.length + s.input0.length)) := by
  constructor
  · intro m hm ho ms hd
    obtain ⟨rest, h1, h2, h3, h4, h5⟩ := h ho ms hd
    rcases pollNext_open PubSub.inc s.input h2 h3 h4 with ⟨m', ms', r', as', g1, g2, g3, g4, g5, g6⟩ |
      ⟨e', r', as', -, g1, -⟩ | ⟨r', as', g1, -⟩
    · rw [hp] at g2
      cases g2
      cases hm
      refine ⟨ms', by rw [h1, g1]; simp, g4, g3, g6, ?_⟩
      rcases h5 with ⟨h5, -⟩ | h5
      · rw [g1] at h5; cases h5
      · right
        simp only [List.length_append, List.length_singleton]
        omega
    · cases g1
    · rw [hp] at g1; cases g1; cases hm
  · intro hno ho ms hd
    obtain ⟨rest, h1, h2, h3, h4, h5⟩ := h ho ms hd
    rcases pollNext_open PubSub.inc s.input h2 h3 h4 with ⟨m', ms', r', as', g1, g2, -⟩ |
      ⟨e', r', as', -, g1, -⟩ | ⟨r', as', g1, g2, g3, g4, g5⟩
    · rw [hp] at g2; cases g2; exact absurd rfl (hno m')
    · cases g1
    · rw [hp] at g1
      cases g1
      refine ⟨rest, h1, g3, g2, g5, ?_⟩
      rcases g4 with g4 | ⟨g4, g5, -⟩
      · rcases h5 with ⟨-, h5⟩ | h5
        · rw [h5] at g4; cases g4
        · exact .inr (by omega)
      · exact .inl ⟨g5, g4⟩

/-- Invariant of a session (together with its channel). -/
structure SInv (L : Lossy) (s : Session) : Prop where
  reads : Tracks PubSub.codec s.input0 s.got s.rd s.input
  wire : s.wr.total = s.sent.flatMap PubSub.encode
  queued : s.over = false → s.queued = s.handled.map (·.2) ++ s.cmds
  queuedPre : s.handled.map (·.2) <+: s.queued
  msgs : ∀ x ∈ s.handled, ∃ m, x.2.msg x.1 = .ok m
  perm : (s.sent ++ s.lost ++ s.egress).Perm s.handledMsgs
  order : s.rotated = false → (s.sent ++ s.egress).Sublist s.handledMsgs
  fwd : s.fwd.Sublist (s.got.map (TopicMsg.ofWire L))
  drops : s.fwd.length + s.drops = s.got.length
  bytes : s.stats.bytesRx = (s.got.map fun m => m.payload.length).sum
  idx : s.stats.latencyIdx = s.got.length
  idx' : s.samples.length = s.got.length
  caps : s.cmds.length ≤ cmdsCap ∧ s.toDriver.length ≤ toDriverCap
  offered : s.queued.Sublist s.offered
  toDriver : s.toDriver <:+ s.fwd
  full : s.rotated = true ∨ s.lost ≠ [] → s.wr.boundary ≤ s.wr.total.length
  small : s.over = false → s.offered.length ≤ cmdsCap → s.queued = s.offered
  lat : s.samples.sum < 2 ^ 64 → s.samples ≠ [] → ∀ lo hi, (∀ x ∈ s.samples, lo ≤ x ∧ x ≤ hi) → lo ≤ s.stats.latency ∧ s.stats.latency ≤ hi
  ca : s.samples.sum < 2 ^ 64 → MeanOf s.samples s.stats.latency
  all : ReadsAll s
  mem : ∀ N C y ms, PubSub.codec.Needs N → Spec.chunksUpTo C s.input0 → Drains PubSub.codec PubSub.codec.init (dataOf s.input0 ++ y) ms none →
    RdOk N C s.rd s.input
  wbuf : s.wr.buf.length ≤ s.wr.boundary - 1 + 65555

theorem SInv.new (L : Lossy) (b : Nat) (via : HsEnv) (input : List ReadAns) : SInv L (Session.new b via input) where
  reads := Tracks.start _ PubSub.decode_nil _
  wire := rfl
  queued := fun _ => rfl
  queuedPre := List.prefix_rfl
  msgs := by intro x hx; cases hx
  perm := List.Perm.refl _
  order := fun _ => List.Sublist.refl _
  fwd := List.Sublist.refl _
  drops := rfl
  bytes := rfl
  idx := rfl
  idx' := rfl
  caps := ⟨Nat.zero_le _, Nat.zero_le _⟩
  offered := List.Sublist.refl _
  toDriver := List.suffix_rfl
  full := by rintro (h | h); · cases h
             · exact absurd rfl h
  small := fun _ _ => rfl
  lat := fun _ h => absurd rfl h
  ca := fun _ => MeanOf.nil _
  all := fun ho ms hd => ⟨ms, rfl, ho, new_good _ PubSub.decode_nil, hd, .inr (Nat.le_of_eq (by simp [Session.new]))⟩
  mem := fun _ _ _ _ _ hC _ => rdOk_new _ hC
  wbuf := Nat.zero_le _

variable {L : Lossy}

/-- One step of the running average stays between the extremes. -/
theorem avg_between {k x y lo hi : Nat} (hx : lo ≤ x ∧ x ≤ hi) (hy : k = 0 ∨ (lo ≤ y ∧ y ≤ hi)) :
    lo ≤ (x + k * y) / (k + 1) ∧ (x + k * y) / (k + 1) ≤ hi := by
  rcases hy with rfl | ⟨h1, h2⟩
  · simpa using hx
  · constructor
    · rw [Nat.le_div_iff_mul_le (by omega), Nat.mul_add, Nat.mul_one, Nat.mul_comm lo k]
      have := Nat.mul_le_mul_left k h1
      omega
    · rw [Nat.div_le_iff_le_mul_add_pred (by omega)]
      have := Nat.mul_le_mul_left k h2
      rw [Nat.add_mul, Nat.one_mul]
      omega

/-- What the bounds on the reader's buffer become with one more poll. -/
theorem SInv.mem_step {s : Session} (hi : SInv L s) {o rd input} (hp : s.rd.pollNext PubSub.codec s.input = .ok (o, rd, input)) (N C : Nat) (y : Bytes)
    (ms : List PubSub.Message) (hN : PubSub.codec.Needs N) (hC : Spec.chunksUpTo C s.input0)
    (hd : Drains PubSub.codec PubSub.codec.init (dataOf s.input0 ++ y) ms none) : RdOk N C rd input := by
  obtain ⟨-, u, hu, ht⟩ := hi.reads
  have hd' := hd
  rw [hu, dataOf_append, List.append_assoc] at hd'
  obtain ⟨rest, -, hr⟩ := ht _ _ _ hd'
  exact pollNext_ok PubSub.inc PubSub.errStable hN s.input s.rd (hi.mem N C y ms hN hC hd) hr hp

/-- A command takes at most 65555 bytes on the wire. -/
theorem cmd_len {c : Cmd} {now : UInt64} {m : PubSub.Message} (h : c.msg now = .ok m) : (PubSub.encode m).length ≤ 65555 := by
  have hnew : ∀ topic, PubSub.Message.new now 0 topic [] 0 = .ok m → (PubSub.encode m).length ≤ 65555 := by
    intro topic h
    unfold PubSub.Message.new at h
    split at h
    · cases h; simp [PubSub.encode]; omega
    · cases h
  cases c with
  | subscribe t => exact hnew _ h
  | unsubscribe t => exact hnew _ h

theorem SInv.step (s t : Session) (h : SStep L s t) (hi : SInv L s) : SInv L t := by
  cases h with
  | write wr fl ho h1 h2 h3 =>
    have hwb : wr.buf.length ≤ wr.boundary - 1 + 65555 := by
      obtain ⟨x, hx⟩ := h2
      have := congrArg List.length h1
      simp only [Writer.total, List.length_append, ← hx] at this
      have := hi.wbuf
      rw [h3]
      omega
    exact { hi with wbuf := hwb, wire := h1.trans hi.wire, full := fun h => by simp only [h1, h3]; exact hi.full h }
  | readItem m rd input now ho hp =>
    have hr : Tracks PubSub.codec s.input0 (s.got ++ [m]) rd input := by
      obtain ⟨o, r', as', hp', hc⟩ := hi.reads.step PubSub.inc PubSub.errStable
      rw [hp] at hp'; cases hp'
      rcases hc with ⟨m', h1, h2⟩ | ⟨h1, -⟩
      · cases h1; exact h2
      · exact absurd rfl (h1 m)
    have hb : s.stats.bytesRx + m.payload.length = ((s.got ++ [m]).map fun m => m.payload.length).sum := by
      rw [hi.bytes]; simp
    have hx : s.stats.latencyIdx + 1 = (s.got ++ [m]).length := by rw [hi.idx]; simp
    have hx' : (s.samples ++ [now.toNat - m.header.timestamp.toNat]).length = (s.got ++ [m]).length := by
      simp [hi.idx']
    have hnw : (s.samples ++ [now.toNat - m.header.timestamp.toNat]).sum < 2 ^ 64 →
        ((now.toNat - m.header.timestamp.toNat) + s.stats.latencyIdx * s.stats.latency) % 2 ^ 64 =
          (now.toNat - m.header.timestamp.toNat) + s.stats.latencyIdx * s.stats.latency := by
      intro hs
      have := (hi.ca (sum_of_snoc hs)).no_wrap hs
      rwa [hi.idx', ← hi.idx] at this
    have hlat : (s.samples ++ [now.toNat - m.header.timestamp.toNat]).sum < 2 ^ 64 → ∀ lo hi', (∀ y ∈ s.samples ++ [now.toNat - m.header.timestamp.toNat], lo ≤ y ∧ y ≤ hi') →
        lo ≤ ((now.toNat - m.header.timestamp.toNat) + s.stats.latencyIdx * s.stats.latency) % 2 ^ 64 / (s.stats.latencyIdx + 1) ∧
        ((now.toNat - m.header.timestamp.toNat) + s.stats.latencyIdx * s.stats.latency) % 2 ^ 64 / (s.stats.latencyIdx + 1) ≤ hi' := by
      intro hs lo hi' hall
      rw [hnw hs]
      refine avg_between (hall _ (by simp)) ?_
      by_cases h0 : s.samples = []
      · refine .inl ?_
        rw [hi.idx, ← hi.idx', h0]; rfl
      · exact .inr (hi.lat (sum_of_snoc hs) h0 lo hi' fun y hy => hall y (by simp [hy]))
    have hca : (s.samples ++ [now.toNat - m.header.timestamp.toNat]).sum < 2 ^ 64 → MeanOf (s.samples ++ [now.toNat - m.header.timestamp.toNat])
        (((now.toNat - m.header.timestamp.toNat) + s.stats.latencyIdx * s.stats.latency) % 2 ^ 64 / (s.stats.latencyIdx + 1)) := by
      intro hs
      rw [hnw hs]
      have := (hi.ca (sum_of_snoc hs)).step (now.toNat - m.header.timestamp.toNat)
      rwa [hi.idx', ← hi.idx] at this
    unfold Session.onIncoming
    simp only
    split
    · rename_i hcap
      exact { hi with
        reads := hr
        fwd := by simpa using hi.fwd.append (List.Sublist.refl [TopicMsg.ofWire L m])
        drops := by simp; have := hi.drops; omega
        bytes := hb
        idx := hx
        idx' := hx'
        caps := ⟨hi.caps.1, by simp; omega⟩
        toDriver := by
          obtain ⟨x, hx⟩ := hi.toDriver
          exact ⟨x, by rw [← hx, List.append_assoc]⟩
        lat := fun hs _ => hlat hs
        ca := hca
        all := (hi.all.step hp).1 m rfl
        mem := hi.mem_step hp }
    · exact { hi with
        reads := hr
        fwd := by simpa using hi.fwd.append (List.nil_sublist [TopicMsg.ofWire L m])
        drops := by simp; have := hi.drops; omega
        bytes := hb
        idx := hx
        idx' := hx'
        lat := fun hs _ => hlat hs
        ca := hca
        all := (hi.all.step hp).1 m rfl
        mem := hi.mem_step hp }
  | readNone o rd input ho hp hno =>
    refine { hi with reads := ?_, all := (hi.all.step hp).2 hno, mem := hi.mem_step hp }
    obtain ⟨o, r', as', hp', hc⟩ := hi.reads.step PubSub.inc PubSub.errStable
    rw [hp] at hp'; cases hp'
    rcases hc with ⟨m', h1, h2⟩ | ⟨-, h1⟩
    · exact absurd h1 (hno m')
    · exact h1
  | send m ms ho he hsm =>
    have hp := hi.perm; have hord := hi.order
    rw [he] at hp hord
    exact { hi with
      wbuf := by
        have hm : m ∈ s.handledMsgs := hp.subset (by simp)
        unfold Session.handledMsgs at hm
        rw [List.mem_filterMap] at hm
        obtain ⟨x, -, hx⟩ := hm
        have : (PubSub.encode m).length ≤ 65555 := by
          split at hx
          · rename_i m' hm'
            cases hx
            exact cmd_len hm'
          · cases hx
        simp only [Writer.send_buf, Writer.send_boundary, List.length_append]
        omega
      wire := by simp [hi.wire]
      full := by
        intro h
        have := hi.full h
        simp only [Writer.send_boundary, Writer.send_total, List.length_append]
        omega
      perm := by
        refine List.Perm.trans ?_ hp
        show (s.sent ++ [m] ++ s.lost ++ ms).Perm (s.sent ++ s.lost ++ m :: ms)
        simp only [List.append_assoc, List.cons_append, List.nil_append]
        exact List.Perm.append_left _ List.perm_middle.symm
      order := by
        intro hrot
        show (s.sent ++ [m] ++ ms).Sublist s.handledMsgs
        rw [List.append_assoc]
        exact hord hrot }
  | lose m ms ho he hbd =>
    have hp := hi.perm; have hord := hi.order
    rw [he] at hp hord
    exact { hi with
      full := fun _ => hbd
      perm := by
        refine List.Perm.trans ?_ hp
        show (s.sent ++ (s.lost ++ [m]) ++ ms).Perm (s.sent ++ s.lost ++ m :: ms)
        simp
      order := by
        intro hrot
        refine List.Sublist.trans ?_ (hord hrot)
        exact List.Sublist.append_left (List.sublist_cons_self m ms) s.sent }
  | rotate m ms ho he hbd =>
    have hp := hi.perm; have hord := hi.order
    rw [he] at hp hord
    exact { hi with
      full := fun _ => hbd
      perm := by
        refine List.Perm.trans ?_ hp
        show (s.sent ++ s.lost ++ (ms ++ [m])).Perm (s.sent ++ s.lost ++ m :: ms)
        refine List.Perm.append_left _ ?_
        exact (List.perm_append_comm (l₁ := ms) (l₂ := [m]))
      order := by
        intro hrot
        simp only [Bool.or_eq_false_iff, Bool.not_eq_false', List.isEmpty_iff] at hrot
        obtain ⟨h1, rfl⟩ := hrot
        exact hord h1 }
  | cmd c cs now m ho hc hm =>
    have hq := hi.queued ho
    rw [hc] at hq
    have hh : (Session.handledMsgs { s with cmds := cs, handled := s.handled ++ [(now, c)], egress := s.egress ++ [m] }) =
        s.handledMsgs ++ [m] := by
      simp [Session.handledMsgs, hm]
    exact { hi with
      queued := fun _ => by simp [hq]
      queuedPre := ⟨cs, by simp [hq]⟩
      msgs := by
        intro x hx
        simp only [List.mem_append, List.mem_singleton] at hx
        rcases hx with hx | rfl
        · exact hi.msgs x hx
        · exact ⟨m, hm⟩
      perm := by
        rw [hh]
        simp only [← List.append_assoc]
        exact List.Perm.append_right [m] hi.perm
      order := by
        intro hrot
        rw [hh]
        simp only [← List.append_assoc]
        exact (hi.order hrot).append (List.Sublist.refl [m])
      caps := ⟨by have := hi.caps.1; rw [hc] at this; simp at this ⊢; omega, hi.caps.2⟩ }
  | overlong c cs now ho hc hm =>
    exact { hi with
      queued := by intro h; cases h
      small := by intro h; cases h
      caps := ⟨by have := hi.caps.1; rw [hc] at this; simp at this ⊢; omega, hi.caps.2⟩ }
  | hungUp ho hc ha =>
    exact { hi with
      queued := by intro h; cases h
      small := by intro h; cases h }

theorem SInv.steps {s t : Session} (h : SSteps L s t) (hi : SInv L s) : SInv L t := h.induct SInv.step hi

theorem SInv.offer {s : Session} (hi : SInv L s) (c : Cmd) : SInv L (s.offer c).2 := by
  unfold Session.offer
  have h1 : s.queued.Sublist (s.offered ++ [c]) := by simpa using hi.offered.append (List.nil_sublist [c])
  split
  · rename_i ho
    exact { hi with
      offered := h1
      small := by intro h; simp only at h; rw [ho] at h; cases h }
  · rename_i ho
    split
    · rename_i hc
      exact { hi with
        queued := fun h => by simp [hi.queued h]
        queuedPre := hi.queuedPre.trans (List.prefix_append _ _)
        caps := ⟨by simp; omega, hi.caps.2⟩
        offered := hi.offered.append (List.Sublist.refl [c])
        small := by
          intro h hl
          simp only [List.length_append, List.length_singleton] at hl
          simp only
          rw [hi.small h (by omega)] }
    · rename_i hc
      exact { hi with
        offered := h1
        small := by
          intro h hl
          simp only [List.length_append, List.length_singleton] at hl
          have h2 := hi.small h (by omega)
          have h3 := congrArg List.length (hi.queued h)
          rw [h2, List.length_append] at h3
          omega }

theorem SInv.recv {s : Session} (hi : SInv L s) : SInv L s.driverRecv.2 := by
  unfold Session.driverRecv
  split
  · rename_i m ms h
    exact { hi with
      caps := ⟨hi.caps.1, by have := hi.caps.2; rw [h] at this; simp at this ⊢; omega⟩
      toDriver := by
        have := hi.toDriver
        rw [h] at this
        exact (List.suffix_cons m ms).trans this }
  · split
    · exact hi
    · exact { hi with }

theorem SInv.hangUp {s : Session} (hi : SInv L s) : SInv L { s with alive := false, armed := false } := { hi with }

end MsgRs.Sub
