import Verif.Spec.PubAlone
import Verif.Proofs.PubServer
import Verif.Props.PubServer
/-!
# A session of a publisher as the only one

`Lone` is a channel just made with one receiver: what becomes of it depends on the events of `subView` only; every session of every publisher is in step with it.
-/
namespace MsgRs.Pub
open MsgRs Spec

/-- A channel and one session. -/
structure Lone where
  chan : Bcast PubMsg
  task : Task

def Lone.start (boundary bufferSize : Nat) (input : List ReadAns) (dropped : Bool) : Lone :=
  { chan := { Bcast.new bufferSize with closed := dropped }, task := { next := 0, sess := Session.new boundary input } }

def Lone.ev (L : Lossy) (minCompress : Nat) (comp : Option Compressor) (l : Lone) : SubEv → Lone
  | .started _ => l
  | .published c =>
    match c.prepare minCompress comp with
    | some m => { l with chan := l.chan.send m }
    | none => l
  | .polled e => { l with task := l.task.step L l.chan e }
  | .dropped => { l with chan := l.chan.close }

/-- What is always so of the channel of a publisher. -/
structure ChanInv (s : Server A) : Prop where
  chan : ∀ b, s.sock.chan = some b → (∃ log, b.Holds log) ∧ b.slots.length = nextPow2 s.sock.bufferSize ∧ b.closed = s.dropped ∧
    0 < s.sock.bufferSize ∧ s.sock.bufferSize < 2 ^ 63
  fresh : s.sock.transport ≠ none → s.sock.chan = none
  ses : s.sock.chan = none → s.ses = []

theorem new_chanInv (max authn boundary minCompress bufferSize comp) :
    ChanInv (Server.new max authn boundary minCompress bufferSize comp : Server A) :=
  ⟨fun b h => (by cases h), fun _ => rfl, fun _ => rfl⟩

/-- What `publish` and `try_publish` do. -/
theorem act_call (L : Lossy) (s : Server A) (c : PubCall) :
    s.act L (if c.viaTry then .tryPublish c.topic c.payload else .publish c.topic c.payload) =
      if s.dropped then s
      else
        match s.sock.chan, c.prepare s.sock.minCompress s.sock.comp with
        | some b, some m => { s with sock := { s.sock with chan := some (b.send m) }, log := s.log ++ [m] }
        | _, _ => s := by
  rcases c with ⟨v, t, p⟩
  cases hd : s.dropped
  · cases v
    · simp only [Bool.false_eq_true, if_false, Server.act, hd, Socket.publish, PubCall.prepare]
      cases hp : publishPrepare s.sock.minCompress s.sock.comp t p with
      | none => cases s.sock.chan <;> rfl
      | some m => simp only [Socket.broadcast]; cases hc : s.sock.chan <;> (cases s; simp only at hc hd; subst hd; simp [Server.record, hc])
    · simp only [Bool.false_eq_true, if_false, if_true, Server.act, hd, Socket.tryPublish, PubCall.prepare]
      cases hp : tryPublishPrepare s.sock.comp t p with
      | none => cases s.sock.chan <;> rfl
      | some m => simp only [Socket.broadcast]; cases hc : s.sock.chan <;> (cases s; simp only at hc hd; subst hd; simp [Server.record, hc])
  · cases v <;> simp [Server.act, hd]

theorem act_publish (L : Lossy) (s : Server A) (t p) : s.act L (.publish t p) =
      if s.dropped then s
      else
        match s.sock.chan, (⟨false, t, p⟩ : PubCall).prepare s.sock.minCompress s.sock.comp with
        | some b, some m => { s with sock := { s.sock with chan := some (b.send m) }, log := s.log ++ [m] }
        | _, _ => s := by
  have h := act_call L s ⟨false, t, p⟩
  simpa only [Bool.false_eq_true, if_false] using h

theorem act_tryPublish (L : Lossy) (s : Server A) (t p) : s.act L (.tryPublish t p) =
      if s.dropped then s
      else
        match s.sock.chan, (⟨true, t, p⟩ : PubCall).prepare s.sock.minCompress s.sock.comp with
        | some b, some m => { s with sock := { s.sock with chan := some (b.send m) }, log := s.log ++ [m] }
        | _, _ => s := by
  have h := act_call L s ⟨true, t, p⟩
  simpa only [if_true] using h

/-- Options that never change. -/
def Server.cfg (s : Server A) : Nat × Nat × Nat × Option Compressor := (s.boundary, s.sock.minCompress, s.sock.bufferSize, s.sock.comp)

theorem send_chanInv {s : Server A} (h : ChanInv s) {b : Bcast PubMsg} (hb : s.sock.chan = some b) (m : PubMsg) (lg) :
    ChanInv { s with sock := { s.sock with chan := some (b.send m) }, log := lg } := by
  obtain ⟨⟨log, h1⟩, h2, h3, h4, h5⟩ := h.chan b hb
  refine ⟨fun b' hb' => ?_, fun ht => ?_, fun hn => by cases hn⟩
  · cases hb'
    exact ⟨⟨_, Bcast.holds_send h1 m⟩, by simpa [Bcast.send] using h2, h3, h4, h5⟩
  · have := h.fresh ht
    rw [hb] at this
    cases this

theorem act_chanInv {L : Lossy} {s : Server A} (h : ChanInv s) (a : SrvAct A) : ChanInv (s.act L a) ∧ (s.act L a).cfg = s.cfg := by
  cases a with
  | bind bind addrs =>
    simp only [Server.act]
    split
    · exact ⟨h, rfl⟩
    rename_i hdr
    unfold Socket.tryBind
    by_cases hbuf : s.sock.bufferSize = 0 ∨ 2 ^ 63 ≤ s.sock.bufferSize
    · rw [if_pos hbuf]; exact ⟨h, rfl⟩
    rw [if_neg hbuf]
    cases ht : s.sock.transport with
    | none => exact ⟨h, rfl⟩
    | some cur =>
      simp only
      have hcn := h.fresh (by rw [ht]; exact fun h => by cases h)
      cases hl : bindLoop bind cur addrs with
      | none => exact ⟨⟨h.chan, fun hh => absurd rfl hh, h.ses⟩, rfl⟩
      | some l =>
        simp only
        refine ⟨⟨fun b hb => ?_, fun hh => absurd rfl hh, fun hn => by cases hn⟩, rfl⟩
        cases hb
        refine ⟨⟨[], Bcast.holds_new _⟩, by simp [Bcast.new], ?_, by simp only; omega, by simp only; omega⟩
        simpa [Bcast.new] using hdr
  | publish t p =>
    rw [act_publish]
    split
    · exact ⟨h, rfl⟩
    · split
      · rename_i b m hb _
        exact ⟨send_chanInv h hb m _, rfl⟩
      · exact ⟨h, rfl⟩
  | tryPublish t p =>
    rw [act_tryPublish]
    split
    · exact ⟨h, rfl⟩
    · split
      · rename_i b m hb _
        exact ⟨send_chanInv h hb m _, rfl⟩
      · exact ⟨h, rfl⟩
  | driver e =>
    simp only [Server.act]
    split
    · rename_i d b _ hb
      exact ⟨⟨h.chan, h.fresh, fun hn => by rw [hb] at hn; cases hn⟩, rfl⟩
    · exact ⟨h, rfl⟩
  | session i e =>
    simp only [Server.act]
    split
    · rename_i x b _ hb
      exact ⟨⟨h.chan, h.fresh, fun hn => by rw [hb] at hn; cases hn⟩, rfl⟩
    · exact ⟨h, rfl⟩
  | drop =>
    simp only [Server.act]
    split
    · exact ⟨h, rfl⟩
    · refine ⟨⟨fun b hb => ?_, fun ht => ?_, fun hn => ?_⟩, rfl⟩
      · simp only [Option.map_eq_some_iff] at hb
        obtain ⟨b0, hb0, rfl⟩ := hb
        obtain ⟨⟨log, h1⟩, h2, h3, h4⟩ := h.chan b0 hb0
        exact ⟨⟨_, Bcast.holds_close h1⟩, h2, rfl, h4⟩
      · simp only [h.fresh ht, Option.map_none]
      · simp only [Option.map_eq_none_iff] at hn
        exact h.ses hn

/-- The same task at a later place of a longer channel. -/
def Task.shift (k : Nat) (t : Task) : Task := { t with next := k + t.next }

theorem recv_shift {b b' : Bcast PubMsg} {log : List PubMsg} {k : Nat} (h : b.Holds log) (h' : b'.Holds (log.drop k)) (hk : k ≤ log.length)
    (hcap : b.slots.length = b'.slots.length) (hcl : b.closed = b'.closed) {n : Nat} (hn : n ≤ b'.tail) :
    (b.recv (k + n)).1 = (b'.recv n).1 ∧ (b.recv (k + n)).2 = k + (b'.recv n).2 ∧ (b'.recv n).2 ≤ b'.tail := by
  have ht := h.tail
  have ht' := h'.tail
  rw [List.length_drop] at ht'
  have hpos := h.pos
  rw [Bcast.recv_eq h (by omega), Bcast.recv_eq h' hn]
  simp only [List.length_drop, List.getElem_drop, hcap, hcl]
  by_cases h1 : n < log.length - k
  · rw [dif_pos h1, dif_pos (by omega)]
    by_cases h2 : log.length - k ≤ n + b'.slots.length
    · rw [if_pos h2, if_pos (by omega)]
      exact ⟨rfl, by simp only; omega, by simp only; omega⟩
    · rw [if_neg h2, if_neg (by omega)]
      refine ⟨?_, by simp only; omega, by simp only; omega⟩
      simp only [RecvRes.lagged.injEq]
      omega
  · rw [dif_neg h1, dif_neg (by omega)]
    exact ⟨rfl, rfl, by simpa using hn⟩

theorem step_shift {L : Lossy} {b b' : Bcast PubMsg} {log : List PubMsg} {k : Nat} (h : b.Holds log) (h' : b'.Holds (log.drop k)) (hk : k ≤ log.length)
    (hcap : b.slots.length = b'.slots.length) (hcl : b.closed = b'.closed) {t : Task} (hn : t.next ≤ b'.tail) (e : Env) :
    (t.shift k).step L b e = (t.step L b' { e with feed := .pending }).shift k ∧ (t.step L b' { e with feed := .pending }).next ≤ b'.tail := by
  obtain ⟨h1, h2, h3⟩ := recv_shift h h' hk hcap hcl hn
  have hf : feedOf b (k + t.next) = feedOf b' t.next := by unfold feedOf; rw [h1]
  unfold Task.step
  cases ho : t.over with
  | true => simp only [Task.shift, ho, if_true]; exact ⟨trivial, hn⟩
  | false =>
    simp only [Task.shift, ho, Bool.false_eq_true, if_false, hf, h2]
    cases hi : t.sess.iter L { e with feed := feedOf b' t.next } with
    | panic => exact ⟨rfl, hn⟩
    | ok r =>
      obtain ⟨s, ev⟩ := r
      cases ev <;> exact ⟨rfl, by first | exact hn | exact h3⟩

/-- Session `i` of the publisher is in step with `l`. -/
def AtLone (minCompress : Nat) (comp : Option Compressor) (input : List ReadAns) (s : Server A) (i : Nat) (l : Lone) : Prop :=
  s.sock.transport = none ∧ s.sock.minCompress = minCompress ∧ s.sock.comp = comp ∧
  ∃ b log k x, s.sock.chan = some b ∧ b.Holds log ∧ l.chan.Holds (log.drop k) ∧ k ≤ log.length ∧ b.slots.length = l.chan.slots.length ∧
    b.closed = l.chan.closed ∧ l.task.next ≤ l.chan.tail ∧ s.ses[i]? = some x ∧ x.input = input ∧ x.task = l.task.shift k

theorem act_lone {L : Lossy} {mc : Nat} {comp : Option Compressor} {input : List ReadAns} {s : Server A} {i : Nat} {l : Lone} (h : AtLone mc comp input s i l) (a : SrvAct A) :
    AtLone mc comp input (s.act L a) i ((subEv i s (s.act L a) a).foldl (Lone.ev L mc comp) l) := by
  obtain ⟨htr, hmc, hco, b, log, k, x, hb, h1, h2, h3, h4, h5, h6, hx, hin, h7⟩ := h
  have hlt : i < s.ses.length := (List.getElem?_eq_some_iff.1 hx).1
  unfold subEv
  rw [if_pos hlt]
  have same : AtLone mc comp input s i l := ⟨htr, hmc, hco, b, log, k, x, hb, h1, h2, h3, h4, h5, h6, hx, hin, h7⟩
  have sent : ∀ (c : PubCall) (s' : Server A), s' = (match s.sock.chan, c.prepare s.sock.minCompress s.sock.comp with
        | some b, some m => { s with sock := { s.sock with chan := some (b.send m) }, log := s.log ++ [m] }
        | _, _ => s) → AtLone mc comp input s' i (l.ev L mc comp (.published c)) := by
    rintro c s' rfl
    simp only [hb, hmc, hco, Lone.ev]
    cases c.prepare mc comp with
    | none => exact same
    | some m =>
      refine ⟨htr, rfl, rfl, b.send m, log ++ [m], k, x, rfl, Bcast.holds_send h1 m, ?_, by simp; omega, ?_, h5, ?_, hx, hin, h7⟩
      · rw [List.drop_append_of_le_length h3]
        exact Bcast.holds_send h2 m
      · simpa [Bcast.send] using h4
      · simp only [Bcast.send]; omega
  cases a with
  | bind bind addrs =>
    have : s.act L (.bind bind addrs) = s := by
      have hp : s.sock.tryBind bind addrs = .panic := by
        unfold Socket.tryBind
        rw [htr]
        split <;> rfl
      simp only [Server.act, hp, ite_self]
    rw [this]
    exact same
  | publish t p =>
    rw [act_publish]
    by_cases hd : s.dropped = true
    · simp only [if_pos hd]; exact same
    · simp only [if_neg hd]; exact sent ⟨false, t, p⟩ _ rfl
  | tryPublish t p =>
    rw [act_tryPublish]
    by_cases hd : s.dropped = true
    · simp only [if_pos hd]; exact same
    · simp only [if_neg hd]; exact sent ⟨true, t, p⟩ _ rfl
  | driver e =>
    simp only [Server.act, List.foldl_nil]
    split
    · refine ⟨htr, hmc, hco, b, log, k, x, hb, h1, h2, h3, h4, h5, h6, ?_, hin, h7⟩
      rw [List.getElem?_append_left hlt]; exact hx
    · exact same
  | session j e =>
    simp only [Server.act, hb]
    cases hj : s.ses[j]? with
    | none =>
      have hne : j ≠ i := by rintro rfl; rw [hx] at hj; cases hj
      rw [if_neg hne]
      exact same
    | some y =>
      simp only
      by_cases he : j = i
      · subst he
        rw [hx] at hj; cases hj
        rw [if_pos rfl]
        obtain ⟨g1, g2⟩ := step_shift (L := L) h1 h2 h3 h4 h5 h6 e
        refine ⟨htr, hmc, hco, b, log, k, { x with task := x.task.step L b e }, hb, h1, h2, h3, h4, h5, g2, ?_, hin, ?_⟩
        · rw [List.getElem?_set_self hlt]
        · simp only [h7]; exact g1
      · rw [if_neg he]
        refine ⟨htr, hmc, hco, b, log, k, x, hb, h1, h2, h3, h4, h5, h6, ?_, hin, h7⟩
        rw [List.getElem?_set_ne he]; exact hx
  | drop =>
    simp only [Server.act]
    by_cases hd : s.dropped = true
    · simp only [if_pos hd]; exact same
    · simp only [if_neg hd, List.foldl_cons, List.foldl_nil, Lone.ev]
      refine ⟨htr, hmc, hco, b.close, log, k, x, by simp [hb], Bcast.holds_close h1, Bcast.holds_close h2, h3, h4, rfl, h6, hx, hin, h7⟩

theorem run_lone {L : Lossy} {mc : Nat} {comp : Option Compressor} {input : List ReadAns} (acts : List (SrvAct A)) : ∀ {s : Server A} {i : Nat} {l : Lone}, AtLone mc comp input s i l →
    AtLone mc comp input (s.run L acts) i ((subView L i s acts).foldl (Lone.ev L mc comp) l) := by
  induction acts with
  | nil => intro s i l h; exact h
  | cons a acts ih =>
    intro s i l h
    have := ih (act_lone (L := L) h a)
    rw [subView, List.foldl_append]
    exact this

/-- A session is in step from its start. -/
theorem start_lone {L : Lossy} {s : Server A} (h : ChanInv s) (a : SrvAct A) {i : Nat} (hi : s.ses.length ≤ i) (hi' : i < (s.act L a).ses.length) :
    subEv i s (s.act L a) a = [.started s.dropped] ∧
    ∃ input, AtLone s.sock.minCompress s.sock.comp input (s.act L a) i (Lone.start s.boundary s.sock.bufferSize input s.dropped) := by
  refine ⟨by unfold subEv; rw [if_neg (by omega), if_pos hi'], ?_⟩
  have hx : ∃ x, (s.act L a).ses[i]? = some x := ⟨_, List.getElem?_eq_getElem hi'⟩
  obtain ⟨x, hx⟩ := hx
  rcases MsgRs.Props.act_ses L s a i x hx with ⟨y, hy, -⟩ | ⟨⟨e, rfl⟩, hlen, -, b, hb⟩
  · have := (List.getElem?_eq_some_iff.1 hy).1; omega
  obtain ⟨⟨log, g1⟩, g2, g3, g4, g5⟩ := h.chan b hb
  have htr : s.sock.transport = none := by
    cases ht : s.sock.transport with
    | none => rfl
    | some t =>
      have := h.fresh (by rw [ht]; exact fun h => by cases h)
      rw [hb] at this; cases this
  refine ⟨x.input, ?_⟩
  have hx' := hx
  simp only [Server.act, hb] at hx'
  cases hd : s.drv with
  | none =>
    simp only [hd] at hx'
    have := (List.getElem?_eq_some_iff.1 hx').1; omega
  | some d =>
    simp only [hd] at hx'
    rcases iter_sessions d e with hs | ⟨y, hs⟩
    · rw [hs] at hx'
      simp only [List.drop_length, List.map_nil, List.append_nil] at hx'
      have := (List.getElem?_eq_some_iff.1 hx').1; omega
    · rw [hs] at hx'
      simp only [List.drop_left', List.map_cons, List.map_nil] at hx'
      subst hlen
      simp at hx'
      have e1 : (s.act L (.driver e)).sock = s.sock := by simp only [Server.act, hb, hd]
      refine ⟨by rw [e1]; exact htr, by rw [e1], by rw [e1], b, log, log.length, x, by rw [e1]; exact hb, g1, ?_, Nat.le_refl _, ?_, g3, ?_, hx, rfl, ?_⟩
      · rw [List.drop_length]
        have := Bcast.holds_new (α := PubMsg) s.sock.bufferSize
        exact ⟨this.pos, this.tail, this.slot⟩
      · rw [g2]; simp [Lone.start, Bcast.new]
      · exact Nat.zero_le _
      · subst hx'
        simp only [Lone.start, Task.shift, Bcast.resubscribe, g1.tail, Nat.add_zero]

/-- Every session of every history is in step. -/
theorem reach_lone {L : Lossy} (acts : List (SrvAct A)) : ∀ {s : Server A}, ChanInv s → ∀ {i : Nat}, s.ses.length ≤ i → ∀ {x : Ses A}, (s.run L acts).ses[i]? = some x →
    0 < s.sock.bufferSize ∧ s.sock.bufferSize < 2 ^ 63 ∧
    ∃ c vs, subView L i s acts = .started c :: vs ∧
      AtLone s.sock.minCompress s.sock.comp x.input (s.run L acts) i
        (vs.foldl (Lone.ev L s.sock.minCompress s.sock.comp) (Lone.start s.boundary s.sock.bufferSize x.input c)) := by
  induction acts with
  | nil =>
    intro s _ i hi x hx
    have := (List.getElem?_eq_some_iff.1 hx).1
    simp only [Server.run, List.foldl_nil] at this; omega
  | cons a acts ih =>
    intro s h i hi x hx
    obtain ⟨h', hcfg⟩ := act_chanInv (L := L) h a
    simp only [Server.cfg, Prod.mk.injEq] at hcfg
    obtain ⟨c1, c2, c3, c4⟩ := hcfg
    by_cases hlt : i < (s.act L a).ses.length
    · obtain ⟨h1, input, h2⟩ := start_lone (L := L) h a hi hlt
      have h3 := run_lone (L := L) acts h2
      have hin : input = x.input := by
        obtain ⟨-, -, -, b, log, k, y, -, -, -, -, -, -, -, hy, hyi, -⟩ := h3
        have : (Server.run L (s.act L a) acts).ses[i]? = some x := hx
        rw [hy] at this
        cases this
        exact hyi.symm
      subst hin
      have hbuf : 0 < s.sock.bufferSize ∧ s.sock.bufferSize < 2 ^ 63 := by
        obtain ⟨-, -, -, b, log, k, y, hb, -⟩ := h2
        obtain ⟨-, -, -, g4, g5⟩ := h'.chan b hb
        rw [c3] at g4 g5
        exact ⟨g4, g5⟩
      refine ⟨hbuf.1, hbuf.2, s.dropped, subView L i (s.act L a) acts, ?_, h3⟩
      rw [subView, h1]; rfl
    · obtain ⟨g1, g2, c, vs, h1, h2⟩ := ih h' (Nat.le_of_not_lt hlt) (show ((s.act L a).run L acts).ses[i]? = some x from hx)
      rw [c3] at g1 g2
      refine ⟨g1, g2, c, vs, ?_, ?_⟩
      · rw [subView, h1]
        unfold subEv
        rw [if_neg (by omega), if_neg hlt]; rfl
      · rw [c1, c2, c3, c4] at h2
        exact h2

end MsgRs.Pub
