import Verif.Proofs.Writer
import Verif.Proofs.Codecs
import Verif.Proofs.Track
import Verif.Proofs.Trie
import Verif.Spec.PubSession
/-!
# Invariant of a publisher session over every schedule
-/
namespace MsgRs

/-- With a decoder that never panics, neither does the framed reader. -/
theorem frame_total {c : Codec σ ε μ} (h : ∀ s b, ∃ x, c.decode s b = .ok x) (r : Reader σ) :
    ∃ x, r.frame c = .ok x := by
  unfold Reader.frame
  split
  · exact ⟨_, rfl⟩
  · split
    · obtain ⟨⟨d, s', b'⟩, hd⟩ := h r.st r.buf
      rw [hd]
      simp only [R.bind_ok]
      split
      · cases d with
        | more => simp only; split <;> exact ⟨_, rfl⟩
        | item m => exact ⟨_, rfl⟩
        | err e => exact ⟨_, rfl⟩
      · cases d <;> exact ⟨_, rfl⟩
    · exact ⟨_, rfl⟩

theorem pollNext_total {c : Codec σ ε μ} (h : ∀ s b, ∃ x, c.decode s b = .ok x) (r : Reader σ)
    (as : List ReadAns) : ∃ x, r.pollNext c as = .ok x := by
  induction as generalizing r with
  | nil =>
    obtain ⟨⟨o, r'⟩, hf⟩ := frame_total h r
    simp only [Reader.pollNext, hf, R.bind_ok]
    cases o <;> exact ⟨_, rfl⟩
  | cons a as ih =>
    obtain ⟨⟨o, r'⟩, hf⟩ := frame_total h r
    simp only [Reader.pollNext, hf, R.bind_ok]
    cases o with
    | some o => exact ⟨_, rfl⟩
    | none =>
      cases a with
      | pending => exact ⟨_, rfl⟩
      | err => exact ⟨_, rfl⟩
      | data bs =>
        cases bs with
        | nil =>
          simp only
          split
          · exact ⟨_, rfl⟩
          · exact ih _
        | cons b bs => exact ih _

namespace Pub
open Spec

/-- What the flush step leaves alone, and what it does to the writer. -/
theorem flushStep_spec (s : Session) (e : Env) :
    ∃ w b, s.flushStep e = { s with wr := w, shouldFlush := b } ∧ w.total = s.wr.total ∧
      ((s.shouldFlush = false → s.wr.buf = []) → (b = false → w.buf = [])) := by
  unfold Session.flushStep
  split
  · have hf := Writer.flush_spec s.wr e.flushAns
    rcases h : s.wr.flush e.flushAns with ⟨o, w⟩
    rw [h] at hf
    simp only at hf
    rename_i hc
    have hb : s.shouldFlush = true := by
      cases hs : s.shouldFlush <;> simp_all
    cases o with
    | ok => exact ⟨w, false, rfl, hf.1, fun _ _ => hf.2.2.2.1 rfl⟩
    | pending => exact ⟨w, s.shouldFlush, rfl, hf.1, fun _ hh => by rw [hb] at hh; cases hh⟩
    | err => exact ⟨w, s.shouldFlush, rfl, hf.1, fun _ hh => by rw [hb] at hh; cases hh⟩
  · exact ⟨s.wr, s.shouldFlush, rfl, rfl, fun h => h⟩

/-- What an operation does to a filter. -/
def applyOp (n : Trie.Node) : Option Op → Trie.Node
  | none => n
  | some (.sub t) => Trie.insert n t
  | some (.unsub t) => Trie.remove n t

/-- `controlOp` describes what `on_incoming` does to the filter. -/
theorem onIncoming_spec (L : Lossy) (s : Session) (m : PubSub.Message) :
    s.onIncoming L m = { s with filter := applyOp s.filter (controlOp L m) } := by
  unfold Session.onIncoming msgToControl controlOp
  simp only [← List.isPrefixOf_iff_prefix, ne_eq, ite_not]
  by_cases h : m.header.size = 0
  · rw [if_pos h, if_pos h]
    by_cases h1 : PubSub.subPrefix.isPrefixOf m.header.topic = true
    · rw [if_pos h1, if_pos h1]; rfl
    · rw [if_neg h1, if_neg h1]
      by_cases h2 : PubSub.unsubPrefix.isPrefixOf m.header.topic = true
      · rw [if_pos h2, if_pos h2]; rfl
      · rw [if_neg h2, if_neg h2]; rfl
  · rw [if_neg h, if_neg h]; rfl

theorem filterAfter_append (ops ops' : List Op) :
    filterAfter (ops ++ ops') = ops'.foldl (fun n op =>
    match op with
    | .sub p => Trie.insert n p
    | .unsub p => Trie.remove n p) (filterAfter ops) := by
  exact List.foldl_append ..

/-- One iteration, spelled out. -/
inductive Step (L : Lossy) (s : Session) (e : Env) : Session → Ev → Prop where
  | blocked {w : Writer} {b} : w.total = s.wr.total → (b = false → w.buf = []) →
      Step L s e { s with wr := w, shouldFlush := b } .blocked
  | sent {w : Writer} {m} : w.total = s.wr.total → s.pending = some m →
      Step L s e { s with wr := w.send (PubSub.encode m), shouldFlush := true, pending := none, bytesTx := s.bytesTx + m.size } (.sent m)
  | skip {w : Writer} {b m} : w.total = s.wr.total → (b = false → w.buf = []) → s.pending = none →
      e.feed = .msg m → Trie.contains s.filter m.topic = false →
      Step L s e { s with wr := w, shouldFlush := b } (.took m e.now)
  | take {w : Writer} {b m f} : w.total = s.wr.total → (b = false → w.buf = []) → s.pending = none →
      e.feed = .msg m → Trie.contains s.filter m.topic = true → m.intoWire e.now s.seq = .ok f →
      Step L s e { s with wr := w, shouldFlush := b, pending := some f, seq := s.seq + 1 }
        (.took m e.now)
  | lagged {w : Writer} {b k} : w.total = s.wr.total → (b = false → w.buf = []) → s.pending = none →
      e.feed = .lagged k → Step L s e { s with wr := w, shouldFlush := b } (.lagged k)
  | closed {w : Writer} {b} : w.total = s.wr.total → (b = false → w.buf = []) → s.pending = none →
      e.feed = .closed → Step L s e { s with wr := w, shouldFlush := b } .ended
  | incoming {w : Writer} {b rd input m} : w.total = s.wr.total → (b = false → w.buf = []) → s.pending = none →
      e.feed = .pending → s.rd.pollNext PubSub.codec s.input = .ok (.item m, rd, input) →
      Step L s e { s with wr := w, shouldFlush := b, rd := rd, input := input, filter := applyOp s.filter (controlOp L m) } (.incoming m)
  | dead {w : Writer} {b rd input o} : w.total = s.wr.total → (b = false → w.buf = []) → s.pending = none →
      e.feed = .pending → s.rd.pollNext PubSub.codec s.input = .ok (o, rd, input) →
      (o = .ended ∨ ∃ x, o = .err x) →
      Step L s e { s with wr := w, shouldFlush := b, rd := rd, input := input } .ended
  | idle {w : Writer} {b rd input} : w.total = s.wr.total → (b = false → w.buf = []) → s.pending = none →
      e.feed = .pending → s.rd.pollNext PubSub.codec s.input = .ok (.pending, rd, input) →
      Step L s e { s with wr := w, shouldFlush := b, rd := rd, input := input } .idle

theorem iter_step {L : Lossy} {s : Session} {e : Env} (hfl : s.shouldFlush = false → s.wr.buf = [])
    {s' ev} (h : s.iter L e = .ok (s', ev)) : Step L s e s' ev := by
  obtain ⟨w, b, hs, hw, hb⟩ := flushStep_spec s e
  have hb := hb hfl
  unfold Session.iter at h
  rw [hs] at h
  have hr := Writer.ready_spec w e.readyAns
  simp only at h
  rcases hq : w.ready e.readyAns with ⟨o, w'⟩
  rw [hq] at h hr
  simp only at hr h
  obtain ⟨r1, _, _, r4⟩ := hr
  have hw' : w'.total = s.wr.total := r1.trans hw
  have hb' : b = false → w'.buf = [] := fun hh => by rw [r4 (hb hh)]; exact hb hh
  have hclose : ((w'.flush e.closeAns).2.total = s.wr.total) ∧
      (b = false → (w'.flush e.closeAns).2.buf = []) := by
    obtain ⟨c1, _, _, _, c5⟩ := Writer.flush_spec w' e.closeAns
    exact ⟨c1.trans hw', fun hh => by rw [c5 (hb' hh)]; exact hb' hh⟩
  have main : ∀ s'' ev', (match s.pending with
      | some m => (R.ok ({ s with pending := none, wr := w'.send (PubSub.encode m), shouldFlush := true, bytesTx := s.bytesTx + m.size }, Ev.sent m) : R (Session × Ev))
      | none =>
        match e.feed with
        | .msg m => do
          let s ← Session.onOutgoing { s with wr := w', shouldFlush := b } m e.now
          return (s, .took m e.now)
        | .lagged k => .ok ({ s with wr := w', shouldFlush := b }, .lagged k)
        | .closed => .ok (Session.close { s with wr := w', shouldFlush := b } e, .ended)
        | .pending => do
          let (o, rd, input) ← s.rd.pollNext PubSub.codec s.input
          let s := { s with wr := w', shouldFlush := b, rd, input }
          match o with
          | .item m => return (s.onIncoming L m, .incoming m)
          | .err _ => return (s.close e, .ended)
          | .ended => return (s, .ended)
          | .pending => return (s, .idle)) = .ok (s'', ev') → Step L s e s'' ev' := by
    intro s'' ev' hm
    have hp : s.pending = s.pending := rfl
    clear hs hq
    revert hp
    rcases s with ⟨q, pend, fi, sf, rd0, wr0, inp, tx⟩
    intro hp
    dsimp only at hm hp
    cases pend with
    | some m => simp only at hm; cases hm; exact .sent hw' rfl
    | none =>
      simp only at hm
      cases hfeed : e.feed with
      | msg m =>
        rw [hfeed] at hm
        simp only [Session.onOutgoing] at hm
        split at hm
        · rename_i hc
          cases hi : m.intoWire e.now q with
          | panic => rw [hi] at hm; simp at hm
          | ok f =>
            rw [hi] at hm
            simp only [R.bind_ok, R.pure_eq] at hm
            cases hm
            exact .take hw' hb' hp hfeed hc hi
        · rename_i hc
          simp only [R.bind_ok, R.pure_eq] at hm
          cases hm
          exact .skip hw' hb' hp hfeed (by simpa using hc)
      | lagged k => rw [hfeed] at hm; cases hm; exact .lagged hw' hb' hp hfeed
      | closed => rw [hfeed] at hm; cases hm; exact .closed hclose.1 hclose.2 hp hfeed
      | pending =>
        rw [hfeed] at hm
        simp only at hm
        cases hn : rd0.pollNext PubSub.codec inp with
        | panic => rw [hn] at hm; cases hm
        | ok t =>
          obtain ⟨o, rd, input⟩ := t
          rw [hn] at hm
          simp only [R.bind_ok, R.pure_eq] at hm
          cases o with
          | item m =>
            simp only [onIncoming_spec] at hm
            cases hm
            exact .incoming hw' hb' hp hfeed hn
          | err x => cases hm; exact .dead hclose.1 hclose.2 hp hfeed hn (.inr ⟨x, rfl⟩)
          | ended => cases hm; exact .dead hw' hb' hp hfeed hn (.inl rfl)
          | pending => cases hm; exact .idle hw' hb' hp hfeed hn
  cases o with
  | pending => cases h; exact .blocked hw' hb'
  | ok => exact main _ _ h
  | err => exact main _ _ h

/-- Induction over histories. -/
theorem run_induct {L : Lossy} {s0 : Session} {P : Session → List Ev → Prop}
    (hfl : ∀ s evs, P s evs → s.shouldFlush = false → s.wr.buf = [])
    (h0 : P s0 []) (hstep : ∀ s evs e s' ev, P s evs → Step L s e s' ev → P s' (evs ++ [ev]))
    {es s evs} (h : s0.run L es = .ok (s, evs)) : P s evs := by
  suffices ∀ es s1 pre s evs, P s1 pre → s1.run L es = .ok (s, evs) → P s (pre ++ evs) by
    simpa using this es s0 [] s evs h0 h
  intro es
  induction es with
  | nil =>
    intro s1 pre s evs hp h
    simp only [Session.run] at h
    cases h
    simpa using hp
  | cons e es ih =>
    intro s1 pre s evs hp h
    simp only [Session.run] at h
    cases hi : s1.iter L e with
    | panic => rw [hi] at h; cases h
    | ok t =>
      obtain ⟨s2, ev⟩ := t
      rw [hi] at h
      simp only [R.bind_ok, R.pure_eq] at h
      have hp2 := hstep s1 pre e s2 ev hp (iter_step (hfl _ _ hp) hi)
      split at h
      · rename_i hev
        subst hev
        cases h
        exact hp2
      · cases hr : s2.run L es with
        | panic => rw [hr] at h; cases h
        | ok t =>
          obtain ⟨s3, evs3⟩ := t
          rw [hr] at h
          simp only [R.bind_ok, R.pure_eq] at h
          cases h
          simpa using ih s2 (pre ++ [ev]) s evs3 hp2 hr

/-- Like `run_induct`, knowing that the history before a step has not ended. -/
theorem run_induct' {L : Lossy} {s0 : Session} {P : Session → List Ev → Prop}
    (hfl : ∀ s evs, P s evs → s.shouldFlush = false → s.wr.buf = [])
    (h0 : P s0 []) (hstep : ∀ s evs e s' ev, Ev.ended ∉ evs → P s evs → Step L s e s' ev → P s' (evs ++ [ev]))
    {es s evs} (h : s0.run L es = .ok (s, evs)) : P s evs := by
  suffices ∀ es s1 pre s evs, Ev.ended ∉ pre → P s1 pre → s1.run L es = .ok (s, evs) → P s (pre ++ evs) by
    simpa using this es s0 [] s evs (by simp) h0 h
  intro es
  induction es with
  | nil =>
    intro s1 pre s evs _ hp h
    simp only [Session.run] at h
    cases h
    simpa using hp
  | cons e es ih =>
    intro s1 pre s evs hpre hp h
    simp only [Session.run] at h
    cases hi : s1.iter L e with
    | panic => rw [hi] at h; cases h
    | ok t =>
      obtain ⟨s2, ev⟩ := t
      rw [hi] at h
      simp only [R.bind_ok, R.pure_eq] at h
      have hp2 := hstep s1 pre e s2 ev hpre hp (iter_step (hfl _ _ hp) hi)
      split at h
      · rename_i hev
        subst hev
        cases h
        exact hp2
      · rename_i hev
        cases hr : s2.run L es with
        | panic => rw [hr] at h; cases h
        | ok t =>
          obtain ⟨s3, evs3⟩ := t
          rw [hr] at h
          simp only [R.bind_ok, R.pure_eq] at h
          cases h
          have hpre' : Ev.ended ∉ pre ++ [ev] := by
            simp only [List.mem_append, List.mem_singleton, not_or]
            exact ⟨hpre, fun h => hev h.symm⟩
          simpa using ih s2 (pre ++ [ev]) s evs3 hpre' hp2 hr

theorem opsOf_append (L : Lossy) (a b : List Ev) : opsOf L (a ++ b) = opsOf L a ++ opsOf L b := by
  simp [opsOf]

theorem due_append (L : Lossy) (a b : List Ev) (ops : List Op) (k : Nat) :
    due L ops k (a ++ b) = due L ops k a ++ due L (ops ++ opsOf L a) (k + (due L ops k a).length) b := by
  induction a generalizing ops k with
  | nil => simp [due, opsOf]
  | cons ev a ih =>
    cases ev with
    | took m now =>
      simp only [List.cons_append, due]
      have : opsOf L (Ev.took m now :: a) = opsOf L a := rfl
      rw [this]
      split
      · simp [ih, Nat.add_assoc, Nat.add_comm 1]
      · exact ih ops k
    | incoming m =>
      simp only [List.cons_append, due]
      rw [ih]
      have : opsOf L (Ev.incoming m :: a) = (controlOp L m).toList ++ opsOf L a := by
        simp only [opsOf, List.filterMap_cons]
        cases controlOp L m <;> rfl
      rw [this, List.append_assoc]
    | _ => exact ih ops k

/-- The session invariant. -/
structure Inv (L : Lossy) (s : Session) (evs : List Ev) : Prop where
  flush : s.shouldFlush = false → s.wr.buf = []
  filter : s.filter = filterAfter (opsOf L evs)
  seq : s.seq = UInt32.ofNat (due L [] 0 evs).length
  due : sentOf evs ++ s.pending.toList = due L [] 0 evs
  bytes : s.wr.total = (sentOf evs).flatMap PubSub.encode
  tx : s.bytesTx = ((sentOf evs).map PubSub.Message.size).sum

theorem intoWire_frame {m : PubMsg} {now : UInt64} {k : Nat} {f}
    (h : m.intoWire now (UInt32.ofNat k) = .ok f) : f = frame k m now := by
  unfold PubMsg.intoWire PubSub.Message.new at h
  split at h
  · cases h; rfl
  · cases h

theorem inv_step {L : Lossy} (s evs e s' ev) (hI : Inv L s evs) (hs : Step L s e s' ev) :
    Inv L s' (evs ++ [ev]) := by
  obtain ⟨h1, h2, h3, h4, h5, h6⟩ := hI
  have hd : ∀ ev', due L [] 0 (evs ++ [ev']) =
      due L [] 0 evs ++ due L (opsOf L evs) (due L [] 0 evs).length [ev'] := by
    intro ev'
    rw [due_append]; simp
  cases hs with
  | blocked hw hb =>
    exact ⟨hb, by simpa [opsOf_append, opsOf] using h2, by simpa [hd, due] using h3,
      by simpa [hd, due, sentOf] using h4, by simpa [sentOf, hw] using h5, by simpa [sentOf] using h6⟩
  | lagged hw hb =>
    exact ⟨hb, by simpa [opsOf_append, opsOf] using h2, by simpa [hd, due] using h3,
      by simpa [hd, due, sentOf] using h4, by simpa [sentOf, hw] using h5, by simpa [sentOf] using h6⟩
  | closed hw hb =>
    exact ⟨hb, by simpa [opsOf_append, opsOf] using h2, by simpa [hd, due] using h3,
      by simpa [hd, due, sentOf] using h4, by simpa [sentOf, hw] using h5, by simpa [sentOf] using h6⟩
  | dead hw hb =>
    exact ⟨hb, by simpa [opsOf_append, opsOf] using h2, by simpa [hd, due] using h3,
      by simpa [hd, due, sentOf] using h4, by simpa [sentOf, hw] using h5, by simpa [sentOf] using h6⟩
  | idle hw hb =>
    exact ⟨hb, by simpa [opsOf_append, opsOf] using h2, by simpa [hd, due] using h3,
      by simpa [hd, due, sentOf] using h4, by simpa [sentOf, hw] using h5, by simpa [sentOf] using h6⟩
  | @sent w m hw hp =>
    refine ⟨by simp, by simpa [opsOf_append, opsOf] using h2, by simpa [hd, due] using h3, ?_, ?_, ?_⟩
    · rw [hp] at h4
      simpa [hd, due, sentOf] using h4
    · have : sentOf (evs ++ [Ev.sent m]) = sentOf evs ++ [m] := by simp [sentOf]
      rw [this]
      simp [hw, h5]
    · have : sentOf (evs ++ [Ev.sent m]) = sentOf evs ++ [m] := by simp [sentOf]
      rw [this]
      simp [h6]
  | skip hw hb hp hf hc =>
    rw [h2] at hc
    exact ⟨hb, by simpa [opsOf_append, opsOf] using h2, by simpa [hd, due, hc] using h3,
      by simpa [hd, due, sentOf, hc] using h4, by simpa [sentOf, hw] using h5,
      by simpa [sentOf] using h6⟩
  | @take w b m f hw hb hp hf hc hi =>
    rw [h2] at hc
    rw [h3] at hi
    have hfr := intoWire_frame hi
    refine ⟨hb, by simpa [opsOf_append, opsOf] using h2, ?_, ?_, by simpa [sentOf, hw] using h5,
      by simpa [sentOf] using h6⟩
    · simp only [hd, due, hc, if_true, List.length_append, List.length_cons, List.length_nil, h3]
      simp
    · rw [hp] at h4
      simp only [Option.toList, List.append_nil] at h4
      simp only [hd, due, hc, if_true, ← hfr]
      rw [← h4]
      simp [sentOf]
  | @incoming w b rd input m hw hb hp hf hn =>
    refine ⟨hb, ?_, by simpa [hd, due] using h3, by simpa [hd, due, sentOf] using h4,
      by simpa [sentOf, hw] using h5, by simpa [sentOf] using h6⟩
    rw [opsOf_append, filterAfter_append]
    simp only [h2]
    simp only [opsOf, List.filterMap_cons, List.filterMap_nil]
    cases controlOp L m with
    | none => rfl
    | some op => cases op <;> rfl

theorem inv_new (L : Lossy) (boundary : Nat) (input : List ReadAns) :
    Inv L (Session.new boundary input) [] :=
  ⟨fun _ => rfl, rfl, rfl, rfl, rfl, rfl⟩

theorem run_inv {L : Lossy} {boundary input es s evs}
    (h : (Session.new boundary input).run L es = .ok (s, evs)) : Inv L s evs :=
  run_induct (P := Inv L) (fun _ _ h => h.flush) (inv_new L boundary input) inv_step h

/-- The session polls its connection exactly like a plain consumer that polls `pollsOf evs` times. -/
theorem run_observe {L : Lossy} {boundary input es s evs}
    (h : (Session.new boundary input).run L es = .ok (s, evs)) :
    (Ev.ended ∉ evs → ∀ k, (Reader.new PubSub.codec).observe PubSub.codec (pollsOf evs + k) input =
      (do
        let l ← s.rd.observe PubSub.codec k s.input
        return (incomingOf evs).map .item ++ l)) ∧
    ∃ out, (Reader.new PubSub.codec).observe PubSub.codec (pollsOf evs) input = .ok out ∧
      itemsOf out = incomingOf evs := by
  have itemsMap : ∀ l : List PubSub.Message,
      itemsOf (l.map (FOut.item (ε := PubSub.Err))) = l := by
    intro l; induction l with
    | nil => rfl
    | cons a l ih => simp [itemsOf, ih]
  have second : ∀ (s : Session) (evs : List Ev), (∀ k, (Reader.new PubSub.codec).observe PubSub.codec (pollsOf evs + k) input =
      (do
        let l ← s.rd.observe PubSub.codec k s.input
        return (incomingOf evs).map .item ++ l)) →
      ∃ out, (Reader.new PubSub.codec).observe PubSub.codec (pollsOf evs) input = .ok out ∧
        itemsOf out = incomingOf evs := by
    intro s evs h
    refine ⟨_, h 0, ?_⟩
    rw [List.append_nil]; exact itemsMap _
  have hmain := run_induct' (L := L) (s0 := Session.new boundary input)
    (P := fun s evs => (s.shouldFlush = false → s.wr.buf = []) ∧
      (Ev.ended ∉ evs → ∀ k, (Reader.new PubSub.codec).observe PubSub.codec (pollsOf evs + k) input =
      (do
        let l ← s.rd.observe PubSub.codec k s.input
        return (incomingOf evs).map .item ++ l)) ∧
      ∃ out, (Reader.new PubSub.codec).observe PubSub.codec (pollsOf evs) input = .ok out ∧
        itemsOf out = incomingOf evs)
    (fun _ _ h => h.1) ?_ ?_ h
  · exact hmain.2
  · refine ⟨fun _ => rfl, ?_⟩
    have : ∀ k, (Reader.new PubSub.codec).observe PubSub.codec (pollsOf [] + k) input =
      (do
        let l ← (Session.new boundary input).rd.observe PubSub.codec k input
        return (incomingOf []).map .item ++ l) := by
      intro k
      simp only [pollsOf, List.countP_nil, Nat.zero_add, incomingOf, List.filterMap_nil, List.map_nil,
        List.nil_append, Session.new]
      cases (Reader.new PubSub.codec).observe PubSub.codec k input <;> rfl
    exact ⟨fun _ => this, second _ _ this⟩
  · intro s evs e s' ev hne hp hst
    obtain ⟨h1, h2, h3⟩ := hp
    have h2 := h2 hne
    have hpoll : ∀ ev, pollsOf (evs ++ [ev]) = pollsOf evs + pollsOf [ev] := by
      intro ev; simp [pollsOf]
    have hinc : ∀ ev, incomingOf (evs ++ [ev]) = incomingOf evs ++ incomingOf [ev] := by
      intro ev; simp [incomingOf]
    have same : ∀ ev', pollsOf [ev'] = 0 → incomingOf [ev'] = [] →
        ∀ k, (Reader.new PubSub.codec).observe PubSub.codec (pollsOf (evs ++ [ev']) + k) input =
      (do
        let l ← s.rd.observe PubSub.codec k s.input
        return (incomingOf (evs ++ [ev'])).map .item ++ l) := by
      intro ev' ha hb k
      rw [hpoll, hinc, ha, hb, Nat.add_zero, List.append_nil]
      exact h2 k
    have ended : ∃ out, (Reader.new PubSub.codec).observe PubSub.codec (pollsOf (evs ++ [Ev.ended])) input = .ok out ∧
        itemsOf out = incomingOf (evs ++ [Ev.ended]) := by
      rw [hpoll, hinc]
      simpa [pollsOf, incomingOf] using h3
    cases hst with
    | blocked _ hb => exact ⟨hb, fun _ => same _ rfl rfl, second _ _ (same _ rfl rfl)⟩
    | sent => exact ⟨fun h => by simp at h, fun _ => same _ rfl rfl, second _ _ (same _ rfl rfl)⟩
    | skip _ hb => exact ⟨hb, fun _ => same _ rfl rfl, second _ _ (same _ rfl rfl)⟩
    | take _ hb => exact ⟨hb, fun _ => same _ rfl rfl, second _ _ (same _ rfl rfl)⟩
    | lagged _ hb => exact ⟨hb, fun _ => same _ rfl rfl, second _ _ (same _ rfl rfl)⟩
    | closed _ hb => exact ⟨hb, fun h => by simp at h, ended⟩
    | dead _ hb => exact ⟨hb, fun h => by simp at h, ended⟩
    | @incoming w b rd inp m _ hb hp hf hn =>
      have key : ∀ k, (Reader.new PubSub.codec).observe PubSub.codec (pollsOf (evs ++ [Ev.incoming m]) + k) input =
          (do
            let l ← rd.observe PubSub.codec k inp
            return (incomingOf (evs ++ [Ev.incoming m])).map .item ++ l) := by
        intro k
        have e1 : pollsOf (evs ++ [Ev.incoming m]) + k = pollsOf evs + (k + 1) := by
          rw [hpoll]; simp [pollsOf]; omega
        have e2 : incomingOf (evs ++ [Ev.incoming m]) = incomingOf evs ++ [m] := by
          rw [hinc]; rfl
        rw [e1, h2 (k + 1), e2]
        simp only [Reader.observe, hn, R.bind_ok, R.pure_eq]
        cases rd.observe PubSub.codec k inp <;> simp
      exact ⟨hb, fun _ => key, second { s with rd := rd, input := inp } _ key⟩
    | @idle w b rd inp _ hb hp hf hn =>
      have key : ∀ k, (Reader.new PubSub.codec).observe PubSub.codec (pollsOf (evs ++ [Ev.idle]) + k) input =
          (do
            let l ← rd.observe PubSub.codec k inp
            return (incomingOf (evs ++ [Ev.idle])).map .item ++ l) := by
        intro k
        have e1 : pollsOf (evs ++ [Ev.idle]) + k = pollsOf evs + (k + 1) := by
          rw [hpoll]; simp [pollsOf]; omega
        have e2 : incomingOf (evs ++ [Ev.idle]) = incomingOf evs := by
          rw [hinc]; simp [incomingOf]
        rw [e1, h2 (k + 1), e2]
        simp only [Reader.observe, hn, R.bind_ok]
      exact ⟨hb, fun _ => key, second { s with rd := rd, input := inp } _ key⟩

/-- What the session got from its connection depends only on what it has read so far. -/
theorem run_tracks {L : Lossy} {boundary input es s evs} (h : (Session.new boundary input).run L es = .ok (s, evs)) :
    Tracks PubSub.codec input (incomingOf evs) s.rd s.input := by
  refine (run_induct' (L := L) (s0 := Session.new boundary input)
    (P := fun s evs => (s.shouldFlush = false → s.wr.buf = []) ∧ Tracks PubSub.codec input (incomingOf evs) s.rd s.input)
    (fun _ _ h => h.1) ⟨fun _ => rfl, Tracks.start _ PubSub.decode_nil _⟩ ?_ h).2
  intro s evs e s' ev _ ⟨h1, h2⟩ hst
  have hinc : ∀ ev, incomingOf (evs ++ [ev]) = incomingOf evs ++ incomingOf [ev] := by
    intro ev; simp [incomingOf]
  have same : ∀ ev', incomingOf [ev'] = [] → Tracks PubSub.codec input (incomingOf (evs ++ [ev'])) s.rd s.input := by
    intro ev' hb
    rw [hinc, hb, List.append_nil]
    exact h2
  obtain ⟨o', rd', inp', hp', hc⟩ := h2.step PubSub.inc PubSub.errStable
  cases hst with
  | blocked _ hb => exact ⟨hb, same _ rfl⟩
  | sent => exact ⟨fun h => by simp at h, same _ rfl⟩
  | skip _ hb => exact ⟨hb, same _ rfl⟩
  | take _ hb => exact ⟨hb, same _ rfl⟩
  | lagged _ hb => exact ⟨hb, same _ rfl⟩
  | closed _ hb => exact ⟨hb, same _ rfl⟩
  | @dead w b rd inp o _ hb hp hf hn ho =>
    rw [hn] at hp'
    cases hp'
    refine ⟨hb, ?_⟩
    rcases hc with ⟨m, rfl, -⟩ | ⟨-, hc⟩
    · rcases ho with ho | ⟨x, ho⟩ <;> cases ho
    · rw [hinc]
      simpa [incomingOf] using hc
  | @incoming w b rd inp m _ hb hp hf hn =>
    rw [hn] at hp'
    cases hp'
    refine ⟨hb, ?_⟩
    rcases hc with ⟨m', h3, hc⟩ | ⟨hc, -⟩
    · cases h3
      rw [hinc]
      exact hc
    · exact absurd rfl (hc m)
  | @idle w b rd inp _ hb hp hf hn =>
    rw [hn] at hp'
    cases hp'
    refine ⟨hb, ?_⟩
    rcases hc with ⟨m', h3, -⟩ | ⟨-, hc⟩
    · cases h3
    · rw [hinc]
      simpa [incomingOf] using hc

theorem opsOf_incoming (L : Lossy) (evs : List Ev) :
    opsOf L evs = (incomingOf evs).filterMap (controlOp L) := by
  induction evs with
  | nil => rfl
  | cons ev evs ih =>
    cases ev <;> simp_all [opsOf, incomingOf, List.filterMap_cons]

/-- A session panics only in `into_wire`. -/
theorem iter_total {L : Lossy} (s : Session) (e : Env)
    (hm : ∀ m, e.feed = .msg m → (utf8 m.topic).length ≤ 65535) : ∃ x, s.iter L e = .ok x := by
  obtain ⟨w, b, hs, -, -⟩ := flushStep_spec s e
  unfold Session.iter
  rw [hs]
  simp only
  have tail : ∀ w', ∃ x, (match s.pending with
      | some m => (R.ok ({ s with pending := none, wr := Writer.send w' (PubSub.encode m), shouldFlush := true, bytesTx := s.bytesTx + m.size }, Ev.sent m) : R (Session × Ev))
      | none =>
        match e.feed with
        | .msg m => do
          let s ← Session.onOutgoing { s with wr := w', shouldFlush := b } m e.now
          return (s, .took m e.now)
        | .lagged k => .ok ({ s with wr := w', shouldFlush := b }, .lagged k)
        | .closed => .ok (Session.close { s with wr := w', shouldFlush := b } e, .ended)
        | .pending => do
          let (o, rd, input) ← s.rd.pollNext PubSub.codec s.input
          let s := { s with wr := w', shouldFlush := b, rd, input }
          match o with
          | .item m => return (s.onIncoming L m, .incoming m)
          | .err _ => return (s.close e, .ended)
          | .ended => return (s, .ended)
          | .pending => return (s, .idle)) = .ok x := by
    intro w'
    cases s.pending with
    | some m => exact ⟨_, rfl⟩
    | none =>
      simp only
      cases hfeed : e.feed with
      | msg m =>
        simp only [Session.onOutgoing]
        split
        · have : m.intoWire e.now s.seq = .ok ⟨⟨m.ctype.toByte, UInt16.ofNat (utf8 m.topic).length,
              utf8 m.topic, e.now, s.seq, UInt32.ofNat m.payload.length⟩, m.payload⟩ := by
            simp [PubMsg.intoWire, PubSub.Message.new, hm m hfeed]
          simp only [this, R.bind_ok, R.pure_eq]
          exact ⟨_, rfl⟩
        · exact ⟨_, rfl⟩
      | lagged k => exact ⟨_, rfl⟩
      | closed => exact ⟨_, rfl⟩
      | pending =>
        obtain ⟨⟨o, rd, input⟩, hn⟩ := pollNext_total PubSub.inc.total s.rd s.input
        rw [hn]
        simp only [R.bind_ok, R.pure_eq]
        cases o <;> exact ⟨_, rfl⟩
  rcases w.ready e.readyAns with ⟨o, w'⟩
  cases o with
  | pending => exact ⟨_, rfl⟩
  | ok => exact tail w'
  | err => exact tail w'

theorem run_total {L : Lossy} (s : Session) (es : List Env)
    (hm : ∀ e ∈ es, ∀ m, e.feed = .msg m → (utf8 m.topic).length ≤ 65535) :
    ∃ x, s.run L es = .ok x := by
  induction es generalizing s with
  | nil => exact ⟨_, rfl⟩
  | cons e es ih =>
    obtain ⟨⟨s1, ev⟩, h1⟩ := iter_total (L := L) s e (hm e (by simp))
    obtain ⟨⟨s2, evs⟩, h2⟩ := ih s1 (fun e he => hm e (by simp [he]))
    simp only [Session.run, h1, R.bind_ok, h2, R.pure_eq]
    split <;> exact ⟨_, rfl⟩

end Pub
end MsgRs

namespace MsgRs.Pub
open MsgRs Spec

/-- The frames of a history have the sizes their headers claim. -/
structure WInv (L : Lossy) (s : Session) (evs : List Ev) : Prop extends Inv L s evs where
  wf : (∀ m ∈ tookOf evs, m.payload.length < 2 ^ 32) → ∀ f ∈ Spec.due L [] 0 evs, f.WF

theorem winv_step {L : Lossy} (s evs e s' ev) (hI : WInv L s evs) (hs : Step L s e s' ev) :
    WInv L s' (evs ++ [ev]) := by
  refine ⟨inv_step s evs e s' ev hI.toInv hs, ?_⟩
  have hd : ∀ ev', due L [] 0 (evs ++ [ev']) =
      due L [] 0 evs ++ due L (opsOf L evs) (due L [] 0 evs).length [ev'] := by
    intro ev'
    rw [due_append]; simp
  intro hsm f hf
  have hsm' : ∀ m ∈ tookOf evs, m.payload.length < 2 ^ 32 := fun m hm => hsm m (by
    unfold tookOf at hm ⊢; rw [List.filterMap_append]; exact List.mem_append.2 (.inl hm))
  rw [hd, List.mem_append] at hf
  rcases hf with hf | hf
  · exact hI.wf hsm' f hf
  cases hs with
  | skip hw hb hp hff hc =>
    rw [hI.filter] at hc
    simp [due, hc] at hf
  | @take w b m f' hw hb hp hff hc hi =>
    rw [hI.filter] at hc
    rw [hI.seq] at hi
    have hfr := intoWire_frame hi
    simp only [due, hc, if_true, List.mem_singleton] at hf
    have hlen : m.payload.length < 2 ^ 32 := hsm m (by unfold tookOf; rw [List.filterMap_append]; simp)
    have ht : (utf8 m.topic).length ≤ 65535 := by
      unfold PubMsg.intoWire PubSub.Message.new at hi
      split at hi
      · rename_i h; exact h
      · cases hi
    rw [hf]
    refine ⟨?_, ?_⟩
    · show (UInt16.ofNat (utf8 m.topic).length).toNat = (utf8 m.topic).length
      rw [UInt16.toNat_ofNat_of_lt']
      show _ < 65536
      omega
    · show (UInt32.ofNat m.payload.length).toNat = m.payload.length
      rw [UInt32.toNat_ofNat_of_lt']
      exact hlen
  | _ => simp [due] at hf

theorem run_winv {L : Lossy} {boundary input es s evs}
    (h : (Session.new boundary input).run L es = .ok (s, evs)) : WInv L s evs :=
  run_induct (P := WInv L) (fun _ _ h => h.flush) ⟨inv_new L boundary input, by simp [due]⟩ winv_step h

theorem encode_length {f : PubSub.Message} (h : f.WF) : (PubSub.encode f).length = f.size + 1 := by
  obtain ⟨h1, h2⟩ := h
  simp [PubSub.encode, PubSub.Message.size, PubSub.Header.len, h1, h2, putU16, putU32, putU64]
  omega

end MsgRs.Pub
