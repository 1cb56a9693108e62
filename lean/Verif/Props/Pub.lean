import Verif.Proofs.PubSys
import Verif.Proofs.Codecs
/-!
# Properties C20, C22–C26, C57: the publisher

A history of a session is a list of `Env` (one per iteration of its poll loop: what the connection, the
broadcast channel and the clock answer) and `Session.run` replays it; a history of a bound publisher is a
list of `Act`.
-/
namespace MsgRs.Props
open MsgRs Pub Spec

/-! ## C20 -/

/-- Topics that fit into a control frame. -/
def Spec.fits : Op → Prop
  | .sub t => (utf8 t).length ≤ 65527
  | .unsub t => (utf8 t).length ≤ 65525

theorem controlFrame_op (L : Lossy) {now op m} (h : controlFrame now op = .ok m) :
    controlOp L m = some op ∧ m.WF := by
  cases op with
  | sub t =>
    simp only [controlFrame, PubSub.Message.newSub, PubSub.Message.new] at h
    split at h
    · rename_i hl
      cases h
      refine ⟨?_, ?_, ?_⟩
      · simp only [controlOp]
        rw [if_neg (by simp), if_pos (List.prefix_append _ _)]
        have : (PubSub.subPrefix ++ utf8 t).drop 8 = utf8 t := rfl
        rw [this, L.dec_utf8]
      · simp at hl ⊢; omega
      · simp
    · cases h
  | unsub t =>
    simp only [controlFrame, PubSub.Message.newUnsub, PubSub.Message.new] at h
    split at h
    · rename_i hl
      cases h
      refine ⟨?_, ?_, ?_⟩
      · simp only [controlOp]
        have hn : ¬ PubSub.subPrefix <+: PubSub.unsubPrefix ++ utf8 t := by
          rintro ⟨x, hx⟩
          simp [PubSub.subPrefix, PubSub.unsubPrefix] at hx
        rw [if_neg (by simp), if_neg hn, if_pos (List.prefix_append _ _)]
        have : (PubSub.unsubPrefix ++ utf8 t).drop 10 = utf8 t := rfl
        rw [this, L.dec_utf8]
      · simp at hl ⊢; omega
      · simp
    · cases h

/-- C20, single message: for every topic that fits, the control frame exists and the publisher reads it as
exactly that operation. -/
theorem C20_control_meaning (L : Lossy) (now : UInt64) (t : Str) :
    ((utf8 t).length ≤ 65527 → ∃ m, PubSub.Message.newSub now (utf8 t) = .ok m ∧
      msgToControl L m = .subscribe t) ∧
    ((utf8 t).length ≤ 65525 → ∃ m, PubSub.Message.newUnsub now (utf8 t) = .ok m ∧
      msgToControl L m = .unsubscribe t) := by
  constructor
  · intro h
    refine ⟨_, by
      unfold PubSub.Message.newSub PubSub.Message.new
      rw [if_pos (by simp [PubSub.subPrefix]; omega)], ?_⟩
    unfold msgToControl
    rw [if_pos (by simp), if_pos (by simp [PubSub.subPrefix, List.isPrefixOf])]
    exact congrArg _ (L.dec_utf8 t)
  · intro h
    refine ⟨_, by
      unfold PubSub.Message.newUnsub PubSub.Message.new
      rw [if_pos (by simp [PubSub.unsubPrefix]; omega)], ?_⟩
    unfold msgToControl
    rw [if_pos (by simp), if_neg (by simp [PubSub.unsubPrefix, PubSub.subPrefix, List.isPrefixOf]),
      if_pos (by simp [PubSub.unsubPrefix, List.isPrefixOf])]
    exact congrArg _ (L.dec_utf8 t)

/-- C20, through the wire: a subscriber sends the control frames of `ops` (any topics that fit); whatever
the connection does to the byte stream and whatever else the session is doing, the operations received are
a prefix of `ops` and the session's filter is the one after these operations; if the connection delivers
everything and the session polled it often enough, they are exactly `ops`. -/
theorem C20_control_arrives (L : Lossy) (sent : List (UInt64 × Op × PubSub.Message))
    (hsent : ∀ x ∈ sent, controlFrame x.1 x.2.1 = .ok x.2.2)
    (boundary : Nat) (input : List ReadAns) (es : List Env) (s : Session) (evs : List Ev)
    (hrun : (Session.new boundary input).run L es = .ok (s, evs)) :
    let ops := sent.map (·.2.1)
    let bytes := sent.flatMap fun x => PubSub.encode x.2.2
    (readSoFar input s.input <+: bytes → opsOf L evs <+: ops ∧ s.filter = filterAfter (opsOf L evs)) ∧
    (OpenAns input → dataOf input = bytes → sent.length + input.length + 1 ≤ pollsOf evs →
      opsOf L evs = ops) := by
  intro ops bytes
  let ms := sent.map (·.2.2)
  have hbytes : bytes = ms.flatMap PubSub.encode := by simp [bytes, ms, List.flatMap_map]
  have hwf : ∀ m ∈ ms, m.WF := by
    intro m hm
    obtain ⟨x, hx, rfl⟩ := List.mem_map.mp hm
    exact (controlFrame_op L (hsent x hx)).2
  have hdr : Drains PubSub.codec PubSub.codec.init bytes ms none := by
    rw [hbytes]
    exact drains_encoded PubSub.codec PubSub.encode PubSub.decode_nil PubSub.Message.WF
      (fun m x h => PubSub.decode_encode m x h) ms hwf
  have hops : ∀ l : List (UInt64 × Op × PubSub.Message),
      (∀ x ∈ l, controlFrame x.1 x.2.1 = .ok x.2.2) →
      (l.map (·.2.2)).filterMap (controlOp L) = l.map (·.2.1) := by
    intro l
    induction l with
    | nil => intro _; rfl
    | cons x l ih =>
      intro h
      simp only [List.map_cons, List.filterMap_cons, (controlFrame_op L (h x (by simp))).1]
      rw [ih (fun y hy => h y (by simp [hy]))]
  obtain ⟨out, h1, h2⟩ := (run_observe hrun).2
  constructor
  · rintro ⟨y, hy⟩
    refine ⟨?_, (run_inv hrun).filter⟩
    have h4 : incomingOf evs <+: ms := (run_tracks hrun).prefix (y := y) (by rw [hy]; exact hdr)
    obtain ⟨rest, hrest⟩ := h4
    rw [opsOf_incoming]
    refine ⟨rest.filterMap (controlOp L), ?_⟩
    rw [← List.filterMap_append, hrest]
    exact hops sent hsent
  · intro ho hd hn
    obtain ⟨out', h3, -, h5⟩ := observe_open PubSub.inc (pollsOf evs) input ho
      (new_good _ PubSub.decode_nil) (ms := ms) (e := none) (by rw [hd]; exact hdr)
    rw [h1] at h3
    cases h3
    have hi : incomingOf evs = ms := by
      rw [← h2, h5 (by simp [ms]; omega)]
      simp only [resultsOf, Option.map_none, Option.toList, List.append_nil]
      have : ∀ l : List PubSub.Message, itemsOf (l.map (FOut.item (ε := PubSub.Err))) = l := by
        intro l
        induction l with
        | nil => rfl
        | cons a l ih => simp [itemsOf, ih]
      exact this ms
    rw [opsOf_incoming, hi]
    exact hops sent hsent

/-- Topics with dots and with the words themselves. -/
example : ∃ m1 m2, controlFrame 5 (.sub "a.MSG.UNSUB.b".toList) = .ok m1 ∧
    controlFrame 6 (.unsub "SUB.x".toList) = .ok m2 ∧
    controlOp Lossy.strict m2 = some (.unsub "SUB.x".toList) :=
  ⟨_, _, rfl, rfl, (controlFrame_op _ rfl).1⟩

/-! ## C22 -/

/-- C22: at every point of every history, the frames handed to the connection plus the one waiting for
it are exactly the messages taken from the feed whose topic was subscribed when they were taken, in that
order, numbered 0, 1, 2, … modulo 2^32; the bytes written plus those still buffered are exactly the
encodings of these frames in order. -/
theorem C22_session_in_order (L : Lossy) (boundary : Nat) (input : List ReadAns) (es : List Env)
    (s : Session) (evs : List Ev) (hrun : (Session.new boundary input).run L es = .ok (s, evs)) :
    sentOf evs ++ s.pending.toList = due L [] 0 evs ∧
    s.wr.wire ++ s.wr.buf = (sentOf evs).flatMap PubSub.encode ∧
    (∀ i m, (sentOf evs)[i]? = some m → m.header.seq = UInt32.ofNat i) := by
  have hI := run_inv hrun
  refine ⟨hI.due, hI.bytes, ?_⟩
  have hdue : ∀ evs ops k i m, (due L ops k evs)[i]? = some m → m.header.seq = UInt32.ofNat (k + i) := by
    intro evs
    induction evs with
    | nil => intro ops k i m h; simp [due] at h
    | cons ev evs ih =>
      intro ops k i m h
      cases ev with
      | took pm now =>
        simp only [due] at h
        split at h
        · cases i with
          | zero => simp at h; subst h; rfl
          | succ i =>
            simp only [List.getElem?_cons_succ] at h
            rw [ih _ _ _ _ h]; congr 1; omega
        · exact ih _ _ _ _ h
      | incoming x => exact ih _ _ _ _ h
      | _ => exact ih _ _ _ _ h
  intro i m h
  have := hdue evs [] 0 i m (by
    rw [← hI.due, List.getElem?_append_left]
    · exact h
    · rcases Nat.lt_or_ge i (sentOf evs).length with h1 | h1
      · exact h1
      · rw [List.getElem?_eq_none h1] at h; cases h)
  simpa using this

/-- C22: a session never panics while every message it is fed has a topic of at most 65535 bytes. -/
theorem C22_session_no_panic (L : Lossy) (boundary : Nat) (input : List ReadAns) (es : List Env)
    (hm : ∀ e ∈ es, ∀ m, e.feed = .msg m → (utf8 m.topic).length ≤ 65535) :
    (Session.new boundary input).run L es ≠ .panic := by
  obtain ⟨x, hx⟩ := run_total (L := L) (Session.new boundary input) es hm
  rw [hx]; simp

/-- C22, nothing gets stuck: in every reachable state, when the connection accepts writes, a waiting frame
is handed over in the next iteration, and otherwise the next message of the feed is taken; and an iteration
with the flush timer due in which the connection takes everything leaves all frames sent so far on the
wire. -/
theorem C22_session_progress (L : Lossy) (boundary : Nat) (input : List ReadAns) (es : List Env)
    (s : Session) (evs : List Ev) (hrun : (Session.new boundary input).run L es = .ok (s, evs))
    (e : Env) (s' : Session) (ev : Ev) (hit : s.iter L e = .ok (s', ev)) :
    -- the connection accepts a frame
    (((s.flushStep e).wr.ready e.readyAns).1 ≠ .pending →
      (∀ m, s.pending = some m → ev = .sent m) ∧
      (∀ m, s.pending = none → e.feed = .msg m → ev = .took m e.now)) ∧
    -- the connection takes all the bytes
    (e.tick = true → (∃ n as, e.flushAns = .ok n :: .ok 1 :: as ∧ s.wr.buf.length ≤ n ∧ 0 < n) →
      (s.flushStep e).wr.wire = (sentOf evs).flatMap PubSub.encode) := by
  have hI := run_inv hrun
  constructor
  · intro hr
    obtain ⟨w, b, hs, -, -⟩ := flushStep_spec s e
    have hp : (s.flushStep e).pending = s.pending := by rw [hs]
    unfold Session.iter at hit
    simp only at hit
    rcases hq : (s.flushStep e).wr.ready e.readyAns with ⟨o, w'⟩
    rw [hq] at hit hr
    have tail : (∀ m, s.pending = some m → ev = .sent m) ∧
        (∀ m, s.pending = none → e.feed = .msg m → ev = .took m e.now) := by
      constructor
      · intro m hm
        cases o with
        | pending => exact absurd rfl hr
        | ok => simp only [hp, hm] at hit; cases hit; rfl
        | err => simp only [hp, hm] at hit; cases hit; rfl
      · intro m hm hf
        have : ∀ x : Session, (do
            let s ← x.onOutgoing m e.now
            return (s, Ev.took m e.now) : R (Session × Ev)) = .ok (s', ev) → ev = .took m e.now := by
          intro x h
          cases hx : x.onOutgoing m e.now with
          | panic => rw [hx] at h; cases h
          | ok y => rw [hx] at h; simp only [R.bind_ok, R.pure_eq] at h; cases h; rfl
        cases o with
        | pending => exact absurd rfl hr
        | ok => simp only [hp, hm, hf] at hit; exact this _ hit
        | err => simp only [hp, hm, hf] at hit; exact this _ hit
    exact tail
  · rintro ht ⟨n, as, hf, hn, hn0⟩
    have hb := hI.bytes
    unfold Session.flushStep
    cases hsf : s.shouldFlush with
    | false =>
      simp only [Bool.false_and, Bool.false_eq_true, if_false]
      have := hI.flush hsf
      simpa [Writer.total, this] using hb
    | true =>
      have ht' : e.tick = true := ht
      simp only [ht', Bool.and_self, if_true, hf, Writer.flush]
      by_cases he : s.wr.buf.isEmpty
      · rw [if_pos he]
        simp only
        have : s.wr.buf = [] := by simpa using he
        simpa [Writer.total, this] using hb
      · rw [if_neg he, if_neg (by omega)]
        have h0 : s.wr.buf.drop n = [] := List.drop_eq_nil_of_le hn
        have h1 : s.wr.buf.take n = s.wr.buf := List.take_of_length_le hn
        simp only [h0, h1, List.isEmpty_nil, if_true]
        exact hb

/-- A concrete history: subscribe to `a` (frame cut in two), take a subscribed and an unsubscribed message,
send, flush. The connection ends up with exactly the frame of the subscribed message. -/
example :
    let sub : PubSub.Message := ⟨⟨0, 9, PubSub.subPrefix ++ [0x61], 1, 0, 0⟩, []⟩
    let input := [ReadAns.data ((PubSub.encode sub).take 5), .pending, .data ((PubSub.encode sub).drop 5)]
    let env := fun f => ({ tick := true, flushAns := [.ok 100, .ok 1], readyAns := [], closeAns := [], feed := f, now := 7 } : Env)
    ∃ s evs, (Session.new 8192 input).run Lossy.strict
        [env .pending, env .pending, env (.msg ⟨.none, ['b'], [1]⟩), env (.msg ⟨.none, ['a'], [1, 2]⟩),
          env .pending, env .pending] = .ok (s, evs) ∧
      s.wr.wire = PubSub.encode ⟨⟨0, 1, [0x61], 7, 0, 2⟩, [1, 2]⟩ ∧
      evs.length = 6 := by
  refine ⟨_, _, rfl, ?_, rfl⟩
  decide

/-! ## C23 -/

/-- C23, what a session gets: in every history of a publisher in which session `i` connects after `acts₁`,
the session's own events fit the sequence of messages published after it connected: the messages taken are
consecutive published messages except that `k` are skipped where the session was told it missed `k`; hence
they are a subsequence, and taken + missed never exceeds what was published. -/
theorem C23_feed_subsequence (L : Lossy) (n : Nat) (acts₁ acts₂ : List Act) (i boundary : Nat)
    (input : List ReadAns) (hfresh : ((Sys.new n).run L acts₁).tasks i = none) :
    ∃ t, ((Sys.new n).run L (acts₁ ++ .connect i boundary input :: acts₂)).tasks i = some t ∧
      (tookOf t.evs).Sublist (published acts₂) ∧
      (tookOf t.evs).length + missedOf t.evs ≤ (published acts₂).length ∧
      (replay (published acts₂) 0 t.evs).isSome ∧
      (missedOf t.evs = 0 → tookOf t.evs <+: published acts₂) := by
  have h1 := sinv_run (L := L) acts₁ (sinv_new L n)
  rw [List.nil_append] at h1
  have h2 := sinv_act (L := L) h1 (.connect i boundary input)
  have hpub : published [Act.connect i boundary input] = [] := rfl
  rw [hpub, List.append_nil] at h2
  let t0 : Task := { next := ((Sys.new n).run L acts₁).chan.resubscribe, sess := Session.new boundary input }
  have ht0 : (((Sys.new n).run L acts₁).act L (.connect i boundary input)).tasks i = some t0 := by
    simp [Sys.act, hfresh, t0]
  have hn0 : t0.next = (published acts₁).length := by simp [t0, Bcast.resubscribe, h1.chan.tail]
  have hti : TInv L (published acts₁) (published acts₁).length t0 := by
    refine ⟨inv_new L boundary input, by omega, by omega, ?_, ?_, ?_⟩
    · simp [t0, tookOf]
    · simp only [hn0]; simp [t0, tookOf, missedOf]
    · simp [t0, replay, Bcast.resubscribe, h1.chan.tail]
  obtain ⟨t, ht, hT⟩ := task_persists (L := L) acts₂ h2 ht0 hti
  refine ⟨t, ?_, ?_, ?_, ?_, ?_⟩
  · simpa [Sys.run, List.foldl_append] using ht
  · have := hT.cur.sub
    refine this.trans ?_
    have h3 : (published acts₁ ++ published acts₂).drop (published acts₁).length = published acts₂ := by simp
    have h4 := ((List.take_prefix t.next (published acts₁ ++ published acts₂)).sublist).drop (published acts₁).length
    rw [h3] at h4
    exact h4
  · have h3 := hT.cur.count
    have h4 := hT.cur.bound
    simp only [List.length_append] at h4
    omega
  · rw [replay_shift (published acts₁)]
    simp [hT.cur.walk]
  · intro hm
    have h3 := hT.cur.walk
    have h4 := replay_took _ _ _ _ h3 hm
    rw [h4]
    have h5 : (published acts₁ ++ published acts₂).drop (published acts₁).length = published acts₂ := by simp
    rw [h5]
    exact List.take_prefix _ _

/-- C23, when messages are missed: a session is told it missed messages only if more than the configured
buffer size were published beyond its position, and then it resumes at the oldest of the last `cap`
published messages, where `cap` is the buffer size rounded up to a power of two: only the oldest are lost. -/
theorem C23_lag_only_oldest (L : Lossy) (n : Nat) (acts : List Act) (i : Nat) (e : Env) (t : Task)
    (ht : ((Sys.new n).run L acts).tasks i = some t) :
    ∃ t', ((Sys.new n).run L (acts ++ [.step i e])).tasks i = some t' ∧
      ∀ k, t'.evs = t.evs ++ [.lagged k] →
        t.next + n < (published acts).length ∧
        t'.next + nextPow2 n = (published acts).length ∧ t'.next = t.next + k ∧ 0 < k := by
  have h1 := sinv_run (L := L) acts (sinv_new L n)
  rw [List.nil_append] at h1
  obtain ⟨n0, hinv, hcur⟩ := h1.tasks i t ht
  refine ⟨t.step L ((Sys.new n).run L acts).chan e, ?_, ?_⟩
  · simp only [Sys.run, List.foldl_append, List.foldl_cons, List.foldl_nil, Sys.act]
    simp only [Sys.run] at ht
    simp [ht]
  · intro k hk
    exact lag_exact h1.chan h1.cap hinv hcur hk

/-- Hypotheses met: capacity 1, three messages published between two steps of the session. -/
example :
    let env := ({ tick := false, flushAns := [], readyAns := [], closeAns := [], feed := .pending, now := 0 } : Env)
    let m := fun (b : UInt8) => (⟨.none, ['a'], [b]⟩ : PubMsg)
    ∃ t, ((Sys.new 1).run Lossy.strict [.publish (m 0), .connect 3 8192 [], .publish (m 1), .publish (m 2),
        .publish (m 3), .step 3 env, .step 3 env]).tasks 3 = some t ∧
      t.evs = [.lagged 2, .took (m 3) 0] := by
  refine ⟨_, rfl, ?_⟩
  decide

/-! ## C24 -/

/-- C24: what session `i` does and has written, and the state of the channel, are the same as in the history
from which everything the other sessions do (connecting, reading, stalling, dying) is removed. -/
theorem C24_sessions_independent (L : Lossy) (n : Nat) (acts : List Act) (i : Nat) :
    ((Sys.new n).run L acts).tasks i =
      ((Sys.new n).run L (acts.filter (concerns i))).tasks i ∧
    ((Sys.new n).run L acts).chan = ((Sys.new n).run L (acts.filter (concerns i))).chan :=
  ⟨(independent i acts rfl rfl).2, (independent i acts rfl rfl).1⟩

/-- C24: the result of `publish`/`try_publish` on a bound socket depends only on the compressor, never on
the sessions or on what is in the channel. -/
theorem C24_publish_ignores_sessions (s s' : Socket A) (topic : Str) (payload : Bytes)
    (hb : s.chan.isSome) (hb' : s'.chan.isSome) (hc : s.comp = s'.comp)
    (hm : s.minCompress = s'.minCompress) :
    (s.publish topic payload).1 = (s'.publish topic payload).1 ∧
    (s.tryPublish topic payload).1 = (s'.tryPublish topic payload).1 := by
  obtain ⟨b, hb⟩ := Option.isSome_iff_exists.mp hb
  obtain ⟨b', hb'⟩ := Option.isSome_iff_exists.mp hb'
  simp only [Socket.publish, Socket.tryPublish, Socket.broadcast, hb, hb', hc, hm]
  constructor
  · cases publishPrepare s'.minCompress s'.comp topic payload <;> rfl
  · cases tryPublishPrepare s'.comp topic payload <;> rfl

/-- Two sessions, one of which never reads. -/
example : ([Act.publish ⟨.none, ['a'], []⟩, .connect 1 0 [], .connect 2 0 []].filter (concerns 2)) =
    [.publish ⟨.none, ['a'], []⟩, .connect 2 0 []] := rfl

/-! ## C25 and C57 -/

/-- C57: `try_bind` tries the addresses in order, uses the first one that binds, and fails with the
no-endpoint error iff none does. (The buffer size must be positive and below `2 ^ 63`: `broadcast::channel` panics otherwise.) -/
theorem C57_binds_first_usable (minCompress bufferSize : Nat) (comp : Option Compressor)
    (hbuf : 0 < bufferSize) (hbig : bufferSize < 2 ^ 63) (bind : A → Option A) (addrs : List A) :
    ((∀ a ∈ addrs, bind a = none) → ∃ s,
      (Socket.new minCompress bufferSize comp).tryBind bind addrs = .ok (.error .noValidEndpoints, s) ∧
        s.chan = none ∧ s.localAddr = none) ∧
    (∀ pre a post l, addrs = pre ++ a :: post → (∀ x ∈ pre, bind x = none) → bind a = some l → ∃ s,
      (Socket.new minCompress bufferSize comp).tryBind bind addrs = .ok (.ok (), s) ∧
        s.localAddr = some l ∧ s.chan = some (Bcast.new bufferSize)) := by
  have hb : ¬ (bufferSize = 0 ∨ 2 ^ 63 ≤ bufferSize) := by omega
  constructor
  · intro h
    have : bindLoop bind none addrs = none := by
      induction addrs with
      | nil => rfl
      | cons a as ih =>
        simp only [bindLoop, h a (by simp)]
        exact ih (fun x hx => h x (by simp [hx]))
    simp only [Socket.tryBind, Socket.new, if_neg hb, this]
    exact ⟨_, rfl, rfl, rfl⟩
  · rintro pre a post l rfl hpre ha
    have : bindLoop bind none (pre ++ a :: post) = some l := by
      induction pre with
      | nil => simp [bindLoop, ha]
      | cons x pre ih =>
        simp only [List.cons_append, bindLoop, hpre x (by simp)]
        exact ih (fun y hy => hpre y (by simp [hy]))
    simp only [Socket.tryBind, Socket.new, if_neg hb, this]
    exact ⟨_, rfl, rfl, rfl⟩

/-- Addresses after the first usable one are not even tried: the outcome does not depend on them. -/
theorem C57_stops_at_first (bind bind' : A → Option A) (cur : Option A) (pre post : List A) (a : A)
    (hsame : ∀ x, x ∈ pre ∨ x = a → bind x = bind' x) (ha : (bind a).isSome) :
    bindLoop bind cur (pre ++ a :: post) = bindLoop bind' cur (pre ++ [a]) := by
  induction pre with
  | nil =>
    obtain ⟨l, hl⟩ := Option.isSome_iff_exists.mp ha
    simp [bindLoop, hl, ← hsame a (.inr rfl)]
  | cons x pre ih =>
    have hx := hsame x (.inl (by simp))
    simp only [List.cons_append, bindLoop, ← hx]
    cases bind x with
    | some l => rfl
    | none => exact ih (fun y hy => hsame y (hy.imp (fun h => by simp [h]) id))

example : ∃ s, (Socket.new 0 4 none).tryBind (fun a : Nat => if a < 10 then none else some (a + 1)) [3, 20, 30]
    = .ok (.ok (), s) ∧ s.localAddr = some 21 := ⟨_, rfl, rfl⟩

/-- C25: on an unbound socket `publish` and `try_publish` of a message whose compression (if any) succeeds
return the closed error and leave the socket as it was; on a bound socket they succeed and the channel holds
exactly one more message, whatever its receivers do. -/
theorem C25_publish_bind (s : Socket A) (topic : Str) (payload : Bytes) (m : PubMsg) :
    (publishPrepare s.minCompress s.comp topic payload = some m →
      (s.chan = none → s.publish topic payload = (.error .socketClosed, s)) ∧
      (∀ b, s.chan = some b →
        s.publish topic payload = (.ok (), { s with chan := some (b.send m) }) ∧
        ∀ log, b.Holds log → (b.send m).Holds (log ++ [m]))) ∧
    (tryPublishPrepare s.comp topic payload = some m →
      (s.chan = none → s.tryPublish topic payload = (.error .socketClosed, s)) ∧
      (∀ b, s.chan = some b →
        s.tryPublish topic payload = (.ok (), { s with chan := some (b.send m) }))) := by
  refine ⟨fun h => ⟨fun hc => ?_, fun b hb => ⟨?_, fun log hl => Bcast.holds_send hl m⟩⟩,
    fun h => ⟨fun hc => ?_, fun b hb => ?_⟩⟩
  · simp [Socket.publish, h, Socket.broadcast, hc]
  · simp [Socket.publish, h, Socket.broadcast, hb]
  · simp [Socket.tryPublish, h, Socket.broadcast, hc]
  · simp [Socket.tryPublish, h, Socket.broadcast, hb]

/-- C25: binding is what makes the difference: a new socket refuses, the bound one accepts, for every
configuration and with no subscriber connected. -/
theorem C25_bind_then_publish (minCompress bufferSize : Nat) (bind : A → Option A) (addrs : List A)
    (s : Socket A) (topic : Str) (payload : Bytes)
    (hbind : (Socket.new minCompress bufferSize none).tryBind bind addrs = .ok (.ok (), s)) :
    ((Socket.new minCompress bufferSize none : Socket A).publish topic payload).1 = .error .socketClosed ∧
    (s.publish topic payload).1 = .ok () ∧ (s.tryPublish topic payload).1 = .ok () := by
  unfold Socket.tryBind at hbind
  split at hbind
  · cases hbind
  · simp only [Socket.new] at hbind
    cases hb : bindLoop bind none addrs with
    | none => rw [hb] at hbind; cases hbind
    | some l =>
      rw [hb] at hbind
      cases hbind
      simp [Socket.publish, Socket.tryPublish, Socket.broadcast, Socket.new, publishPrepare,
        tryPublishPrepare]

/-! ## C26 -/

/-- C26: a session's subscriptions are determined by the control messages among its input alone: an
iteration that receives anything else leaves the filter as it was; and the filter is always the one
computed from the control messages received. -/
theorem C26_only_control_changes_filter (L : Lossy) (boundary : Nat) (input : List ReadAns)
    (es : List Env) (s : Session) (evs : List Ev)
    (hrun : (Session.new boundary input).run L es = .ok (s, evs))
    (e : Env) (s' : Session) (ev : Ev) (hit : s.iter L e = .ok (s', ev)) :
    s.filter = filterAfter ((incomingOf evs).filterMap (controlOp L)) ∧
    ((∀ m, ev = .incoming m → controlOp L m = none) → s'.filter = s.filter) := by
  have hI := run_inv hrun
  refine ⟨by rw [← opsOf_incoming]; exact hI.filter, fun h => ?_⟩
  have hst := iter_step hI.flush hit
  cases hst with
  | @incoming w b rd inp m _ _ _ _ _ =>
    have := h m rfl
    simp [this, applyOp]
  | _ => rfl

/-- C26: what a message that is not a control message is: anything with a payload, or with a topic that has
neither prefix. -/
theorem C26_non_control (L : Lossy) (m : PubSub.Message) :
    controlOp L m = none ↔ m.header.size ≠ 0 ∨
      (¬ utf8 "MSG.SUB.".toList <+: m.header.topic ∧ ¬ utf8 "MSG.UNSUB.".toList <+: m.header.topic) := by
  have h1 : utf8 "MSG.SUB.".toList = PubSub.subPrefix := by decide
  have h2 : utf8 "MSG.UNSUB.".toList = PubSub.unsubPrefix := by decide
  rw [h1, h2]
  unfold controlOp
  by_cases hs : m.header.size ≠ 0
  · simp [hs]
  · rw [if_neg hs]
    by_cases ha : PubSub.subPrefix <+: m.header.topic
    · simp [ha, hs]
    · rw [if_neg ha]
      by_cases hb : PubSub.unsubPrefix <+: m.header.topic
      · simp [hb, hs]
      · simp [ha, hb]

/-- C26: a wire error ends the session that received it, and no other: sessions do not share state
(C24), so no action of session `i` changes session `j`. -/
theorem C26_error_is_local (L : Lossy) (s : Sys) (i j : Nat) (e : Env) (h : j ≠ i) :
    (s.act L (.step i e)).tasks j = s.tasks j ∧ (s.act L (.step i e)).chan = s.chan := by
  simp [Sys.act, h]

/-- C26: an iteration in which the connection fails to produce a message ends the session. -/
theorem C26_error_ends_session (L : Lossy) (s : Session)
    (e : Env) (x : PubSub.Err) (rd : Reader PubSub.State) (rest : List ReadAns)
    (herr : s.rd.pollNext PubSub.codec s.input = .ok (.err x, rd, rest))
    (hp : s.pending = none) (hf : e.feed = .pending)
    (hready : ((s.flushStep e).wr.ready e.readyAns).1 ≠ .pending) :
    ∃ s', s.iter L e = .ok (s', .ended) := by
  obtain ⟨w, b, hs, -, -⟩ := flushStep_spec s e
  unfold Session.iter
  simp only
  rw [hs] at hready ⊢
  simp only at hready ⊢
  rcases hq : w.ready e.readyAns with ⟨o, w'⟩
  rw [hq] at hready
  cases o with
  | pending => exact absurd rfl hready
  | ok => simp [hp, hf, herr]
  | err => simp [hp, hf, herr]

/-- Garbage (wire id 9) ends a session. -/
example : ∃ s', (Session.new 8192 [.data [9, 9]]).iter Lossy.strict
    { tick := false, flushAns := [], readyAns := [], closeAns := [], feed := .pending, now := 0 }
    = .ok (s', .ended) := ⟨_, rfl⟩

end MsgRs.Props

/-! ## C41 for the publisher -/
namespace MsgRs.Props
open MsgRs Pub Spec

/-- C41 for the publisher (partial): in every history of a session, what it added to `bytes_tx` is the number of bytes
handed to its connection minus one for every frame. Missing: it is one short per frame
(`C41_publisher_bytes_refuted`). -/
theorem C41_publisher_bytes_partial (L : Lossy) (boundary : Nat) (input : List ReadAns) (es : List Env)
    (s : Session) (evs : List Ev) (hrun : (Session.new boundary input).run L es = .ok (s, evs))
    (hsmall : ∀ m ∈ tookOf evs, m.payload.length < 2 ^ 32) :
    s.bytesTx + (sentOf evs).length = (s.wr.wire ++ s.wr.buf).length := by
  have h := run_winv hrun
  have hb : s.wr.wire ++ s.wr.buf = (sentOf evs).flatMap PubSub.encode := h.bytes
  rw [hb, h.tx]
  have hwf : ∀ f ∈ sentOf evs, f.WF := fun f hf => h.wf hsmall f (by
    rw [← h.due]; exact List.mem_append.2 (.inl hf))
  generalize sentOf evs = l at hwf
  induction l with
  | nil => rfl
  | cons f l ih =>
    have h1 := ih fun g hg => hwf g (List.mem_cons_of_mem _ hg)
    simp only [List.map_cons, List.sum_cons, List.length_cons, List.flatMap_cons, List.length_append,
      encode_length (hwf f List.mem_cons_self)]
    omega

/-- C41 (refuted as stated): one frame of 23 bytes is sent, the counter says 22. The same history shows that the
hypotheses of `C41_publisher_bytes_partial` can be met. -/
theorem C41_publisher_bytes_refuted :
    let sub : PubSub.Message := ⟨⟨0, 9, PubSub.subPrefix ++ [0x61], 1, 0, 0⟩, []⟩
    let env := fun f => ({ tick := true, flushAns := [.ok 100, .ok 1], readyAns := [], closeAns := [], feed := f, now := 7 } : Env)
    ∃ s evs, (Session.new 8192 [ReadAns.data (PubSub.encode sub)]).run Lossy.strict
        [env .pending, env (.msg ⟨.none, ['a'], [1, 2]⟩), env .pending, env .pending] = .ok (s, evs) ∧
      s.wr.wire.length = 23 ∧ s.wr.buf = [] ∧ s.bytesTx = 22 ∧
      (∀ m ∈ tookOf evs, m.payload.length < 2 ^ 32) := by
  refine ⟨_, _, rfl, ?_, ?_, ?_, ?_⟩ <;> decide

end MsgRs.Props
