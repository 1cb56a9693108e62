import Verif.Props.PubMemory
import Verif.Props.ReqSocket
import Verif.Props.RepSocket
import Verif.Props.Sub
/-!
# C103: what a peer can make a socket hold in its receive buffers
-/
namespace MsgRs.Props
open MsgRs Spec

/-! ## The codecs -/

/-- C103, any reader: whatever a peer sends, however the bytes are cut into reads of up to `C` bytes, and however often the connection is polled, the receive buffer holds at most one
unfinished frame, less than 2^32 - 1 bytes, and one read. For all four codecs. -/
theorem C103_codecs (C : Nat) (as : List ReadAns) (has : chunksUpTo C as) :
    (∀ r rest, Polled ReqRep.codec as r rest → r.buf.length ≤ 2 ^ 32 - 2 + C) ∧
    (∀ r rest, Polled PubSub.codec as r rest → r.buf.length ≤ 2 ^ 32 - 2 + C) ∧
    (∀ r rest, Polled Auth.serverCodec as r rest → r.buf.length ≤ 2 ^ 32 - 2 + C) ∧
    (∀ r rest, Polled Auth.clientCodec as r rest → r.buf.length ≤ 2 ^ 32 - 2 + C) :=
  ⟨fun _ _ h => (polled_mem reqrep_needs has h).buf, fun _ _ h => (polled_mem pubsub_needs has h).buf,
    fun _ _ h => (polled_mem auth_server_needs has h).buf, fun _ _ h => (polled_mem auth_client_needs has h).buf⟩

/-! ## The sockets -/

/-- C103, publisher: the same for every session of a publisher, whatever its history. -/
theorem C103_publisher {A : Type} (L : Lossy) (max : Option Nat) (authn : Option (Bytes → Bool)) (boundary minCompress bufferSize : Nat) (comp : Option Compressor)
    (acts : List (Pub.SrvAct A)) (x : Pub.Ses A)
    (hx : x ∈ ((Pub.Server.new max authn boundary minCompress bufferSize comp : Pub.Server A).run L acts).ses) (C : Nat) (hC : chunksUpTo C x.input) :
    x.task.sess.rd.buf.length ≤ 2 ^ 32 - 2 + C := by
  obtain ⟨i, hi⟩ := List.mem_iff_getElem?.mp hx
  exact (run_sesMem L max authn boundary minCompress bufferSize comp i false 0 C acts (fun h => by cases h) x hi hC).rd

/-- C103, replier: the same for every connection a reply socket serves. -/
theorem C103_replier {A : Type} [DecidableEq A] (D : Decompressors) (max authn comp) (s : Rep.Socket A) (h : RepReach D max authn comp s) (d : Rep.Driver A)
    (hd : s.drv = some d) (p : Rep.Peer A) (hp : p ∈ d.peers) (C : Nat) (hC : chunksUpTo C p.input0) :
    p.rd.buf.length ≤ 2 ^ 32 - 2 + C :=
  ((h.inv.drv d hd).1.peers p hp).2.reads.mem reqrep_needs hC

/-- C103, requester: the same for the connection of a request socket. -/
theorem C103_requester (D : Decompressors) (opts comp) (s : Req.State) (h : ReqReach D opts comp s) (he : s.ended = false) (c : Req.Chan)
    (hc : s.conn = .active c) (C : Nat) (hC : chunksUpTo C c.input0) :
    c.rd.buf.length ≤ 2 ^ 32 - 2 + C :=
  (h.inv.chans.cur he c hc).mem reqrep_needs hC

/-- C103, subscriber (partial): the same for every session of a subscriber whose publisher sends nothing malformed: the bytes are those of messages, the last one perhaps cut short.
Missing: malformed bytes, see `C103_refuted_subscriber`. -/
theorem C103_subscriber_partial {A : Type} [DecidableEq A] (L : Lossy) (D : Decompressors) (d : Sub.Driver A) (h : Sub.Reach L D d) (u : Nat) (s : Sub.Session)
    (hs : d.sessions[u]? = some s) (C : Nat) (hC : chunksUpTo C s.input0)
    (ms : List PubSub.Message) (hms : ∀ m ∈ ms, m.WF) (hdata : dataOf s.input0 <+: ms.flatMap PubSub.encode) :
    s.rd.buf.length ≤ 2 ^ 32 - 2 + C := by
  obtain ⟨y, hy⟩ := hdata
  refine ((h.inv.sess u s hs).mem _ C y ms pubsub_needs hC ?_).buf
  rw [hy]
  exact drains_encoded PubSub.codec PubSub.encode PubSub.decode_nil PubSub.Message.WF (fun m x hm => PubSub.decode_encode m x hm) ms hms

/-- A subscriber with half a message in its receive buffer. -/
example : after {} [.call (.connect 5), .iter ⟨[], [], none⟩, .iter ⟨[], [], conn [.data (msgA 0 1 ++ (msgA 0 2).take 7)]⟩, .session 0 {}, .session 0 {}]
    (fun d => decide (d.sessions.map (·.rd.buf.length) = [7])) = true := by decide +kernel

/-! ## There is no smaller limit -/

theorem polled_one {c : Codec σ ε μ} {bs : Bytes} (hne : bs ≠ []) {st b} (h : c.decode c.init bs = .ok (.more, st, b)) :
    ∃ r, Polled c [.data bs] r [] ∧ r.buf = b := by
  refine ⟨{ st := st, buf := b }, .poll .new ?_ (.inl rfl), rfl⟩
  cases bs with
  | nil => exact absurd rfl hne
  | cons x xs =>
    simp only [Reader.pollNext, Reader.frame, Reader.new]
    simp [h]

/-- C103: and a peer can use up what the bound allows: for every `k ≤ 2^32 - 2` there are bytes that make a request or reply socket, a publisher or a subscriber hold `k` bytes without an error,
and (for `k ≥ 5`) a server that authenticates its clients before they are authenticated. -/
theorem C103_no_smaller_limit (k : Nat) (hk : k ≤ 2 ^ 32 - 2) :
    (∃ as r, Polled ReqRep.codec as r [] ∧ r.buf.length = k) ∧
    (∃ as r, Polled PubSub.codec as r [] ∧ r.buf.length = k) ∧
    (5 ≤ k → ∃ as r, Polled Auth.serverCodec as r [] ∧ r.buf.length = k) := by
  refine ⟨?_, ?_, fun h5 => ?_⟩
  · obtain ⟨r, h1, h2⟩ := polled_one (c := ReqRep.codec) (bs := [2, 0, 0, 0, 0, 0, 255, 255, 255, 255] ++ List.replicate k 0) (by simp)
      (st := .payload ⟨0, 0, 4294967295⟩) (b := List.replicate k 0) (by
        have : ∀ X : Bytes, X.length < 4294967295 → ReqRep.decodeHeader ([2, 0, 0, 0, 0, 0, 255, 255, 255, 255] ++ X) =
            .ok (.more, .payload ⟨0, 0, 4294967295⟩, X) := by
          intro X hX
          rw [ReqRep.decodeHeader_eq]
          simp only [List.cons_append, List.nil_append]
          rw [if_neg (by decide), if_neg (by simp)]
          have hp := ReqRep.decodePayload_eq ⟨0, 0, 4294967295⟩ X
          rw [if_pos (by simpa using hX)] at hp
          exact hp
        exact this _ (by simp; omega))
    exact ⟨_, r, h1, by rw [h2]; simp⟩
  · obtain ⟨r, h1, h2⟩ := polled_one (c := PubSub.codec) (bs := [3, 0, 0, 0, 0, 0, 0, 0, 0, 0, 0, 0, 0, 0, 0, 0, 255, 255, 255, 255] ++ List.replicate k 0) (by simp)
      (st := .payload ⟨0, 0, [], 0, 0, 4294967295⟩) (b := List.replicate k 0) (by
        have : ∀ X : Bytes, X.length < 4294967295 → PubSub.decodeHeader ([3, 0, 0, 0, 0, 0, 0, 0, 0, 0, 0, 0, 0, 0, 0, 0, 255, 255, 255, 255] ++ X) =
            .ok (.more, .payload ⟨0, 0, [], 0, 0, 4294967295⟩, X) := by
          intro X hX
          rw [PubSub.decodeHeader_eq]
          simp only [List.cons_append, List.nil_append]
          have ht : ∀ Y : Bytes, PubSub.tlen (0 :: 0 :: 0 :: Y) = 0 := fun Y => by simp [PubSub.tlen, beNat]
          have hh : PubSub.hdrOf ([0, 0, 0, 0, 0, 0, 0, 0, 0, 0, 0, 0, 0, 0, 0, 255, 255, 255, 255] ++ X) = ⟨0, 0, [], 0, 0, 4294967295⟩ := by
            simp only [PubSub.hdrOf, List.cons_append, ht]
            simp [beNat]
          simp only [List.cons_append, List.nil_append] at hh
          rw [if_neg (by decide), if_neg (by simp), ht, if_neg (by simp), hh]
          have hp := PubSub.decodePayload_eq ⟨0, 0, [], 0, 0, 4294967295⟩ X
          rw [if_pos (by simpa using hX)] at hp
          exact hp
        exact this _ (by simp; omega))
    exact ⟨_, r, h1, by rw [h2]; simp⟩
  · obtain ⟨r, h1, h2⟩ := polled_one (c := Auth.serverCodec) (bs := [1, 255, 255, 255, 255] ++ List.replicate (k - 5) 0) (by simp)
      (st := .authReceive) (b := [1, 255, 255, 255, 255] ++ List.replicate (k - 5) 0) (by
        have : ∀ X : Bytes, X.length < 4294967290 → Auth.decodeServer ([1, 255, 255, 255, 255] ++ X) =
            .ok (.more, .authReceive, [1, 255, 255, 255, 255] ++ X) := by
          intro X hX
          have hn : (UInt32.ofNat (beNat [255, 255, 255, 255])).toNat = 4294967295 := by decide
          simp only [List.cons_append, List.nil_append, Auth.decodeServer, List.isEmpty_cons, Bool.false_eq_true, if_false, rget_cons_zero, rget_cons_succ, R.bind_ok]
          rw [if_neg (by decide), if_neg (by simp), hn, if_pos (by simp; omega)]
          rfl
        exact this _ (by simp; omega))
    exact ⟨_, r, h1, by rw [h2]; simp; omega⟩

/-! ## A subscriber's session survives garbage -/

/-- A session that has nothing to send and has met malformed bytes. -/
structure Choking (k : Nat) (s : Sub.Session) : Prop where
  up : s.over = false ∧ s.alive = true
  quiet : s.cmds = [] ∧ s.egress = [] ∧ s.flush = false
  rd : s.rd = { st := .header, buf := List.replicate k 0, eof := false, readable := true, errored := true }

theorem choking_more {L : Lossy} {k : Nat} {s : Sub.Session} (h : Choking (k + 1) s) {rest : List ReadAns} (hin : s.input = .data [0] :: rest) :
    Choking (k + 2) ((s.step L {}).step L {}) ∧ ((s.step L {}).step L {}).input = rest ∧ ((s.step L {}).step L {}).input0 = s.input0 := by
  obtain ⟨⟨h1, h2⟩, ⟨h3, h4, h5⟩, h6⟩ := h
  have p1 : s.rd.pollNext PubSub.codec s.input = .ok (.ended, { st := .header, buf := List.replicate (k + 1) 0, eof := false, readable := false, errored := false }, s.input) := by
    rw [hin, h6]
    rfl
  have f1 : s.flushStep {} = s := by unfold Sub.Session.flushStep; rw [if_neg (by rw [h5]; simp)]
  have e1 : s.step L {} = { s with rd := { st := .header, buf := List.replicate (k + 1) 0, eof := false, readable := false, errored := false }, polls := s.polls + 1 } := by
    unfold Sub.Session.step
    rw [if_neg (by rw [h1]; simp)]
    unfold Sub.Session.iter
    rw [f1]
    simp only
    rw [p1]
    simp only [R.bind_ok, h4, Sub.Session.sendLoop, Sub.Session.cmdStep, h3, h2]
    cases s
    simp_all
  rw [e1]
  have p2 : ({ st := .header, buf := List.replicate (k + 1) 0, eof := false, readable := false, errored := false } : Reader PubSub.State).pollNext PubSub.codec s.input =
      .ok (.err (.wireId 0), { st := .header, buf := List.replicate (k + 2) 0, eof := false, readable := true, errored := true }, rest) := by
    rw [hin]
    have hd : PubSub.codec.decode .header (List.replicate (k + 1) 0 ++ [0]) = .ok (.err (.wireId 0), .header, List.replicate (k + 2) 0) := by
      have : List.replicate (k + 1) (0 : UInt8) ++ [0] = List.replicate (k + 2) 0 := by
        rw [← List.replicate_succ']
      rw [this]
      rfl
    have hf : ∀ as, ({ st := .header, buf := List.replicate (k + 1) 0 ++ [0], eof := false, readable := true, errored := false } : Reader PubSub.State).pollNext PubSub.codec as =
        .ok (.err (.wireId 0), { st := .header, buf := List.replicate (k + 2) 0, eof := false, readable := true, errored := true }, as) := by
      intro as
      have hfr : ({ st := .header, buf := List.replicate (k + 1) 0 ++ [0], eof := false, readable := true, errored := false } : Reader PubSub.State).frame PubSub.codec =
          .ok (some (.err (.wireId 0)), { st := .header, buf := List.replicate (k + 2) 0, eof := false, readable := true, errored := true }) := by
        unfold Reader.frame
        simp only [Bool.false_eq_true, if_false, if_true]
        rw [hd]
        rfl
      cases as with
      | nil => unfold Reader.pollNext; rw [hfr]; rfl
      | cons a as => unfold Reader.pollNext; rw [hfr]; rfl
    unfold Reader.pollNext
    simp only [Reader.frame, Bool.false_eq_true, if_false, R.bind_ok]
    exact hf rest
  unfold Sub.Session.step
  rw [if_neg (by simp only [h1]; simp)]
  unfold Sub.Session.iter
  have f2 : ∀ (r : Reader PubSub.State) n, ({ s with rd := r, polls := n } : Sub.Session).flushStep {} = { s with rd := r, polls := n } := by
    intro r n; unfold Sub.Session.flushStep; rw [if_neg (by simp only [h5]; simp)]
  rw [f2]
  simp only
  rw [p2]
  exact ⟨⟨⟨h1, h2⟩, ⟨h3, h4, h5⟩, rfl⟩, rfl, rfl⟩

theorem choking_run {D : Decompressors} (L : Lossy) (n : Nat) : ∀ (k : Nat) (d : Sub.Driver Nat) (s : Sub.Session), d.sessions[0]? = some s → Choking (k + 1) s →
    s.input = List.replicate n (.data [0]) →
    ∃ d' s', d.run L D (List.replicate (2 * n) (.session 0 {})) = .ok d' ∧ d'.sessions[0]? = some s' ∧ Choking (k + 1 + n) s' ∧ s'.input0 = s.input0 := by
  induction n with
  | zero => intro k d s hs hc _; exact ⟨d, s, rfl, hs, hc, rfl⟩
  | succ n ih =>
    intro k d s hs hc hin
    obtain ⟨h1, h2, h2'⟩ := choking_more (L := L) hc (rest := List.replicate n (.data [0])) (by rw [hin]; rfl)
    have act1 : ∀ (d : Sub.Driver Nat) (s : Sub.Session), d.sessions[0]? = some s → ∃ d', d.act L D (.session 0 {}) = .ok d' ∧ d'.sessions[0]? = some (s.step L {}) := by
      intro d s hs
      refine ⟨_, by simp only [Sub.Driver.act]; rw [hs], ?_⟩
      simp only
      rw [List.getElem?_set]
      have : 0 < d.sessions.length := by
        rcases hq : d.sessions with _ | _
        · rw [hq] at hs; cases hs
        · simp
      simp [this]
    obtain ⟨d1, a1, b1⟩ := act1 d s hs
    obtain ⟨d2, a2, b2⟩ := act1 d1 _ b1
    obtain ⟨d', s', a3, b3, b4, b5⟩ := ih (k + 1) d2 _ b2 h1 h2
    refine ⟨d', s', ?_, b3, by rw [show k + 1 + (n + 1) = k + 1 + 1 + n by omega]; exact b4, b5.trans h2'⟩
    rw [show 2 * (n + 1) = 2 * n + 1 + 1 by omega, List.replicate_succ, List.replicate_succ]
    simp only [Sub.Driver.run, a1, a2, R.bind_ok]
    exact a3

/-- C103 fails for a subscriber: a publisher that sends bytes that are no frame makes the subscriber's receive buffer grow without any bound, because the session goes on reading
after an error and the codec leaves the malformed bytes in the buffer. For every `n` there is a history in which the reads report a single byte at a time and the buffer ends up with more than `n` bytes. -/
theorem C103_refuted_subscriber (n : Nat) : ∃ (d : Sub.Driver Nat) (s : Sub.Session), Sub.Reach Lossy.strict noDec d ∧ d.sessions[0]? = some s ∧
    chunksUpTo 1 s.input0 ∧ n < s.rd.buf.length := by
  have h0 : ∀ reads, ∃ (d0 d : Sub.Driver Nat) (b : Nat) (via : HsEnv), Sub.Driver.new {} 0 = .ok d0 ∧
      d0.run Lossy.strict noDec [.call (.connect 5), .iter ⟨[], [], none⟩, .iter ⟨[], [], conn reads⟩] = .ok d ∧
      d.sessions[0]? = some (Sub.Session.new b via reads) := by
    intro reads
    exact ⟨_, _, _, _, rfl, rfl, rfl⟩
  obtain ⟨d0, d1, b, via, h1, h2, h3⟩ := h0 (List.replicate (n + 1) (.data [0]))
  obtain ⟨d, s, g1, g2, g3, g4, g5⟩ : ∃ (d : Sub.Driver Nat) (s : Sub.Session), d1.act Lossy.strict noDec (.session 0 {}) = .ok d ∧ d.sessions[0]? = some s ∧
      Choking 1 s ∧ s.input = List.replicate n (.data [0]) ∧ s.input0 = List.replicate (n + 1) (.data [0]) := by
    have hc : Choking 1 ((Sub.Session.new b via (List.replicate (n + 1) (.data [0]))).step Lossy.strict {}) ∧
        ((Sub.Session.new b via (List.replicate (n + 1) (.data [0]))).step Lossy.strict {}).input = List.replicate n (.data [0]) ∧
        ((Sub.Session.new b via (List.replicate (n + 1) (.data [0]))).step Lossy.strict {}).input0 = List.replicate (n + 1) (.data [0]) := by
      rw [List.replicate_succ]
      have hp : (Reader.new PubSub.codec).pollNext PubSub.codec (.data [0] :: List.replicate n (.data [0])) =
          .ok (.err (.wireId 0), { st := .header, buf := [0], eof := false, readable := true, errored := true }, List.replicate n (.data [0])) := by
        cases n <;> rfl
      unfold Sub.Session.step
      rw [if_neg (by simp [Sub.Session.new])]
      unfold Sub.Session.iter
      have hf : (Sub.Session.new b via (.data [0] :: List.replicate n (.data [0]))).flushStep {} = Sub.Session.new b via (.data [0] :: List.replicate n (.data [0])) := rfl
      rw [hf]
      have e1 : (Sub.Session.new b via (.data [0] :: List.replicate n (.data [0]))).rd = Reader.new PubSub.codec := rfl
      have e2 : (Sub.Session.new b via (.data [0] :: List.replicate n (.data [0]))).input = .data [0] :: List.replicate n (.data [0]) := rfl
      simp only
      rw [e1, e2, hp]
      exact ⟨⟨⟨rfl, rfl⟩, ⟨rfl, rfl, rfl⟩, rfl⟩, rfl, rfl⟩
    refine ⟨_, _, by simp only [Sub.Driver.act]; rw [h3], ?_, hc⟩
    simp only
    rw [List.getElem?_set]
    have : 0 < d1.sessions.length := by
      rcases hq : d1.sessions with _ | _
      · rw [hq] at h3; cases h3
      · simp
    simp [this]
  obtain ⟨d', s', k1, k2, k3, k4⟩ := choking_run (D := noDec) Lossy.strict n 0 d s g2 g3 g4
  have hr : Sub.Reach Lossy.strict noDec d :=
    Sub.Reach.run (acts := [.session 0 {}]) (Sub.Reach.run ⟨{}, 0, d0, [], h1, rfl⟩ h2) (by simp [Sub.Driver.run, g1])
  refine ⟨d', s', hr.run k1, k2, ?_, ?_⟩
  · rw [k4, g5]
    intro bs hb
    have := List.eq_of_mem_replicate hb
    cases this
    simp
  · rw [k3.rd]; simp

end MsgRs.Props
