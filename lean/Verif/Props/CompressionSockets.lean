import Verif.Spec.Compression
import Verif.Props.ReqSocket
import Verif.Props.RepServer
import Verif.Props.PubServer
/-!
# C14 on the wire: what the three sockets send, given how they were configured
-/
namespace MsgRs.Props
open MsgRs Spec

/-! ## Request socket -/

/-- C14 (request path), on the wire: whatever happened to a request socket made with a compressor or without one, each request frame handed to
one of its connections carries the bytes passed to one `request` call: as they are if the call's payload is not longer than the threshold,
if no compressor is configured, or if the compressor failed on it; and otherwise compressed by the configured compressor and tagged with its algorithm. -/
theorem C14_request_socket (D : Decompressors) (opts comp) (s : Req.Socket) (h : SocketReach D opts comp s) (d : Req.State)
    (hd : s.drv = some d) (n : Nat) (x : Nat × ReqRep.Message) (hx : (d.chans.flatMap (·.sent))[n]? = some x) :
    ∃ (i : Nat) (c : Req.Caller), s.callers[i]? = some c ∧ c.stage = .entered n ∧
      (c.payload.length ≤ opts.minCompress → SentPlain c.payload x.2.header.ctype x.2.payload) ∧
      (comp = none → SentPlain c.payload x.2.header.ctype x.2.payload) ∧
      (∀ z, comp = some z → opts.minCompress < c.payload.length →
        (z.compress c.payload ≠ none → SentCompressed z c.payload x.2.header.ctype x.2.payload) ∧
        (z.compress c.payload = none → SentPlain c.payload x.2.header.ctype x.2.payload)) := by
  obtain ⟨i, c, h1, h2, h3, -⟩ := C79_sent_at_most_once D opts comp s h d hd n x hx
  refine ⟨i, c, h1, h2, ?_, ?_, ?_⟩
  · intro hl
    have : ¬ opts.minCompress < c.payload.length := by omega
    rw [h3]
    simp [requestFrame, requestPrepare, this, ReqMsg.new, ReqMsg.intoWire, ReqRep.Message.new, SentPlain, CType.toByte]
  · rintro rfl
    rw [h3]
    simp [requestFrame, requestPrepare, ReqMsg.new, ReqMsg.intoWire, ReqRep.Message.new, SentPlain, CType.toByte]
  · rintro z rfl hl
    rw [h3]
    constructor
    · intro hz
      obtain ⟨q, hq⟩ := Option.ne_none_iff_exists'.1 hz
      simp [requestFrame, requestPrepare, ReqMsg.new, ReqMsg.compress, ReqMsg.intoWire, ReqRep.Message.new, SentCompressed, hl, hq]
    · intro hz
      simp [requestFrame, requestPrepare, ReqMsg.new, ReqMsg.compress, ReqMsg.intoWire, ReqRep.Message.new, SentPlain, hl, hz, CType.toByte]

/-- Two requests of a socket with a threshold of two bytes: the longer one goes out compressed. -/
example (D : Decompressors) : ∃ (s : Req.Socket) (d : Req.State),
    (Req.Socket.new { minCompress := 2 } (some ⟨.gzip, fun b => some (b.take 1)⟩) 0).run D [.connect, .driver {}, .advance 20000000, .driver {},
      .driver { task := some (some ⟨[], [], [], []⟩) }, .request [1, 2], .poll 0, .driver {}, .request [1, 2, 3], .poll 1, .driver {}, .driver {},
      .driver {}, .driver {}, .driver {}] = .ok s ∧ s.drv = some d ∧
    (d.chans.flatMap (·.sent)).map (fun x => (x.2.header.ctype, x.2.payload)) = [(0, [1, 2]), (1, [1])] :=
  ⟨_, _, rfl, rfl, rfl⟩

/-! ## Reply socket -/

section
variable {A : Type} [DecidableEq A]
open Rep

/-- A completed request was completed by a `respond` of the application. -/
theorem responded_by {D : Decompressors} {x : Nat} {b : Bytes} :
    ∀ (acts : List (Rep.SAct A)) (s0 s : Rep.Socket A), SockInv D s0 →
      (∀ d, s0.drv = some d → d.slots x ≠ .responded b) → s0.run D acts = .ok s → (∀ d, s.drv = some d → d.slots x = .responded b → 
      ∃ pre i post s1 d1 r, acts = pre ++ .driver (.respond i b) :: post ∧ s0.run D pre = .ok s1 ∧ s1.drv = some d1 ∧
        d1.held[i]? = some r ∧ r.handle = x) := by
  intro acts
  induction acts with
  | nil => intro s0 s _ h0 h d hd hx; cases h; exact absurd hx (h0 d hd)
  | cons a acts ih =>
    intro s0 s hi h0 h d hd hx
    obtain ⟨s1, ha, hi1⟩ := hi.act a
    simp only [Rep.Socket.run, ha, R.bind_ok] at h
    rcases Classical.em (∀ d, s1.drv = some d → d.slots x ≠ .responded b) with hp | hp
    · obtain ⟨pre, i, post, s2, d2, r, k1, k2, k3⟩ := ih s1 s hi1 hp h d hd hx
      exact ⟨a :: pre, i, post, s2, d2, r, by rw [k1]; rfl, by simp [Rep.Socket.run, ha, k2], k3⟩
    · have : ∃ i d0 r, a = .driver (.respond i b) ∧ s0.drv = some d0 ∧ d0.held[i]? = some r ∧ r.handle = x := by
        have hp' : ∃ d1, s1.drv = some d1 ∧ d1.slots x = .responded b := by
          apply Classical.byContradiction
          intro hn
          exact hp fun d hd hx => hn ⟨d, hd, hx⟩
        obtain ⟨d1, hd1, hx1⟩ := hp'
        have drv : ∀ y, (match s0.drv with
            | none => R.ok s0
            | some d => do let d ← d.act D y; return { s0 with drv := some d }) = .ok s1 →
            ∃ i d0 r, y = .respond i b ∧ s0.drv = some d0 ∧ d0.held[i]? = some r ∧ r.handle = x := by
          intro y hy
          cases hd0 : s0.drv with
          | none => rw [hd0] at hy; cases hy; rw [hd0] at hd1; cases hd1
          | some d0 =>
            rw [hd0] at hy
            simp only at hy
            cases hz : d0.act D y with
            | panic => rw [hz] at hy; cases hy
            | ok d' =>
              rw [hz] at hy
              cases hy
              cases hd1
              obtain ⟨i, r, k1, k2, k3⟩ := act_responded y hz hx1 (h0 d0 hd0)
              exact ⟨i, d0, r, k1, rfl, k2, k3⟩
        cases a with
        | bind f addrs =>
          exfalso
          simp only [Rep.Socket.act] at ha
          split at ha
          · cases ha; exact h0 d1 hd1 hx1
          · unfold Rep.Socket.tryBind at ha
            cases ht : s0.transport with
            | none => rw [ht] at ha; cases ha; exact h0 d1 hd1 hx1
            | some cur =>
              rw [ht] at ha
              cases hb : Pub.bindLoop f cur addrs with
              | none => simp only [hb] at ha; cases ha; exact h0 d1 hd1 hx1
              | some l =>
                simp only [hb] at ha
                by_cases hmx : 2 ^ 63 ≤ s0.max.getD 64
                · rw [if_pos hmx] at ha
                  cases ha
                  exact h0 d1 hd1 hx1
                rw [if_neg hmx] at ha
                cases ha
                cases hd1
                simp [Driver.new] at hx1
        | next =>
          exfalso
          simp only [Rep.Socket.act] at ha
          split at ha
          · cases ha; exact h0 d1 hd1 hx1
          · unfold Rep.Socket.pollNext at ha
            cases hd0 : s0.drv with
            | none => rw [hd0] at ha; cases ha; exact h0 d1 hd1 hx1
            | some d0 =>
              rw [hd0] at ha
              cases hib : d0.inbox with
              | nil => simp only [hib] at ha; cases ha; exact h0 d1 hd1 hx1
              | cons r rs =>
                simp only [hib] at ha
                cases ha
                cases hd1
                exact h0 d0 hd0 hx1
        | drop =>
          exfalso
          simp only [Rep.Socket.act] at ha
          split at ha
          · cases ha; exact h0 d1 hd1 hx1
          · cases ha
            cases hd0 : s0.drv with
            | none => rw [hd0] at hd1; cases hd1
            | some d0 =>
              rw [hd0] at hd1
              cases hd1
              obtain ⟨hv, ho, -⟩ := hi.drv d0 hd0
              have := (closeInbox_inv hv ho).2.2.2.2.2.2.2.2.2.1 x
              rw [this] at hx1
              split at hx1
              · cases hx1
              · exact h0 d0 hd0 hx1
        | driver y =>
          cases y with
          | recv => exfalso; cases ha; exact h0 d1 hd1 hx1
          | respond i b' =>
            obtain ⟨j, d0, r, k1, k2⟩ := drv _ ha
            cases k1
            exact ⟨_, d0, r, rfl, k2⟩
          | _ => obtain ⟨j, d0, r, k1, k2⟩ := drv _ ha; cases k1
      obtain ⟨i, d0, r, k1, k2⟩ := this
      exact ⟨[], i, acts, s0, d0, r, by rw [k1]; rfl, rfl, k2⟩

/-- C14 (reply path, partial), on the wire: whatever happened to a reply socket made with a compressor or without one — bound, polled, dropped —
each response queued for, or written to, a connection carries the bytes of one `respond` call, made on a request the application held: as they are if no compressor
is configured, otherwise compressed by the configured compressor and tagged with its algorithm, whatever their size. Missing: the threshold, which the code
does not look at on this path (`C14_min_compress_refuted`). -/
theorem C14_reply_socket_partial (D : Decompressors) (max authn comp) (acts : List (Rep.SAct A)) (s : Rep.Socket A)
    (h : (Rep.Socket.new max authn comp : Rep.Socket A).run D acts = .ok s) (d : Driver A) (hd : s.drv = some d)
    (p : Peer A) (hp : p ∈ d.conns) (x : Nat) (m : ReqRep.Message) (hm : (x, m) ∈ p.answers) :
    ∃ b pre i post s1 d1 r, acts = pre ++ .driver (.respond i b) :: post ∧
      (Rep.Socket.new max authn comp : Rep.Socket A).run D pre = .ok s1 ∧ s1.drv = some d1 ∧ d1.held[i]? = some r ∧ r.handle = x ∧
      (comp = none → SentPlain b m.header.ctype m.payload) ∧
      (∀ z, comp = some z → SentCompressed z b m.header.ctype m.payload) := by
  have hi : SockInv D s := RepReach.inv ⟨acts, h⟩
  obtain ⟨hv, -, hc⟩ := hi.drv d hd
  have hcomp : s.comp = comp := (served_run acts h).2.2.1
  have hcore : PCore d.comp d.slots d.next p := by
    simp only [Driver.conns, List.mem_append] at hp
    exact hp.elim (fun hp => (hv.peers p hp).1) (hv.gone p)
  obtain ⟨rq, b, k1, k2, k3⟩ := hcore.answers x m hm
  rw [hc, hcomp] at k3
  obtain ⟨pre, i, post, s1, d1, r, q1, q2, q3, q4, q5⟩ := responded_by acts _ _ (SockInv.new D max authn comp) (by simp [Rep.Socket.new]) h d hd k2
  refine ⟨b, pre, i, post, s1, d1, r, q1, q2, q3, q4, q5, ?_, ?_⟩
  · rintro rfl
    cases k3
    exact ⟨rfl, rfl⟩
  · rintro z rfl
    simp only [replyPrepare] at k3
    cases hz : z.compress b with
    | none => rw [hz] at k3; cases k3
    | some q => rw [hz] at k3; cases k3; exact ⟨rfl, hz⟩

/-- A response of a socket that compresses (with a silly compressor): it is compressed, short as it is. -/
example (D : Decompressors) : ∃ (s : Rep.Socket Nat) (d : Driver Nat) (p : Peer Nat) (m : ReqRep.Message),
    (Rep.Socket.new none none (some ⟨.lz4, fun b => some (b ++ [9])⟩)).run D [.bind some [7],
      .driver (.accept ⟨1, some 1, ⟨[.data (reqBytes 5 [1] ++ reqBytes 6 [2]), .pending], [], [], []⟩⟩), .driver (.ready 0 true),
      .driver (.peer 0 ⟨[.ok 100, .ok 1], []⟩), .driver (.peer 0 ⟨[.ok 100, .ok 1], []⟩), .next, .next,
      .driver (.respond 0 [3]), .driver (.respond 0 [4, 4]), .driver (.peer 0 ⟨[.ok 100, .ok 1], []⟩),
      .driver (.peer 0 ⟨[.ok 100, .ok 1], []⟩)] = .ok s ∧ s.drv = some d ∧ d.peers = [p] ∧ p.answers[0]? = some (1, m) ∧ m.payload = [4, 4, 9] :=
  ⟨_, _, _, ReqRep.Message.new 6 4 [4, 4, 9], rfl, rfl, rfl, rfl, rfl⟩

end

/-! ## Publisher -/

section
variable {A : Type} [DecidableEq A]
open Pub

theorem mem_due {L : Lossy} {f : PubSub.Message} : ∀ (evs : List Ev) (ops : List Op) (k : Nat), f ∈ due L ops k evs →
    ∃ m ∈ tookOf evs, f.header.ctype = m.ctype.toByte ∧ f.header.topic = utf8 m.topic ∧ f.payload = m.payload := by
  intro evs
  induction evs with
  | nil => intro ops k h; cases h
  | cons ev evs ih =>
    intro ops k h
    have lift : (∃ m ∈ tookOf evs, f.header.ctype = m.ctype.toByte ∧ f.header.topic = utf8 m.topic ∧ f.payload = m.payload) →
        ∃ m ∈ tookOf (ev :: evs), f.header.ctype = m.ctype.toByte ∧ f.header.topic = utf8 m.topic ∧ f.payload = m.payload := by
      rintro ⟨m, hm, hx⟩
      refine ⟨m, ?_, hx⟩
      rw [show ev :: evs = [ev] ++ evs from rfl, tookOf, List.filterMap_append]
      exact List.mem_append.2 (.inr hm)
    cases ev with
    | took m now =>
      simp only [due] at h
      split at h
      · rcases List.mem_cons.1 h with rfl | h
        · exact ⟨m, by simp [tookOf], rfl, rfl, rfl⟩
        · exact lift (ih _ _ h)
      · exact lift (ih _ _ h)
    | _ => exact lift (ih _ _ (by simpa only [due] using h))

/-- C14 (publish paths, partial), on the wire: whatever happened to a publisher socket made with a compressor or without one, each message one of
its sessions has handed, or is about to hand, to its connection carries topic and payload of one `publish` or `try_publish` call made before the socket was dropped.
`publish`: the payload as it is, if it is not longer than the threshold or no compressor is configured, otherwise compressed by the configured compressor and
tagged with its algorithm. `try_publish`: as it is if no compressor is configured, otherwise compressed, whatever its size. Missing: the threshold for `try_publish`,
which the code does not look at (`C14_min_compress_refuted`). -/
theorem C14_publish_socket_partial (L : Lossy) (max : Option Nat) (authn : Option (Bytes → Bool)) (boundary minCompress bufferSize : Nat)
    (comp : Option Compressor) (acts : List (SrvAct A)) (i : Nat) (x : Ses A)
    (hx : ((Server.new max authn boundary minCompress bufferSize comp : Server A).run L acts).ses[i]? = some x)
    (f : PubSub.Message) (hf : f ∈ sentOf x.task.evs ++ x.task.sess.pending.toList) :
    ∃ c ∈ pubCalls acts, f.header.topic = utf8 c.topic ∧
      (comp = none → SentPlain c.payload f.header.ctype f.payload) ∧
      (c.viaTry = false → c.payload.length ≤ minCompress → SentPlain c.payload f.header.ctype f.payload) ∧
      (∀ z, comp = some z → c.viaTry = true ∨ minCompress < c.payload.length →
        SentCompressed z c.payload f.header.ctype f.payload) := by
  obtain ⟨pre, e, post, h1, -, given, h3, h4, -, -, h5, -⟩ := C91_gets_published L max authn boundary minCompress bufferSize comp acts i x hx
  rw [h5] at hf
  obtain ⟨m, hm, k1, k2, k3⟩ := mem_due _ _ _ hf
  have hg := h4.mem hm
  rw [h3] at hg
  obtain ⟨c, hc, hp⟩ := List.mem_filterMap.1 hg
  have hc' : c ∈ pubCalls acts := by rw [h1]; exact List.mem_of_mem_drop hc
  have hcz : ∀ z : Compressor, (PubMsg.new c.topic c.payload).compress z = some m →
      m.topic = c.topic ∧ SentCompressed z c.payload m.ctype.toByte m.payload := by
    intro z h
    unfold PubMsg.compress at h
    cases hz : z.compress (PubMsg.new c.topic c.payload).payload with
    | none => rw [hz] at h; cases h
    | some q => rw [hz] at h; cases h; exact ⟨rfl, rfl, hz⟩
  have hplain : some (PubMsg.new c.topic c.payload) = some m → m.topic = c.topic ∧ SentPlain c.payload m.ctype.toByte m.payload := by
    intro h; cases h; exact ⟨rfl, rfl, rfl⟩
  refine ⟨c, hc', ?_⟩
  rw [k1, k2, k3]
  unfold PubCall.prepare at hp
  cases hv : c.viaTry with
  | true =>
    simp only [hv, if_true, tryPublishPrepare] at hp
    cases comp with
    | none => exact ⟨by rw [(hplain hp).1], fun _ => (hplain hp).2, (by intro h; cases h), (by intro z h; cases h)⟩
    | some z => exact ⟨by rw [(hcz z hp).1], (by intro h; cases h), (by intro h; cases h), (by intro z' h _; cases h; exact (hcz z hp).2)⟩
  | false =>
    simp only [hv, Bool.false_eq_true, if_false, publishPrepare] at hp
    by_cases hl : c.payload.length > minCompress
    · rw [if_pos hl] at hp
      cases comp with
      | none => exact ⟨by rw [(hplain hp).1], fun _ => (hplain hp).2, fun _ _ => (hplain hp).2, (by intro z h; cases h)⟩
      | some z => exact ⟨by rw [(hcz z hp).1], (by intro h; cases h), (by intro _ h; omega), (by intro z' h _; cases h; exact (hcz z hp).2)⟩
    · rw [if_neg hl] at hp
      exact ⟨by rw [(hplain hp).1], fun _ => (hplain hp).2, fun _ _ => (hplain hp).2, (by rintro z - (h | h); cases h; omega)⟩

/-- A publisher with a threshold of two bytes: of two messages published, the longer one goes out compressed. -/
example :
    let sub : PubSub.Message := ⟨⟨0, 9, PubSub.subPrefix ++ [0x61], 1, 0, 0⟩, []⟩
    let conn : Conn Nat := ⟨1, some 1, ⟨[.data (PubSub.encode sub), .pending], [], [], []⟩⟩
    let env := fun now => ({ tick := true, flushAns := [.ok 100, .ok 1], readyAns := [], closeAns := [], feed := .pending, now } : Env)
    let s := (Server.new none none 8192 2 4 (some ⟨.snappy, fun b => some (b.take 1)⟩) : Server Nat).run Lossy.strict
      [.bind some [80], .driver ⟨none, none, some conn⟩, .driver ⟨none, some (0, true), none⟩, .session 0 (env 5),
        .publish ['a'] [1, 2], .publish ['a'] [1, 2, 3],
        .session 0 (env 7), .session 0 (env 7), .session 0 (env 8), .session 0 (env 8), .session 0 (env 8)]
    s.ses.map (fun x => (sentOf x.task.evs).map fun f => (f.header.ctype, f.payload)) = [[(0, [1, 2]), (3, [1])]] := by
  decide +kernel

end
end MsgRs.Props
