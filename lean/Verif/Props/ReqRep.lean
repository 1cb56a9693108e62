import Verif.Spec.ReqRep
import Verif.Props.Req
import Verif.Props.Rep
import Verif.Props.Compression
/-!
# A request socket talking to a reply socket (C34)
-/
namespace MsgRs.Props
open MsgRs

section RepTaken
open MsgRs.Rep
variable {A : Type} [DecidableEq A]

/-- What the application has received stays received. -/
theorem act_taken {D : Decompressors} {d d' : Rep.Driver A} (a : Rep.Act A) (h : d.act D a = .ok d') :
    d.taken <+: d'.taken := by
  cases a with
  | peer k e =>
    simp only [Driver.act, Driver.stepPeer] at h
    cases hk : d.peers[k]? with
    | none => rw [hk] at h; cases h; exact List.prefix_rfl
    | some p =>
      rw [hk] at h
      simp only at h
      cases hi : p.iter d.comp d.slots d.next e with
      | panic => rw [hi] at h; cases h
      | ok x =>
        obtain ⟨p', o⟩ := x
        rw [hi] at h
        simp only [R.bind_ok, R.pure_eq] at h
        cases o with
        | request x m =>
          cases h
          unfold Driver.onRequest
          simp only
          split
          · exact List.prefix_rfl
          · split <;> exact List.prefix_rfl
        | _ => cases h; exact List.prefix_rfl
  | join i =>
    cases h
    simp only [Driver.stepJoin]
    repeat' split
    all_goals exact List.prefix_rfl
  | ready i ok =>
    cases h
    simp only [Driver.stepConn]
    repeat' split
    all_goals exact List.prefix_rfl
  | accept c =>
    cases h
    simp only [Driver.stepAccept]
    repeat' split
    all_goals exact List.prefix_rfl
  | recv =>
    simp only [Driver.act] at h
    split at h
    · cases h; exact List.prefix_rfl
    · cases h; exact List.prefix_append _ _
  | respond i b =>
    simp only [Driver.act] at h
    split at h
    · cases h; exact List.prefix_rfl
    · cases h; exact List.prefix_rfl
  | drop i =>
    simp only [Driver.act] at h
    split at h
    · cases h; exact List.prefix_rfl
    · cases h; exact List.prefix_rfl

theorem run_taken {D : Decompressors} (acts : List (Rep.Act A)) {d d' : Rep.Driver A} (h : d.run D acts = .ok d') :
    d.taken <+: d'.taken := by
  induction acts generalizing d with
  | nil => cases h; exact List.prefix_rfl
  | cons a acts ih =>
    simp only [Driver.run] at h
    cases ha : d.act D a with
    | panic => rw [ha] at h; cases h
    | ok d1 => rw [ha] at h; exact (act_taken a ha).trans (ih h)

end RepTaken

/-- A response frame is well-formed. -/
theorem reply_wf {comp : Option Compressor} {id : UInt32} {b : Bytes} {m : ReqRep.Message} (h : replyPrepare comp id b = some m)
    (hlt : m.payload.length < 2 ^ 32) : ReqRep.Message.WF m := by
  simp only [replyPrepare] at h
  split at h
  · split at h
    · rw [← Option.some.inj h] at hlt ⊢
      simp only [ReqRep.Message.WF, ReqRep.Message.new, UInt32.toNat_ofNat'] at hlt ⊢
      exact Nat.mod_eq_of_lt hlt
    · cases h
  · rw [← Option.some.inj h] at hlt ⊢
    simp only [ReqRep.Message.WF, ReqRep.Message.new, UInt32.toNat_ofNat'] at hlt ⊢
    exact Nat.mod_eq_of_lt hlt

theorem conns_core {A : Type} [DecidableEq A] {D : Decompressors} {max authn rcomp} {acts : List (Rep.Act A)} {d : Rep.Driver A}
    (hd : (Rep.Driver.new max authn rcomp : Rep.Driver A).run D acts = .ok d) {p : Rep.Peer A} (hp : p ∈ d.conns) :
    Rep.PCore d.comp d.slots d.next p := by
  have hdi := Rep.run_reach max authn rcomp acts hd
  simp only [Rep.Driver.conns, List.mem_append] at hp
  exact hp.elim (fun hp => (hdi.peers p hp).1) (hdi.gone p)

/-- The frames made from received commands. -/
theorem taken_frame {D : Decompressors} {opts : Req.Options} {comp : Option Compressor} {s : Req.State} (h : ReqReach D opts comp s)
    (hreq : ∀ call ∈ s.calls, (requestPrepare opts.minCompress comp call.payload).payload.length < 2 ^ 32)
    (n : Nat) (x : Nat × ReqRep.Message) (hx : s.taken[n]? = some x) : x.1 = n ∧ ∃ call, s.calls[n]? = some call ∧
      x.2 = requestFrame opts comp n call.payload ∧ ReqRep.Message.WF x.2 := by
  obtain ⟨a1, call, a2, a3⟩ := h.inv.calls.taken n x hx
  rw [h.opts.1, h.opts.2] at a3
  refine ⟨a1, call, a2, a3, ?_⟩
  rw [a3]
  simp only [ReqMsg.intoWire, ReqRep.Message.WF, ReqRep.Message.new, UInt32.toNat_ofNat']
  exact Nat.mod_eq_of_lt (hreq call (List.mem_of_getElem? a2))

theorem sent_taken {D : Decompressors} {s : Req.State} (hi : Req.Inv D s) {c : Req.Chan} (hc : c ∈ s.chans) {y} (hy : y ∈ c.sent) :
    y ∈ s.taken := by
  rw [← hi.chans.flow]
  exact List.mem_append_left _ (List.mem_flatMap.mpr ⟨c, hc, hy⟩)

/-- A message the client has read was put on the other end's egress queue. -/
theorem got_answers {A : Type} [DecidableEq A] {D : Decompressors} {opts : Req.Options} {comp : Option Compressor} {s : Req.State} (h : ReqReach D opts comp s)
    {max authn rcomp} {acts : List (Rep.Act A)} {d : Rep.Driver A}
    (hd : (Rep.Driver.new max authn rcomp : Rep.Driver A).run D acts = .ok d)
    {c : Req.Chan} (hc : c ∈ s.chans) {p : Rep.Peer A} (hp : p ∈ d.conns)
    (hresp : ∀ x ∈ p.answers, x.2.payload.length < 2 ^ 32)
    (hl : Spec.readSoFar c.input0 c.input <+: p.wr.wire) : c.got <+: p.answers.map (·.2) := by
  obtain ⟨h1, -, h3, -⟩ := C42_responses_match D max authn rcomp acts d hd p hp
  obtain ⟨u, hu, hseen⟩ := (h.inv.chans.chan c hc).seen.2
  rw [readSoFar_eq hu] at hl
  obtain ⟨z, hz⟩ := hl.trans h1
  have hdr := drains_encoded ReqRep.codec ReqRep.encode ReqRep.decode_nil ReqRep.Message.WF ReqRep.decode_encode
    (p.answers.map (·.2)) (by
      intro m hm
      obtain ⟨x, hx, rfl⟩ := List.mem_map.mp hm
      obtain ⟨rq, b, -, e1, -⟩ := h3 x.1 x.2 hx
      exact reply_wf e1 (hresp x hx))
  rw [← hz] at hdr
  exact hseen.prefix ReqRep.inc hdr

/-- A request the server has read was handed to the other end. -/
theorem issued_sent {A : Type} [DecidableEq A] {D : Decompressors} {opts : Req.Options} {comp : Option Compressor} {s : Req.State} (h : ReqReach D opts comp s)
    {max authn rcomp} {acts : List (Rep.Act A)} {d : Rep.Driver A}
    (hd : (Rep.Driver.new max authn rcomp : Rep.Driver A).run D acts = .ok d)
    (hreq : ∀ call ∈ s.calls, (requestPrepare opts.minCompress comp call.payload).payload.length < 2 ^ 32)
    {c : Req.Chan} (hc : c ∈ s.chans) {p : Rep.Peer A} (hp : p ∈ d.conns)
    (hl : Spec.readSoFar p.input0 p.input <+: c.wr.wire) : p.issued.map (·.2) <+: c.sent.map (·.2) := by
  have hi := h.inv
  have hw : c.wr.wire <+: (c.sent.map (·.2)).flatMap ReqRep.encode := by
    rw [List.flatMap_map, ← (hi.chans.chan c hc).bytes]
    exact List.prefix_append _ _
  obtain ⟨u, hu, hseen⟩ := (conns_core hd hp).seen.2
  rw [readSoFar_eq hu] at hl
  obtain ⟨z, hz⟩ := hl.trans hw
  have hdr := drains_encoded ReqRep.codec ReqRep.encode ReqRep.decode_nil ReqRep.Message.WF ReqRep.decode_encode
    (c.sent.map (·.2)) (by
      intro m hm
      obtain ⟨y, hy, rfl⟩ := List.mem_map.mp hm
      obtain ⟨n, hn⟩ := List.mem_iff_getElem?.mp (sent_taken hi hc hy)
      exact (taken_frame h hreq n y hn).2.choose_spec.2.2)
  rw [← hz] at hdr
  exact hseen.prefix ReqRep.inc hdr

/-- Nothing read, nothing decoded. -/
theorem got_nil {D : Decompressors} {opts : Req.Options} {comp : Option Compressor} {s : Req.State} (h : ReqReach D opts comp s)
    {c : Req.Chan} (hc : c ∈ s.chans) (hl : Spec.readSoFar c.input0 c.input = []) : c.got = [] := by
  obtain ⟨u, hu, hseen⟩ := (h.inv.chans.chan c hc).seen.2
  rw [readSoFar_eq hu] at hl
  have hdr : Drains ReqRep.codec ReqRep.codec.init (dataOf u ++ []) [] none := by
    rw [hl]
    exact drains_encoded ReqRep.codec ReqRep.encode ReqRep.decode_nil ReqRep.Message.WF ReqRep.decode_encode [] (by simp)
  exact List.prefix_nil.mp (hseen.prefix ReqRep.inc hdr)

/-- C34, on the connection that `R` says is the other end. -/
theorem own_response_via {A : Type} [DecidableEq A] (R : Req.Chan → Rep.Peer A → Prop) (D : Decompressors)
    (opts : Req.Options) (comp : Option Compressor) (s : Req.State) (h : ReqReach D opts comp s)
    (max authn rcomp) (acts : List (Rep.Act A)) (d : Rep.Driver A)
    (hd : (Rep.Driver.new max authn rcomp : Rep.Driver A).run D acts = .ok d)
    (hnet : ∀ c ∈ s.chans, Spec.readSoFar c.input0 c.input = [] ∨ ∃ p ∈ d.conns, R c p ∧ Spec.Linked c p)
    (hinv : ∀ c, comp = some c → Spec.Inverts D c) (hrinv : ∀ c, rcomp = some c → Spec.Inverts D c)
    (hreq : ∀ call ∈ s.calls, (requestPrepare opts.minCompress comp call.payload).payload.length < 2 ^ 32)
    (hresp : ∀ p ∈ d.conns, ∀ x ∈ p.answers, x.2.payload.length < 2 ^ 32)
    (k : Nat) (b : Bytes) (t : Nat) (hk : (k, Req.Res.ok b, t) ∈ s.done) :
    ∃ n call, n % 2 ^ 32 = k % 2 ^ 32 ∧ s.calls[n]? = some call ∧ ∃ c ∈ s.chans, ∃ p ∈ d.conns, R c p ∧ Spec.Linked c p ∧
      (n, requestFrame opts comp n call.payload) ∈ c.sent ∧
      ∃ pre i post d0 r, acts = pre ++ .respond i b :: post ∧
        (Rep.Driver.new max authn rcomp : Rep.Driver A).run D pre = .ok d0 ∧ d0.held[i]? = some r ∧
        r.source = p.addr ∧ r.msg = call.payload ∧
        (r.handle, requestFrame opts comp n call.payload) ∈ p.issued := by
  have hi := h.inv
  obtain ⟨m, hm, rq, hrq, hid, hdec⟩ := hi.chans.ok k b t hk
  obtain ⟨c, hc, hmc⟩ := List.mem_flatMap.mp hm
  obtain ⟨p, hp, hR, hl⟩ : ∃ p ∈ d.conns, R c p ∧ Spec.Linked c p := by
    rcases hnet c hc with hn | hn
    · rw [got_nil h hc hn] at hmc; cases hmc
    · exact hn
  have hdi := Rep.run_reach max authn rcomp acts hd
  obtain ⟨h1, h2, h3, h4⟩ := C42_responses_match D max authn rcomp acts d hd p hp
  have wfTaken := taken_frame h hreq
  -- the client read `m`, so the server wrote it
  have hmans : m ∈ p.answers.map (·.2) := (got_answers h hd hc hp (hresp p hp) hl.1).subset hmc
  obtain ⟨⟨x, m'⟩, hx, rfl⟩ := List.mem_map.mp hmans
  obtain ⟨rq', b', g1, g2, g3, ⟨r, g4, g5, g6, g7⟩, pre, i, post, d0, r0, g8, g9, g10, g11⟩ := h3 x m' hx
  -- the server read `rq'`, so the client wrote it
  have hrq' : rq' ∈ c.sent.map (·.2) :=
    (issued_sent h hd hreq hc hp hl.2).subset (List.mem_map.mpr ⟨_, g1, rfl⟩)
  obtain ⟨⟨k', rq''⟩, hy, rfl⟩ := List.mem_map.mp hrq'
  have hyt : (k', rq'') ∈ s.taken := sent_taken hi hc hy
  obtain ⟨n, hn⟩ := List.mem_iff_getElem?.mp hyt
  obtain ⟨n', hn'⟩ := List.mem_iff_getElem?.mp hrq
  obtain ⟨e1, call, e2, e3, -⟩ := wfTaken n _ hn
  obtain ⟨f1, call', f2, f3, -⟩ := wfTaken n' _ hn'
  simp only at e1 e3 f1 f3 hid g3 g7 hdec g1
  -- equal ids
  have hnn : n % 2 ^ 32 = n' % 2 ^ 32 := by
    have q : UInt32.ofNat n = UInt32.ofNat n' := by
      have a : rq''.header.id = UInt32.ofNat n := by rw [e3]; rfl
      have b : rq.header.id = UInt32.ofNat n' := by rw [f3]; rfl
      rw [← a, ← b, hid, g3]
    have q := congrArg UInt32.toNat q
    rwa [UInt32.toNat_ofNat', UInt32.toNat_ofNat'] at q
  subst e1 f1
  -- the payload
  have hb : b' = b := by
    simp only [replyPrepare] at g2
    have := C13_reply_transparent D rcomp hrinv rq''.header.id b' []
    obtain ⟨mm, q1, -, q2⟩ := this.1 m' (by simpa only [replyPrepare] using g2) (hresp p hp _ hx)
    have hwf : ReqRep.Message.WF m' := reply_wf (by simpa only [replyPrepare] using g2) (hresp p hp _ hx)
    rw [ReqRep.decode_encode _ _ hwf] at q1
    cases q1
    rw [hdec] at q2
    exact (Option.some.inj q2).symm
  subst hb
  -- the request held is the one received
  have hr0 : r0 = r := by
    have h0 : r0 ∈ d0.taken := (Rep.run_reach max authn rcomp pre g9).held.mem (List.mem_of_getElem? g10)
    have hr0 : r0 ∈ d.taken := by
      rw [g8, Rep.run_append, g9] at hd
      exact (run_taken _ hd).subset h0
    have hn := hdi.handles.1
    rw [List.map_append] at hn
    exact List.nodup_map_inj (List.nodup_append.mp hn).1 hr0 g4 (by rw [g11, g5])
  subst hr0
  refine ⟨_, call, hnn, e2, c, hc, p, hp, hR, hl, e3 ▸ hy, pre, i, post, d0, r0, g8, g9, g10, g6, ?_, ?_⟩
  · obtain ⟨mm, q1, -, q2⟩ := C13_request_transparent D opts.minCompress comp hinv (UInt32.ofNat k') call.payload []
      (hreq call (List.mem_of_getElem? e2))
    rw [ReqRep.decode_encode _ _ (by
      simp only [ReqMsg.intoWire, ReqRep.Message.WF, ReqRep.Message.new, UInt32.toNat_ofNat']
      exact Nat.mod_eq_of_lt (hreq call (List.mem_of_getElem? e2)))] at q1
    cases q1
    rw [e3] at g7
    have : tryDecompress D (requestFrame opts comp k' call.payload).header.ctype (requestFrame opts comp k' call.payload).payload = some call.payload := q2
    rw [this] at g7
    exact (Option.some.inj g7).symm
  · rw [g11, ← e3]; exact g1

/-- The general form of C34, for any number of calls: request ids are 32-bit numbers and wrap around, so the
response is one for a call whose number is congruent to `k` modulo 2^32 (and that was sent on the same
connection). -/
theorem C34_own_response_mod {A : Type} [DecidableEq A] (D : Decompressors)
    (opts : Req.Options) (comp : Option Compressor) (s : Req.State) (h : ReqReach D opts comp s)
    (max authn rcomp) (acts : List (Rep.Act A)) (d : Rep.Driver A)
    (hd : (Rep.Driver.new max authn rcomp : Rep.Driver A).run D acts = .ok d)
    (hnet : Spec.Network s d)
    (hinv : ∀ c, comp = some c → Spec.Inverts D c) (hrinv : ∀ c, rcomp = some c → Spec.Inverts D c)
    (hreq : ∀ call ∈ s.calls, (requestPrepare opts.minCompress comp call.payload).payload.length < 2 ^ 32)
    (hresp : ∀ p ∈ d.conns, ∀ x ∈ p.answers, x.2.payload.length < 2 ^ 32)
    (k : Nat) (b : Bytes) (t : Nat) (hk : (k, Req.Res.ok b, t) ∈ s.done) :
    ∃ n call, n % 2 ^ 32 = k % 2 ^ 32 ∧ s.calls[n]? = some call ∧ ∃ c ∈ s.chans, ∃ p ∈ d.conns, Spec.Linked c p ∧
      (n, requestFrame opts comp n call.payload) ∈ c.sent ∧
      ∃ pre i post d0 r, acts = pre ++ .respond i b :: post ∧
        (Rep.Driver.new max authn rcomp : Rep.Driver A).run D pre = .ok d0 ∧ d0.held[i]? = some r ∧
        r.source = p.addr ∧ r.msg = call.payload ∧
        (r.handle, requestFrame opts comp n call.payload) ∈ p.issued := by
  obtain ⟨n, call, h1, h2, c, hc, p, hp, -, h3⟩ := own_response_via (fun _ _ => True) D opts comp s h max authn rcomp acts d hd
    (fun c hc => (hnet c hc).imp id fun ⟨p, hp, hl⟩ => ⟨p, hp, trivial, hl⟩) hinv hrinv hreq hresp k b t hk
  exact ⟨n, call, h1, h2, c, hc, p, hp, h3⟩

/-- C34: take any history of a request socket and any history of a reply socket such that every connection of
the request socket from which anything was read is one of the reply socket's (each end having read a prefix of
what the other wrote).
Then whenever `request()` number `k` returned the payload `b`, the server application had received from that
connection a request with the payload of call `k` and called `respond(b)` on that very request. Any number of
other clients, reconnects, timeouts, reorderings of responses. The premises besides this: at most 2^32 calls
were made, no frame exceeds the 32-bit length field, and compression, if used, is inverted by decompression. -/
theorem C34_own_response {A : Type} [DecidableEq A] (D : Decompressors)
    (opts : Req.Options) (comp : Option Compressor) (s : Req.State) (h : ReqReach D opts comp s)
    (max authn rcomp) (acts : List (Rep.Act A)) (d : Rep.Driver A)
    (hd : (Rep.Driver.new max authn rcomp : Rep.Driver A).run D acts = .ok d)
    (hnet : Spec.Network s d)
    (hinv : ∀ c, comp = some c → Spec.Inverts D c) (hrinv : ∀ c, rcomp = some c → Spec.Inverts D c)
    (hids : s.calls.length ≤ 2 ^ 32)
    (hreq : ∀ call ∈ s.calls, (requestPrepare opts.minCompress comp call.payload).payload.length < 2 ^ 32)
    (hresp : ∀ p ∈ d.conns, ∀ x ∈ p.answers, x.2.payload.length < 2 ^ 32)
    (k : Nat) (b : Bytes) (t : Nat) (hk : (k, Req.Res.ok b, t) ∈ s.done) :
    ∃ call, s.calls[k]? = some call ∧ ∃ c ∈ s.chans, ∃ p ∈ d.conns, Spec.Linked c p ∧
      ∃ pre i post d0 r, acts = pre ++ .respond i b :: post ∧
        (Rep.Driver.new max authn rcomp : Rep.Driver A).run D pre = .ok d0 ∧ d0.held[i]? = some r ∧
        r.source = p.addr ∧ r.msg = call.payload ∧
        (r.handle, requestFrame opts comp k call.payload) ∈ p.issued := by
  obtain ⟨n, call, h1, h2, c, hc, p, hp, hl, -, hrest⟩ :=
    C34_own_response_mod D opts comp s h max authn rcomp acts d hd hnet hinv hrinv hreq hresp k b t hk
  have hkl : k < s.calls.length := by
    have := h.inv.calls.perm
    have hm : k ∈ List.range s.calls.length :=
      this.subset (List.mem_append_right _ (List.mem_append_right _ (List.mem_map.mpr ⟨_, hk, rfl⟩)))
    exact List.mem_range.mp hm
  have hnl := (List.getElem?_eq_some_iff.mp h2).1
  have : n = k := by omega
  subst this
  exact ⟨call, h2, c, hc, p, hp, hl, hrest⟩

/-- Two requests on one connection, answered in the other order: the premises of `C34_own_response` hold (the
two ends are those of one connection) and both calls have returned. -/
example : let D : Decompressors := ⟨fun _ => none, fun _ => none, fun _ => none, fun _ => none⟩
    let resp : Bytes := reqBytes 1 [21] ++ reqBytes 0 [20, 20]
    let ca : List Req.Act := [.iter {}, .advance 20000000, .iter {}, .request [10], .request [11],
      .iter { task := some (some ⟨[.pending, .pending, .pending, .pending, .data resp], [], [], []⟩) },
      .iter {}, .iter { flushAns := [.ok 100, .ok 1] }, .iter {}, .iter { flushAns := [.ok 100, .ok 1] },
      .iter {}]
    let e : Rep.PEnv := ⟨[.ok 100, .ok 1], []⟩
    let sa : List (Rep.Act Nat) := [.accept ⟨1, some 7, ⟨[.data (reqBytes 0 [10] ++ reqBytes 1 [11])], [], [], []⟩⟩,
      .ready 0 true, .peer 0 e, .recv, .peer 0 e, .recv, .respond 1 [21], .peer 0 e, .respond 0 [20, 20], .peer 0 e,
      .peer 0 e, .peer 0 e, .peer 0 e]
    ∃ s d, ReqReach D {} none s ∧ (Rep.Driver.new none none none : Rep.Driver Nat).run D sa = .ok d ∧
      Spec.Network s d ∧
      s.done = [(1, .ok [21], 20000000), (0, .ok [20, 20], 20000000)] := by
  intro D resp ca e sa
  have key : (match (do let s0 ← Req.State.new {} none 0; s0.run D ca : R Req.State),
        (Rep.Driver.new none none none : Rep.Driver Nat).run D sa with
      | .ok s, .ok d => decide (s.done = [(1, .ok [21], 20000000), (0, .ok [20, 20], 20000000)] ∧
          s.chans.map (fun c => (Spec.readSoFar c.input0 c.input, c.wr.wire)) =
            d.conns.map (fun p => (p.wr.wire, Spec.readSoFar p.input0 p.input)))
      | _, _ => false) = true := by decide +kernel
  cases hs0 : Req.State.new {} none 0 with
  | panic => rw [hs0] at key; cases key
  | ok s0 =>
    cases hs : s0.run D ca with
    | panic => rw [hs0] at key; simp only [R.bind_ok, hs] at key; cases key
    | ok s =>
      cases hd : (Rep.Driver.new none none none : Rep.Driver Nat).run D sa with
      | panic => rw [hs0] at key; simp only [R.bind_ok, hs, hd] at key; cases key
      | ok d =>
        rw [hs0] at key
        simp only [R.bind_ok, hs, hd, decide_eq_true_eq] at key
        refine ⟨s, d, ⟨0, s0, ca, hs0, hs⟩, rfl, fun c hc => ?_, key.1⟩
        have : (Spec.readSoFar c.input0 c.input, c.wr.wire) ∈
            d.conns.map (fun p => (p.wr.wire, Spec.readSoFar p.input0 p.input)) := by
          rw [← key.2]; exact List.mem_map.mpr ⟨c, hc, rfl⟩
        obtain ⟨p, hp, he⟩ := List.mem_map.mp this
        simp only [Prod.mk.injEq] at he
        exact .inr ⟨p, hp, by rw [he.1]; exact List.prefix_rfl, by rw [he.2]; exact List.prefix_rfl⟩

end MsgRs.Props
