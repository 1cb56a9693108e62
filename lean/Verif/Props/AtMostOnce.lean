import Verif.Props.ReqRep
import Verif.Props.ReqSocket
import Verif.Props.RepServer
/-!
# C112: a request is carried out at most once, over all connections
-/
namespace MsgRs.Spec
open MsgRs

/-- The network between a request socket and a reply socket at some moment: the connection number `i` of the reply socket is the other end of the connection number
`link i` of the request socket (`none`: it belongs to another client). Connections have two ends, bytes arrive in order, and nobody reads what was not written. -/
structure Wired {A : Type} (link : Nat → Option Nat) (s : Req.State) (d : Rep.Driver A) : Prop where
  one : ∀ i j k, link i = some k → link j = some k → i = j
  there : ∀ i k p, d.conns[i]? = some p → link i = some k → ∃ c, s.chans[k]? = some c ∧ readSoFar p.input0 p.input <+: c.wr.wire
  back : ∀ (k : Nat) (c : Req.Chan), s.chans[k]? = some c → readSoFar c.input0 c.input = [] ∨
    ∃ i p, d.conns[i]? = some p ∧ link i = some k ∧ readSoFar c.input0 c.input <+: p.wr.wire

/-- The request was read by the reply socket from a connection of this request socket. -/
def fromUs {A : Type} (link : Nat → Option Nat) (d : Rep.Driver A) (r : Rep.Request A) : Prop :=
  ∃ i p, d.conns[i]? = some p ∧ (link i).isSome ∧ r.handle ∈ p.issued.map (·.1)

end MsgRs.Spec

namespace MsgRs.Props
open MsgRs Spec
variable {A : Type} [DecidableEq A]

/-! ## Positions in a concatenation -/

/-- Where the `j`-th list begins in the concatenation. -/
def offAt {α β : Type} (f : α → List β) (l : List α) (j : Nat) : Nat := ((l.take j).flatMap f).length

theorem offAt_get {α β : Type} (f : α → List β) (l : List α) (j m : Nat) (a : α) (x : β) (ha : l[j]? = some a) (hx : (f a)[m]? = some x) :
    (l.flatMap f)[offAt f l j + m]? = some x := by
  induction l generalizing j with
  | nil => simp at ha
  | cons b l ih =>
    cases j with
    | zero =>
      simp only [List.getElem?_cons_zero, Option.some.injEq] at ha
      subst ha
      have hm := (List.getElem?_eq_some_iff.1 hx).1
      simp only [offAt, List.take_zero, List.flatMap_nil, List.length_nil, Nat.zero_add, List.flatMap_cons]
      rw [List.getElem?_append_left hm]; exact hx
    | succ j =>
      simp only [List.getElem?_cons_succ] at ha
      have := ih j ha
      simp only [offAt, List.take_succ_cons, List.flatMap_cons, List.length_append] at this ⊢
      rw [List.getElem?_append_right (by omega)]
      rw [show (f b).length + (List.flatMap f (l.take j)).length + m - (f b).length = (List.flatMap f (l.take j)).length + m by omega]
      exact this

theorem offAt_inj {α β : Type} (f : α → List β) (l : List α) (j j' m m' : Nat) (a a' : α) (ha : l[j]? = some a) (ha' : l[j']? = some a')
    (hm : m < (f a).length) (hm' : m' < (f a').length) (h : offAt f l j + m = offAt f l j' + m') : j = j' ∧ m = m' := by
  induction l generalizing j j' with
  | nil => simp at ha
  | cons b l ih =>
    cases j with
    | zero =>
      simp only [List.getElem?_cons_zero, Option.some.injEq] at ha
      subst ha
      cases j' with
      | zero => exact ⟨rfl, by simpa [offAt] using h⟩
      | succ j' =>
        simp only [offAt, List.take_zero, List.take_succ_cons, List.flatMap_nil, List.flatMap_cons, List.length_nil, List.length_append] at h
        omega
    | succ j =>
      cases j' with
      | zero =>
        simp only [List.getElem?_cons_zero, Option.some.injEq] at ha'
        subst ha'
        simp only [offAt, List.take_zero, List.take_succ_cons, List.flatMap_nil, List.flatMap_cons, List.length_nil, List.length_append] at h
        omega
      | succ j' =>
        simp only [List.getElem?_cons_succ] at ha ha'
        have := ih j j' ha ha' (by
          simp only [offAt, List.take_succ_cons, List.flatMap_cons, List.length_append] at h ⊢; omega)
        omega

/-! ## Requests read and requests sent -/

theorem dinv_core {D : Decompressors} {d : Rep.Driver A} (h : Rep.DInv D d none) {p : Rep.Peer A} (hp : p ∈ d.conns) :
    Rep.PCore d.comp d.slots d.next p := by
  simp only [Rep.Driver.conns, List.mem_append] at hp
  exact hp.elim (fun hp => (h.peers p hp).1) (h.gone p)

/-- A request the server has read was handed to the other end. -/
theorem issued_sent' {D : Decompressors} {opts : Req.Options} {comp : Option Compressor} {s : Req.State} (h : ReqReach D opts comp s)
    {d : Rep.Driver A} (hd : Rep.DInv D d none)
    (hreq : ∀ call ∈ s.calls, (requestPrepare opts.minCompress comp call.payload).payload.length < 2 ^ 32)
    {c : Req.Chan} (hc : c ∈ s.chans) {p : Rep.Peer A} (hp : p ∈ d.conns)
    (hl : readSoFar p.input0 p.input <+: c.wr.wire) : p.issued.map (·.2) <+: c.sent.map (·.2) := by
  have hi := h.inv
  have hw : c.wr.wire <+: (c.sent.map (·.2)).flatMap ReqRep.encode := by
    rw [List.flatMap_map, ← (hi.chans.chan c hc).bytes]
    exact List.prefix_append _ _
  obtain ⟨u, hu, hseen⟩ := (dinv_core hd hp).seen.2
  rw [readSoFar_eq hu] at hl
  obtain ⟨z, hz⟩ := hl.trans hw
  have hdr := drains_encoded ReqRep.codec ReqRep.encode ReqRep.decode_nil ReqRep.Message.WF ReqRep.decode_encode
    (c.sent.map (·.2)) (by
      intro m hm
      obtain ⟨y, hy, rfl⟩ := List.mem_map.mp hm
      obtain ⟨n, hn⟩ := List.mem_iff_getElem?.mp (sent_taken hi hc hy)
      exact (taken_frame h hreq n y hn).2.choose_spec.2.2)
  rw [← hz] at hdr
  exact hseen.prefix ReqRep.inc hdr

/-- A message the client has read is an answer of the other end. -/
theorem got_answers' {D : Decompressors} {opts : Req.Options} {comp : Option Compressor} {s : Req.State} (h : ReqReach D opts comp s)
    {d : Rep.Driver A} (hd : Rep.DInv D d none)
    {c : Req.Chan} (hc : c ∈ s.chans) {p : Rep.Peer A} (hp : p ∈ d.conns)
    (hresp : ∀ x ∈ p.answers, x.2.payload.length < 2 ^ 32)
    (hl : readSoFar c.input0 c.input <+: p.wr.wire) : c.got <+: p.answers.map (·.2) := by
  have hpc := dinv_core hd hp
  have h1 : p.wr.wire <+: (p.answers.map (·.2)).flatMap ReqRep.encode := by
    rw [← hpc.out, List.flatMap_append, ← hpc.bytes, List.append_assoc]
    exact List.prefix_append ..
  obtain ⟨u, hu, hseen⟩ := (h.inv.chans.chan c hc).seen.2
  rw [readSoFar_eq hu] at hl
  obtain ⟨z, hz⟩ := hl.trans h1
  have hdr := drains_encoded ReqRep.codec ReqRep.encode ReqRep.decode_nil ReqRep.Message.WF ReqRep.decode_encode
    (p.answers.map (·.2)) (by
      intro m hm
      obtain ⟨x, hx, rfl⟩ := List.mem_map.mp hm
      obtain ⟨rq, b, -, -, e1⟩ := hpc.answers x.1 x.2 hx
      exact reply_wf e1 (hresp x hx))
  rw [← hz] at hdr
  exact hseen.prefix ReqRep.inc hdr

theorem chan_number {D opts comp} {s : Req.State} (h : ReqReach D opts comp s) {k m : Nat} {c : Req.Chan} {x : Nat × ReqRep.Message}
    (hc : s.chans[k]? = some c) (hx : c.sent[m]? = some x) :
    x.1 = offAt (·.sent) s.chans k + m ∧ ∃ call, s.calls[x.1]? = some call ∧ x.2 = requestFrame opts comp x.1 call.payload := by
  have hg := offAt_get (·.sent) s.chans k m c x hc hx
  obtain ⟨n, hn⟩ := (C40_in_order_at_most_once D opts comp s h).1
  have hg' : (s.chans.flatMap (·.sent))[offAt (·.sent) s.chans k + m]? = some x := hg
  rw [hn, List.getElem?_map] at hg'
  cases hz : (s.calls.take n).zipIdx[offAt (·.sent) s.chans k + m]? with
  | none => rw [hz] at hg'; cases hg'
  | some y =>
    rw [hz] at hg'
    simp only [Option.map_some, Option.some.injEq] at hg'
    rw [List.getElem?_zipIdx] at hz
    cases ht : (s.calls.take n)[offAt (·.sent) s.chans k + m]? with
    | none => rw [ht] at hz; cases hz
    | some call =>
      rw [ht] at hz
      simp only [Option.map_some, Option.some.injEq, Nat.zero_add] at hz
      subst hz
      have hcall : s.calls[offAt (·.sent) s.chans k + m]? = some call := by
        rw [List.getElem?_take] at ht
        split at ht
        · exact ht
        · cases ht
      subst hg'
      exact ⟨rfl, call, hcall, rfl⟩

theorem place_exists {D opts comp} {s : Req.State} (h : ReqReach D opts comp s) {d : Rep.Driver A} (hd : Rep.DInv D d none)
    (hreq : ∀ call ∈ s.calls, (requestPrepare opts.minCompress comp call.payload).payload.length < 2 ^ 32) {link} (hw : Wired link s d)
    {i k : Nat} {p : Rep.Peer A} (hp : d.conns[i]? = some p) (hk : link i = some k) {x : Nat} {msg : ReqRep.Message} (hx : (x, msg) ∈ p.issued) :
    ∃ c m n, s.chans[k]? = some c ∧ p.issued[m]? = some (x, msg) ∧ c.sent[m]? = some (n, msg) ∧ n = offAt (·.sent) s.chans k + m ∧
      ∃ call, s.calls[n]? = some call ∧ msg = requestFrame opts comp n call.payload := by
  obtain ⟨c, hc, hrd⟩ := hw.there i k p hp hk
  have hpre := issued_sent' h hd hreq (List.mem_of_getElem? hc) (List.mem_of_getElem? hp) hrd
  obtain ⟨m, hm⟩ := List.mem_iff_getElem?.1 hx
  have h1 : (p.issued.map (·.2))[m]? = some msg := by rw [List.getElem?_map, hm]; rfl
  obtain ⟨t, ht⟩ := hpre
  have h2 : (c.sent.map (·.2))[m]? = some msg := by
    rw [← ht, List.getElem?_append_left (by simpa using (List.getElem?_eq_some_iff.1 h1).1)]; exact h1
  rw [List.getElem?_map] at h2
  cases hs : c.sent[m]? with
  | none => rw [hs] at h2; cases h2
  | some y =>
    rw [hs] at h2
    simp only [Option.map_some, Option.some.injEq] at h2
    obtain ⟨y1, y2⟩ := y
    simp only at h2
    subst h2
    obtain ⟨e1, call, e2, e3⟩ := chan_number h hc hs
    exact ⟨c, m, y1, hc, hm, hs, e1, call, e2, e3⟩

/-- A handle has one place. -/
theorem handle_place {d : Rep.Driver A} (ho : Rep.OwnInv d) {i i' m m' : Nat} {p p' : Rep.Peer A} {x : Nat} {y y' : ReqRep.Message}
    (hp : d.conns[i]? = some p) (hp' : d.conns[i']? = some p') (hm : p.issued[m]? = some (x, y)) (hm' : p'.issued[m']? = some (x, y')) :
    i = i' ∧ m = m' := by
  have hn : (d.conns.flatMap Rep.Peer.handles).Nodup := ho.nodup_iff.2 List.nodup_range
  have g1 : (Rep.Peer.handles p)[m]? = some x := by simp [Rep.Peer.handles, hm]
  have g2 : (Rep.Peer.handles p')[m']? = some x := by simp [Rep.Peer.handles, hm']
  have e1 := offAt_get Rep.Peer.handles d.conns i m p x hp g1
  have e2 := offAt_get Rep.Peer.handles d.conns i' m' p' x hp' g2
  have heq := (List.getElem?_inj (List.getElem?_eq_some_iff.1 e1).1 hn).1 (e1.trans e2.symm)
  exact offAt_inj Rep.Peer.handles d.conns i i' m m' p p' hp hp' (List.getElem?_eq_some_iff.1 g1).1 (List.getElem?_eq_some_iff.1 g2).1 heq

/-- The call a received request belongs to. -/
theorem received_call {D opts comp} {s : Req.Socket} (h : SocketReach D opts comp s) {drv : Req.State} (hdrv : s.drv = some drv) {d : Rep.Driver A}
    (hd : Rep.DInv D d none) (ho : Rep.OwnInv d)
    (hreq : ∀ call ∈ drv.calls, (requestPrepare opts.minCompress comp call.payload).payload.length < 2 ^ 32) {link} (hw : Wired link drv d) (x : Nat) :
    ∃ j : Nat, ∀ (i : Nat) (p : Rep.Peer A) (k m : Nat) (msg : ReqRep.Message), d.conns[i]? = some p → link i = some k → p.issued[m]? = some (x, msg) →
      ∃ (c : Req.Caller) (n : Nat), s.callers[j]? = some c ∧ c.stage = .entered n ∧ n = offAt (·.sent) drv.chans k + m ∧
        msg = requestFrame opts comp n c.payload ∧ ∃ ch, drv.chans[k]? = some ch ∧ m < ch.sent.length := by
  have hr : ReqReach D opts comp drv := by
    have := (h.inv.reach drv hdrv).1
    rwa [h.opts.1, h.opts.2] at this
  by_cases hx : ∃ (i : Nat) (p : Rep.Peer A) (k m : Nat) (msg : ReqRep.Message), d.conns[i]? = some p ∧ link i = some k ∧ p.issued[m]? = some (x, msg)
  · obtain ⟨i, p, k, m, msg, h1, h2, h3⟩ := hx
    obtain ⟨ch, m', n, e1, e2, e3, e4, call, e5, e6⟩ := place_exists hr hd hreq hw h1 h2 (List.mem_of_getElem? h3)
    obtain ⟨j, c, f1, f2⟩ := h.inv.surj drv n hdrv (List.getElem?_eq_some_iff.1 e5).1
    obtain ⟨drv', call', g1, g2, g3, -⟩ := h.inv.entered j c n f1 f2
    rw [hdrv] at g1
    cases g1
    rw [e5] at g2
    cases g2
    refine ⟨j, fun i' p' k' m'' msg' q1 q2 q3 => ?_⟩
    obtain ⟨hii, hmm⟩ := handle_place ho q1 h1 q3 e2
    subst hii hmm
    rw [h1] at q1
    cases q1
    rw [h2] at q2
    cases q2
    rw [e2] at q3
    cases q3
    exact ⟨c, n, f1, f2, e4, by rw [e6, g3], ch, e1, (List.getElem?_eq_some_iff.1 e3).1⟩
  · exact ⟨0, fun i p k m msg q1 q2 q3 => absurd ⟨i, p, k, m, msg, q1, q2, q3⟩ hx⟩

theorem reply_id {comp : Option Compressor} {id : UInt32} {b : Bytes} {m : ReqRep.Message} (h : replyPrepare comp id b = some m) : m.header.id = id := by
  simp only [replyPrepare] at h
  split at h
  · split at h
    · cases h; rfl
    · cases h
  · cases h; rfl

/-- The payload of a request frame. -/
theorem frame_payload {D : Decompressors} {opts : Req.Options} {comp : Option Compressor} (hinv : ∀ c, comp = some c → Inverts D c) (n : Nat) (b : Bytes)
    (hb : (requestPrepare opts.minCompress comp b).payload.length < 2 ^ 32) :
    tryDecompress D (requestFrame opts comp n b).header.ctype (requestFrame opts comp n b).payload = some b := by
  obtain ⟨mm, q1, -, q2⟩ := C13_request_transparent D opts.minCompress comp hinv (UInt32.ofNat n) b [] hb
  rw [ReqRep.decode_encode _ _ (by
    simp only [ReqMsg.intoWire, ReqRep.Message.WF, ReqRep.Message.new, UInt32.toNat_ofNat']
    exact Nat.mod_eq_of_lt hb)] at q1
  cases q1
  exact q2

/-- A received request decompresses to what the application gets. -/
theorem received_msg {D : Decompressors} {d : Rep.Driver A} (hd : Rep.DInv D d none) {r : Rep.Request A} (hr : r ∈ d.taken ++ d.inbox)
    {p : Rep.Peer A} (hp : p ∈ d.conns) {msg} (hm : (r.handle, msg) ∈ p.issued) : tryDecompress D msg.header.ctype msg.payload = some r.msg := by
  have h1 : (r.handle, r.msg) ∈ Rep.deliveredOf d.log := by
    rw [← hd.inbox]
    exact List.mem_map.2 ⟨r, hr, rfl⟩
  obtain ⟨f, hf⟩ := hd.issued p hp _ _ hm
  obtain ⟨u, m', h2⟩ : ∃ u m', (u, r.handle, m', Rep.Fate.delivered r.msg) ∈ d.log := by
    unfold Rep.deliveredOf at h1
    obtain ⟨y, hy, he⟩ := List.mem_filterMap.1 h1
    obtain ⟨u, x, m', f'⟩ := y
    cases f' with
    | delivered pl => simp only [Option.some.injEq, Prod.mk.injEq] at he; obtain ⟨rfl, rfl⟩ := he; exact ⟨u, m', hy⟩
    | undecodable => simp at he
    | full => simp at he
  have hn : (d.log.map (·.2.1)).Nodup := by rw [hd.log]; exact List.nodup_range
  have := List.nodup_map_inj hn hf h2 rfl
  cases this
  exact hd.delivered _ _ _ _ h2

/-- C112: a request socket and a reply socket, each with any history of its own, with any number of connections between them (they may break and be made again at any
time). Every request that the server's application receives over one of them belongs to a call of `request()`, with the payload of that call, and different
requests received belong to different calls: no call is carried out twice. If a call has returned a response, the application has received its request (once, that is). -/
theorem C112_at_most_once (D : Decompressors) (opts : Req.Options) (comp : Option Compressor) (s : Req.Socket) (h : SocketReach D opts comp s)
    (drv : Req.State) (hdrv : s.drv = some drv)
    (max : Option Nat) (authn : Option (Bytes → Bool)) (rcomp : Option Compressor) (srv : Rep.Socket A) (hs : RepReach D max authn rcomp srv)
    (d : Rep.Driver A) (hd : srv.drv = some d) (link : Nat → Option Nat) (hw : Wired link drv d)
    (hinv : ∀ c, comp = some c → Inverts D c)
    (hreq : ∀ c ∈ s.callers, (requestPrepare opts.minCompress comp c.payload).payload.length < 2 ^ 32) :
    ∃ call : Nat → Nat,
      (∀ n r, (d.taken ++ d.inbox)[n]? = some r → fromUs link d r → ∃ c, s.callers[call n]? = some c ∧ r.msg = c.payload) ∧
      (∀ n n' r r', (d.taken ++ d.inbox)[n]? = some r → (d.taken ++ d.inbox)[n']? = some r' → fromUs link d r → fromUs link d r' →
        call n = call n' → n = n') ∧
      (s.callers.length ≤ 2 ^ 32 → (∀ p ∈ d.conns, ∀ x ∈ p.answers, x.2.payload.length < 2 ^ 32) → ∀ j b, s.result j = some (.ok b) → ∃ n r, d.taken[n]? = some r ∧ fromUs link d r ∧ call n = j) := by
  obtain ⟨hdi, ho, hcp⟩ := hs.inv.drv d hd
  have hr : ReqReach D opts comp drv := by
    have := (h.inv.reach drv hdrv).1
    rwa [h.opts.1, h.opts.2] at this
  have hreq' : ∀ call ∈ drv.calls, (requestPrepare opts.minCompress comp call.payload).payload.length < 2 ^ 32 := by
    intro call hc
    obtain ⟨n, hn⟩ := List.mem_iff_getElem?.1 hc
    obtain ⟨i, c, h1, h2⟩ := h.inv.surj drv n hdrv (List.getElem?_eq_some_iff.1 hn).1
    obtain ⟨d', call', k1, k2, k3, -⟩ := h.inv.entered i c n h1 h2
    rw [hdrv] at k1
    cases k1
    rw [hn] at k2
    cases k2
    rw [k3]
    exact hreq c (List.mem_of_getElem? h1)
  obtain ⟨f, hf⟩ := Classical.axiomOfChoice (received_call h hdrv hdi ho hreq' hw)
  have hnd := hdi.handles.1
  refine ⟨fun n => f (((d.taken ++ d.inbox)[n]?.map (·.handle)).getD 0), ?_, ?_, ?_⟩
  · intro n r hn ⟨i, p, hi, hl, hm⟩
    obtain ⟨k, hk⟩ := Option.isSome_iff_exists.1 hl
    obtain ⟨⟨x, msg⟩, hx, hxe⟩ := List.mem_map.1 hm
    simp only at hxe
    subst hxe
    obtain ⟨m, hmm⟩ := List.mem_iff_getElem?.1 hx
    obtain ⟨c, N, e1, e2, e3, e4, -⟩ := hf r.handle i p k m msg hi hk hmm
    refine ⟨c, by simpa [hn] using e1, ?_⟩
    have g1 := received_msg hdi (List.mem_of_getElem? hn) (List.mem_of_getElem? hi) hx
    rw [e4, frame_payload hinv N c.payload (hreq c (List.mem_of_getElem? e1))] at g1
    exact (Option.some.inj g1).symm
  · intro n n' r r' hn hn' ⟨i, p, hi, hl, hm⟩ ⟨i', p', hi', hl', hm'⟩ heq
    obtain ⟨k, hk⟩ := Option.isSome_iff_exists.1 hl
    obtain ⟨k', hk'⟩ := Option.isSome_iff_exists.1 hl'
    obtain ⟨⟨x, msg⟩, hx, hxe⟩ := List.mem_map.1 hm
    obtain ⟨⟨x', msg'⟩, hx', hxe'⟩ := List.mem_map.1 hm'
    simp only at hxe hxe'
    subst hxe hxe'
    obtain ⟨m, hmm⟩ := List.mem_iff_getElem?.1 hx
    obtain ⟨m', hmm'⟩ := List.mem_iff_getElem?.1 hx'
    obtain ⟨c, N, e1, e2, e3, -, ch, e5, e6⟩ := hf r.handle i p k m msg hi hk hmm
    obtain ⟨c', N', e1', e2', e3', -, ch', e5', e6'⟩ := hf r'.handle i' p' k' m' msg' hi' hk' hmm'
    have heq' : f r.handle = f r'.handle := by simpa [hn, hn'] using heq
    rw [← heq', e1] at e1'
    cases e1'
    rw [e2] at e2'
    cases e2'
    obtain ⟨hkk, hmk⟩ := offAt_inj (·.sent) drv.chans k k' m m' ch ch' e5 e5' e6 e6' (e3.symm.trans e3')
    subst hkk hmk
    have hii := hw.one i i' k hk hk'
    subst hii
    rw [hi] at hi'
    cases hi'
    rw [hmm] at hmm'
    injection hmm' with hmm'
    injection hmm' with hh hh2
    have a1 : ((d.taken ++ d.inbox).map (·.handle))[n]? = some r.handle := by rw [List.getElem?_map, hn]; rfl
    have a2 : ((d.taken ++ d.inbox).map (·.handle))[n']? = some r.handle := by rw [List.getElem?_map, hn', hh]; rfl
    exact (List.getElem?_inj (List.getElem?_eq_some_iff.1 a1).1 hnd).1 (a1.trans a2.symm)
  · intro hids hresp j b hres
    obtain ⟨c, hc, hcase⟩ := result_done hres
    rcases hcase with ⟨-, hbad⟩ | ⟨K, d', t, hst, hd', hdone⟩
    · cases hbad
    rw [hdrv] at hd'
    cases hd'
    obtain ⟨m, hm, rq, hrq, hid, hdec⟩ := hr.inv.chans.ok K b t hdone
    obtain ⟨ch, hch, hmc⟩ := List.mem_flatMap.mp hm
    obtain ⟨k, hk⟩ := List.mem_iff_getElem?.1 hch
    rcases hw.back k ch hk with hn | ⟨i, p, hi, hl, hrd⟩
    · rw [got_nil hr hch hn] at hmc; cases hmc
    have hp := List.mem_of_getElem? hi
    have hmans := (got_answers' hr hdi hch hp (hresp p hp) hrd).subset hmc
    obtain ⟨⟨x, m'⟩, hx, rfl⟩ := List.mem_map.mp hmans
    obtain ⟨rq', b', g1, g2, g3⟩ := (dinv_core hdi hp).answers x m' hx
    -- the request was received
    have hrec : ∃ r ∈ d.taken, r.handle = x := by
      obtain ⟨fate, hfate⟩ := hdi.issued p hp x rq' g1
      have hdel : ∃ pl, fate = .delivered pl := by
        cases fate with
        | delivered pl => exact ⟨pl, rfl⟩
        | undecodable =>
          rcases hdi.dropped _ _ _ _ hfate (by intro pl hpl; cases hpl) with hq | hq
          · rw [g2] at hq; cases hq
          · cases hq
        | full =>
          rcases hdi.dropped _ _ _ _ hfate (by intro pl hpl; cases hpl) with hq | hq
          · rw [g2] at hq; cases hq
          · cases hq
      obtain ⟨pl, rfl⟩ := hdel
      have hmem : (x, pl) ∈ (d.taken ++ d.inbox).map (fun r => (r.handle, r.msg)) := by
        rw [hdi.inbox]
        exact List.mem_filterMap.2 ⟨_, hfate, rfl⟩
      obtain ⟨r, hr1, hr2⟩ := List.mem_map.1 hmem
      injection hr2 with hr2 hr3
      rcases List.mem_append.1 hr1 with hr1 | hr1
      · exact ⟨r, hr1, hr2⟩
      · have := hdi.waiting r (.inr hr1)
        rw [hr2, g2] at this
        cases this
    obtain ⟨r, hr1, hr2⟩ := hrec
    obtain ⟨n, hn⟩ := List.mem_iff_getElem?.1 hr1
    have hn2 : (d.taken ++ d.inbox)[n]? = some r := by
      rw [List.getElem?_append_left (List.getElem?_eq_some_iff.1 hn).1]; exact hn
    refine ⟨n, r, hn, ⟨i, p, hi, by rw [hl]; rfl, by rw [hr2]; exact List.mem_map.2 ⟨_, g1, rfl⟩⟩, ?_⟩
    show f (((d.taken ++ d.inbox)[n]?.map (·.handle)).getD 0) = j
    rw [hn2]
    show f r.handle = j
    rw [hr2]
    obtain ⟨q, hq⟩ := List.mem_iff_getElem?.1 g1
    obtain ⟨c', N, e1, e2, e3, e4, -⟩ := hf x i p k q rq' hi hl hq
    -- the numbers agree
    obtain ⟨N', hN'⟩ := List.mem_iff_getElem?.1 hrq
    obtain ⟨f1, call', f2, f3, -⟩ := taken_frame hr hreq' N' _ hN'
    simp only at f1 f3
    subst f1
    have hmid : m'.header.id = rq'.header.id := reply_id g3
    have hlen : drv.calls.length ≤ 2 ^ 32 := Nat.le_trans (front_calls_le h.inv hdrv) hids
    obtain ⟨d2, call2, k1, k2, -⟩ := h.inv.entered _ c' N e1 e2
    rw [hdrv] at k1
    cases k1
    have hNl := (List.getElem?_eq_some_iff.1 k2).1
    have hKl := (List.getElem?_eq_some_iff.1 f2).1
    have hids' : UInt32.ofNat N = UInt32.ofNat K := by
      have a1 : rq'.header.id = UInt32.ofNat N := by rw [e4]; rfl
      have a2 : rq.header.id = UInt32.ofNat K := by rw [f3]; rfl
      rw [← a1, ← a2, hid, hmid]
    have hNK : N = K := by
      have q := congrArg UInt32.toNat hids'
      rw [UInt32.toNat_ofNat', UInt32.toNat_ofNat'] at q
      rwa [Nat.mod_eq_of_lt (by omega), Nat.mod_eq_of_lt (by omega)] at q
    subst hNK
    exact h.inv.inj _ _ c' c N e1 hc e2 hst

/-! ## Two connections -/

namespace Again

/-- The response to the second call. -/
def resp : Bytes := ReqRep.encode (ReqRep.Message.new 1 0 [9])

/-- The first call's request goes out on a connection that then breaks; the second call's goes out on the next connection, and is answered. -/
def client : List Req.SAct :=
  [.connect, .driver {}, .advance 20000000, .driver {},
    .driver { task := some (some ⟨[.pending, .pending, .pending, .pending, .err], [], [], []⟩) },
    .request [1], .poll 0, .driver {}, .driver {}, .driver { flushAns := [.ok 100, .ok 1] }, .driver {}, .request [2], .poll 1,
    .driver {}, .advance 20000000, .driver {},
    .driver { task := some (some ⟨[.pending, .pending, .pending, .data resp], [], [], []⟩) },
    .driver {}, .driver { flushAns := [.ok 100, .ok 1] }, .driver {}, .driver {}]

/-- Both connections at the reply socket; both requests are received, the second one is answered. -/
def server : List (Rep.SAct Nat) :=
  [.bind some [7], .driver (.accept ⟨0, some 0, ⟨[.data (reqBytes 0 [1])], [], [], []⟩⟩), .driver (.ready 0 true), .driver (.peer 0 ⟨[], []⟩),
    .driver (.accept ⟨1, some 1, ⟨[.data (reqBytes 1 [2])], [], [], []⟩⟩), .driver (.ready 0 true), .driver (.peer 1 ⟨[], []⟩),
    .next, .next, .driver (.respond 1 [9]), .driver (.peer 1 ⟨[], []⟩), .driver (.peer 1 ⟨[], []⟩), .driver (.peer 1 ⟨[.ok 100, .ok 1], []⟩)]

end Again
/-- What both sockets have come to. -/
theorem Again.facts (D : Decompressors) : ∃ (s : Req.Socket) (drv : Req.State) (srv : Rep.Socket Nat) (d : Rep.Driver Nat),
    (Req.Socket.new {} none 0).run D Again.client = .ok s ∧ s.drv = some drv ∧
    (Rep.Socket.new none none none).run D Again.server = .ok srv ∧ srv.drv = some d ∧
    drv.chans.map (fun c => (readSoFar c.input0 c.input, c.wr.wire)) = [([], reqBytes 0 [1]), (Again.resp, reqBytes 1 [2])] ∧
    d.conns.map (fun p => (readSoFar p.input0 p.input, p.wr.wire)) = [(reqBytes 0 [1], []), (reqBytes 1 [2], Again.resp)] ∧
    s.callers.map (·.payload) = [[1], [2]] ∧ d.taken.map (·.msg) = [[1], [2]] ∧ s.result 0 = none ∧ s.result 1 = some (.ok [9]) :=
  ⟨_, _, _, _, rfl, rfl, rfl, rfl, rfl, rfl, rfl, rfl, rfl, rfl⟩

theorem map_two {α β : Type} {f : α → β} {l : List α} {a b : β} (h : l.map f = [a, b]) : ∃ x y, l = [x, y] ∧ f x = a ∧ f y = b := by
  match l with
  | [] => simp at h
  | [x] => simp at h
  | [x, y] => simp only [List.map_cons, List.map_nil, List.cons.injEq, and_true] at h; exact ⟨x, y, rfl, h.1, h.2⟩
  | x :: y :: z :: l => simp at h

/-- The hypotheses of `C112_at_most_once` are met: two connections, two calls, two requests received, one response. -/
example (D : Decompressors) : ∃ (s : Req.Socket) (drv : Req.State) (srv : Rep.Socket Nat) (d : Rep.Driver Nat),
    (Req.Socket.new {} none 0).run D Again.client = .ok s ∧ s.drv = some drv ∧ drv.chans.length = 2 ∧
    (Rep.Socket.new none none none).run D Again.server = .ok srv ∧ srv.drv = some d ∧
    Wired (fun i => if i < 2 then some i else none) drv d ∧
    s.callers.map (·.payload) = [[1], [2]] ∧ d.taken.map (·.msg) = [[1], [2]] ∧ s.result 0 = none ∧ s.result 1 = some (.ok [9]) := by
  obtain ⟨s, drv, srv, d, h1, h2, h3, h4, h5, h6, h7, h8, h9, h10⟩ := Again.facts D
  obtain ⟨c0, c1, hc, e0, e1⟩ := map_two h5
  obtain ⟨p0, p1, hp, f0, f1⟩ := map_two h6
  simp only [Prod.mk.injEq] at e0 e1 f0 f1
  refine ⟨s, drv, srv, d, h1, h2, by rw [hc]; rfl, h3, h4, ⟨?_, ?_, ?_⟩, h7, h8, h9, h10⟩
  · intro i j k hi hj
    split at hi <;> split at hj <;> simp_all
  · intro i k p hq hk
    rw [hp] at hq
    rw [hc]
    match i with
    | 0 => simp only [List.getElem?_cons_zero, Option.some.injEq] at hq; simp at hk; subst hk hq; exact ⟨c0, rfl, by rw [f0.1, e0.2]; exact List.prefix_rfl⟩
    | 1 => simp at hq hk; subst hk hq; exact ⟨c1, rfl, by rw [f1.1, e1.2]; exact List.prefix_rfl⟩
    | i + 2 => exact absurd hk (by rw [if_neg (by omega)]; simp)
  · intro k c hq
    rw [hc] at hq
    rw [hp]
    match k with
    | 0 => simp at hq; subst hq; exact .inl e0.1
    | 1 => simp at hq; subst hq; exact .inr ⟨1, p1, rfl, rfl, by rw [e1.1, f1.2]; exact List.prefix_rfl⟩
    | k + 2 => simp at hq

end MsgRs.Props
