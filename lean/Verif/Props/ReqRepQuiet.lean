import Verif.Props.ReqRepCallers
import Verif.Props.Asleep
import Verif.Proofs.ReadingDry
import Verif.Spec.Quiet
/-!
# C99: when everything is quiet, nothing is unanswered
-/
namespace MsgRs.Props
open MsgRs

section
variable {A : Type} [DecidableEq A]

/-- The driver of a request socket returned `Pending` from a poll, it is connected, and the connection took everything: it has nothing left
to do. -/
theorem C99_client_idle (D : Decompressors) (opts comp) (s : Req.State) (h : ReqReach D opts comp s) (he : s.ended = false)
    (e : Req.Env) (t : Req.State) (hi : s.iter D e = .ok (t, .pending)) (c : Req.Chan) (hc : t.conn = .active c)
    (htook : t.egress = [] ∧ c.wr.buf = []) : Spec.ClientIdle t c := by
  obtain ⟨h1, -⟩ := C90_request_driver D opts comp s h he e t hi
  obtain ⟨k1, -, k3, -⟩ := h1 c hc
  exact ⟨hc, Req.iter_pending_alive he hi, k1, htook.1, htook.2, k3⟩

/-- A connection of a reply socket was polled and had nothing to report, no request of it was dropped, and the connection took everything: it
has nothing left to do. -/
theorem C99_peer_idle (D : Decompressors) (max authn comp) (acts : List (Rep.Act A)) (d : Rep.Driver A)
    (h : (Rep.Driver.new max authn comp : Rep.Driver A).run D acts = .ok d) (k : Nat) (p : Rep.Peer A) (hp : d.peers[k]? = some p)
    (e : Rep.PEnv) (p' : Rep.Peer A) (hi : p.iter d.comp d.slots d.next e = .ok (p', .pending))
    (hnd : ∀ x id, (x, id) ∈ p.pend → d.slots x ≠ .dropped) (htook : p'.egress = [] ∧ p'.wr.buf = []) :
    ∃ d', d.act D (.peer k e) = .ok d' ∧ Spec.PeerIdle d' p' := by
  obtain ⟨h1, -, -, -, h5⟩ := C90_reply_connection_partial D max authn comp acts d h p (List.mem_of_getElem? hp) e p' hi
  refine ⟨{ d with peers := d.peers.set k p' }, ?_, ?_⟩
  · simp only [Rep.Driver.act, Rep.Driver.stepPeer, hp, hi, R.bind_ok, R.pure_eq]
  · exact ⟨List.mem_set (List.getElem?_eq_some_iff.mp hp).1 _, h5 hnd, htook.1, htook.2, h1⟩

/-- C99: a request socket and a reply socket have run together for any time, in any interleaving. Now everything is quiet: the client's
driver and the other end `p` of its connection `c` have nothing left to do, no byte is under way between them, and the server application has received
everything and holds no request (it never dropped one, and the queue to it was never full). Then every call made on the request socket has returned: with a
payload that the server application passed to `respond` for a request with this call's payload, or with a timeout, after more than the configured time; except
those whose request was handed to an earlier connection, which was lost. -/
theorem C99_quiet_answered (D : Decompressors) (opts : Req.Options) (comp : Option Compressor) (now : Nat)
    (max authn rcomp) (s0 s : Req.State) (acts : List (Rep.Act A)) (d : Rep.Driver A)
    (h0 : Req.State.new opts comp now = .ok s0)
    (ht : Spec.Together D s0 (Rep.Driver.new max authn rcomp : Rep.Driver A) s acts d)
    (hinv : ∀ c, comp = some c → Spec.Inverts D c) (hrinv : ∀ c, rcomp = some c → Spec.Inverts D c)
    (hids : s.calls.length ≤ 2 ^ 32)
    (hreq : ∀ call ∈ s.calls, (requestPrepare opts.minCompress comp call.payload).payload.length < 2 ^ 32)
    (hfits : ∀ i b, .respond i b ∈ acts → ∀ id, ∃ m, replyPrepare rcomp id b = some m ∧ m.payload.length < 2 ^ 32)
    (hroom : ∀ pre post d1, acts = pre ++ post → (Rep.Driver.new max authn rcomp : Rep.Driver A).run D pre = .ok d1 →
      d1.inbox.length < 1024)
    (hnodrop : ∀ i, .drop i ∉ acts)
    -- everything is quiet
    (c : Req.Chan) (hc : Spec.ClientIdle s c) (p : Rep.Peer A) (hp : Spec.PeerIdle d p) (hdel : Spec.Delivered c p)
    (hinbox : d.inbox = []) (hheld : d.held = [])
    (n : Nat) (call : Req.Call) (hn : s.calls[n]? = some call) :
    (∃ t, t ≤ s.now ∧
      (((n, Req.Res.timeout, t) ∈ s.done ∧ call.time + opts.timeout < t) ∨
      ∃ b, (n, Req.Res.ok b, t) ∈ s.done ∧ ∃ pre i post d1 r, acts = pre ++ .respond i b :: post ∧
        (Rep.Driver.new max authn rcomp : Rep.Driver A).run D pre = .ok d1 ∧ d1.held[i]? = some r ∧
        r.msg = call.payload)) ∨
    ∃ c' ∈ s.past, n ∈ c'.sent.map (·.1) := by
  obtain ⟨hr, hd, hnet, hasked, hset, hends⟩ := together_inv h0 ht hids hreq hfits
  have hi := hr.inv
  have hcc : c ∈ s.chans := by rw [Req.chans_active hc.conn]; simp
  have hpc : p ∈ d.conns := List.mem_append_left _ hp.served
  have hdi := Rep.run_reach max authn rcomp acts hd
  have hcore := (hdi.peers p hp.served).1
  have hlive := (hdi.peers p hp.served).2
  have hfa := Fits.answers (A := A) hfits hd
  -- all requests have been read
  have hiss : p.issued.map (·.2) = c.sent.map (·.2) := by
    refine hlive.reads.dry ReqRep.inc ReqRep.decode_nil hp.dry ?_
    have hdr := drains_encoded ReqRep.codec ReqRep.encode ReqRep.decode_nil ReqRep.Message.WF ReqRep.decode_encode
      (c.sent.map (·.2)) (by
        intro m hm
        obtain ⟨y, hy, rfl⟩ := List.mem_map.mp hm
        obtain ⟨k, hk⟩ := List.mem_iff_getElem?.mp (sent_taken hi hcc hy)
        exact (taken_frame hr hreq k y hk).2.choose_spec.2.2)
    have hb := (hi.chans.chan c hcc).bytes
    rw [hc.flushed, List.append_nil] at hb
    rw [List.flatMap_map, ← hb, ← hdel.1] at hdr
    exact hdr
  -- all requests have been answered
  have hdec : ∀ x q, (x, q) ∈ p.issued → tryDecompress D q.header.ctype q.payload ≠ none := by
    intro x q hx
    have hq : q ∈ c.sent.map (·.2) := by rw [← hiss]; exact List.mem_map.mpr ⟨_, hx, rfl⟩
    obtain ⟨y, hy, rfl⟩ := List.mem_map.mp hq
    exact sent_decodes hr hinv hreq hcc hy
  have hans : ∀ x q, (x, q) ∈ p.issued → ∃ m, (x, m) ∈ p.answers ∧ m.header.id = q.header.id := by
    intro x q hx
    obtain ⟨b, hb⟩ := issued_responded hd hpc hdec hroom hnodrop hinbox hheld x q hx
    rcases issued_answered hd hfits hpc hcore hcore rfl rfl x q hx hb with h1 | h1
    · exact h1
    · obtain ⟨⟨x', id⟩, hm, rfl⟩ := List.mem_map.mp h1
      have := hp.answered x' id hm
      simp only at hb
      rw [hb] at this
      cases this
  -- all responses have been read
  have hgot : c.got = p.answers.map (·.2) := by
    refine (hi.chans.cur hc.running c hc.conn).dry ReqRep.inc ReqRep.decode_nil hc.dry ?_
    have hw : p.wr.wire = (p.answers.map (·.2)).flatMap ReqRep.encode := by
      have h1 := hcore.bytes
      have h2 := hcore.out
      rw [hp.flushed, List.append_nil] at h1
      rw [hp.handed, List.append_nil] at h2
      rw [h1, h2]
    have hdr := drains_encoded ReqRep.codec ReqRep.encode ReqRep.decode_nil ReqRep.Message.WF ReqRep.decode_encode
      (p.answers.map (·.2)) (by
        intro m hm
        obtain ⟨x, hx, rfl⟩ := List.mem_map.mp hm
        obtain ⟨-, -, h3, -⟩ := C42_responses_match D max authn rcomp acts d hd p hpc
        obtain ⟨rq, b, -, e1, -⟩ := h3 x.1 x.2 hx
        exact reply_wf e1 (hfa p hpc x hx))
    rw [← hw, ← hdel.2] at hdr
    exact hdr
  -- the request of the call was handed to this connection or an earlier one
  have hlen := hi.calls.len hc.running
  rw [hc.taken, List.length_nil, Nat.add_zero] at hlen
  have hlt : n < s.taken.length := by
    rw [hlen]
    exact (List.getElem?_eq_some_iff.mp hn).1
  obtain ⟨y, hy⟩ : ∃ y, s.taken[n]? = some y := ⟨_, List.getElem?_eq_getElem hlt⟩
  have hyn := (hi.calls.taken n y hy).1
  have hym := List.mem_of_getElem? hy
  rw [← hi.chans.flow, hc.handed, List.append_nil, Req.chans_active hc.conn] at hym
  simp only [List.flatMap_append, List.flatMap_cons, List.flatMap_nil, List.append_nil, List.mem_append] at hym
  rcases hym with hym | hym
  · obtain ⟨c', h1, h2⟩ := List.mem_flatMap.mp hym
    exact .inr ⟨c', h1, List.mem_map.mpr ⟨y, h2, hyn⟩⟩
  · left
    obtain ⟨call', t, k1, k2, k3⟩ := call_returned hr hd hnet hset hends hinv hrinv hids hreq hfits hcc hc.running hiss hans hgot y.1 y.2 hym
    rw [hyn] at k1 k3
    rw [hn] at k1
    cases k1
    exact ⟨t, k2, k3⟩

/-- C99, for the calls as the users make them: when everything is quiet (also: every call that waits for room in the queue to the driver has been polled since there is room), every call whose
future was not dropped has returned: with a payload that the server application passed to `respond` for a request with this call's payload, or with a timeout, if more than the
configured time has passed; with an error if it was made before the socket was connected; except those whose request was handed to an earlier
connection, which was lost. -/
theorem C99_quiet_callers (D : Decompressors) (opts : Req.Options) (comp : Option Compressor) (now : Nat)
    (max authn rcomp) (s : Req.Socket) (acts : List (Rep.Act A)) (d : Rep.Driver A)
    (ht : Spec.CallersTogether D (Req.Socket.new opts comp now) (Rep.Driver.new max authn rcomp : Rep.Driver A) s acts d)
    (hinv : ∀ c, comp = some c → Spec.Inverts D c) (hrinv : ∀ c, rcomp = some c → Spec.Inverts D c)
    (hids : s.callers.length ≤ 2 ^ 32)
    (hreq : ∀ c ∈ s.callers, (requestPrepare opts.minCompress comp c.payload).payload.length < 2 ^ 32)
    (hfits : ∀ i b, .respond i b ∈ acts → ∀ id, ∃ m, replyPrepare rcomp id b = some m ∧ m.payload.length < 2 ^ 32)
    (hroom : ∀ pre post d1, acts = pre ++ post → (Rep.Driver.new max authn rcomp : Rep.Driver A).run D pre = .ok d1 →
      d1.inbox.length < 1024)
    (hnodrop : ∀ i, .drop i ∉ acts)
    -- everything is quiet
    (drv : Req.State) (hdrv : s.drv = some drv)
    (hpolled : ∀ i, s.act D (.poll i) = .ok s) (hdropped : s.dropped = false)
    (c : Req.Chan) (hc : Spec.ClientIdle drv c) (p : Rep.Peer A) (hp : Spec.PeerIdle d p) (hdel : Spec.Delivered c p)
    (hinbox : d.inbox = []) (hheld : d.held = [])
    (i : Nat) (call : Req.Caller) (hi : s.callers[i]? = some call) (hcan : call.cancelled = false) :
    (s.result i = some .timeout ∧ call.time + opts.timeout < s.now) ∨
    (∃ b, s.result i = some (.ok b) ∧ ∃ pre j post d1 r, acts = pre ++ .respond j b :: post ∧
      (Rep.Driver.new max authn rcomp : Rep.Driver A).run D pre = .ok d1 ∧ d1.held[j]? = some r ∧ r.msg = call.payload) ∨
    (s.result i = some .closed ∧ call.stage = .refused) ∨
    ∃ c' ∈ drv.past, ∃ n ∈ c'.sent.map (·.1), call.stage = .entered n := by
  obtain ⟨hr, hts⟩ := callers_together ht
  obtain ⟨now', s0, h0, hT⟩ := hts drv hdrv
  have hf := hr.inv
  obtain ⟨ho, hcp'⟩ := hr.opts
  obtain ⟨hreach, hnow, -⟩ := hf.reach drv hdrv
  have hnd := (C33_at_most_once D _ _ drv hreach).1
  cases hst : call.stage with
  | refused =>
    refine .inr (.inr (.inl ⟨?_, rfl⟩))
    unfold Req.Socket.result
    simp only [hi, hcan, hst]
    rfl
  | waiting =>
    exfalso
    have h1 := hpolled i
    simp only [Req.Socket.act, Req.Socket.pollCall, hi, hdrv, hst, hcan, hdropped, hc.running, hc.taken] at h1
    simp only [and_self, if_true, Bool.false_eq_true, if_false, List.length_nil, Req.chanCap, Nat.zero_lt_succ] at h1
    cases hact : drv.act D (.request call.payload) with
    | panic => simp [hact] at h1
    | ok d' =>
      simp only [hact, R.bind_ok, R.pure_eq, R.ok.injEq] at h1
      have h2 := congrArg (fun x : Req.Socket => x.callers[i]?) h1
      simp only [List.getElem?_set_self (List.getElem?_eq_some_iff.mp hi).1, hi, Option.some.injEq] at h2
      have := congrArg Req.Caller.stage h2
      simp only [hst] at this
      cases this
  | entered n =>
    obtain ⟨drv', call'', g1, g2, g3, g4⟩ := hf.entered i call n hi hst
    rw [hdrv] at g1
    cases g1
    have res : ∀ r t, (n, r, t) ∈ drv.done → s.result i = some r := by
      intro r t hd
      unfold Req.Socket.result
      rw [hi]
      simp only [hcan, hst, hdrv, Option.bind_some, done_lookup hnd hd]
      rfl
    rcases C99_quiet_answered D opts comp now' max authn rcomp s0 drv acts d h0 hT hinv hrinv
      (Nat.le_trans (front_calls_le hf hdrv) hids) (by
        intro x hx
        obtain ⟨k, hk, hk2⟩ := List.getElem_of_mem hx
        obtain ⟨i, c, x', e1, e2, e3, e4⟩ := front_callOf hf hdrv k hk
        rw [List.getElem?_eq_getElem hk, hk2] at e3
        cases e3
        rw [e4]
        exact hreq c (List.mem_of_getElem? e1)) hfits hroom hnodrop c hc p hp hdel hinbox hheld n call'' g2 with ⟨t, k2, k3⟩ | ⟨c', k1, k2⟩
    · rcases k3 with ⟨k3, k4⟩ | ⟨b, k3, pre, j, post, d1, r, k4, k5, k6, k7⟩
      · exact .inl ⟨res _ _ k3, by omega⟩
      · exact .inr (.inl ⟨b, res _ _ k3, pre, j, post, d1, r, k4, k5, k6, by rw [k7, g3]⟩)
    · exact .inr (.inr (.inr ⟨c', k1, n, k2, rfl⟩))

/-! ### A history that meets the hypotheses -/

/-- `Spec.Dry`, computed. -/
def isDry (r : Reader ReqRep.State) : Bool :=
  match r.pollNext ReqRep.codec [] with
  | .ok (.pending, r', []) => decide (r' = r)
  | _ => false

theorem isDry_spec {r : Reader ReqRep.State} (h : isDry r = true) : Spec.Dry ReqRep.codec r := by
  unfold isDry at h
  unfold Spec.Dry
  split at h
  · rename_i r' hp
    rw [hp, of_decide_eq_true h]
  · cases h

/-- Polling a call that has entered the queue, was refused or given up changes nothing. -/
theorem poll_idle {D : Decompressors} {s : Req.Socket} (h : ∀ c ∈ s.callers, c.stage = .waiting → c.cancelled = true) (i : Nat) :
    s.act D (.poll i) = .ok s := by
  simp only [Req.Socket.act, Req.Socket.pollCall]
  split
  · rename_i c d hc hd
    rw [if_neg]
    rintro ⟨h1, h2, -⟩
    rw [h c (List.mem_of_getElem? hc) h1] at h2
    cases h2
  · rfl

end

/-- The joint history `callerActs` (three calls, one of them given up, the other two answered in the other order) meets all hypotheses of `C99_quiet_callers`. -/
example : let D : Decompressors := ⟨fun _ => none, fun _ => none, fun _ => none, fun _ => none⟩
    ∃ s d drv c p, Spec.CallersTogether D (Req.Socket.new {} none 0) (Rep.Driver.new none none none : Rep.Driver Nat) s (callersServer callerActs) d ∧
      (∀ pre post d1, callersServer callerActs = pre ++ post →
        (Rep.Driver.new none none none : Rep.Driver Nat).run D pre = .ok d1 → d1.inbox.length < 1024) ∧
      (∀ i, .drop i ∉ callersServer callerActs) ∧
      s.drv = some drv ∧ (∀ i, s.act D (.poll i) = .ok s) ∧ s.dropped = false ∧
      Spec.ClientIdle drv c ∧ Spec.PeerIdle d p ∧ Spec.Delivered c p ∧ d.inbox = [] ∧ d.held = [] ∧ drv.past.length = 0 ∧
      s.callers.map (fun x => (x.stage, x.cancelled)) = [(.entered 0, false), (.entered 1, false), (.waiting, true)] ∧
      s.result 0 = some (.ok [20, 20]) ∧ s.result 1 = some (.ok [21]) ∧ s.result 2 = none := by
  intro D
  have key : (match playCallers D (Req.Socket.new {} none 0) (Rep.Driver.new none none none : Rep.Driver Nat) callerActs with
      | none => false
      | some (s, d) =>
        match s.drv with
        | none => false
        | some drv =>
          match drv.conn, d.peers with
          | .active c, [p] => decide (drv.ended = false ∧ drv.queue = [] ∧ drv.egress = [] ∧ c.wr.buf = [] ∧ isDry c.rd = true ∧
              p.pend = [] ∧ p.egress = [] ∧ p.wr.buf = [] ∧ isDry p.rd = true ∧
              Spec.readSoFar p.input0 p.input = c.wr.wire ∧ Spec.readSoFar c.input0 c.input = p.wr.wire ∧
              d.inbox = [] ∧ d.held = [] ∧ drv.past.length = 0 ∧ s.dropped = false ∧
              (∀ c ∈ s.callers, c.stage = .waiting → c.cancelled = true) ∧
              s.callers.map (fun x => (x.stage, x.cancelled)) = [(.entered 0, false), (.entered 1, false), (.waiting, true)] ∧
              s.result 0 = some (.ok [20, 20]) ∧ s.result 1 = some (.ok [21]) ∧ s.result 2 = none)
          | _, _ => false) = true := by decide +kernel
  cases hpl : playCallers D (Req.Socket.new {} none 0) (Rep.Driver.new none none none : Rep.Driver Nat) callerActs with
  | none => rw [hpl] at key; cases key
  | some x =>
    obtain ⟨s, d⟩ := x
    rw [hpl] at key
    simp only at key
    obtain ⟨ht, hroom⟩ := playCallers_together (acts := []) callerActs .start hpl
    cases hdrv : s.drv with
    | none => rw [hdrv] at key; cases key
    | some drv =>
      rw [hdrv] at key
      simp only at key
      cases hc : drv.conn with
      | inactive b => rw [hc] at key; cases key
      | active c =>
        rw [hc] at key
        cases hp : d.peers with
        | nil => rw [hp] at key; cases key
        | cons p ps =>
          rw [hp] at key
          cases ps with
          | cons _ _ => cases key
          | nil =>
            simp only [decide_eq_true_eq] at key
            obtain ⟨k1, k2, k3, k4, k5, k6, k7, k8, k9, k10, k11, k12, k13, k14, k15, k16, k17⟩ := key
            refine ⟨s, d, drv, c, p, ht, hroom, ?_, hdrv, poll_idle k16, k15, ⟨hc, k1, k2, k3, k4, isDry_spec k5⟩,
              ⟨by rw [hp]; simp, by rw [k6]; simp, k7, k8, isDry_spec k9⟩, ⟨k10, k11⟩, k12, k13, k14, k17⟩
            intro i
            simp [callersServer, callerActs]

end MsgRs.Props
