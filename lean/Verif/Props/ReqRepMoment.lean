import Verif.Props.ReqRepAccounted
import Verif.Spec.Whereabouts
/-!
# C99 at any moment: where each call is
-/
namespace MsgRs.Props
open MsgRs
variable {A : Type} [DecidableEq A]

/-- A response is the response to a request that the application received, with this connection's address and the payload of the request. -/
theorem responded_request {D : Decompressors} {max authn rcomp} {acts : List (Rep.Act A)} {d : Rep.Driver A}
    (hd : (Rep.Driver.new max authn rcomp : Rep.Driver A).run D acts = .ok d) {r : Rep.Request A} (hr : r ∈ d.taken) {b : Bytes}
    (hb : d.slots r.handle = .responded b) : ∃ pre i post d1 r', acts = pre ++ .respond i b :: post ∧
      (Rep.Driver.new max authn rcomp : Rep.Driver A).run D pre = .ok d1 ∧ d1.held[i]? = some r' ∧ r' = r := by
  obtain ⟨pre, a, post, d1, d2, g1, g2, g3, g4, g5⟩ := Rep.run_first (P := fun d => d.slots r.handle = .responded b) acts hd
    (by simp [Rep.Driver.new]) hb
  obtain ⟨i, r1, rfl, f2, f3⟩ := Rep.act_responded a g4 g5 g3
  refine ⟨pre, i, post, d1, r1, g1, g2, f2, ?_⟩
  have hd1 := Rep.run_reach max authn rcomp pre g2
  have h1 : r1 ∈ d1.taken := hd1.held.subset (List.mem_of_getElem? f2)
  have h2 : r1 ∈ d.taken := by
    rw [g1, Rep.run_append, g2] at hd
    exact (run_taken _ hd).subset h1
  have hdi := Rep.run_reach max authn rcomp acts hd
  have hnd : ((d.taken ++ d.inbox).map (·.handle)).Nodup := by
    have e : (d.taken ++ d.inbox).map (·.handle) = (Rep.deliveredOf d.log).map (·.1) := by
      rw [← hdi.inbox, List.map_map]; rfl
    rw [e]
    exact (Rep.deliveredOf_sub d.log).nodup (by rw [hdi.log]; exact List.nodup_range)
  exact List.nodup_map_inj hnd (List.mem_append_left _ h2) (List.mem_append_left _ hr) f3

/-- C99 at any moment: a request socket and a reply socket have run together for any time, in any interleaving, and the driver of the request socket is running. Nothing is assumed about what is left to do, on either
side. Then every call made on the request socket (1) has returned, with a payload that the server application passed to `respond` for a request with this call's payload, or with a timeout, after more than the
configured time; or (2) its request waits for the driver, or (3) for a connection to take it; or it was handed to a connection `c`, as the `k`-th of its requests, and whatever connection `p` of the reply socket may be
the other end of `c`: (4) the request is under way to it, (5) waits for the application or is held by it, (6) was dropped by it, (7) was turned away by a full queue, or (8) the application
responded to it and the response is under way. -/
theorem C99_any_moment (D : Decompressors) (opts : Req.Options) (comp : Option Compressor) (now : Nat)
    (max authn rcomp) (s0 s : Req.State) (acts : List (Rep.Act A)) (d : Rep.Driver A)
    (h0 : Req.State.new opts comp now = .ok s0)
    (ht : Spec.Together D s0 (Rep.Driver.new max authn rcomp : Rep.Driver A) s acts d)
    (hinv : ∀ c, comp = some c → Spec.Inverts D c) (hrinv : ∀ c, rcomp = some c → Spec.Inverts D c)
    (hids : s.calls.length ≤ 2 ^ 32)
    (hreq : ∀ call ∈ s.calls, (requestPrepare opts.minCompress comp call.payload).payload.length < 2 ^ 32)
    (hfits : ∀ i b, .respond i b ∈ acts → ∀ id, ∃ m, replyPrepare rcomp id b = some m ∧ m.payload.length < 2 ^ 32)
    (hend : s.ended = false) (n : Nat) (call : Req.Call) (hn : s.calls[n]? = some call) :
    (∃ t, t ≤ s.now ∧
      (((n, Req.Res.timeout, t) ∈ s.done ∧ call.time + opts.timeout < t) ∨
      ∃ b, (n, Req.Res.ok b, t) ∈ s.done ∧ ∃ pre i post d1 r, acts = pre ++ .respond i b :: post ∧
        (Rep.Driver.new max authn rcomp : Rep.Driver A).run D pre = .ok d1 ∧ d1.held[i]? = some r ∧
        r.msg = call.payload)) ∨
    (n, call.payload) ∈ s.queue ∨
    (∃ rq, (n, rq) ∈ s.egress) ∨
    ∃ c ∈ s.chans, ∃ k rq, c.sent[k]? = some (n, rq) ∧ ∀ p ∈ d.conns, Spec.Linked c p →
      Spec.Whereabouts D (Rep.Driver.new max authn rcomp) acts d c p call.payload k := by
  obtain ⟨hr, hd, hnet, hasked, hset, hends⟩ := together_inv h0 ht hids hreq hfits
  have hi := hr.inv
  have hfa := Fits.answers (A := A) hfits hd
  have hlen := hi.calls.len hend
  have hnl := (List.getElem?_eq_some_iff.mp hn).1
  refine Classical.byCases Or.inl fun hret => .inr ?_
  by_cases hq : n < s.taken.length
  · obtain ⟨y, hy⟩ : ∃ y, s.taken[n]? = some y := ⟨_, List.getElem?_eq_getElem hq⟩
    obtain ⟨e1, call', e2, e3, e4⟩ := taken_frame hr hreq n y hy
    rw [hn] at e2
    cases e2
    obtain ⟨n', rq⟩ := y
    simp only at e1 e3 e4
    subst e1
    have hym := List.mem_of_getElem? hy
    rw [← hi.chans.flow] at hym
    rcases List.mem_append.mp hym with hym | hym
    · obtain ⟨c, hcc, hcs⟩ := List.mem_flatMap.mp hym
      obtain ⟨k, hk⟩ := List.mem_iff_getElem?.mp hcs
      refine .inr (.inr ⟨c, hcc, k, rq, hk, fun p hpc hl => ?_⟩)
      have hcore := conns_core hd hpc
      have hiss := issued_sent hr hd hreq hcc hpc hl.2
      have hgot := got_answers hr hd hcc hpc (hfa p hpc) hl.1
      by_cases hkl : p.issued.length ≤ k
      · exact (.toServer hkl)
      · obtain ⟨⟨x, rq'⟩, hx⟩ : ∃ z, p.issued[k]? = some z := ⟨_, List.getElem?_eq_getElem (by omega)⟩
        have hrq : rq' = rq := by
          have h1 : (p.issued.map (·.2))[k]? = some rq' := by rw [List.getElem?_map, hx]; rfl
          obtain ⟨z, hz⟩ := hiss
          have h2 : (c.sent.map (·.2))[k]? = some rq' := by
            rw [← hz, List.getElem?_append_left (by rw [List.length_map]; omega)]; exact h1
          rw [List.getElem?_map, hk] at h2
          exact (Option.some.inj h2).symm
        subst hrq
        have hxm := List.mem_of_getElem? hx
        have hpay : tryDecompress D rq'.header.ctype rq'.payload = some call.payload := by
          obtain ⟨mm, q1, -, q2⟩ := C13_request_transparent D opts.minCompress comp hinv (UInt32.ofNat n') call.payload []
            (hreq call (List.mem_of_getElem? hn))
          rw [ReqRep.decode_encode _ _ (by
            simp only [ReqMsg.intoWire, ReqRep.Message.WF, ReqRep.Message.new, UInt32.toNat_ofNat']
            exact Nat.mod_eq_of_lt (hreq call (List.mem_of_getElem? hn)))] at q1
          cases q1
          rw [e3]
          exact q2
        obtain ⟨k1, -, -⟩ := C44_delivered_in_order_partial D max authn rcomp acts d hd p hpc
        rcases k1 x rq' hxm with ⟨r, h1, h2, h3, h4⟩ | h1 | ⟨pre, j, e, post, d1, q, g1, g2, g3, g4, g5⟩
        · have hmsg : r.msg = call.payload := by rw [hpay] at h4; exact (Option.some.inj h4).symm
          rcases List.mem_append.mp h1 with h1 | h1
          · rcases kept_all hd r h1 with ⟨pre, i, post, d1, g1, g2, g3⟩ | g | ⟨b, g⟩
            · exact (.dropped pre post i d1 r g1 g2 g3 h3 hmsg)
            · exact (.atServer r (List.mem_append_right _ g) h3 hmsg)
            · obtain ⟨pre, i, post, d1, r', g1, g2, g3, rfl⟩ := responded_request hd h1 g
              rw [h2] at g
              rcases issued_answered hd hfits hpc hcore hcore rfl rfl x rq' hxm g with ⟨m, hm, hid⟩ | hp
              · obtain ⟨j, hj⟩ := List.mem_iff_getElem?.mp hm
                by_cases hjl : c.got.length ≤ j
                · exact (.toClient pre post i b d1 r' g1 g2 g3 h3 hmsg (.inr ⟨j, m, by rw [h2]; exact hj, hjl⟩))
                · refine absurd ?_ hret
                  have hmg : m ∈ c.got := by
                    have h5 : (p.answers.map (·.2))[j]? = some m := by rw [List.getElem?_map, hj]; rfl
                    obtain ⟨z, hz⟩ : ∃ z, c.got[j]? = some z := ⟨_, List.getElem?_eq_getElem (by omega)⟩
                    obtain ⟨w, hw⟩ := hgot
                    have h6 : (p.answers.map (·.2))[j]? = some z := by
                      rw [← hw, List.getElem?_append_left (by omega)]; exact hz
                    rw [h5] at h6
                    cases h6
                    exact List.mem_of_getElem? hz
                  obtain ⟨call', t, k1, k2, k3⟩ := call_returned_one (p := { p with answers := c.got.map fun m => (0, m) }) hr hd hnet hset hends hinv hrinv hids hreq hfits hcc hend
                    (by simp [List.map_map, Function.comp_def]) n' rq' hcs ⟨0, m, List.mem_map.mpr ⟨m, hmg, rfl⟩, hid⟩
                  rw [hn] at k1
                  cases k1
                  exact ⟨t, k2, k3⟩
              · exact (.toClient pre post i b d1 r' g1 g2 g3 h3 hmsg (.inl (by rw [h2]; exact hp)))
          · exact (.atServer r (List.mem_append_left _ h1) h3 hmsg)
        · rw [hpay] at h1; cases h1
        · exact (.turnedAway pre post j e d1 q g1 g2 g3 g4 g5)
    · exact .inr (.inl ⟨rq, hym⟩)
  · left
    obtain ⟨⟨m, pl⟩, hx⟩ : ∃ x, s.queue[n - s.taken.length]? = some x := ⟨_, List.getElem?_eq_getElem (by omega)⟩
    obtain ⟨h1, call', h2, h3⟩ := hi.calls.queue _ _ hx
    simp only at h1 h2 h3
    have : m = n := by omega
    subst this
    rw [hn] at h2
    cases h2
    rw [h3]
    exact List.mem_of_getElem? hx

/-- C99, in one place each: at any moment while the driver of a request socket is running, the calls made on it are, in the order in which they were made, those whose requests were handed to its connections (one connection after the other), then those whose
requests wait for a connection to take them, then those that wait for the driver; each is there exactly once. -/
theorem C99_one_place (D : Decompressors) (opts : Req.Options) (comp : Option Compressor) (s : Req.State) (h : ReqReach D opts comp s) (hend : s.ended = false) :
    (s.chans.flatMap (·.sent)).map (·.1) ++ s.egress.map (·.1) ++ s.queue.map (·.1) = List.range s.calls.length := by
  have hi := h.inv
  have hlen := hi.calls.len hend
  rw [← List.map_append, hi.chans.flow, ← hlen]
  apply List.ext_getElem?
  intro n
  by_cases h1 : n < s.taken.length
  · rw [List.getElem?_append_left (by simpa using h1), List.getElem?_map, List.getElem?_eq_getElem h1, List.getElem?_range (by omega)]
    exact congrArg some (hi.calls.taken n _ (List.getElem?_eq_getElem h1)).1
  · rw [List.getElem?_append_right (by simpa using h1), List.length_map, List.getElem?_map]
    by_cases h2 : n < s.taken.length + s.queue.length
    · have h3 : n - s.taken.length < s.queue.length := by omega
      rw [List.getElem?_eq_getElem h3, List.getElem?_range h2]
      have := (hi.calls.queue _ _ (List.getElem?_eq_getElem h3)).1
      exact congrArg some (this.trans (by omega))
    · rw [List.getElem?_eq_none (by omega), List.getElem?_eq_none (by simpa using h2)]
      rfl

/-- C99 at any moment, for the calls as the users make them: every call whose future was not dropped (1) has returned, with a payload that the server application passed to `respond` for a request with this call's payload,
or with a timeout, if more than the configured time has passed, or with an error if it was made before the socket was connected; or (2) it waits for room in the queue to the driver; or its request (3) waits for the driver, or (4)
for a connection to take it; or (5) it was handed to a connection, and is where `Spec.Whereabouts` says. -/
theorem C99_any_moment_callers (D : Decompressors) (opts : Req.Options) (comp : Option Compressor) (now : Nat)
    (max authn rcomp) (s : Req.Socket) (acts : List (Rep.Act A)) (d : Rep.Driver A)
    (ht : Spec.CallersTogether D (Req.Socket.new opts comp now) (Rep.Driver.new max authn rcomp : Rep.Driver A) s acts d)
    (hinv : ∀ c, comp = some c → Spec.Inverts D c) (hrinv : ∀ c, rcomp = some c → Spec.Inverts D c)
    (hids : s.callers.length ≤ 2 ^ 32)
    (hreq : ∀ c ∈ s.callers, (requestPrepare opts.minCompress comp c.payload).payload.length < 2 ^ 32)
    (hfits : ∀ i b, .respond i b ∈ acts → ∀ id, ∃ m, replyPrepare rcomp id b = some m ∧ m.payload.length < 2 ^ 32)
    (drv : Req.State) (hdrv : s.drv = some drv) (hend : drv.ended = false)
    (i : Nat) (call : Req.Caller) (hi : s.callers[i]? = some call) (hcan : call.cancelled = false) :
    (s.result i = some .timeout ∧ call.time + opts.timeout < s.now) ∨
    (∃ b, s.result i = some (.ok b) ∧ ∃ pre j post d1 r, acts = pre ++ .respond j b :: post ∧
      (Rep.Driver.new max authn rcomp : Rep.Driver A).run D pre = .ok d1 ∧ d1.held[j]? = some r ∧ r.msg = call.payload) ∨
    (s.result i = some .closed ∧ call.stage = .refused) ∨
    call.stage = .waiting ∨
    ∃ n, call.stage = .entered n ∧ ((n, call.payload) ∈ drv.queue ∨ (∃ rq, (n, rq) ∈ drv.egress) ∨
      ∃ c ∈ drv.chans, ∃ k rq, c.sent[k]? = some (n, rq) ∧ ∀ p ∈ d.conns, Spec.Linked c p →
        Spec.Whereabouts D (Rep.Driver.new max authn rcomp) acts d c p call.payload k) := by
  obtain ⟨hr, hts⟩ := callers_together ht
  obtain ⟨now', s0, h0, hT⟩ := hts drv hdrv
  have hf := hr.inv
  obtain ⟨hreach, hnow, -⟩ := hf.reach drv hdrv
  have hnd := (C33_at_most_once D _ _ drv hreach).1
  cases hst : call.stage with
  | refused =>
    refine .inr (.inr (.inl ⟨?_, rfl⟩))
    unfold Req.Socket.result
    simp only [hi, hcan, hst]
    rfl
  | waiting => exact .inr (.inr (.inr (.inl rfl)))
  | entered n =>
    obtain ⟨drv', call'', g1, g2, g3, g4⟩ := hf.entered i call n hi hst
    rw [hdrv] at g1
    cases g1
    have res : ∀ r t, (n, r, t) ∈ drv.done → s.result i = some r := by
      intro r t hd
      unfold Req.Socket.result
      rw [hi]
      simp only [hcan, hst, hdrv, Option.bind_some, done_lookup hnd hd]
      rfl
    rcases C99_any_moment D opts comp now' max authn rcomp s0 drv acts d h0 hT hinv hrinv
      (Nat.le_trans (front_calls_le hf hdrv) hids) (by
        intro x hx
        obtain ⟨k, hk, hk2⟩ := List.getElem_of_mem hx
        obtain ⟨i, c, x', e1, e2, e3, e4⟩ := front_callOf hf hdrv k hk
        rw [List.getElem?_eq_getElem hk, hk2] at e3
        cases e3
        rw [e4]
        exact hreq c (List.mem_of_getElem? e1)) hfits hend n call'' g2 with ⟨t, k2, k3⟩ | k1
    · rcases k3 with ⟨k3, k4⟩ | ⟨b, k3, pre, j, post, d1, r, k4, k5, k6, k7⟩
      · exact .inl ⟨res _ _ k3, by omega⟩
      · exact .inr (.inl ⟨b, res _ _ k3, pre, j, post, d1, r, k4, k5, k6, by rw [k7, g3]⟩)
    · rw [g3] at k1
      exact .inr (.inr (.inr (.inr ⟨n, rfl, k1⟩)))

/-- Four calls, in the middle of things: the application has responded to the first, whose response the connection has not taken; the second waits for the application; the third has not been read by the server; the fourth has not been taken by
the client's driver. -/
def momentActs : List (Req.SAct ⊕ Rep.Act Nat) :=
  let e : Rep.PEnv := ⟨[.ok 100, .ok 1], []⟩
  let ce : Req.SAct := .driver { flushAns := [.ok 100, .ok 1] }
  [.inl .connect, .inl (.driver {}), .inl (.advance 20000000), .inl (.driver {}), .inl (.request [10]), .inl (.request [11]), .inl (.request [12]),
   .inl (.poll 0), .inl (.poll 1), .inl (.poll 2),
   .inl (.driver { task := some (some ⟨[.pending, .pending, .pending, .pending, .pending, .pending, .pending, .pending, .data (reqBytes 0 [20])], [], [], []⟩) }),
   .inl ce, .inl ce, .inl ce, .inl ce, .inl ce, .inl ce, .inl (.request [13]), .inl (.poll 3),
   .inr (.accept ⟨1, some 7, ⟨[.data (reqBytes 0 [10] ++ reqBytes 1 [11] ++ reqBytes 2 [12])], [], [], []⟩⟩),
   .inr (.ready 0 true), .inr (.peer 0 e), .inr .recv, .inr (.peer 0 e), .inr (.respond 0 [20])]

/-- It meets all hypotheses of `C99_any_moment_callers`, and each of the four calls is somewhere else. -/
example : let D : Decompressors := ⟨fun _ => none, fun _ => none, fun _ => none, fun _ => none⟩
    ∃ s d drv c p, Spec.CallersTogether D (Req.Socket.new {} none 0) (Rep.Driver.new none none none : Rep.Driver Nat) s (callersServer momentActs) d ∧
      s.drv = some drv ∧ drv.ended = false ∧ drv.conn = .active c ∧ p ∈ d.conns ∧ Spec.Linked c p ∧
      s.callers.map (fun x => (x.stage, x.cancelled)) = [(.entered 0, false), (.entered 1, false), (.entered 2, false), (.entered 3, false)] ∧
      s.result 0 = none ∧ s.result 1 = none ∧ s.result 2 = none ∧ s.result 3 = none ∧ c.sent.map (·.1) = [0, 1, 2] ∧ drv.queue = [(3, [13])] ∧
      p.issued.length = 2 ∧ p.pend.map (·.1) = [0, 1] ∧ d.inbox.map (·.msg) = [[11]] ∧ d.held.length = 0 := by
  intro D
  have key : (match playCallers D (Req.Socket.new {} none 0) (Rep.Driver.new none none none : Rep.Driver Nat) momentActs with
      | none => false
      | some (s, d) =>
        match s.drv with
        | none => false
        | some drv =>
          match drv.conn, d.peers with
          | .active c, [p] => decide (drv.ended = false ∧
              (Spec.readSoFar c.input0 c.input).isPrefixOf p.wr.wire = true ∧ (Spec.readSoFar p.input0 p.input).isPrefixOf c.wr.wire = true ∧
              s.callers.map (fun x => (x.stage, x.cancelled)) = [(.entered 0, false), (.entered 1, false), (.entered 2, false), (.entered 3, false)] ∧
              s.result 0 = none ∧ s.result 1 = none ∧ s.result 2 = none ∧ s.result 3 = none ∧ c.sent.map (·.1) = [0, 1, 2] ∧ drv.queue = [(3, [13])] ∧
              p.issued.length = 2 ∧ p.pend.map (·.1) = [0, 1] ∧ d.inbox.map (·.msg) = [[11]] ∧ d.held.length = 0)
          | _, _ => false) = true := by decide +kernel
  cases hpl : playCallers D (Req.Socket.new {} none 0) (Rep.Driver.new none none none : Rep.Driver Nat) momentActs with
  | none => rw [hpl] at key; cases key
  | some x =>
    obtain ⟨s, d⟩ := x
    rw [hpl] at key
    simp only at key
    obtain ⟨ht, -⟩ := playCallers_together (acts := []) momentActs .start hpl
    cases hdrv : s.drv with
    | none => rw [hdrv] at key; cases key
    | some drv =>
      rw [hdrv] at key
      simp only at key
      cases hc : drv.conn with
      | inactive b => rw [hc] at key; cases key
      | active c =>
        rw [hc] at key
        cases hp : d.peers with
        | nil => rw [hp] at key; cases key
        | cons p ps =>
          rw [hp] at key
          cases ps with
          | cons _ _ => cases key
          | nil =>
            simp only [decide_eq_true_eq] at key
            obtain ⟨k1, k2, k3, k4⟩ := key
            exact ⟨s, d, drv, c, p, ht, hdrv, k1, hc, List.mem_append_left _ (by rw [hp]; simp), ⟨List.isPrefixOf_iff_prefix.mp k2, List.isPrefixOf_iff_prefix.mp k3⟩, k4⟩

end MsgRs.Props
