import Verif.Props.AtMostOnce
/-!
# C121: the requests of a connection arrive in the order of the calls
-/
namespace MsgRs.Spec
open MsgRs

/-- The requests passed on to the server application, or waiting for it, that were read from the connection `p`, in the order in which the application gets them. -/
def fromConnection {A : Type} (d : Rep.Driver A) (p : Rep.Peer A) : List (Rep.Request A) :=
  (d.taken ++ d.inbox).filter fun r => decide (r.handle ∈ p.issued.map (·.1))

end MsgRs.Spec

namespace MsgRs.Props
open MsgRs Spec
variable {A : Type} [DecidableEq A]

/-- C121, for one connection: a request socket and a reply socket after any history of each. What the server application gets from one connection of the request socket are payloads of calls, in the order in which the calls
were made, and each at most as often as it was made. Missing: order across connections, which is false (`C121_refuted_reconnect`). -/
theorem C121_one_connection_partial (D : Decompressors) (opts : Req.Options) (comp : Option Compressor) (s : Req.State) (h : ReqReach D opts comp s)
    (hinv : ∀ c, comp = some c → Inverts D c)
    (hreq : ∀ call ∈ s.calls, (requestPrepare opts.minCompress comp call.payload).payload.length < 2 ^ 32)
    (max : Option Nat) (authn : Option (Bytes → Bool)) (rcomp : Option Compressor) (acts : List (Rep.Act A)) (d : Rep.Driver A)
    (hd : (Rep.Driver.new max authn rcomp : Rep.Driver A).run D acts = .ok d)
    (c : Req.Chan) (hc : c ∈ s.chans) (p : Rep.Peer A) (hp : p ∈ d.conns) (hl : readSoFar p.input0 p.input <+: c.wr.wire) :
    ((fromConnection d p).map (·.msg)).Sublist (s.calls.map (·.payload)) := by
  obtain ⟨d', hd', hdi⟩ := Rep.run_inv (D := D) acts (Rep.new_inv D max authn rcomp : Rep.DInv D (Rep.Driver.new max authn rcomp : Rep.Driver A) none)
  rw [hd] at hd'
  cases hd'
  have hord := (C44_delivered_in_order_partial D max authn rcomp acts d hd p hp).2.1
  -- the payload of a handle
  let g : ReqRep.Message → Option Bytes := fun m => tryDecompress D m.header.ctype m.payload
  let F : Nat → Option Bytes := fun x => ((p.issued.find? fun y => decide (y.1 = x)).map (·.2)).bind g
  have hF : ∀ r ∈ fromConnection d p, F r.handle = some r.msg := by
    intro r hr
    obtain ⟨h1, h2⟩ := List.mem_filter.1 hr
    obtain ⟨y, hy, hye⟩ := List.mem_map.1 (of_decide_eq_true h2)
    simp only [F]
    cases hf : p.issued.find? fun y => decide (y.1 = r.handle) with
    | none =>
      have := List.find?_eq_none.1 hf y hy
      simp [hye] at this
    | some z =>
      obtain ⟨z1, z2⟩ := z
      have e := List.find?_some hf
      simp only [decide_eq_true_eq] at e
      subst e
      exact received_msg hdi h1 hp (List.mem_of_find?_eq_some hf)
  have hnd : (p.issued.map (·.1)).Nodup := (dinv_core hdi hp).sorted.imp (fun hlt => by omega)
  have hFi : (p.issued.map (·.1)).map F = (p.issued.map (·.2)).map g := by
    rw [List.map_map, List.map_map]
    apply List.map_congr_left
    intro y hy
    simp only [Function.comp, F]
    cases hf : p.issued.find? fun z => decide (z.1 = y.1) with
    | none =>
      have := List.find?_eq_none.1 hf y hy
      simp at this
    | some z =>
      have e := List.find?_some hf
      simp only [decide_eq_true_eq] at e
      rw [List.nodup_map_inj hnd (List.mem_of_find?_eq_some hf) hy e]
      rfl
  have h1 : (fromConnection d p).map (fun r => some r.msg) = ((fromConnection d p).map (·.handle)).map F := by
    rw [List.map_map]
    apply List.map_congr_left
    intro r hr
    exact (hF r hr).symm
  have h2 : (fromConnection d p).map (·.handle) = ((d.taken ++ d.inbox).map (·.handle)).filter (· ∈ p.issued.map (·.1)) := by
    unfold fromConnection
    rw [List.filter_map]
    rfl
  have h3 : ((fromConnection d p).map (fun r => some r.msg)).Sublist ((p.issued.map (·.2)).map g) := by
    rw [h1, h2, hord, ← hFi]
    exact List.filter_sublist.map _
  have h4 : ((p.issued.map (·.2)).map g).Sublist ((s.chans.flatMap (·.sent)).map fun x => g x.2) := by
    have k1 := ((issued_sent' h hdi hreq hc hp hl).map g).sublist
    refine k1.trans ?_
    rw [List.map_map]
    refine List.Sublist.map _ ?_
    obtain ⟨l, r, hlr⟩ := List.append_of_mem hc
    rw [hlr, List.flatMap_append, List.flatMap_cons]
    exact (List.sublist_append_left _ _).trans (List.sublist_append_right _ _)
  obtain ⟨n, hn⟩ := (C40_in_order_at_most_once D opts comp s h).1
  have h5 : (s.chans.flatMap (·.sent)).map (fun x => g x.2) = (s.calls.take n).map fun x => some x.payload := by
    rw [hn, List.map_map]
    have : ∀ (l : List Req.Call) (k : Nat), (∀ x ∈ l, x ∈ s.calls) →
        (l.zipIdx k).map ((fun x : Nat × ReqRep.Message => g x.2) ∘ fun x => (x.2, requestFrame opts comp x.2 x.1.payload)) = l.map fun x => some x.payload := by
      intro l
      induction l with
      | nil => intro k _; rfl
      | cons a l ih =>
        intro k hk
        rw [List.zipIdx_cons, List.map_cons, List.map_cons, ih (k + 1) (fun x hx => hk x (List.mem_cons_of_mem _ hx))]
        congr 1
        exact frame_payload hinv k a.payload (hreq a (hk a (by simp)))
    exact this _ 0 (fun x hx => List.mem_of_mem_take hx)
  have h6 : (((fromConnection d p).map (·.msg)).map some).Sublist ((s.calls.map (·.payload)).map some) := by
    rw [List.map_map, List.map_map]
    refine (h3.trans h4).trans ?_
    rw [h5]
    exact (List.take_sublist _ _).map _
  have := h6.filterMap id
  simpa [List.filterMap_map] using this

/-! ## Two calls over one connection -/

namespace InOrder

/-- Two calls, whose requests go out on one connection. -/
def client : List Req.SAct :=
  [.connect, .driver {}, .advance 20000000, .driver {}, .driver { task := some (some ⟨[], [], [], []⟩) }, .request [1], .poll 0, .request [2], .poll 1,
    .driver {}, .driver {}, .driver {}, .driver { flushAns := [.ok 100, .ok 1] }, .driver { flushAns := [.ok 100, .ok 1] }]

/-- The reply socket has read both, and the application has received one. -/
def server : List (Rep.Act Nat) :=
  [.accept ⟨0, some 0, ⟨[.data (reqBytes 0 [1] ++ reqBytes 1 [2])], [], [], []⟩⟩, .ready 0 true, .peer 0 ⟨[], []⟩, .peer 0 ⟨[], []⟩, .recv]

/-- The connections of `Again`, but the reply socket gets to the requests of the second connection first. -/
def late : List (Rep.SAct Nat) :=
  [.bind some [7], .driver (.accept ⟨0, some 0, ⟨[.data (reqBytes 0 [1])], [], [], []⟩⟩), .driver (.ready 0 true),
    .driver (.accept ⟨1, some 1, ⟨[.data (reqBytes 1 [2])], [], [], []⟩⟩), .driver (.ready 0 true), .driver (.peer 1 ⟨[], []⟩), .driver (.peer 0 ⟨[], []⟩),
    .next, .driver (.respond 0 [9]), .driver (.peer 1 ⟨[], []⟩), .driver (.peer 1 ⟨[], []⟩), .driver (.peer 1 ⟨[.ok 100, .ok 1], []⟩), .next]

end InOrder

/-- What the sockets have come to: one connection. -/
theorem InOrder.facts (D : Decompressors) : ∃ (s : Req.Socket) (drv : Req.State) (d : Rep.Driver Nat) (c : Req.Chan) (p : Rep.Peer Nat),
    (Req.Socket.new {} none 0).run D InOrder.client = .ok s ∧ s.drv = some drv ∧ (Rep.Driver.new none none none : Rep.Driver Nat).run D InOrder.server = .ok d ∧
    drv.chans = [c] ∧ d.conns = [p] ∧ readSoFar p.input0 p.input = c.wr.wire ∧ drv.calls.map (·.payload) = [[1], [2]] ∧ (fromConnection d p).map (·.msg) = [[1], [2]] :=
  ⟨_, _, _, _, _, rfl, rfl, rfl, rfl, rfl, rfl, rfl, rfl⟩

/-- What the sockets have come to: two connections. -/
theorem InOrder.late_facts (D : Decompressors) : ∃ (s : Req.Socket) (drv : Req.State) (srv : Rep.Socket Nat) (d : Rep.Driver Nat),
    (Req.Socket.new {} none 0).run D Again.client = .ok s ∧ s.drv = some drv ∧
    (Rep.Socket.new none none none).run D InOrder.late = .ok srv ∧ srv.drv = some d ∧
    drv.chans.map (fun c => (readSoFar c.input0 c.input, c.wr.wire)) = [([], reqBytes 0 [1]), (Again.resp, reqBytes 1 [2])] ∧
    d.conns.map (fun p => (readSoFar p.input0 p.input, p.wr.wire)) = [(reqBytes 0 [1], []), (reqBytes 1 [2], Again.resp)] ∧
    s.callers.map (·.payload) = [[1], [2]] ∧ d.taken.map (·.msg) = [[2], [1]] ∧ s.result 1 = some (.ok [9]) :=
  ⟨_, _, _, _, rfl, rfl, rfl, rfl, rfl, rfl, rfl, rfl, rfl⟩

/-- The hypotheses of `C121_one_connection_partial` are met: two calls over one connection, and the application gets both requests (one waits for it). -/
example (D : Decompressors) : ∃ (s : Req.Socket) (drv : Req.State) (d : Rep.Driver Nat) (c : Req.Chan) (p : Rep.Peer Nat),
    ReqReach D {} none drv ∧ s.drv = some drv ∧ (Rep.Driver.new none none none : Rep.Driver Nat).run D InOrder.server = .ok d ∧
    c ∈ drv.chans ∧ p ∈ d.conns ∧ readSoFar p.input0 p.input <+: c.wr.wire ∧
    (∀ call ∈ drv.calls, (requestPrepare ({} : Req.Options).minCompress none call.payload).payload.length < 2 ^ 32) ∧
    (fromConnection d p).map (·.msg) = [[1], [2]] := by
  obtain ⟨s, drv, d, c, p, h1, h2, h3, h4, h5, h6, h7, h8⟩ := InOrder.facts D
  have hs : SocketReach D {} none s := ⟨0, _, h1⟩
  refine ⟨s, drv, d, c, p, ?_, h2, h3, by rw [h4]; simp, by rw [h5]; simp, by rw [h6]; exact List.prefix_rfl, ?_, h8⟩
  · have := (hs.inv.reach drv h2).1
    rwa [hs.opts.1, hs.opts.2] at this
  · intro call hc
    have : call.payload ∈ drv.calls.map (·.payload) := List.mem_map.2 ⟨call, hc, rfl⟩
    rw [h7] at this
    simp only [List.mem_cons, List.not_mem_nil, or_false] at this
    rcases this with h | h <;> rw [h] <;> decide

/-- C121 (refuted as stated): after a reconnect the order can be lost. The first call's request went out on a connection that then broke, the second call's on the next one; the reply socket gets to the newer
connection first, and the application receives the second call's request before the first's. -/
theorem C121_refuted_reconnect (D : Decompressors) : ∃ (s : Req.Socket) (drv : Req.State) (srv : Rep.Socket Nat) (d : Rep.Driver Nat) (link : Nat → Option Nat),
    SocketReach D {} none s ∧ s.drv = some drv ∧ RepReach D none none none srv ∧ srv.drv = some d ∧ Wired link drv d ∧
    (∀ i < d.conns.length, (link i).isSome) ∧
    s.callers.map (·.payload) = [[1], [2]] ∧ d.taken.map (·.msg) = [[2], [1]] := by
  obtain ⟨s, drv, srv, d, h1, h2, h3, h4, h5, h6, h7, h8, -⟩ := InOrder.late_facts D
  obtain ⟨c0, c1, hc, e0, e1⟩ := map_two h5
  obtain ⟨p0, p1, hp, f0, f1⟩ := map_two h6
  simp only [Prod.mk.injEq] at e0 e1 f0 f1
  refine ⟨s, drv, srv, d, fun i => if i < 2 then some i else none, ⟨0, _, h1⟩, h2, ⟨_, h3⟩, h4, ⟨?_, ?_, ?_⟩, ?_, h7, h8⟩
  · intro i j k hi hj
    split at hi <;> split at hj <;> simp_all
  · intro i k p hq hk
    rw [hp] at hq
    rw [hc]
    match i with
    | 0 => simp only [List.getElem?_cons_zero, Option.some.injEq] at hq; simp at hk; subst hk hq; exact ⟨c0, rfl, by rw [f0.1, e0.2]; exact List.prefix_rfl⟩
    | 1 => simp at hq hk; subst hk hq; exact ⟨c1, rfl, by rw [f1.1, e1.2]; exact List.prefix_rfl⟩
    | i + 2 => exact absurd hk (by rw [if_neg (by omega)]; simp)
  · intro k c hq
    rw [hc] at hq
    rw [hp]
    match k with
    | 0 => simp at hq; subst hq; exact .inl e0.1
    | 1 => simp at hq; subst hq; exact .inr ⟨1, p1, rfl, rfl, by rw [e1.1, f1.2]; exact List.prefix_rfl⟩
    | k + 2 => simp at hq
  · intro i hi
    rw [hp] at hi
    simp at hi
    simp [hi]

end MsgRs.Props
