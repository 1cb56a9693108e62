import Verif.Props.AtMostOnce
import Verif.Spec.Crowd
/-!
# C119: one response answers one call, among all clients
-/
namespace MsgRs.Props
open MsgRs Spec
variable {A I : Type} [DecidableEq A]

/-- Where the answer to a call came from. -/
theorem crowd_answer {D : Decompressors} {opts : I → Req.Options} {comp : I → Option Compressor} {s : I → Req.State}
    (h : ∀ i, ReqReach D (opts i) (comp i) (s i)) {max authn rcomp} {acts : List (Rep.Act A)} {d : Rep.Driver A}
    (hd : (Rep.Driver.new max authn rcomp : Rep.Driver A).run D acts = .ok d) {link} (hnet : CrowdNet link s d)
    (hinv : ∀ i c, comp i = some c → Inverts D c) (hrinv : ∀ c, rcomp = some c → Inverts D c)
    (hids : ∀ i, (s i).calls.length ≤ 2 ^ 32)
    (hreq : ∀ i, ∀ call ∈ (s i).calls, (requestPrepare (opts i).minCompress (comp i) call.payload).payload.length < 2 ^ 32)
    (hresp : ∀ p ∈ d.conns, ∀ x ∈ p.answers, x.2.payload.length < 2 ^ 32)
    (i : I) (n : Nat) (b : Bytes) (t : Nat) (hn : (n, Req.Res.ok b, t) ∈ (s i).done) :
    ∃ a call r j k p, (s i).calls[n]? = some call ∧ r.msg = call.payload ∧ Responded D (Rep.Driver.new max authn rcomp) acts a r b ∧
      d.conns[j]? = some p ∧ link j = some (i, k) ∧ (r.handle, requestFrame (opts i) (comp i) n call.payload) ∈ p.issued := by
  obtain ⟨n', call, h1, h2, c, hc, p, hp, ⟨j, k, hj, hk⟩, hl, -, pre, m, post, d0, r, g1, g2, g3, -, g5, g6⟩ :=
    own_response_via (fun _ p => ∃ j k, d.conns[j]? = some p ∧ link j = some (i, k)) D (opts i) (comp i) (s i) (h i) max authn rcomp acts d hd
      (by
        intro c hc
        obtain ⟨k, hk⟩ := List.mem_iff_getElem?.1 hc
        rcases hnet.back i k c hk with h1 | ⟨j, p, h1, h2, h3⟩
        · exact .inl h1
        · obtain ⟨c', h4, h5⟩ := hnet.there j i k p h1 h2
          rw [hk] at h4
          cases h4
          exact .inr ⟨p, List.mem_of_getElem? h1, ⟨j, k, h1, h2⟩, h3, h5⟩)
      (hinv i) hrinv (hreq i) hresp n b t hn
  have hnl : n < (s i).calls.length := by
    have := (h i).inv.calls.perm
    have hm : n ∈ List.range (s i).calls.length :=
      this.subset (List.mem_append_right _ (List.mem_append_right _ (List.mem_map.mpr ⟨_, hn, rfl⟩)))
    exact List.mem_range.mp hm
  have hnl' := (List.getElem?_eq_some_iff.mp h2).1
  have hle := hids i
  have : n' = n := by omega
  subst this
  refine ⟨pre.length, call, r, j, k, p, h2, g5, ⟨m, d0, ?_, ?_, g3⟩, hj, hk, g6⟩
  · rw [g1]; simp
  · rw [g1]; simpa using g2

/-- C119: any number of request sockets and a reply socket have done anything, over a network that delivers bytes in order between the two ends of each connection. Then every call of every request socket that returned a payload got it from a call of
`respond`, for a request with this call's payload, and no two calls, of the same or of different request sockets, got it from the same call of `respond`. -/
theorem C119_one_answer_one_call (D : Decompressors) (opts : I → Req.Options) (comp : I → Option Compressor) (s : I → Req.State)
    (h : ∀ i, ReqReach D (opts i) (comp i) (s i)) (max authn rcomp) (acts : List (Rep.Act A)) (d : Rep.Driver A)
    (hd : (Rep.Driver.new max authn rcomp : Rep.Driver A).run D acts = .ok d) (link : Nat → Option (I × Nat)) (hnet : CrowdNet link s d)
    (hinv : ∀ i c, comp i = some c → Inverts D c) (hrinv : ∀ c, rcomp = some c → Inverts D c)
    (hids : ∀ i, (s i).calls.length ≤ 2 ^ 32)
    (hreq : ∀ i, ∀ call ∈ (s i).calls, (requestPrepare (opts i).minCompress (comp i) call.payload).payload.length < 2 ^ 32)
    (hresp : ∀ p ∈ d.conns, ∀ x ∈ p.answers, x.2.payload.length < 2 ^ 32) :
    ∃ answer : I → Nat → Nat,
      (∀ i n b t, (n, Req.Res.ok b, t) ∈ (s i).done → ∃ call r, (s i).calls[n]? = some call ∧ r.msg = call.payload ∧
        Responded D (Rep.Driver.new max authn rcomp) acts (answer i n) r b) ∧
      ∀ i n b t i' n' b' t', (n, Req.Res.ok b, t) ∈ (s i).done → (n', Req.Res.ok b', t') ∈ (s i').done →
        answer i n = answer i' n' → i = i' ∧ n = n' := by
  have key : ∀ x : I × Nat, ∃ a : Nat, ∀ b t, (x.2, Req.Res.ok b, t) ∈ (s x.1).done →
      ∃ call r j k p, (s x.1).calls[x.2]? = some call ∧ r.msg = call.payload ∧ Responded D (Rep.Driver.new max authn rcomp) acts a r b ∧
        d.conns[j]? = some p ∧ link j = some (x.1, k) ∧ (r.handle, requestFrame (opts x.1) (comp x.1) x.2 call.payload) ∈ p.issued := by
    intro ⟨i, n⟩
    by_cases hx : ∃ b t, (n, Req.Res.ok b, t) ∈ (s i).done
    · obtain ⟨b, t, hx⟩ := hx
      obtain ⟨a, ha⟩ := crowd_answer h hd hnet hinv hrinv hids hreq hresp i n b t hx
      refine ⟨a, fun b' t' hx' => ?_⟩
      have : ((n, Req.Res.ok b, t) : Nat × Req.Res × Nat) = (n, Req.Res.ok b', t') :=
        List.nodup_map_inj (C33_at_most_once D _ _ (s i) (h i)).1 hx hx' rfl
      cases this
      exact ha
    · exact ⟨0, fun b t hb => absurd ⟨b, t, hb⟩ hx⟩
  obtain ⟨f, hf⟩ := Classical.axiomOfChoice key
  refine ⟨fun i n => f (i, n), ?_, ?_⟩
  · intro i n b t hn
    obtain ⟨call, r, j, k, p, h1, h2, h3, -⟩ := hf (i, n) b t hn
    exact ⟨call, r, h1, h2, h3⟩
  · intro i n b t i' n' b' t' hn hn' heq
    obtain ⟨call, r, j, k, p, h1, -, ⟨m, d1, h3, h4, h5⟩, h6, h7, h8⟩ := hf (i, n) b t hn
    obtain ⟨call', r', j', k', p', h1', -, ⟨m', d1', h3', h4', h5'⟩, h6', h7', h8'⟩ := hf (i', n') b' t' hn'
    simp only at heq h7 h7' h8 h8' h1 h1'
    rw [heq] at h3 h4
    rw [h4] at h4'
    cases h4'
    rw [h3] at h3'
    cases h3'
    rw [h5] at h5'
    cases h5'
    obtain ⟨q, hq⟩ := List.mem_iff_getElem?.1 h8
    obtain ⟨q', hq'⟩ := List.mem_iff_getElem?.1 h8'
    have ho : Rep.OwnInv d := Rep.run_own acts (Rep.new_inv D max authn rcomp) (Rep.new_own max authn rcomp) hd
    obtain ⟨e1, e2⟩ := handle_place ho h6 h6' hq hq'
    subst e1 e2
    rw [h7] at h7'
    cases h7'
    rw [h6] at h6'
    cases h6'
    rw [hq] at hq'
    injection hq' with hq'
    injection hq' with _ hq'
    refine ⟨rfl, ?_⟩
    have hid : UInt32.ofNat n = UInt32.ofNat n' := congrArg (fun z => z.header.id) hq'
    have hl := (List.getElem?_eq_some_iff.1 h1).1
    have hl' := (List.getElem?_eq_some_iff.1 h1').1
    have hle := hids i
    have := congrArg UInt32.toNat hid
    rw [UInt32.toNat_ofNat', UInt32.toNat_ofNat', Nat.mod_eq_of_lt (by omega), Nat.mod_eq_of_lt (by omega)] at this
    exact this

/-- C119, for the calls as the users make them: the request sockets are those that have been connected. -/
theorem C119_callers (D : Decompressors) (opts : I → Req.Options) (comp : I → Option Compressor) (s : I → Req.Socket)
    (h : ∀ i, SocketReach D (opts i) (comp i) (s i)) (drv : I → Req.State) (hdrv : ∀ i, (s i).drv = some (drv i))
    (max authn rcomp) (acts : List (Rep.Act A)) (d : Rep.Driver A)
    (hd : (Rep.Driver.new max authn rcomp : Rep.Driver A).run D acts = .ok d) (link : Nat → Option (I × Nat)) (hnet : CrowdNet link drv d)
    (hinv : ∀ i c, comp i = some c → Inverts D c) (hrinv : ∀ c, rcomp = some c → Inverts D c)
    (hids : ∀ i, (s i).callers.length ≤ 2 ^ 32)
    (hreq : ∀ i, ∀ c ∈ (s i).callers, (requestPrepare (opts i).minCompress (comp i) c.payload).payload.length < 2 ^ 32)
    (hresp : ∀ p ∈ d.conns, ∀ x ∈ p.answers, x.2.payload.length < 2 ^ 32) :
    ∃ answer : I → Nat → Nat,
      (∀ i n b, (s i).result n = some (.ok b) → ∃ c r, (s i).callers[n]? = some c ∧ r.msg = c.payload ∧
        Responded D (Rep.Driver.new max authn rcomp) acts (answer i n) r b) ∧
      ∀ i n b i' n' b', (s i).result n = some (.ok b) → (s i').result n' = some (.ok b') →
        answer i n = answer i' n' → i = i' ∧ n = n' := by
  have hr : ∀ i, ReqReach D (opts i) (comp i) (drv i) := by
    intro i
    have := ((h i).inv.reach (drv i) (hdrv i)).1
    rwa [(h i).opts.1, (h i).opts.2] at this
  obtain ⟨answer, h1, h2⟩ := C119_one_answer_one_call D opts comp drv hr max authn rcomp acts d hd link hnet hinv hrinv
    (fun i => Nat.le_trans (front_calls_le (h i).inv (hdrv i)) (hids i))
    (by
      intro i x hx
      obtain ⟨k, hk, hk2⟩ := List.getElem_of_mem hx
      obtain ⟨j, c, x', e1, e2, e3, e4⟩ := front_callOf (h i).inv (hdrv i) k hk
      rw [List.getElem?_eq_getElem hk, hk2] at e3
      cases e3
      rw [e4]
      exact hreq i c (List.mem_of_getElem? e1)) hresp
  have got : ∀ i n b, (s i).result n = some (.ok b) → ∃ c k t, (s i).callers[n]? = some c ∧ c.stage = .entered k ∧ (k, Req.Res.ok b, t) ∈ (drv i).done := by
    intro i n b hb
    obtain ⟨c, hc, hcase⟩ := result_done hb
    rcases hcase with ⟨-, hbad⟩ | ⟨k, d', t, hst, hd', hdone⟩
    · cases hbad
    · rw [hdrv i] at hd'
      cases hd'
      exact ⟨c, k, t, hc, hst, hdone⟩
  refine ⟨fun i n => match (s i).callers[n]? with
    | some { stage := .entered k, .. } => answer i k
    | _ => 0, ?_, ?_⟩
  · intro i n b hb
    obtain ⟨c, k, t, hc, hst, hdone⟩ := got i n b hb
    obtain ⟨call, r, g1, g2, g3⟩ := h1 i k b t hdone
    obtain ⟨d', call', k1, k2, k3, -⟩ := (h i).inv.entered n c k hc hst
    rw [hdrv i] at k1
    cases k1
    rw [g1] at k2
    cases k2
    refine ⟨c, r, hc, by rw [g2, k3], ?_⟩
    obtain ⟨pl, tm, st, cn⟩ := c
    simp only at hst
    subst hst
    simp only [hc]
    exact g3
  · intro i n b i' n' b' hb hb' heq
    obtain ⟨c, k, t, hc, hst, hdone⟩ := got i n b hb
    obtain ⟨c', k', t', hc', hst', hdone'⟩ := got i' n' b' hb'
    have e : answer i k = answer i' k' := by
      obtain ⟨pl, tm, st, cn⟩ := c
      obtain ⟨pl', tm', st', cn'⟩ := c'
      simp only at hst hst'
      subst hst hst'
      simpa only [hc, hc'] using heq
    obtain ⟨rfl, rfl⟩ := h2 i k b t i' k' b' t' hdone hdone' e
    exact ⟨rfl, (h i).inv.inj n n' c c' k hc hc' hst hst'⟩

/-- C112, for any number of clients: the requests that a reply socket has passed on, or has waiting, and that were read from connections of these request sockets, belong each to a call of one of them, with its payload, and no two of them belong to
the same call. Conversely each call that returned a response has been passed on. -/
theorem C112_many_clients [DecidableEq I] (D : Decompressors) (opts : I → Req.Options) (comp : I → Option Compressor) (s : I → Req.Socket)
    (h : ∀ i, SocketReach D (opts i) (comp i) (s i)) (drv : I → Req.State) (hdrv : ∀ i, (s i).drv = some (drv i))
    (max : Option Nat) (authn : Option (Bytes → Bool)) (rcomp : Option Compressor) (srv : Rep.Socket A) (hs : RepReach D max authn rcomp srv)
    (d : Rep.Driver A) (hd : srv.drv = some d) (link : Nat → Option (I × Nat)) (hnet : CrowdNet link drv d)
    (hone : ∀ j j' x, link j = some x → link j' = some x → j = j')
    (hinv : ∀ i c, comp i = some c → Inverts D c)
    (hreq : ∀ i, ∀ c ∈ (s i).callers, (requestPrepare (opts i).minCompress (comp i) c.payload).payload.length < 2 ^ 32) :
    ∃ call : Nat → Option (I × Nat),
      (∀ n r j p, (d.taken ++ d.inbox)[n]? = some r → d.conns[j]? = some p → (link j).isSome → r.handle ∈ p.issued.map (·.1) →
        ∃ i m c, call n = some (i, m) ∧ (s i).callers[m]? = some c ∧ r.msg = c.payload) ∧
      (∀ n n' r r' j j' p p', (d.taken ++ d.inbox)[n]? = some r → (d.taken ++ d.inbox)[n']? = some r' → d.conns[j]? = some p → d.conns[j']? = some p' →
        (link j).isSome → (link j').isSome → r.handle ∈ p.issued.map (·.1) → r'.handle ∈ p'.issued.map (·.1) → call n = call n' → n = n') ∧
      ∀ i m b, (s i).callers.length ≤ 2 ^ 32 → (∀ p ∈ d.conns, ∀ x ∈ p.answers, x.2.payload.length < 2 ^ 32) → (s i).result m = some (.ok b) →
        ∃ n < d.taken.length, call n = some (i, m) := by
  let lk : I → Nat → Option Nat := fun i j => (link j).bind fun x => if x.1 = i then some x.2 else none
  have lk_some : ∀ i j k, lk i j = some k ↔ link j = some (i, k) := by
    intro i j k
    simp only [lk]
    cases hl : link j with
    | none => simp
    | some x =>
      obtain ⟨i', k'⟩ := x
      by_cases he : i' = i
      · simp [he]
      · simp [he]
  have hw : ∀ i, Wired (lk i) (drv i) d := by
    intro i
    refine ⟨?_, ?_, ?_⟩
    · intro j j' k h1 h2
      exact hone j j' (i, k) ((lk_some _ _ _).1 h1) ((lk_some _ _ _).1 h2)
    · intro j k p hp hl
      exact hnet.there j i k p hp ((lk_some _ _ _).1 hl)
    · intro k c hc
      rcases hnet.back i k c hc with h1 | ⟨j, p, h1, h2, h3⟩
      · exact .inl h1
      · exact .inr ⟨j, p, h1, (lk_some _ _ _).2 h2, h3⟩
  obtain ⟨f, hf⟩ := Classical.axiomOfChoice fun i =>
    C112_at_most_once D (opts i) (comp i) (s i) (h i) (drv i) (hdrv i) max authn rcomp srv hs d hd (lk i) (hw i) (hinv i) (hreq i)
  -- whose request it is
  have own : ∀ n : Nat, ∃ o : Option I, ∀ (r : Rep.Request A) (j : Nat) (p : Rep.Peer A) (i : I) (k : Nat), (d.taken ++ d.inbox)[n]? = some r → d.conns[j]? = some p → link j = some (i, k) →
      r.handle ∈ p.issued.map (·.1) → o = some i := by
    intro n
    by_cases hx : ∃ (r : Rep.Request A) (j : Nat) (p : Rep.Peer A) (i : I) (k : Nat), (d.taken ++ d.inbox)[n]? = some r ∧ d.conns[j]? = some p ∧ link j = some (i, k) ∧ r.handle ∈ p.issued.map (·.1)
    · obtain ⟨r, j, p, i, k, h1, h2, h3, h4⟩ := hx
      refine ⟨some i, ?_⟩
      intro r' j' p' i' k' h1' h2' h3' h4'
      rw [h1] at h1'
      cases h1'
      obtain ⟨⟨x, y⟩, hy, rfl⟩ := List.mem_map.1 h4
      obtain ⟨⟨x', y'⟩, hy', e⟩ := List.mem_map.1 h4'
      obtain ⟨q, hq⟩ := List.mem_iff_getElem?.1 hy
      obtain ⟨q', hq'⟩ := List.mem_iff_getElem?.1 hy'
      simp only at e hq hq'
      rw [e] at hq'
      obtain ⟨hjj, -⟩ := handle_place (hs.inv.drv d hd).2.1 h2 h2' hq hq'
      subst hjj
      rw [h3] at h3'
      cases h3'
      rfl
    · exact ⟨none, fun r j p i k h1 h2 h3 h4 => absurd ⟨r, j, p, i, k, h1, h2, h3, h4⟩ hx⟩
  obtain ⟨g, hg⟩ := Classical.axiomOfChoice own
  have from_us : ∀ (n : Nat) (r : Rep.Request A) (j : Nat) (p : Rep.Peer A), (d.taken ++ d.inbox)[n]? = some r → d.conns[j]? = some p → (link j).isSome → r.handle ∈ p.issued.map (·.1) →
      ∃ i, g n = some i ∧ fromUs (lk i) d r := by
    intro n r j p h1 h2 h3 h4
    obtain ⟨⟨i, k⟩, hl⟩ := Option.isSome_iff_exists.1 h3
    exact ⟨i, hg n r j p i k h1 h2 hl h4, j, p, h2, by rw [(lk_some _ _ _).2 hl]; rfl, h4⟩
  refine ⟨fun n => (g n).map fun i => (i, f i n), ?_, ?_, ?_⟩
  · intro n r j p h1 h2 h3 h4
    obtain ⟨i, e, hu⟩ := from_us n r j p h1 h2 h3 h4
    obtain ⟨c, hc, hm⟩ := (hf i).1 n r h1 hu
    exact ⟨i, f i n, c, by simp [e], hc, hm⟩
  · intro n n' r r' j j' p p' h1 h1' h2 h2' h3 h3' h4 h4' heq
    obtain ⟨i, e, hu⟩ := from_us n r j p h1 h2 h3 h4
    obtain ⟨i', e', hu'⟩ := from_us n' r' j' p' h1' h2' h3' h4'
    simp only [e, e', Option.map_some, Option.some.injEq, Prod.mk.injEq] at heq
    obtain ⟨rfl, heq⟩ := heq
    exact (hf i).2.1 n n' r r' h1 h1' hu hu' heq
  · intro i m b hlen hans hres
    obtain ⟨n, r, h1, ⟨j, p, h2, h3, h4⟩, h5⟩ := (hf i).2.2 hlen hans m b hres
    obtain ⟨k, hk⟩ := Option.isSome_iff_exists.1 h3
    have hlt := (List.getElem?_eq_some_iff.1 h1).1
    have e := hg n r j p i k (by rw [List.getElem?_append_left hlt]; exact h1) h2 ((lk_some _ _ _).1 hk) h4
    exact ⟨n, hlt, by simp [e, h5]⟩

/-! ## Two clients that make the same call -/

namespace Twins

/-- A client that makes one call, with the payload `[10]`, and reads the given response. -/
def client (b : Bytes) : List Req.SAct :=
  [.connect, .driver {}, .advance 20000000, .driver {}, .request [10], .poll 0,
    .driver { task := some (some ⟨[.pending, .pending, .pending, .data (reqBytes 0 b)], [], [], []⟩) },
    .driver { flushAns := [.ok 100, .ok 1] }, .driver { flushAns := [.ok 100, .ok 1] }, .driver { flushAns := [.ok 100, .ok 1] }, .driver {}, .driver {}]

/-- The reply socket serves both, and answers the second before the first. -/
def server : List (Rep.Act Nat) :=
  let e : Rep.PEnv := ⟨[.ok 100, .ok 1], []⟩
  [.accept ⟨1, some 7, ⟨[.data (reqBytes 0 [10])], [], [], []⟩⟩, .ready 0 true, .accept ⟨2, some 8, ⟨[.data (reqBytes 0 [10])], [], [], []⟩⟩, .ready 0 true,
   .peer 0 e, .recv, .peer 1 e, .recv, .respond 1 [21], .respond 0 [20], .peer 0 e, .peer 0 e, .peer 0 e, .peer 1 e, .peer 1 e, .peer 1 e]

/-- Connection 0 of the reply socket is the other end of client `false`'s, connection 1 of client `true`'s. -/
def link : Nat → Option (Bool × Nat)
  | 0 => some (false, 0)
  | 1 => some (true, 0)
  | _ => none

end Twins

open Twins in
/-- Two clients make the same call, with the same number and payload. The hypotheses of `C119_callers` and `C112_many_clients` hold, both requests have been passed on, and each client has its own response. -/
example : let D : Decompressors := ⟨fun _ => none, fun _ => none, fun _ => none, fun _ => none⟩
    ∃ (s : Bool → Req.Socket) (drv : Bool → Req.State) (d : Rep.Driver Nat),
      (∀ i, SocketReach D {} none (s i)) ∧ (∀ i, (s i).drv = some (drv i)) ∧
      (Rep.Driver.new none none none : Rep.Driver Nat).run D server = .ok d ∧ CrowdNet link drv d ∧
      (∀ j j' x, link j = some x → link j' = some x → j = j') ∧ d.taken.map (·.msg) = [[10], [10]] ∧
      (s false).result 0 = some (.ok [20]) ∧ (s true).result 0 = some (.ok [21]) := by
  intro D
  have key : (match (Req.Socket.new {} none 0).run D (client [20]), (Req.Socket.new {} none 0).run D (client [21]),
        (Rep.Driver.new none none none : Rep.Driver Nat).run D server with
      | .ok s, .ok s', .ok d =>
        match s.drv, s'.drv with
        | some v, some v' =>
          match v.chans, v'.chans, d.conns with
          | [c], [c'], [p, p'] => decide (d.taken.map (·.msg) = [[10], [10]] ∧ s.result 0 = some (.ok [20]) ∧ s'.result 0 = some (.ok [21]) ∧
              readSoFar c.input0 c.input = p.wr.wire ∧ readSoFar p.input0 p.input = c.wr.wire ∧
              readSoFar c'.input0 c'.input = p'.wr.wire ∧ readSoFar p'.input0 p'.input = c'.wr.wire)
          | _, _, _ => false
        | _, _ => false
      | _, _, _ => false) = true := by decide +kernel
  split at key
  · rename_i s s' d hs hs' hd
    split at key
    · rename_i v v' hv hv'
      split at key
      · rename_i c c' p p' hc hc' hp
        simp only [decide_eq_true_eq] at key
        obtain ⟨k0, k1, k2, k3, k4, k5, k6⟩ := key
        refine ⟨fun i => cond i s' s, fun i => cond i v' v, d, ?_, ?_, hd, ⟨?_, ?_⟩, ?_, k0, k1, k2⟩
        · intro i; cases i
          · exact ⟨0, _, hs⟩
          · exact ⟨0, _, hs'⟩
        · intro i; cases i
          · exact hv
          · exact hv'
        · intro j i k q hj hl
          match j with
          | 0 =>
            simp only [link, Option.some.injEq, Prod.mk.injEq] at hl
            obtain ⟨rfl, rfl⟩ := hl
            rw [hp] at hj
            cases hj
            exact ⟨c, by simp [hc], by rw [k4]; exact List.prefix_rfl⟩
          | 1 =>
            simp only [link, Option.some.injEq, Prod.mk.injEq] at hl
            obtain ⟨rfl, rfl⟩ := hl
            rw [hp] at hj
            cases hj
            exact ⟨c', by simp [hc'], by rw [k6]; exact List.prefix_rfl⟩
          | _ + 2 => cases hl
        · intro i k q hk
          right
          cases i
          · simp only [cond_false, hc] at hk
            match k with
            | 0 =>
              cases hk
              exact ⟨0, p, by rw [hp]; rfl, rfl, by rw [k3]; exact List.prefix_rfl⟩
            | _ + 1 => cases hk
          · simp only [cond_true, hc'] at hk
            match k with
            | 0 =>
              cases hk
              exact ⟨1, p', by rw [hp]; rfl, rfl, by rw [k5]; exact List.prefix_rfl⟩
            | _ + 1 => cases hk
        · intro j j' x h1 h2
          match j, j' with
          | 0, 0 => rfl
          | 1, 1 => rfl
          | 0, 1 => cases h1; cases h2
          | 1, 0 => cases h1; cases h2
          | _ + 2, _ => cases h1
          | _, _ + 2 => cases h2
      · cases key
    · cases key
  · cases key

end MsgRs.Props
