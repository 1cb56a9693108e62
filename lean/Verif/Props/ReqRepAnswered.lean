import Verif.Props.ReqRepCallers
/-!
# Answered requests complete, whatever happens to the requests of other clients (C92)
-/
namespace MsgRs.Props
open MsgRs
variable {A : Type} [DecidableEq A]

/-- The application has answered, in this history of the reply socket, every request read from the connection `p`. It may have dropped requests of other connections, hold
some still, and the queue of the socket may have been full when others arrived. -/
def Spec.AllAnswered (D : Decompressors) (d0 : Rep.Driver A) (acts : List (Rep.Act A)) (p : Rep.Peer A) : Prop :=
  ∀ x q, (x, q) ∈ p.issued → ∃ pre i b post d1 r, acts = pre ++ .respond i b :: post ∧ d0.run D pre = .ok d1 ∧ d1.held[i]? = some r ∧ r.handle = x

/-- What became of a request is never changed. -/
theorem act_settled {D : Decompressors} {d d' : Rep.Driver A} (hd : Rep.DInv D d none) (a : Rep.Act A) (h : d.act D a = .ok d') (x : Nat)
    (hx : d.slots x ≠ .waiting) : d'.slots x = d.slots x := by
  have cmp : ∀ (d1 : Rep.Driver A) (y : Nat) (v : Rep.Slot), d1.slots = d.slots → d.slots y = .waiting → (d1.complete y v).slots x = d.slots x := by
    intro d1 y v e1 hy
    simp only [Rep.Driver.complete, e1]
    rw [if_neg]
    intro he
    exact hx (he ▸ hy)
  cases a with
  | peer k e =>
    simp only [Rep.Driver.act, Rep.Driver.stepPeer] at h
    cases hk : d.peers[k]? with
    | none => simp only [hk] at h; cases h; rfl
    | some p =>
      simp only [hk] at h
      cases hi : p.iter d.comp d.slots d.next e with
      | panic => rw [hi] at h; cases h
      | ok r =>
        obtain ⟨q, o⟩ := r
        rw [hi] at h
        simp only [R.bind_ok, R.pure_eq] at h
        cases o with
        | request y m =>
          simp only at h
          cases h
          have hy : y = d.next := by
            obtain ⟨hc, hl⟩ := hd.peers p (List.mem_of_getElem? hk)
            obtain ⟨p2, o2, hit, hs⟩ := Rep.iter_spec hc hl (hd.future _ (Nat.le_refl _)) e
            rw [hi] at hit
            cases hit
            exact (hs.handle y m rfl).1
          have hw : d.slots y = .waiting := hd.future y (by omega)
          unfold Rep.Driver.onRequest
          split
          · exact cmp _ y _ rfl hw
          · simp only
            split
            · rfl
            · exact cmp _ y _ rfl hw
        | closed => cases h; rfl
        | sent m => cases h; rfl
        | queued => cases h; rfl
        | error => cases h; rfl
        | pending => cases h; rfl
  | join i =>
    cases h
    unfold Rep.Driver.stepJoin
    split
    · simp only
      split <;> rfl
    · rfl
  | ready i ok =>
    cases h
    unfold Rep.Driver.stepConn
    split
    · rfl
    · simp only
      split
      · split
        · rfl
        · split <;> rfl
      · rfl
  | accept c =>
    cases h
    unfold Rep.Driver.stepAccept
    split
    · split <;> rfl
    · rfl
  | recv =>
    simp only [Rep.Driver.act] at h
    split at h <;> cases h <;> rfl
  | respond i b =>
    simp only [Rep.Driver.act] at h
    split at h
    · cases h; rfl
    · rename_i r hr
      cases h
      exact cmp _ _ _ rfl (hd.waiting r (.inl (List.mem_of_getElem? hr)))
  | drop i =>
    simp only [Rep.Driver.act] at h
    split at h
    · cases h; rfl
    · rename_i r hr
      cases h
      exact cmp _ _ _ rfl (hd.waiting r (.inl (List.mem_of_getElem? hr)))

theorem run_settled {D : Decompressors} (acts : List (Rep.Act A)) {d d' : Rep.Driver A} (hd : Rep.DInv D d none) (h : d.run D acts = .ok d') (x : Nat)
    (hx : d.slots x ≠ .waiting) : d'.slots x = d.slots x := by
  induction acts generalizing d with
  | nil => cases h; rfl
  | cons a as ih =>
    obtain ⟨d1, ha, hd1⟩ := Rep.act_inv hd a
    simp only [Rep.Driver.run, ha, R.bind_ok] at h
    have e1 := act_settled hd a ha x hx
    exact (ih hd1 h (by rw [e1]; exact hx)).trans e1

/-- A response that was given stays given. -/
theorem answered_slot {D : Decompressors} {max authn rcomp} {acts : List (Rep.Act A)} {d : Rep.Driver A}
    (hd : (Rep.Driver.new max authn rcomp : Rep.Driver A).run D acts = .ok d) {pre i b post d1 r} (ha : acts = pre ++ .respond i b :: post)
    (h1 : (Rep.Driver.new max authn rcomp : Rep.Driver A).run D pre = .ok d1) (hr : d1.held[i]? = some r) : d.slots r.handle = .responded b := by
  rw [ha, Rep.run_append, h1] at hd
  have hd1 := Rep.run_reach max authn rcomp pre h1
  obtain ⟨d2, h2, hd2⟩ := Rep.act_inv hd1 (.respond i b)
  simp only [R.bind_ok, Rep.Driver.run, h2] at hd
  have hs : d2.slots r.handle = .responded b := by
    simp only [Rep.Driver.act, hr] at h2
    cases h2
    simp [Rep.Driver.complete]
  rw [run_settled post hd2 hd _ (by rw [hs]; simp), hs]

/-- A request the application has received is one it still holds, has answered, or `X` holds of it. -/
def KeptX (X : Rep.Request A → Prop) (d : Rep.Driver A) : Prop := ∀ r ∈ d.taken, X r ∨ r ∈ d.held ∨ ∃ b, d.slots r.handle = .responded b

theorem KeptX.same {X : Rep.Request A → Prop} {d d' : Rep.Driver A} (h : KeptX X d) (h1 : d'.taken = d.taken) (h2 : d'.held = d.held)
    (h3 : ∀ r ∈ d.taken, d'.slots r.handle = d.slots r.handle) : KeptX X d' := by
  intro r hr
  rw [h1] at hr
  rw [h2, h3 r hr]
  exact h r hr

theorem KeptX.act {X : Rep.Request A → Prop} {D : Decompressors} {d d' : Rep.Driver A} (hd : Rep.DInv D d none) (a : Rep.Act A) (hX : ∀ i r, a = .drop i → d.held[i]? = some r → X r)
    (h : d.act D a = .ok d') (hk : KeptX X d) : KeptX X d' := by
  cases a with
  | peer k e =>
    simp only [Rep.Driver.act, Rep.Driver.stepPeer] at h
    cases hp : d.peers[k]? with
    | none => simp only [hp] at h; cases h; exact hk
    | some p =>
      simp only [hp] at h
      obtain ⟨hc, hl⟩ := hd.peers p (List.mem_of_getElem? hp)
      obtain ⟨p', o, hit, hs⟩ := Rep.iter_spec hc hl (hd.future _ (Nat.le_refl _)) e
      rw [hit] at h
      simp only [R.bind_ok, R.pure_eq] at h
      cases o with
      | request y m =>
        cases h
        obtain ⟨rfl, -⟩ := hs.handle y m rfl
        have hne : ∀ r ∈ d.taken, r.handle ≠ d.next := fun r hr he => by
          have := hd.handles.2 r.handle (List.mem_map.mpr ⟨r, List.mem_append_left _ hr, rfl⟩)
          omega
        unfold Rep.Driver.onRequest
        split
        · exact hk.same rfl rfl fun r hr => by
            simp only [Rep.Driver.complete]
            rw [if_neg (hne r hr)]
        · simp only
          split
          · exact hk.same rfl rfl fun r hr => rfl
          · exact hk.same rfl rfl fun r hr => by
              simp only [Rep.Driver.complete]
              rw [if_neg (hne r hr)]
      | sent m => cases h; exact hk
      | queued => cases h; exact hk
      | error => cases h; exact hk
      | closed => cases h; exact hk
      | pending => cases h; exact hk
  | join i =>
    cases h
    unfold Rep.Driver.stepJoin
    repeat' split
    all_goals first | exact hk | (simp only; split <;> exact hk)
  | ready i ok =>
    cases h
    unfold Rep.Driver.stepConn
    repeat' split
    all_goals first | exact hk | (simp only; repeat' split)
    all_goals exact hk
  | accept c =>
    cases h
    unfold Rep.Driver.stepAccept
    repeat' split
    all_goals exact hk
  | recv =>
    simp only [Rep.Driver.act] at h
    split at h
    · cases h; exact hk
    · rename_i r rs hib
      cases h
      intro q hq
      simp only [List.mem_append, List.mem_singleton] at hq ⊢
      rcases hq with hq | rfl
      · exact (hk q hq).imp id (Or.imp .inl id)
      · exact .inr (.inl (.inr rfl))
  | respond i b =>
    simp only [Rep.Driver.act] at h
    cases hi : d.held[i]? with
    | none => simp only [hi] at h; cases h; exact hk
    | some r =>
      simp only [hi] at h
      cases h
      intro q hq
      simp only [Rep.Driver.complete]
      by_cases he : q.handle = r.handle
      · exact .inr (.inr ⟨b, by rw [if_pos he]⟩)
      · rw [if_neg he]
        refine (hk q hq).imp id (Or.imp (fun hq => ?_) id)
        obtain ⟨j, hj⟩ := List.mem_iff_getElem?.mp hq
        have hji : j ≠ i := fun hji => by
          rw [hji, hi] at hj
          cases hj
          exact he rfl
        exact List.mem_eraseIdx_iff_getElem?.mpr ⟨j, hji, hj⟩
  | drop i =>
    simp only [Rep.Driver.act] at h
    cases hi : d.held[i]? with
    | none => simp only [hi] at h; cases h; exact hk
    | some r =>
      simp only [hi] at h
      cases h
      intro q hq
      simp only [Rep.Driver.complete]
      by_cases he : q.handle = r.handle
      · have hrt : r ∈ d.taken := hd.held.subset (List.mem_of_getElem? hi)
        have hnd : (d.taken.map (·.handle)).Nodup := by
          have := hd.handles.1
          rw [List.map_append] at this
          exact (List.nodup_append.mp this).1
        have := List.nodup_map_inj hnd hq hrt he
        subst this
        exact .inl (hX i q rfl hi)
      · rw [if_neg he]
        refine (hk q hq).imp id (Or.imp (fun hq => ?_) id)
        obtain ⟨j, hj⟩ := List.mem_iff_getElem?.mp hq
        have hji : j ≠ i := fun hji => by
          rw [hji, hi] at hj
          cases hj
          exact he rfl
        exact List.mem_eraseIdx_iff_getElem?.mpr ⟨j, hji, hj⟩

/-- The application dropped this request in this history. -/
def Spec.DroppedIn (D : Decompressors) (d0 : Rep.Driver A) (acts : List (Rep.Act A)) (r : Rep.Request A) : Prop :=
  ∃ pre i post d1, acts = pre ++ .drop i :: post ∧ d0.run D pre = .ok d1 ∧ d1.held[i]? = some r

theorem keptX_run {D : Decompressors} {d0 : Rep.Driver A} (acts rest : List (Rep.Act A)) : ∀ (pre : List (Rep.Act A)) (d d' : Rep.Driver A), acts = pre ++ rest →
    d0.run D pre = .ok d → Rep.DInv D d none → d.run D rest = .ok d' → KeptX (Spec.DroppedIn D d0 acts) d → KeptX (Spec.DroppedIn D d0 acts) d' := by
  induction rest with
  | nil => intro pre d d' _ _ _ h hk; cases h; exact hk
  | cons a as ih =>
    intro pre d d' hacts hpre hd h hk
    obtain ⟨d1, ha, hd1⟩ := Rep.act_inv hd a
    simp only [Rep.Driver.run, ha, R.bind_ok] at h
    refine ih (pre ++ [a]) d1 d' (by simp [hacts]) ?_ hd1 h (hk.act hd a (fun i r he hr => ⟨pre, i, as, d, he ▸ hacts, hpre, hr⟩) ha)
    rw [Rep.run_append, hpre]
    show (do let d ← d.act D a; Rep.Driver.run D d []) = R.ok d1
    rw [ha]
    rfl

/-- Every request the application received is one it holds, has answered or dropped. -/
theorem kept_all {D : Decompressors} {max authn rcomp} {acts : List (Rep.Act A)} {d : Rep.Driver A}
    (hd : (Rep.Driver.new max authn rcomp : Rep.Driver A).run D acts = .ok d) : KeptX (Spec.DroppedIn D (Rep.Driver.new max authn rcomp) acts) d :=
  keptX_run acts acts [] _ d rfl rfl (Rep.new_inv D max authn rcomp) hd (fun r hr => by cases hr)

/-- C92, one connection: a request socket and a reply socket run for any time, in any interleaving (`Spec.Together`: neither end of a connection reads what the other has
not yet written). At the end the connection `c` of the request socket (whose other end is `p`) is in use and idle: everything handed to either end is on the wire and has
been read at the other end, and the application has answered every request read from `p` — what it did with the requests of other clients makes no difference. Then
every call whose request was handed to this connection has returned: with a payload `b` that the application passed to `respond` for a request with this call's payload, or
with a timeout, after more than the configured time. -/
theorem C92_connection_answered (D : Decompressors) (opts : Req.Options) (comp : Option Compressor) (now : Nat)
    (max authn rcomp) (s0 s : Req.State) (acts : List (Rep.Act A)) (d : Rep.Driver A)
    (h0 : Req.State.new opts comp now = .ok s0)
    (ht : Spec.Together D s0 (Rep.Driver.new max authn rcomp : Rep.Driver A) s acts d)
    (hinv : ∀ c, comp = some c → Spec.Inverts D c) (hrinv : ∀ c, rcomp = some c → Spec.Inverts D c)
    (hids : s.calls.length ≤ 2 ^ 32)
    (hreq : ∀ call ∈ s.calls, (requestPrepare opts.minCompress comp call.payload).payload.length < 2 ^ 32)
    (hfits : ∀ i b, .respond i b ∈ acts → ∀ id, ∃ m, replyPrepare rcomp id b = some m ∧ m.payload.length < 2 ^ 32)
    -- the two ends of the connection
    (c : Req.Chan) (hc : s.conn = .active c) (hend : s.ended = false) (p : Rep.Peer A) (hp : p ∈ d.peers)
    -- the requests are on the wire and have been read
    (hcw : c.wr.buf = []) (hpin : dataOf p.input0 = c.wr.wire) (hpo : OpenAns p.input0)
    (hpp : c.sent.length + p.input0.length + 1 ≤ p.polls)
    -- the application answered them
    (hall : Spec.AllAnswered D (Rep.Driver.new max authn rcomp) acts p)
    -- the responses are on the wire (the connection has nothing left to do) and have been read
    (e : Rep.PEnv) (p' : Rep.Peer A) (hidle : p.iter d.comp d.slots d.next e = .ok (p', .pending))
    (hpe : p.egress = []) (hpw : p.wr.buf = []) (hcin : dataOf c.input0 = p.wr.wire) (hco : OpenAns c.input0)
    (hcp : c.sent.length + c.input0.length + 1 ≤ c.polls)
    (n : Nat) (rq : ReqRep.Message) (hn : (n, rq) ∈ c.sent) :
    ∃ call t, s.calls[n]? = some call ∧ t ≤ s.now ∧
      (((n, Req.Res.timeout, t) ∈ s.done ∧ call.time + opts.timeout < t) ∨
      ∃ b, (n, Req.Res.ok b, t) ∈ s.done ∧ ∃ pre i post d1 r, acts = pre ++ .respond i b :: post ∧
        (Rep.Driver.new max authn rcomp : Rep.Driver A).run D pre = .ok d1 ∧ d1.held[i]? = some r ∧
        r.msg = call.payload) := by
  obtain ⟨-, hd, -⟩ := together_inv h0 ht hids hreq hfits
  refine request_answered_core D opts comp now max authn rcomp s0 s acts d h0 ht hinv hrinv hids hreq hfits c hc hend p hp hcw hpin hpo hpp ?_
    e p' hidle hpe hpw hcin hco hcp n rq hn
  intro x q hx
  obtain ⟨pre, i, b, post, d1, r, k1, k2, k3, rfl⟩ := hall x q hx
  exact ⟨b, answered_slot hd k1 k2 k3⟩

/-- C92, one connection, for the calls as the users make them (see `C92_connection_answered` for the circumstances): every call whose request was handed to the connection,
and whose future was not dropped, has returned: with a payload that the server application passed to `respond` for a request with this call's payload, or with a timeout, if
more than the configured time has passed since the call was made. -/
theorem C92_connection_callers (D : Decompressors) (opts : Req.Options) (comp : Option Compressor) (now : Nat)
    (max authn rcomp) (s : Req.Socket) (acts : List (Rep.Act A)) (d : Rep.Driver A)
    (ht : Spec.CallersTogether D (Req.Socket.new opts comp now) (Rep.Driver.new max authn rcomp : Rep.Driver A) s acts d)
    (hinv : ∀ c, comp = some c → Spec.Inverts D c) (hrinv : ∀ c, rcomp = some c → Spec.Inverts D c)
    (hids : s.callers.length ≤ 2 ^ 32)
    (hreq : ∀ c ∈ s.callers, (requestPrepare opts.minCompress comp c.payload).payload.length < 2 ^ 32)
    (hfits : ∀ i b, .respond i b ∈ acts → ∀ id, ∃ m, replyPrepare rcomp id b = some m ∧ m.payload.length < 2 ^ 32)
    -- the two ends of the connection
    (drv : Req.State) (hdrv : s.drv = some drv)
    (c : Req.Chan) (hc : drv.conn = .active c) (hend : drv.ended = false) (p : Rep.Peer A) (hp : p ∈ d.peers)
    -- the requests are on the wire and have been read
    (hcw : c.wr.buf = []) (hpin : dataOf p.input0 = c.wr.wire) (hpo : OpenAns p.input0)
    (hpp : c.sent.length + p.input0.length + 1 ≤ p.polls)
    -- the application answered them
    (hall : Spec.AllAnswered D (Rep.Driver.new max authn rcomp) acts p)
    -- the responses are on the wire (the connection has nothing left to do) and have been read
    (e : Rep.PEnv) (p' : Rep.Peer A) (hidle : p.iter d.comp d.slots d.next e = .ok (p', .pending))
    (hpe : p.egress = []) (hpw : p.wr.buf = []) (hcin : dataOf c.input0 = p.wr.wire) (hco : OpenAns c.input0)
    (hcp : c.sent.length + c.input0.length + 1 ≤ c.polls)
    -- a call whose request was handed to the connection
    (i : Nat) (call : Req.Caller) (hi : s.callers[i]? = some call) (hcan : call.cancelled = false)
    (n : Nat) (hst : call.stage = .entered n) (hsent : n ∈ c.sent.map (·.1)) :
    (s.result i = some .timeout ∧ call.time + opts.timeout < s.now) ∨
    ∃ b, s.result i = some (.ok b) ∧ ∃ pre j post d1 r, acts = pre ++ .respond j b :: post ∧
      (Rep.Driver.new max authn rcomp : Rep.Driver A).run D pre = .ok d1 ∧ d1.held[j]? = some r ∧ r.msg = call.payload := by
  refine caller_answered_core D opts comp now max authn rcomp s acts d ht hinv hrinv hids hreq hfits drv hdrv c hc hend p hp hcw hpin hpo hpp ?_
    e p' hidle hpe hpw hcin hco hcp i call hi hcan n hst hsent
  intro x q hx
  obtain ⟨pre, i, b, post, d1, r, k1, k2, k3, rfl⟩ := hall x q hx
  have hd : (Rep.Driver.new max authn rcomp : Rep.Driver A).run D acts = .ok d := by
    obtain ⟨hr, hts⟩ := callers_together ht
    obtain ⟨now', s0, h0, hT⟩ := hts drv hdrv
    have hf := hr.inv
    refine (together_inv h0 hT (Nat.le_trans (front_calls_le hf hdrv) hids) ?_ hfits).2.1
    intro x hx
    obtain ⟨k, hk, hk2⟩ := List.getElem_of_mem hx
    obtain ⟨i, c, x', e1, e2, e3, e4⟩ := front_callOf hf hdrv k hk
    rw [List.getElem?_eq_getElem hk, hk2] at e3
    cases e3
    rw [e4]
    exact hreq c (List.mem_of_getElem? e1)
  exact ⟨b, answered_slot hd k1 k2 k3⟩

theorem together_run {D : Decompressors} {s0 s : Req.State} {d0 d : Rep.Driver A} {acts : List (Rep.Act A)} (h : Spec.Together D s0 d0 s acts d) :
    d0.run D acts = .ok d := by
  induction h with
  | start hn => rfl
  | client a hs ha hn ih => exact ih
  | @server s acts d d' a _ ha hn ih =>
    rw [Rep.run_append, ih]
    show (do let d ← d.act D a; Rep.Driver.run D d []) = R.ok d'
    rw [ha]
    rfl

/-- What has a response on its way was answered. -/
theorem allAnswered_of {D : Decompressors} {max authn rcomp} {acts : List (Rep.Act A)} {d : Rep.Driver A}
    (hd : (Rep.Driver.new max authn rcomp : Rep.Driver A).run D acts = .ok d) {p : Rep.Peer A} (hp : p ∈ d.conns)
    (h : ∀ y ∈ p.issued, y.1 ∈ p.answers.map (·.1)) : Spec.AllAnswered D (Rep.Driver.new max authn rcomp) acts p := by
  intro x q hx
  obtain ⟨⟨x', m⟩, hm, e⟩ := List.mem_map.mp (h _ hx)
  simp only at e
  subst e
  obtain ⟨-, -, h3, -⟩ := C42_responses_match D max authn rcomp acts d hd p hp
  obtain ⟨rq, b, -, -, -, -, pre, i, post, d0, r, k1, k2, k3, k4⟩ := h3 x' m hm
  exact ⟨pre, i, b, post, d0, r, k1, k2, k3, k4⟩

/-- `liveActs` with a second client, whose two requests the application drops and keeps. -/
def busyActs : List (Req.Act ⊕ Rep.Act Nat) :=
  let e : Rep.PEnv := ⟨[.ok 100, .ok 1], []⟩
  liveActs ++ [.inr (.accept ⟨2, some 8, ⟨[.data (reqBytes 0 [10] ++ reqBytes 1 [12])], [], [], []⟩⟩), .inr (.ready 0 true), .inr (.peer 1 e), .inr .recv,
    .inr (.drop 0), .inr (.peer 1 e), .inr .recv]

/-- The joint history meets all hypotheses of `C92_connection_answered` (but not those of `C92_every_request_answered`); both calls have their response. -/
example : let D : Decompressors := ⟨fun _ => none, fun _ => none, fun _ => none, fun _ => none⟩
    ∃ s0 s d c p e p', Req.State.new {} none 0 = .ok s0 ∧
      Spec.Together D s0 (Rep.Driver.new none none none : Rep.Driver Nat) s (serverActs busyActs) d ∧
      s.calls = [⟨[10], 20000000⟩, ⟨[11], 20000000⟩] ∧ s.conn = .active c ∧ s.ended = false ∧ p ∈ d.peers ∧
      c.wr.buf = [] ∧ dataOf p.input0 = c.wr.wire ∧ OpenAns p.input0 ∧ c.sent.length + p.input0.length + 1 ≤ p.polls ∧
      Spec.AllAnswered D (Rep.Driver.new none none none : Rep.Driver Nat) (serverActs busyActs) p ∧ d.held.length = 1 ∧ .drop 0 ∈ serverActs busyActs ∧
      p.iter d.comp d.slots d.next e = .ok (p', .pending) ∧ p.egress = [] ∧ p.wr.buf = [] ∧ dataOf c.input0 = p.wr.wire ∧
      OpenAns c.input0 ∧ c.sent.length + c.input0.length + 1 ≤ c.polls ∧
      c.sent.map (·.1) = [0, 1] ∧ s.done = [(1, .ok [21], 20000005), (0, .ok [20, 20], 20000005)] := by
  intro D
  have key : (match Req.State.new {} none 0 with
      | .panic => false
      | .ok s0 => netOk s0 (Rep.Driver.new none none none : Rep.Driver Nat) &&
        match play D s0 (Rep.Driver.new none none none : Rep.Driver Nat) busyActs with
        | none => false
        | some (s, d) =>
          match s.conn, d.peers with
          | .active c, [p, _] => decide (s.calls = [⟨[10], 20000000⟩, ⟨[11], 20000000⟩] ∧ s.ended = false ∧
              c.wr.buf = [] ∧ dataOf p.input0 = c.wr.wire ∧ (∀ a ∈ p.input0, a ≠ .err ∧ a ≠ .data []) ∧
              c.sent.length + p.input0.length + 1 ≤ p.polls ∧
              (∀ y ∈ p.issued, y.1 ∈ p.answers.map (·.1)) ∧ d.held.length = 1 ∧ p.egress = [] ∧ p.wr.buf = [] ∧ dataOf c.input0 = p.wr.wire ∧
              (∀ a ∈ c.input0, a ≠ .err ∧ a ≠ .data []) ∧ c.sent.length + c.input0.length + 1 ≤ c.polls ∧
              c.sent.map (·.1) = [0, 1] ∧ s.done = [(1, .ok [21], 20000005), (0, .ok [20, 20], 20000005)]) &&
            match p.iter d.comp d.slots d.next ⟨[], []⟩ with
            | .ok (_, .pending) => true
            | _ => false
          | _, _ => false) = true := by decide +kernel
  cases hs0 : Req.State.new {} none 0 with
  | panic => rw [hs0] at key; cases key
  | ok s0 =>
    rw [hs0] at key
    simp only [Bool.and_eq_true] at key
    obtain ⟨hnet, key⟩ := key
    cases hpl : play D s0 (Rep.Driver.new none none none : Rep.Driver Nat) busyActs with
    | none => rw [hpl] at key; cases key
    | some x =>
      obtain ⟨s, d⟩ := x
      rw [hpl] at key
      simp only at key
      have ht := play_together (acts := []) busyActs (.start (netOk_network hnet)) hpl
      cases hc : s.conn with
      | inactive b => rw [hc] at key; cases key
      | active c =>
        rw [hc] at key
        cases hp : d.peers with
        | nil => rw [hp] at key; cases key
        | cons p ps =>
          rw [hp] at key
          cases ps with
          | nil => cases key
          | cons p2 ps =>
            cases ps with
            | cons _ _ => cases key
            | nil =>
              simp only [Bool.and_eq_true, decide_eq_true_eq] at key
              obtain ⟨⟨k1, k2, k3, k4, k5, k6, k7, k8, k9, k10, k11, k12, k13, k14, k15⟩, k16⟩ := key
              have hpm : p ∈ d.peers := by rw [hp]; simp
              cases hit : p.iter d.comp d.slots d.next ⟨[], []⟩ with
              | panic => rw [hit] at k16; cases k16
              | ok y =>
                obtain ⟨p', o⟩ := y
                rw [hit] at k16
                have ho : o = .pending := by cases o <;> first | rfl | cases k16
                subst ho
                refine ⟨s0, s, d, c, p, ⟨[], []⟩, p', rfl, ht, k1, hc, k2, hpm, k3, k4, k5, k6,
                  allAnswered_of (together_run ht) (List.mem_append_left _ hpm) k7, k8, ?_, hit, k9, k10, k11, k12, k13, k14, k15⟩
                simp [serverActs, busyActs, liveActs]
end MsgRs.Props
