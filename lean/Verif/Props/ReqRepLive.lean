import Verif.Props.ReqRep
import Verif.Proofs.ReqAnswered
/-!
# C92: every request is answered
-/
namespace MsgRs.Props
open MsgRs

section
variable {A : Type} [DecidableEq A]

/-- A request the application has received is one it still holds or has answered. -/
def Kept (d : Rep.Driver A) : Prop := ∀ r ∈ d.taken, r ∈ d.held ∨ ∃ b, d.slots r.handle = .responded b

theorem Kept.same {d d' : Rep.Driver A} (h : Kept d) (h1 : d'.taken = d.taken) (h2 : d'.held = d.held)
    (h3 : ∀ r ∈ d.taken, d'.slots r.handle = d.slots r.handle) : Kept d' := by
  intro r hr
  rw [h1] at hr
  rw [h2, h3 r hr]
  exact h r hr

theorem Kept.act {D : Decompressors} {d d' : Rep.Driver A} (hd : Rep.DInv D d none) (a : Rep.Act A) (hna : ∀ i, a ≠ .drop i)
    (h : d.act D a = .ok d') (hk : Kept d) : Kept d' := by
  cases a with
  | peer k e =>
    simp only [Rep.Driver.act, Rep.Driver.stepPeer] at h
    cases hp : d.peers[k]? with
    | none => simp only [hp] at h; cases h; exact hk
    | some p =>
      simp only [hp] at h
      obtain ⟨hc, hl⟩ := hd.peers p (List.mem_of_getElem? hp)
      obtain ⟨p', o, hit, hs⟩ := Rep.iter_spec hc hl (hd.future _ (Nat.le_refl _)) e
      rw [hit] at h
      simp only [R.bind_ok, R.pure_eq] at h
      cases o with
      | request y m =>
        cases h
        obtain ⟨rfl, -⟩ := hs.handle y m rfl
        have hne : ∀ r ∈ d.taken, r.handle ≠ d.next := fun r hr he => by
          have := hd.handles.2 r.handle (List.mem_map.mpr ⟨r, List.mem_append_left _ hr, rfl⟩)
          omega
        unfold Rep.Driver.onRequest
        split
        · exact hk.same rfl rfl fun r hr => by
            simp only [Rep.Driver.complete]
            rw [if_neg (hne r hr)]
        · simp only
          split
          · exact hk.same rfl rfl fun r hr => rfl
          · exact hk.same rfl rfl fun r hr => by
              simp only [Rep.Driver.complete]
              rw [if_neg (hne r hr)]
      | sent m => cases h; exact hk
      | queued => cases h; exact hk
      | error => cases h; exact hk
      | closed => cases h; exact hk
      | pending => cases h; exact hk
  | join i =>
    cases h
    unfold Rep.Driver.stepJoin
    repeat' split
    all_goals first | exact hk | (simp only; split <;> exact hk)
  | ready i ok =>
    cases h
    unfold Rep.Driver.stepConn
    repeat' split
    all_goals first | exact hk | (simp only; repeat' split)
    all_goals exact hk
  | accept c =>
    cases h
    unfold Rep.Driver.stepAccept
    repeat' split
    all_goals exact hk
  | recv =>
    simp only [Rep.Driver.act] at h
    split at h
    · cases h; exact hk
    · rename_i r rs hib
      cases h
      intro q hq
      simp only [List.mem_append, List.mem_singleton] at hq ⊢
      rcases hq with hq | rfl
      · exact (hk q hq).imp .inl id
      · exact .inl (.inr rfl)
  | respond i b =>
    simp only [Rep.Driver.act] at h
    cases hi : d.held[i]? with
    | none => simp only [hi] at h; cases h; exact hk
    | some r =>
      simp only [hi] at h
      cases h
      intro q hq
      simp only [Rep.Driver.complete]
      by_cases he : q.handle = r.handle
      · exact .inr ⟨b, by rw [if_pos he]⟩
      · rw [if_neg he]
        refine (hk q hq).imp (fun hq => ?_) id
        obtain ⟨j, hj⟩ := List.mem_iff_getElem?.mp hq
        have hji : j ≠ i := fun hji => by
          rw [hji, hi] at hj
          cases hj
          exact he rfl
        exact List.mem_eraseIdx_iff_getElem?.mpr ⟨j, hji, hj⟩
  | drop i => exact absurd rfl (hna i)

theorem kept_run {D : Decompressors} {d d' : Rep.Driver A} (acts : List (Rep.Act A)) (hd : Rep.DInv D d none)
    (hna : ∀ i, .drop i ∉ acts) (h : d.run D acts = .ok d') (hk : Kept d) : Kept d' := by
  induction acts generalizing d with
  | nil => cases h; exact hk
  | cons a as ih =>
    simp only [Rep.Driver.run] at h
    obtain ⟨d1, h1, h2⟩ := Rep.act_inv hd a
    rw [h1] at h
    exact ih h2 (fun i hm => hna i (List.mem_cons_of_mem _ hm)) h
      (hk.act hd a (fun i he => hna i (by rw [he]; exact List.mem_cons_self)) h1)

/-- The responses an application gives fit into frames. -/
def Fits (rcomp : Option Compressor) (acts : List (Rep.Act A)) : Prop :=
  ∀ i b, .respond i b ∈ acts → ∀ id, ∃ m, replyPrepare rcomp id b = some m ∧ m.payload.length < 2 ^ 32

theorem Fits.answers {D : Decompressors} {max authn rcomp} {acts : List (Rep.Act A)} {d : Rep.Driver A} (h : Fits rcomp acts)
    (hd : (Rep.Driver.new max authn rcomp : Rep.Driver A).run D acts = .ok d) :
    ∀ p ∈ d.conns, ∀ x ∈ p.answers, x.2.payload.length < 2 ^ 32 := by
  intro p hp x hx
  obtain ⟨-, -, h3, -⟩ := C42_responses_match D max authn rcomp acts d hd p hp
  obtain ⟨rq, b, -, e1, -, -, pre, i, post, d0, r, e2, -⟩ := h3 x.1 x.2 hx
  obtain ⟨m, f1, f2⟩ := h i b (by rw [e2]; simp) rq.header.id
  rw [e1] at f1
  cases f1
  exact f2

theorem act_calls {D : Decompressors} {s t : Req.State} {a : Req.Act} (h : s.act D a = .ok t) : s.calls <+: t.calls := by
  cases a with
  | iter e =>
    simp only [Req.State.act] at h
    split at h
    · cases h; exact List.prefix_rfl
    · cases hit : s.iter D e with
      | panic => rw [hit] at h; cases h
      | ok r =>
        rw [hit] at h
        cases h
        rw [(Req.iter_keep (t := r.1) (o := r.2) hit).1]
        exact List.prefix_rfl
  | advance dt => cases h; exact List.prefix_rfl
  | request payload =>
    simp only [Req.State.act] at h
    split at h
    · cases h; exact List.prefix_rfl
    · split at h <;> cases h <;> exact List.prefix_append _ _
  | dropSocket => cases h; exact List.prefix_rfl

/-- What is true all along a joint history. -/
theorem together_inv {D : Decompressors} {opts : Req.Options} {comp : Option Compressor} {now : Nat} {s0 s : Req.State}
    {max authn rcomp} {acts : List (Rep.Act A)} {d : Rep.Driver A}
    (h0 : Req.State.new opts comp now = .ok s0)
    (ht : Spec.Together D s0 (Rep.Driver.new max authn rcomp : Rep.Driver A) s acts d)
    (hids : s.calls.length ≤ 2 ^ 32)
    (hreq : ∀ call ∈ s.calls, (requestPrepare opts.minCompress comp call.payload).payload.length < 2 ^ 32)
    (hfits : Fits rcomp acts) :
    ReqReach D opts comp s ∧ (Rep.Driver.new max authn rcomp : Rep.Driver A).run D acts = .ok d ∧ Spec.Network s d ∧
      Req.Asked s ∧ Req.Settled s ∧ Req.Ends D s := by
  have asked : ∀ {s : Req.State} {acts : List (Rep.Act A)} {d : Rep.Driver A}, ReqReach D opts comp s →
      (Rep.Driver.new max authn rcomp : Rep.Driver A).run D acts = .ok d → Spec.Network s d →
      (∀ call ∈ s.calls, (requestPrepare opts.minCompress comp call.payload).payload.length < 2 ^ 32) →
      Fits rcomp acts → Req.Asked s := by
    intro s acts d hr hd hn hreq hfits m hm
    obtain ⟨c, hc, hmc⟩ := List.mem_flatMap.mp hm
    rcases hn c hc with hnil | ⟨p, hp, hl⟩
    · rw [got_nil hr hc hnil] at hmc; cases hmc
    · have hma := (got_answers hr hd hc hp (hfits.answers hd p hp) hl.1).subset hmc
      obtain ⟨⟨x, m'⟩, hx, rfl⟩ := List.mem_map.mp hma
      obtain ⟨-, -, h3, -⟩ := C42_responses_match D max authn rcomp acts d hd p hp
      obtain ⟨rq, b, g1, -, g3, -⟩ := h3 x m' hx
      have hrq := (issued_sent hr hd hreq hc hp hl.2).subset (List.mem_map.mpr ⟨_, g1, rfl⟩)
      obtain ⟨y, hy, hyr⟩ := List.mem_map.mp hrq
      exact ⟨y, sent_taken hr.inv hc hy, by rw [hyr]; exact g3.symm⟩
  induction ht with
  | start hn =>
    have hr : ReqReach D opts comp s0 := ⟨now, s0, [], h0, rfl⟩
    obtain ⟨k1, k2, k3⟩ := Req.new_ends (D := D) h0
    exact ⟨hr, rfl, hn, asked hr (acts := []) rfl hn hreq hfits, k2, k1⟩
  | @client s s' acts d a _ ha hn ih =>
    have hsub := act_calls ha
    have hle := hsub.length_le
    obtain ⟨i1, i2, i3, i4, i5, i6⟩ := ih (by omega) (fun call hc => hreq call (hsub.subset hc)) hfits
    have hr := Req.reach_act i1 ha
    exact ⟨hr, i2, hn, asked hr i2 hn hreq hfits, i5.act i1.inv i4 (by omega) ha,
      (Req.act_steps s s' a ha).ends i1.inv i6⟩
  | @server s acts d d' a _ ha hn ih =>
    have hf : Fits rcomp acts := fun i b hm => hfits i b (List.mem_append_left _ hm)
    obtain ⟨i1, i2, i3, i4, i5, i6⟩ := ih hids hreq hf
    refine ⟨i1, ?_, hn, i4, i5, i6⟩
    rw [Rep.run_append, i2]
    simp only [Rep.Driver.run]
    show (do let d ← d.act D a; Rep.Driver.run D d []) = R.ok d'
    rw [ha]
    rfl

/-- Requests of this socket can be decompressed. -/
theorem sent_decodes {D : Decompressors} {opts : Req.Options} {comp : Option Compressor} {s : Req.State} (hr : ReqReach D opts comp s)
    (hinv : ∀ c, comp = some c → Spec.Inverts D c)
    (hreq : ∀ call ∈ s.calls, (requestPrepare opts.minCompress comp call.payload).payload.length < 2 ^ 32)
    {c : Req.Chan} (hcc : c ∈ s.chans) {y : Nat × ReqRep.Message} (hy : y ∈ c.sent) :
    tryDecompress D y.2.header.ctype y.2.payload ≠ none := by
  obtain ⟨k, hk⟩ := List.mem_iff_getElem?.mp (sent_taken hr.inv hcc hy)
  obtain ⟨-, call, e2, e3, e4⟩ := taken_frame hr hreq k y hk
  obtain ⟨mm, q1, -, q2⟩ := C13_request_transparent D opts.minCompress comp hinv (UInt32.ofNat k) call.payload []
    (hreq call (List.mem_of_getElem? e2))
  rw [ReqRep.decode_encode _ _ (by
    simp only [ReqMsg.intoWire, ReqRep.Message.WF, ReqRep.Message.new, UInt32.toNat_ofNat']
    exact Nat.mod_eq_of_lt (hreq call (List.mem_of_getElem? e2)))] at q1
  cases q1
  have : tryDecompress D y.2.header.ctype y.2.payload = some call.payload := by rw [e3]; exact q2
  rw [this]
  simp

/-- Every request read on a connection is in the hands of the application or was answered by it. -/
theorem issued_responded {D : Decompressors} {max authn rcomp} {acts : List (Rep.Act A)} {d : Rep.Driver A}
    (hd : (Rep.Driver.new max authn rcomp : Rep.Driver A).run D acts = .ok d) {p : Rep.Peer A} (hpc : p ∈ d.conns)
    (hdec : ∀ x q, (x, q) ∈ p.issued → tryDecompress D q.header.ctype q.payload ≠ none)
    (hroom : ∀ pre post d1, acts = pre ++ post → (Rep.Driver.new max authn rcomp : Rep.Driver A).run D pre = .ok d1 →
      d1.inbox.length < 1024)
    (hnodrop : ∀ i, .drop i ∉ acts) (hinbox : d.inbox = []) (hheld : d.held = []) (x : Nat) (q : ReqRep.Message)
    (hx : (x, q) ∈ p.issued) : ∃ b, d.slots x = .responded b := by
  obtain ⟨k1, -, -⟩ := C44_delivered_in_order_partial D max authn rcomp acts d hd p hpc
  have hkept : Kept d := kept_run acts (Rep.new_inv D max authn rcomp) hnodrop hd (fun r hr => by cases hr)
  rcases k1 x q hx with ⟨r, h1, h2, -⟩ | h1 | ⟨pre, kk, ee, post, d1, qq, h1, h2, -, -, h3⟩
  · rw [hinbox, List.append_nil] at h1
    rcases hkept r h1 with h3 | h3
    · rw [hheld] at h3; cases h3
    · rwa [h2] at h3
  · exact absurd h1 (hdec x q hx)
  · have := hroom pre (.peer kk ee :: post) d1 h1 h2
    omega

/-- … and has a response, unless it is still in the connection's set. -/
theorem issued_answered {D : Decompressors} {max authn rcomp} {acts : List (Rep.Act A)} {d : Rep.Driver A}
    (hd : (Rep.Driver.new max authn rcomp : Rep.Driver A).run D acts = .ok d) (hfits : Fits rcomp acts) {p p' : Rep.Peer A} (hpc : p ∈ d.conns)
    (hcore : Rep.PCore d.comp d.slots d.next p) {nx : Nat} (hcore' : Rep.PCore d.comp d.slots nx p') (hi : p'.issued = p.issued) (ha : p'.answers = p.answers)
    (x : Nat) (q : ReqRep.Message) (hx : (x, q) ∈ p.issued) {b : Bytes} (hb : d.slots x = .responded b) :
    (∃ m, (x, m) ∈ p.answers ∧ m.header.id = q.header.id) ∨ x ∈ p'.pend.map (·.1) := by
  have hcfg : d.comp = rcomp := (Rep.run_cfg acts hd).2
  rcases hcore'.done x q (by rw [hi]; exact hx) with h1 | h1 | h1 | ⟨b', h1, h2⟩
  · rw [ha] at h1
    obtain ⟨⟨x', m⟩, hm, rfl⟩ := List.mem_map.mp h1
    obtain ⟨-, -, h3, -⟩ := C42_responses_match D max authn rcomp acts d hd p hpc
    obtain ⟨rq', b'', g1, -, g3, -⟩ := h3 x' m hm
    refine .inl ⟨m, hm, ?_⟩
    have hsorted : (p.issued.map (·.1)).Nodup := hcore.sorted.imp fun h => Nat.ne_of_lt h
    have heq : ((x', rq') : Nat × ReqRep.Message) = (x', q) := List.nodup_map_inj hsorted g1 hx rfl
    rw [g3]
    exact congrArg (fun z => z.2.header.id) heq
  · exact .inr h1
  · rw [hb] at h1; cases h1
  · rw [hb] at h1
    cases h1
    exfalso
    rw [hcfg] at h2
    obtain ⟨pre, a, post, d1, d2, g1, g2, g3, g4, g5⟩ := Rep.run_first (P := fun d => d.slots x = .responded b) acts hd
      (by simp [Rep.Driver.new]) hb
    obtain ⟨i, r1, f1, -, -⟩ := Rep.act_responded a g4 g5 g3
    obtain ⟨m, f2, -⟩ := hfits i b (by rw [g1, f1]; simp) q.header.id
    rw [h2] at f2
    cases f2

/-- The calls whose requests were all answered have returned. -/
theorem call_returned_one {D : Decompressors} {opts : Req.Options} {comp : Option Compressor}
    {max authn rcomp} {s : Req.State} {acts : List (Rep.Act A)} {d : Rep.Driver A}
    (hr : ReqReach D opts comp s) (hd : (Rep.Driver.new max authn rcomp : Rep.Driver A).run D acts = .ok d) (hnet : Spec.Network s d)
    (hset : Req.Settled s) (hends : Req.Ends D s)
    (hinv : ∀ c, comp = some c → Spec.Inverts D c) (hrinv : ∀ c, rcomp = some c → Spec.Inverts D c)
    (hids : s.calls.length ≤ 2 ^ 32)
    (hreq : ∀ call ∈ s.calls, (requestPrepare opts.minCompress comp call.payload).payload.length < 2 ^ 32)
    (hfits : Fits rcomp acts) {c : Req.Chan} (hcc : c ∈ s.chans) (hend : s.ended = false) {p : Rep.Peer A}
    (hgot : c.got = p.answers.map (·.2)) (n : Nat) (rq : ReqRep.Message) (hn : (n, rq) ∈ c.sent)
    (hans : ∃ x m, (x, m) ∈ p.answers ∧ m.header.id = rq.header.id) :
    ∃ call t, s.calls[n]? = some call ∧ t ≤ s.now ∧
      (((n, Req.Res.timeout, t) ∈ s.done ∧ call.time + opts.timeout < t) ∨
      ∃ b, (n, Req.Res.ok b, t) ∈ s.done ∧ ∃ pre i post d1 r, acts = pre ++ .respond i b :: post ∧
        (Rep.Driver.new max authn rcomp : Rep.Driver A).run D pre = .ok d1 ∧ d1.held[i]? = some r ∧
        r.msg = call.payload) := by
  have hi := hr.inv
  have hfa := Fits.answers (A := A) hfits hd
  have hnt := sent_taken hi hcc hn
  obtain ⟨k, hk⟩ := List.mem_iff_getElem?.mp hnt
  obtain ⟨e1, call, e2, e3, -⟩ := taken_frame hr hreq k _ hk
  simp only at e1 e3
  subst e1
  have hkl := (List.getElem?_eq_some_iff.mp hk).1
  have hdone : ∃ r t, (n, r, t) ∈ s.done := by
    obtain ⟨-, -, h33⟩ := C33_at_most_once D opts comp s hr
    rcases h33 n (Nat.lt_of_lt_of_le hkl hi.calls.le) with ⟨pl, h1⟩ | ⟨q, h1, h2⟩ | h1
    · obtain ⟨j, hj⟩ := List.mem_iff_getElem?.mp h1
      have := (hi.calls.queue j _ hj).1
      simp only at this
      omega
    · exfalso
      obtain ⟨m, g1, g2, -⟩ := hi.calls.pend q h1
      obtain ⟨k', hk'⟩ := List.mem_iff_getElem?.mp g1
      obtain ⟨f1, f2⟩ := Req.taken_id hi.calls hk'
      simp only at f1 f2
      have hqid : q.id = rq.header.id := by
        rw [← g2, f2, ← f1, h2, (Req.taken_id hi.calls hk).2]
      obtain ⟨x, m', hm', hid⟩ := hans
      have hmg : m' ∈ s.gotAll := List.mem_flatMap.mpr ⟨c, hcc, by rw [hgot]; exact List.mem_map.mpr ⟨_, hm', rfl⟩⟩
      exact hset m' hmg q h1 (by rw [hqid, hid])
    · exact h1
  obtain ⟨r, t, hrt⟩ := hdone
  refine ⟨call, t, e2, hi.calls.doneAt _ hrt, ?_⟩
  cases r with
  | ok b =>
    obtain ⟨call', g1, -, -, -, -, -, pre, i, post, d1, r, g2, g3, g4, -, g5, -⟩ :=
      C34_own_response D opts comp s hr max authn rcomp acts d hd hnet hinv hrinv hids hreq hfa n b t hrt
    rw [e2] at g1
    cases g1
    exact .inr ⟨b, hrt, pre, i, post, d1, r, g2, g3, g4, g5⟩
  | timeout =>
    obtain ⟨call', g1, g2, -⟩ := C35_never_early D opts comp s hr n t hrt
    rw [e2] at g1
    cases g1
    exact .inl ⟨hrt, g2⟩
  | closed =>
    rcases hends.closed n t hrt with h1 | h1
    · rw [hend] at h1; cases h1
    · omega
  | decompression =>
    exfalso
    obtain ⟨m, hm, hbad⟩ := hends.bad n t hrt
    obtain ⟨c', hc', hmc⟩ := List.mem_flatMap.mp hm
    rcases hnet c' hc' with hnil | ⟨q, hq, hl⟩
    · rw [got_nil hr hc' hnil] at hmc; cases hmc
    · have hma := (got_answers hr hd hc' hq (hfa q hq) hl.1).subset hmc
      obtain ⟨⟨x, m'⟩, hx, rfl⟩ := List.mem_map.mp hma
      obtain ⟨_, b, -, -, hdec, -⟩ := C42_response_payload D max authn rcomp hrinv acts d hd q hq x m' hx
      rw [hdec] at hbad
      cases hbad

theorem call_returned {D : Decompressors} {opts : Req.Options} {comp : Option Compressor}
    {max authn rcomp} {s : Req.State} {acts : List (Rep.Act A)} {d : Rep.Driver A}
    (hr : ReqReach D opts comp s) (hd : (Rep.Driver.new max authn rcomp : Rep.Driver A).run D acts = .ok d) (hnet : Spec.Network s d)
    (hset : Req.Settled s) (hends : Req.Ends D s)
    (hinv : ∀ c, comp = some c → Spec.Inverts D c) (hrinv : ∀ c, rcomp = some c → Spec.Inverts D c)
    (hids : s.calls.length ≤ 2 ^ 32)
    (hreq : ∀ call ∈ s.calls, (requestPrepare opts.minCompress comp call.payload).payload.length < 2 ^ 32)
    (hfits : Fits rcomp acts) {c : Req.Chan} (hcc : c ∈ s.chans) (hend : s.ended = false) {p : Rep.Peer A}
    (hiss : p.issued.map (·.2) = c.sent.map (·.2))
    (hans : ∀ x q, (x, q) ∈ p.issued → ∃ m, (x, m) ∈ p.answers ∧ m.header.id = q.header.id)
    (hgot : c.got = p.answers.map (·.2)) (n : Nat) (rq : ReqRep.Message) (hn : (n, rq) ∈ c.sent) :
    ∃ call t, s.calls[n]? = some call ∧ t ≤ s.now ∧
      (((n, Req.Res.timeout, t) ∈ s.done ∧ call.time + opts.timeout < t) ∨
      ∃ b, (n, Req.Res.ok b, t) ∈ s.done ∧ ∃ pre i post d1 r, acts = pre ++ .respond i b :: post ∧
        (Rep.Driver.new max authn rcomp : Rep.Driver A).run D pre = .ok d1 ∧ d1.held[i]? = some r ∧
        r.msg = call.payload) := by
  have hrq : rq ∈ p.issued.map (·.2) := by rw [hiss]; exact List.mem_map.mpr ⟨_, hn, rfl⟩
  obtain ⟨⟨x, rq'⟩, hx, rfl⟩ := List.mem_map.mp hrq
  obtain ⟨m', hm', hid⟩ := hans x rq' hx
  exact call_returned_one hr hd hnet hset hends hinv hrinv hids hreq hfits hcc hend hgot n rq' hn ⟨x, m', hm', hid⟩

/-- All requests on the wire have been read. -/
theorem all_read {D : Decompressors} {opts : Req.Options} {comp : Option Compressor} {s : Req.State} (hr : ReqReach D opts comp s)
    {max authn rcomp} {acts : List (Rep.Act A)} {d : Rep.Driver A} (hd : (Rep.Driver.new max authn rcomp : Rep.Driver A).run D acts = .ok d)
    (hreq : ∀ call ∈ s.calls, (requestPrepare opts.minCompress comp call.payload).payload.length < 2 ^ 32)
    {c : Req.Chan} (hcc : c ∈ s.chans) {p : Rep.Peer A} (hpc : p ∈ d.conns)
    (hcw : c.wr.buf = []) (hpin : dataOf p.input0 = c.wr.wire) (hpo : OpenAns p.input0)
    (hpp : c.sent.length + p.input0.length + 1 ≤ p.polls) : p.issued.map (·.2) = c.sent.map (·.2) := by
  have hi := hr.inv
  obtain ⟨-, -, k3⟩ := C44_delivered_in_order_partial D max authn rcomp acts d hd p hpc
  refine (k3 (c.sent.map (·.2)) ?_ [] ?_).2 rfl hpo (by simpa using hpp)
  · intro m hm
    obtain ⟨y, hy, rfl⟩ := List.mem_map.mp hm
    obtain ⟨k, hk⟩ := List.mem_iff_getElem?.mp (sent_taken hi hcc hy)
    exact (taken_frame hr hreq k y hk).2.choose_spec.2.2
  · rw [List.append_nil, hpin, List.flatMap_map, ← (hi.chans.chan c hcc).bytes, hcw, List.append_nil]

/-- `C92_every_request_answered`, with the responses given as such. -/
theorem request_answered_core (D : Decompressors) (opts : Req.Options) (comp : Option Compressor) (now : Nat)
    (max authn rcomp) (s0 s : Req.State) (acts : List (Rep.Act A)) (d : Rep.Driver A)
    (h0 : Req.State.new opts comp now = .ok s0)
    (ht : Spec.Together D s0 (Rep.Driver.new max authn rcomp : Rep.Driver A) s acts d)
    (hinv : ∀ c, comp = some c → Spec.Inverts D c) (hrinv : ∀ c, rcomp = some c → Spec.Inverts D c)
    (hids : s.calls.length ≤ 2 ^ 32)
    (hreq : ∀ call ∈ s.calls, (requestPrepare opts.minCompress comp call.payload).payload.length < 2 ^ 32)
    (hfits : ∀ i b, .respond i b ∈ acts → ∀ id, ∃ m, replyPrepare rcomp id b = some m ∧ m.payload.length < 2 ^ 32)
    -- the two ends of the connection
    (c : Req.Chan) (hc : s.conn = .active c) (hend : s.ended = false) (p : Rep.Peer A) (hp : p ∈ d.peers)
    -- the requests are on the wire and have been read
    (hcw : c.wr.buf = []) (hpin : dataOf p.input0 = c.wr.wire) (hpo : OpenAns p.input0)
    (hpp : c.sent.length + p.input0.length + 1 ≤ p.polls)
    -- the application answered them
    (hresp : ∀ x q, (x, q) ∈ p.issued → ∃ b, d.slots x = .responded b)
    -- the responses are on the wire (the connection has nothing left to do) and have been read
    (e : Rep.PEnv) (p' : Rep.Peer A) (hidle : p.iter d.comp d.slots d.next e = .ok (p', .pending))
    (hpe : p.egress = []) (hpw : p.wr.buf = []) (hcin : dataOf c.input0 = p.wr.wire) (hco : OpenAns c.input0)
    (hcp : c.sent.length + c.input0.length + 1 ≤ c.polls)
    (n : Nat) (rq : ReqRep.Message) (hn : (n, rq) ∈ c.sent) :
    ∃ call t, s.calls[n]? = some call ∧ t ≤ s.now ∧
      (((n, Req.Res.timeout, t) ∈ s.done ∧ call.time + opts.timeout < t) ∨
      ∃ b, (n, Req.Res.ok b, t) ∈ s.done ∧ ∃ pre i post d1 r, acts = pre ++ .respond i b :: post ∧
        (Rep.Driver.new max authn rcomp : Rep.Driver A).run D pre = .ok d1 ∧ d1.held[i]? = some r ∧
        r.msg = call.payload) := by
  obtain ⟨hr, hd, hnet, hasked, hset, hends⟩ := together_inv h0 ht hids hreq hfits
  have hi := hr.inv
  have hcc : c ∈ s.chans := by rw [Req.chans_active hc]; simp
  have hpc : p ∈ d.conns := List.mem_append_left _ hp
  have hdi := Rep.run_reach max authn rcomp acts hd
  have hcore := (hdi.peers p hp).1
  have hlive := (hdi.peers p hp).2
  have hfa := Fits.answers (A := A) hfits hd
  -- all requests have been read
  have hiss := all_read hr hd hreq hcc hpc hcw hpin hpo hpp
  -- every request has a response
  have hans : ∀ x q, (x, q) ∈ p.issued → ∃ m, (x, m) ∈ p.answers ∧ m.header.id = q.header.id := by
    intro x q hx
    obtain ⟨b, hb⟩ := hresp x q hx
    have hnd : ∀ z ∈ p.pend.map (·.1), d.slots z ≠ .dropped := by
      intro z hz hzd
      obtain ⟨⟨z', idz⟩, hzm, rfl⟩ := List.mem_map.mp hz
      obtain ⟨mz, hmz, -⟩ := hcore.pend z' idz hzm
      obtain ⟨b', hb'⟩ := hresp z' mz hmz
      simp only at hzd
      rw [hb'] at hzd
      cases hzd
    obtain ⟨p2, o2, hit, hspec⟩ := Rep.iter_spec hcore hlive (hdi.future _ (Nat.le_refl _)) e
    rw [hit] at hidle
    cases hidle
    obtain ⟨-, hidle2⟩ := hspec.idle rfl hnd
    have hissued : p'.issued = p.issued := by
      have := hspec.issued
      simpa [Rep.POut.reqs] using this
    rcases issued_answered hd hfits hpc hcore hspec.core hissued (hspec.answers (by simp)) x q hx hb with h1 | h1
    · exact h1
    · have := hidle2 x h1
      rw [hb] at this; cases this
  -- the responses have been read
  have hgot : c.got = p.answers.map (·.2) := by
    have hw : p.wr.wire = (p.answers.map (·.2)).flatMap ReqRep.encode := by
      have h1 := hcore.bytes
      have h2 := hcore.out
      rw [hpw, List.append_nil] at h1
      rw [hpe, List.append_nil] at h2
      rw [h1, h2]
    have hdr := drains_encoded ReqRep.codec ReqRep.encode ReqRep.decode_nil ReqRep.Message.WF ReqRep.decode_encode
      (p.answers.map (·.2)) (by
        intro m hm
        obtain ⟨x, hx, rfl⟩ := List.mem_map.mp hm
        obtain ⟨-, -, h3, -⟩ := C42_responses_match D max authn rcomp acts d hd p hpc
        obtain ⟨rq, b, -, e1, -⟩ := h3 x.1 x.2 hx
        exact reply_wf e1 (hfa p hpc x hx))
    rw [← hw, ← hcin] at hdr
    refine (hi.chans.chan c hcc).seen.complete ReqRep.inc ReqRep.decode_nil hco hdr ?_
    -- at most one response per request
    have hle : p.answers.length ≤ c.sent.length := by
      have h1 : (p.answers.map (·.1)).Nodup := (List.nodup_append.mp hcore.once).1
      have h2 : p.answers.map (·.1) ⊆ p.issued.map (·.1) := by
        intro x hx
        obtain ⟨⟨x', m⟩, hm, rfl⟩ := List.mem_map.mp hx
        obtain ⟨rq, b, g1, -⟩ := hcore.answers x' m hm
        exact List.mem_map.mpr ⟨_, g1, rfl⟩
      have h3 := h1.length_le_of_subset h2
      have h4 := congrArg List.length hiss
      simp only [List.length_map] at h3 h4
      omega
    simp only [List.length_map]
    omega
  -- so the call has returned
  exact call_returned hr hd hnet hset hends hinv hrinv hids hreq hfits hcc hend hiss hans hgot n rq hn

/-- C92: a request socket and a reply socket run for any time, in any interleaving (`Spec.Together`: neither end of
a connection reads what the other has not yet written); there may be other clients, reconnects, timeouts, calls
made at any time. At the end the connection `c` of the request socket (whose other end is `p`) is in use and idle:
everything handed to either end is on the wire and has been read at the other end. The server application has
received and answered everything, never dropped a request and never let 1024 of them wait. Then every call whose
request was handed to this connection has returned: with a payload `b` that the application passed to
`respond` for a request with this call's payload, or with a timeout, after more than the configured time. -/
theorem C92_every_request_answered (D : Decompressors) (opts : Req.Options) (comp : Option Compressor) (now : Nat)
    (max authn rcomp) (s0 s : Req.State) (acts : List (Rep.Act A)) (d : Rep.Driver A)
    (h0 : Req.State.new opts comp now = .ok s0)
    (ht : Spec.Together D s0 (Rep.Driver.new max authn rcomp : Rep.Driver A) s acts d)
    (hinv : ∀ c, comp = some c → Spec.Inverts D c) (hrinv : ∀ c, rcomp = some c → Spec.Inverts D c)
    (hids : s.calls.length ≤ 2 ^ 32)
    (hreq : ∀ call ∈ s.calls, (requestPrepare opts.minCompress comp call.payload).payload.length < 2 ^ 32)
    (hfits : ∀ i b, .respond i b ∈ acts → ∀ id, ∃ m, replyPrepare rcomp id b = some m ∧ m.payload.length < 2 ^ 32)
    -- the two ends of the connection
    (c : Req.Chan) (hc : s.conn = .active c) (hend : s.ended = false) (p : Rep.Peer A) (hp : p ∈ d.peers)
    -- the requests are on the wire and have been read
    (hcw : c.wr.buf = []) (hpin : dataOf p.input0 = c.wr.wire) (hpo : OpenAns p.input0)
    (hpp : c.sent.length + p.input0.length + 1 ≤ p.polls)
    -- the application received them and answered them
    (hroom : ∀ pre post d1, acts = pre ++ post → (Rep.Driver.new max authn rcomp : Rep.Driver A).run D pre = .ok d1 →
      d1.inbox.length < 1024)
    (hnodrop : ∀ i, .drop i ∉ acts) (hinbox : d.inbox = []) (hheld : d.held = [])
    -- the responses are on the wire (the connection has nothing left to do) and have been read
    (e : Rep.PEnv) (p' : Rep.Peer A) (hidle : p.iter d.comp d.slots d.next e = .ok (p', .pending))
    (hpe : p.egress = []) (hpw : p.wr.buf = []) (hcin : dataOf c.input0 = p.wr.wire) (hco : OpenAns c.input0)
    (hcp : c.sent.length + c.input0.length + 1 ≤ c.polls)
    (n : Nat) (rq : ReqRep.Message) (hn : (n, rq) ∈ c.sent) :
    ∃ call t, s.calls[n]? = some call ∧ t ≤ s.now ∧
      (((n, Req.Res.timeout, t) ∈ s.done ∧ call.time + opts.timeout < t) ∨
      ∃ b, (n, Req.Res.ok b, t) ∈ s.done ∧ ∃ pre i post d1 r, acts = pre ++ .respond i b :: post ∧
        (Rep.Driver.new max authn rcomp : Rep.Driver A).run D pre = .ok d1 ∧ d1.held[i]? = some r ∧
        r.msg = call.payload) := by
  obtain ⟨hr, hd, hnet, hasked, hset, hends⟩ := together_inv h0 ht hids hreq hfits
  have hi := hr.inv
  have hcc : c ∈ s.chans := by rw [Req.chans_active hc]; simp
  have hpc : p ∈ d.conns := List.mem_append_left _ hp
  have hiss := all_read hr hd hreq hcc hpc hcw hpin hpo hpp
  have hdec : ∀ x q, (x, q) ∈ p.issued → tryDecompress D q.header.ctype q.payload ≠ none := by
    intro x q hx
    have hq : q ∈ c.sent.map (·.2) := by rw [← hiss]; exact List.mem_map.mpr ⟨_, hx, rfl⟩
    obtain ⟨y, hy, rfl⟩ := List.mem_map.mp hq
    exact sent_decodes hr hinv hreq hcc hy
  exact request_answered_core D opts comp now max authn rcomp s0 s acts d h0 ht hinv hrinv hids hreq hfits c hc hend p hp hcw hpin hpo hpp
    (issued_responded hd hpc hdec hroom hnodrop hinbox hheld) e p' hidle hpe hpw hcin hco hcp n rq hn

/-! ### A joint history that meets the hypotheses -/

/-- `Spec.Network`, computed. -/
def netOk (s : Req.State) (d : Rep.Driver A) : Bool :=
  s.chans.all fun c => (Spec.readSoFar c.input0 c.input).isEmpty || d.conns.any fun p =>
    (Spec.readSoFar c.input0 c.input).isPrefixOf p.wr.wire && (Spec.readSoFar p.input0 p.input).isPrefixOf c.wr.wire

omit [DecidableEq A] in
theorem netOk_network {s : Req.State} {d : Rep.Driver A} (h : netOk s d = true) : Spec.Network s d := by
  intro c hc
  have := List.all_eq_true.mp h c hc
  rw [Bool.or_eq_true, List.isEmpty_iff, List.any_eq_true] at this
  refine this.imp id fun ⟨p, hp, h1⟩ => ⟨p, hp, ?_⟩
  rw [Bool.and_eq_true, List.isPrefixOf_iff_prefix, List.isPrefixOf_iff_prefix] at h1
  exact h1

/-- Plays a joint history; `none` if the network is not as it should be after some action, or if there is no room for
a request. -/
def play (D : Decompressors) (s : Req.State) (d : Rep.Driver A) : List (Req.Act ⊕ Rep.Act A) → Option (Req.State × Rep.Driver A)
  | [] => if d.inbox.length < 1024 then some (s, d) else none
  | .inl a :: l =>
    match s.act D a with
    | .ok s' => if netOk s' d then play D s' d l else none
    | .panic => none
  | .inr a :: l =>
    match d.act D a with
    | .ok d' => if netOk s d' && decide (d.inbox.length < 1024) then play D s d' l else none
    | .panic => none

/-- The reply socket's part of a joint history. -/
def serverActs (l : List (Req.Act ⊕ Rep.Act A)) : List (Rep.Act A) := l.filterMap fun | .inl _ => none | .inr a => some a

theorem play_together {D : Decompressors} (l : List (Req.Act ⊕ Rep.Act A)) {s0 s s' : Req.State} {d0 d d' : Rep.Driver A}
    {acts : List (Rep.Act A)} (ht : Spec.Together D s0 d0 s acts d) (h : play D s d l = some (s', d')) :
    Spec.Together D s0 d0 s' (acts ++ serverActs l) d' := by
  induction l generalizing s d acts with
  | nil =>
    simp only [play] at h
    split at h
    · cases h; simpa [serverActs] using ht
    · cases h
  | cons a l ih =>
    cases a with
    | inl a =>
      simp only [play] at h
      cases hs : s.act D a with
      | panic => rw [hs] at h; cases h
      | ok s1 =>
        rw [hs] at h
        simp only at h
        split at h
        · rename_i hn
          have := ih (ht.client a hs (netOk_network hn)) h
          simpa [serverActs] using this
        · cases h
    | inr a =>
      simp only [play] at h
      cases hs : d.act D a with
      | panic => rw [hs] at h; cases h
      | ok d1 =>
        rw [hs] at h
        simp only at h
        split at h
        · rename_i hn
          rw [Bool.and_eq_true] at hn
          have := ih (ht.server a hs (netOk_network hn.1)) h
          simpa [serverActs] using this
        · cases h

theorem play_room {D : Decompressors} (l : List (Req.Act ⊕ Rep.Act A)) {s s' : Req.State} {d d' : Rep.Driver A}
    (h : play D s d l = some (s', d')) (pre post : List (Rep.Act A)) (d1 : Rep.Driver A) (hl : serverActs l = pre ++ post)
    (hd : d.run D pre = .ok d1) : d1.inbox.length < 1024 := by
  induction l generalizing s d pre with
  | nil =>
    simp only [play] at h
    split at h
    · rename_i hr
      have : pre = [] := (List.append_eq_nil_iff.mp (by simpa [serverActs] using hl.symm)).1
      subst this
      cases hd
      exact hr
    · cases h
  | cons a l ih =>
    cases a with
    | inl a =>
      simp only [play] at h
      cases hs : s.act D a with
      | panic => rw [hs] at h; cases h
      | ok s1 =>
        rw [hs] at h
        simp only at h
        split at h
        · exact ih h pre (by simpa [serverActs] using hl) hd
        · cases h
    | inr a =>
      simp only [play] at h
      cases hs : d.act D a with
      | panic => rw [hs] at h; cases h
      | ok d2 =>
        rw [hs] at h
        simp only at h
        split at h
        · rename_i hn
          rw [Bool.and_eq_true, decide_eq_true_eq] at hn
          cases pre with
          | nil => cases hd; exact hn.2
          | cons b pre =>
            have hl' : a :: serverActs l = b :: pre ++ post := by simpa [serverActs] using hl
            simp only [List.cons_append, List.cons.injEq] at hl'
            obtain ⟨rfl, hl'⟩ := hl'
            simp only [Rep.Driver.run, hs] at hd
            exact ih h pre hl' hd
        · cases h

end

/-- Two requests on one connection; the application answers them in the other order. -/
def liveActs : List (Req.Act ⊕ Rep.Act Nat) :=
  let resp : Bytes := reqBytes 1 [21] ++ reqBytes 0 [20, 20]
  let e : Rep.PEnv := ⟨[.ok 100, .ok 1], []⟩
  let ce : Req.Act := .iter { flushAns := [.ok 100, .ok 1] }
  [.inl (.iter {}), .inl (.advance 20000000), .inl (.iter {}), .inl (.request [10]), .inl (.request [11]),
   .inl (.iter { task := some (some ⟨[.pending, .pending, .pending, .pending, .pending, .data resp], [], [], []⟩) }),
   .inl ce, .inl ce, .inl ce, .inl ce,
   .inr (.accept ⟨1, some 7, ⟨[.data (reqBytes 0 [10] ++ reqBytes 1 [11])], [], [], []⟩⟩),
   .inr (.ready 0 true), .inr (.peer 0 e), .inr .recv, .inr (.peer 0 e), .inr .recv, .inr (.peer 0 e), .inr (.respond 1 [21]),
   .inr (.peer 0 e), .inr (.peer 0 e), .inr (.respond 0 [20, 20]), .inr (.peer 0 e), .inr (.peer 0 e), .inr (.peer 0 e),
   .inr (.peer 0 e), .inl (.advance 5), .inl ce, .inl ce, .inl ce, .inl ce]

/-- The joint history meets all hypotheses of `C92_every_request_answered`; both calls have their response. -/
example : let D : Decompressors := ⟨fun _ => none, fun _ => none, fun _ => none, fun _ => none⟩
    ∃ s0 s d c p e p', Req.State.new {} none 0 = .ok s0 ∧
      Spec.Together D s0 (Rep.Driver.new none none none : Rep.Driver Nat) s (serverActs liveActs) d ∧
      s.calls = [⟨[10], 20000000⟩, ⟨[11], 20000000⟩] ∧ s.conn = .active c ∧ s.ended = false ∧ p ∈ d.peers ∧
      c.wr.buf = [] ∧ dataOf p.input0 = c.wr.wire ∧ OpenAns p.input0 ∧ c.sent.length + p.input0.length + 1 ≤ p.polls ∧
      (∀ pre post d1, serverActs liveActs = pre ++ post →
        (Rep.Driver.new none none none : Rep.Driver Nat).run D pre = .ok d1 → d1.inbox.length < 1024) ∧
      (∀ i, .drop i ∉ serverActs liveActs) ∧ d.inbox = [] ∧ d.held = [] ∧
      p.iter d.comp d.slots d.next e = .ok (p', .pending) ∧ p.egress = [] ∧ p.wr.buf = [] ∧ dataOf c.input0 = p.wr.wire ∧
      OpenAns c.input0 ∧ c.sent.length + c.input0.length + 1 ≤ c.polls ∧
      c.sent.map (·.1) = [0, 1] ∧ s.done = [(1, .ok [21], 20000005), (0, .ok [20, 20], 20000005)] := by
  intro D
  have key : (match Req.State.new {} none 0 with
      | .panic => false
      | .ok s0 => netOk s0 (Rep.Driver.new none none none : Rep.Driver Nat) &&
        match play D s0 (Rep.Driver.new none none none : Rep.Driver Nat) liveActs with
        | none => false
        | some (s, d) =>
          match s.conn, d.peers with
          | .active c, [p] => decide (s.calls = [⟨[10], 20000000⟩, ⟨[11], 20000000⟩] ∧ s.ended = false ∧
              c.wr.buf = [] ∧ dataOf p.input0 = c.wr.wire ∧ (∀ a ∈ p.input0, a ≠ .err ∧ a ≠ .data []) ∧
              c.sent.length + p.input0.length + 1 ≤ p.polls ∧
              d.inbox = [] ∧ d.held = [] ∧ p.egress = [] ∧ p.wr.buf = [] ∧ dataOf c.input0 = p.wr.wire ∧
              (∀ a ∈ c.input0, a ≠ .err ∧ a ≠ .data []) ∧ c.sent.length + c.input0.length + 1 ≤ c.polls ∧
              c.sent.map (·.1) = [0, 1] ∧ s.done = [(1, .ok [21], 20000005), (0, .ok [20, 20], 20000005)]) &&
            match p.iter d.comp d.slots d.next ⟨[], []⟩ with
            | .ok (_, .pending) => true
            | _ => false
          | _, _ => false) = true := by decide +kernel
  cases hs0 : Req.State.new {} none 0 with
  | panic => rw [hs0] at key; cases key
  | ok s0 =>
    rw [hs0] at key
    simp only [Bool.and_eq_true] at key
    obtain ⟨hnet, key⟩ := key
    cases hpl : play D s0 (Rep.Driver.new none none none : Rep.Driver Nat) liveActs with
    | none => rw [hpl] at key; cases key
    | some x =>
      obtain ⟨s, d⟩ := x
      rw [hpl] at key
      simp only at key
      have ht := play_together (acts := []) liveActs (.start (netOk_network hnet)) hpl
      have hroom := play_room liveActs hpl
      cases hc : s.conn with
      | inactive b => rw [hc] at key; cases key
      | active c =>
        rw [hc] at key
        cases hp : d.peers with
        | nil => rw [hp] at key; cases key
        | cons p ps =>
          rw [hp] at key
          cases ps with
          | cons _ _ => cases key
          | nil =>
            simp only [Bool.and_eq_true, decide_eq_true_eq] at key
            obtain ⟨⟨k1, k2, k3, k4, k5, k6, k7, k8, k9, k10, k11, k12, k13, k14, k15⟩, k16⟩ := key
            cases hit : p.iter d.comp d.slots d.next ⟨[], []⟩ with
            | panic => rw [hit] at k16; cases k16
            | ok y =>
              obtain ⟨p', o⟩ := y
              rw [hit] at k16
              have ho : o = .pending := by cases o <;> first | rfl | cases k16
              subst ho
              refine ⟨s0, s, d, c, p, ⟨[], []⟩, p', rfl, ht, k1, hc, k2, by rw [hp]; simp, k3, k4, k5, k6, hroom, ?_, k7, k8,
                hit, k9, k10, k11, k12, k13, k14, k15⟩
              intro i
              simp [serverActs, liveActs]

end MsgRs.Props
