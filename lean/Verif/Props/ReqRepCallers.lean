import Verif.Props.ReqRepLive
import Verif.Props.ReqSocket
/-!
# C92 for the calls as the users of a request socket make them
-/
namespace MsgRs.Props
open MsgRs

variable {A : Type} [DecidableEq A]

/-- One thing that happens to the socket is at most one thing that happens to its driver. -/
theorem socket_act_driver {D : Decompressors} {s t : Req.Socket} {a : Req.SAct} (h : s.act D a = .ok t) {d : Req.State} (hd : s.drv = some d)
    (htr : s.transport = false) : ∃ d', t.drv = some d' ∧ (d' = d ∨ ∃ b, d.act D b = .ok d') := by
  have onD : ∀ {b : Req.Act} {t : Req.Socket}, s.onDriver D b = .ok t → ∃ d', t.drv = some d' ∧ d.act D b = .ok d' := by
    intro b t h
    unfold Req.Socket.onDriver at h
    rw [hd] at h
    simp only at h
    cases hb : d.act D b with
    | panic => rw [hb] at h; cases h
    | ok d' => rw [hb] at h; cases h; exact ⟨d', rfl, rfl⟩
  cases a with
  | connect =>
    cases h
    refine ⟨d, ?_, .inl rfl⟩
    split
    · exact hd
    · unfold Req.Socket.tryConnect
      rw [if_neg (by rw [htr]; simp)]
      exact hd
  | request p =>
    cases h
    refine ⟨d, ?_, .inl rfl⟩
    split
    · exact hd
    · unfold Req.Socket.request
      rw [hd]
  | cancel i =>
    cases h
    refine ⟨d, ?_, .inl rfl⟩
    unfold Req.Socket.cancel
    split <;> exact hd
  | driver e =>
    obtain ⟨d', h1, h2⟩ := onD h
    exact ⟨d', h1, .inr ⟨_, h2⟩⟩
  | advance dt =>
    simp only [Req.Socket.act] at h
    cases hb : s.onDriver D (.advance dt) with
    | panic => rw [hb] at h; cases h
    | ok u =>
      rw [hb] at h
      cases h
      obtain ⟨d', h1, h2⟩ := onD hb
      exact ⟨d', h1, .inr ⟨_, h2⟩⟩
  | drop =>
    simp only [Req.Socket.act] at h
    cases hb : s.onDriver D .dropSocket with
    | panic => rw [hb] at h; cases h
    | ok u =>
      rw [hb] at h
      cases h
      obtain ⟨d', h1, h2⟩ := onD hb
      exact ⟨d', h1, .inr ⟨_, h2⟩⟩
  | poll i =>
    have h : s.pollCall D i = .ok t := h
    unfold Req.Socket.pollCall at h
    rw [hd] at h
    cases hc : s.callers[i]? with
    | none => rw [hc] at h; cases h; exact ⟨d, hd, .inl rfl⟩
    | some c =>
      rw [hc] at h
      simp only at h
      split at h
      · split at h
        · cases h; exact ⟨d, rfl, .inl rfl⟩
        · split at h
          · cases hb : d.act D (.request c.payload) with
            | panic => rw [hb] at h; cases h
            | ok d' => rw [hb] at h; cases h; exact ⟨d', rfl, .inr ⟨_, hb⟩⟩
          · cases h; exact ⟨d, hd, .inl rfl⟩
      · cases h; exact ⟨d, hd, .inl rfl⟩

/-- A socket without a driver gets one only by connecting. -/
theorem socket_act_none {D : Decompressors} {s t : Req.Socket} {a : Req.SAct} (h : s.act D a = .ok t) (hd : s.drv = none) {d : Req.State}
    (ht : t.drv = some d) : Req.State.new s.opts s.comp s.now = .ok d := by
  have onD : ∀ {b : Req.Act} {t : Req.Socket}, s.onDriver D b = .ok t → t = s := by
    intro b t h
    unfold Req.Socket.onDriver at h
    rw [hd] at h
    cases h
    rfl
  cases a with
  | connect =>
    cases h
    split at ht
    · rw [hd] at ht; cases ht
    · unfold Req.Socket.tryConnect at ht
      split at ht
      · split at ht
        · rw [hd] at ht; cases ht
        · rename_i d' hn
          cases ht
          exact hn
      · rw [hd] at ht; cases ht
  | request p =>
    cases h
    split at ht
    · rw [hd] at ht; cases ht
    · unfold Req.Socket.request at ht
      rw [hd] at ht
      cases ht
  | cancel i =>
    cases h
    unfold Req.Socket.cancel at ht
    split at ht <;> (rw [hd] at ht; cases ht)
  | driver e => rw [onD h, hd] at ht; cases ht
  | advance dt =>
    simp only [Req.Socket.act] at h
    cases hb : s.onDriver D (.advance dt) with
    | panic => rw [hb] at h; cases h
    | ok u =>
      rw [hb] at h
      cases h
      have := onD hb
      subst this
      simp only at ht
      rw [hd] at ht; cases ht
  | drop =>
    simp only [Req.Socket.act] at h
    cases hb : s.onDriver D .dropSocket with
    | panic => rw [hb] at h; cases h
    | ok u =>
      rw [hb] at h
      cases h
      have := onD hb
      subst this
      simp only at ht
      rw [hd] at ht; cases ht
  | poll i =>
    have h : s.pollCall D i = .ok t := h
    unfold Req.Socket.pollCall at h
    rw [hd] at h
    split at h
    · rename_i h1; cases h1
    · cases h; rw [hd] at ht; cases ht

theorem new_network {opts : Req.Options} {comp : Option Compressor} {now : Nat} {s0 : Req.State} (h : Req.State.new opts comp now = .ok s0)
    (d : Rep.Driver A) : Spec.Network s0 d := by
  have : s0.chans = [] := by
    unfold Req.State.new at h
    cases h1 : Interval.new now (opts.timeout / 10) with
    | panic => rw [h1] at h; split at h <;> cases h
    | ok iv =>
      rw [h1] at h
      split at h
      · cases h; rfl
      · rename_i p _
        cases h2 : Interval.new now p with
        | panic => simp only [R.bind_ok, h2] at h; cases h
        | ok iv2 => simp only [R.bind_ok, h2] at h; cases h; rfl
  intro c hc
  rw [this] at hc
  cases hc

theorem socket_run_append {D : Decompressors} (s : Req.Socket) (as bs : List Req.SAct) :
    s.run D (as ++ bs) = (s.run D as).bind fun t => t.run D bs := by
  induction as generalizing s with
  | nil => rfl
  | cons a as ih =>
    simp only [List.cons_append, Req.Socket.run]
    cases h : s.act D a with
    | panic => rfl
    | ok t => exact ih t

/-- The histories of a socket with callers are histories of its driver. -/
theorem callers_together {D : Decompressors} {opts : Req.Options} {comp : Option Compressor} {now : Nat} {s : Req.Socket} {d0 : Rep.Driver A}
    {acts : List (Rep.Act A)} {d : Rep.Driver A} (h : Spec.CallersTogether D (Req.Socket.new opts comp now) d0 s acts d) :
    SocketReach D opts comp s ∧ ∀ drv, s.drv = some drv →
      ∃ now s0, Req.State.new opts comp now = .ok s0 ∧ Spec.Together D s0 d0 drv acts d := by
  suffices hs : (∃ cacts, (Req.Socket.new opts comp now).run D cacts = .ok s) ∧ (∀ s0 now, Req.State.new opts comp now = .ok s0 → Spec.Together D s0 d0 s0 acts d) ∧
      ∀ drv, s.drv = some drv → ∃ now s0, Req.State.new opts comp now = .ok s0 ∧ Spec.Together D s0 d0 drv acts d by
    obtain ⟨⟨cacts, h1⟩, h2, h3⟩ := hs
    exact ⟨⟨now, cacts, h1⟩, h3⟩
  induction h with
  | start => exact ⟨⟨[], rfl⟩, fun s0 _ h0 => .start (new_network h0 _), fun drv hd => by cases hd⟩
  | @client s s' acts d a _ ha hn ih =>
    obtain ⟨⟨cacts, h1⟩, h2, h3⟩ := ih
    have hr : SocketReach D opts comp s := ⟨now, cacts, h1⟩
    refine ⟨⟨cacts ++ [a], ?_⟩, h2, fun drv hd => ?_⟩
    · rw [socket_run_append, h1]
      show Req.Socket.run D s [a] = .ok s'
      simp only [Req.Socket.run]
      rw [ha]
      rfl
    · cases hd0 : s.drv with
      | none =>
        have := socket_act_none ha hd0 hd
        obtain ⟨e1, e2⟩ := hr.opts
        rw [e1, e2] at this
        exact ⟨_, drv, this, h2 _ _ this⟩
      | some d1 =>
        obtain ⟨n, s0, k1, k2⟩ := h3 d1 hd0
        obtain ⟨d', g1, g2⟩ := socket_act_driver ha hd0 (hr.inv.transport (by rw [hd0]; simp))
        rw [hd] at g1
        cases g1
        rcases g2 with rfl | ⟨b, g2⟩
        · exact ⟨n, s0, k1, k2⟩
        · exact ⟨n, s0, k1, k2.client b g2 (hn _ hd)⟩
  | @server s acts d d' a _ ha hn ih =>
    obtain ⟨h1, h2, h3⟩ := ih
    refine ⟨h1, fun s0 n h0 => (h2 s0 n h0).server a ha (new_network h0 _), fun drv hd => ?_⟩
    obtain ⟨n, s0, k1, k2⟩ := h3 drv hd
    exact ⟨n, s0, k1, k2.server a ha (hn _ hd)⟩

theorem done_lookup {l : List (Nat × Req.Res × Nat)} (hn : (l.map (·.1)).Nodup) {k : Nat} {x : Req.Res × Nat} (h : (k, x) ∈ l) :
    l.lookup k = some x := by
  induction l with
  | nil => cases h
  | cons y l ih =>
    obtain ⟨k', x'⟩ := y
    simp only [List.map_cons, List.nodup_cons] at hn
    rw [List.lookup_cons]
    rcases List.mem_cons.1 h with h | h
    · cases h
      simp
    · have : k ≠ k' := fun he => hn.1 (he ▸ List.mem_map.2 ⟨_, h, rfl⟩)
      rw [show (k == k') = false by simpa using this]
      exact ih hn.2 h

/-- `C92_every_caller_answered`, with the responses given as such. -/
theorem caller_answered_core (D : Decompressors) (opts : Req.Options) (comp : Option Compressor) (now : Nat)
    (max authn rcomp) (s : Req.Socket) (acts : List (Rep.Act A)) (d : Rep.Driver A)
    (ht : Spec.CallersTogether D (Req.Socket.new opts comp now) (Rep.Driver.new max authn rcomp : Rep.Driver A) s acts d)
    (hinv : ∀ c, comp = some c → Spec.Inverts D c) (hrinv : ∀ c, rcomp = some c → Spec.Inverts D c)
    (hids : s.callers.length ≤ 2 ^ 32)
    (hreq : ∀ c ∈ s.callers, (requestPrepare opts.minCompress comp c.payload).payload.length < 2 ^ 32)
    (hfits : ∀ i b, .respond i b ∈ acts → ∀ id, ∃ m, replyPrepare rcomp id b = some m ∧ m.payload.length < 2 ^ 32)
    -- the two ends of the connection
    (drv : Req.State) (hdrv : s.drv = some drv)
    (c : Req.Chan) (hc : drv.conn = .active c) (hend : drv.ended = false) (p : Rep.Peer A) (hp : p ∈ d.peers)
    -- the requests are on the wire and have been read
    (hcw : c.wr.buf = []) (hpin : dataOf p.input0 = c.wr.wire) (hpo : OpenAns p.input0)
    (hpp : c.sent.length + p.input0.length + 1 ≤ p.polls)
    -- the application answered them
    (hresp : ∀ x q, (x, q) ∈ p.issued → ∃ b, d.slots x = .responded b)
    -- the responses are on the wire (the connection has nothing left to do) and have been read
    (e : Rep.PEnv) (p' : Rep.Peer A) (hidle : p.iter d.comp d.slots d.next e = .ok (p', .pending))
    (hpe : p.egress = []) (hpw : p.wr.buf = []) (hcin : dataOf c.input0 = p.wr.wire) (hco : OpenAns c.input0)
    (hcp : c.sent.length + c.input0.length + 1 ≤ c.polls)
    -- a call whose request was handed to the connection
    (i : Nat) (call : Req.Caller) (hi : s.callers[i]? = some call) (hcan : call.cancelled = false)
    (n : Nat) (hst : call.stage = .entered n) (hsent : n ∈ c.sent.map (·.1)) :
    (s.result i = some .timeout ∧ call.time + opts.timeout < s.now) ∨
    ∃ b, s.result i = some (.ok b) ∧ ∃ pre j post d1 r, acts = pre ++ .respond j b :: post ∧
      (Rep.Driver.new max authn rcomp : Rep.Driver A).run D pre = .ok d1 ∧ d1.held[j]? = some r ∧ r.msg = call.payload := by
  obtain ⟨hr, hts⟩ := callers_together ht
  obtain ⟨now', s0, h0, hT⟩ := hts drv hdrv
  have hf := hr.inv
  obtain ⟨ho, hcp'⟩ := hr.opts
  obtain ⟨hreach, hnow, -⟩ := hf.reach drv hdrv
  obtain ⟨⟨n', rq⟩, hm, hn⟩ := List.mem_map.1 hsent
  simp only at hn
  subst hn
  have hnd := (C33_at_most_once D _ _ drv hreach).1
  obtain ⟨call', t, k1, k2, k3⟩ := request_answered_core D opts comp now' max authn rcomp s0 drv acts d h0 hT hinv hrinv
    (Nat.le_trans (front_calls_le hf hdrv) hids) (by
      intro x hx
      obtain ⟨k, hk, hk2⟩ := List.getElem_of_mem hx
      obtain ⟨i, c, x', e1, e2, e3, e4⟩ := front_callOf hf hdrv k hk
      rw [List.getElem?_eq_getElem hk, hk2] at e3
      cases e3
      rw [e4]
      exact hreq c (List.mem_of_getElem? e1)) hfits c hc hend p hp hcw hpin hpo hpp hresp e p' hidle hpe hpw hcin hco hcp
      n' rq hm
  obtain ⟨drv', call'', g1, g2, g3, g4⟩ := hf.entered i call n' hi hst
  rw [hdrv] at g1
  cases g1
  rw [k1] at g2
  cases g2
  have res : ∀ r t, (n', r, t) ∈ drv.done → s.result i = some r := by
    intro r t hd
    unfold Req.Socket.result
    rw [hi]
    simp only [hcan, hst, hdrv, Option.bind_some, done_lookup hnd hd]
    rfl
  rcases k3 with ⟨k3, k4⟩ | ⟨b, k3, pre, j, post, d1, r, k4, k5, k6, k7⟩
  · exact .inl ⟨res _ _ k3, by omega⟩
  · exact .inr ⟨b, res _ _ k3, pre, j, post, d1, r, k4, k5, k6, by rw [k7, g3]⟩

/-- C92, for the calls as the users make them (see `C92_every_request_answered` for the circumstances): every call whose
request was handed to the connection, and whose future was not dropped, has returned: with a payload that the server
application passed to `respond` for a request with this call's payload, or with a timeout, if more than the configured
time has passed since the call was made. -/
theorem C92_every_caller_answered (D : Decompressors) (opts : Req.Options) (comp : Option Compressor) (now : Nat)
    (max authn rcomp) (s : Req.Socket) (acts : List (Rep.Act A)) (d : Rep.Driver A)
    (ht : Spec.CallersTogether D (Req.Socket.new opts comp now) (Rep.Driver.new max authn rcomp : Rep.Driver A) s acts d)
    (hinv : ∀ c, comp = some c → Spec.Inverts D c) (hrinv : ∀ c, rcomp = some c → Spec.Inverts D c)
    (hids : s.callers.length ≤ 2 ^ 32)
    (hreq : ∀ c ∈ s.callers, (requestPrepare opts.minCompress comp c.payload).payload.length < 2 ^ 32)
    (hfits : ∀ i b, .respond i b ∈ acts → ∀ id, ∃ m, replyPrepare rcomp id b = some m ∧ m.payload.length < 2 ^ 32)
    -- the two ends of the connection
    (drv : Req.State) (hdrv : s.drv = some drv)
    (c : Req.Chan) (hc : drv.conn = .active c) (hend : drv.ended = false) (p : Rep.Peer A) (hp : p ∈ d.peers)
    -- the requests are on the wire and have been read
    (hcw : c.wr.buf = []) (hpin : dataOf p.input0 = c.wr.wire) (hpo : OpenAns p.input0)
    (hpp : c.sent.length + p.input0.length + 1 ≤ p.polls)
    -- the application received them and answered them
    (hroom : ∀ pre post d1, acts = pre ++ post → (Rep.Driver.new max authn rcomp : Rep.Driver A).run D pre = .ok d1 →
      d1.inbox.length < 1024)
    (hnodrop : ∀ i, .drop i ∉ acts) (hinbox : d.inbox = []) (hheld : d.held = [])
    -- the responses are on the wire (the connection has nothing left to do) and have been read
    (e : Rep.PEnv) (p' : Rep.Peer A) (hidle : p.iter d.comp d.slots d.next e = .ok (p', .pending))
    (hpe : p.egress = []) (hpw : p.wr.buf = []) (hcin : dataOf c.input0 = p.wr.wire) (hco : OpenAns c.input0)
    (hcp : c.sent.length + c.input0.length + 1 ≤ c.polls)
    -- a call whose request was handed to the connection
    (i : Nat) (call : Req.Caller) (hi : s.callers[i]? = some call) (hcan : call.cancelled = false)
    (n : Nat) (hst : call.stage = .entered n) (hsent : n ∈ c.sent.map (·.1)) :
    (s.result i = some .timeout ∧ call.time + opts.timeout < s.now) ∨
    ∃ b, s.result i = some (.ok b) ∧ ∃ pre j post d1 r, acts = pre ++ .respond j b :: post ∧
      (Rep.Driver.new max authn rcomp : Rep.Driver A).run D pre = .ok d1 ∧ d1.held[j]? = some r ∧ r.msg = call.payload := by
  obtain ⟨hr, hts⟩ := callers_together ht
  obtain ⟨now', s0, h0, hT⟩ := hts drv hdrv
  have hf := hr.inv
  obtain ⟨ho, hcp'⟩ := hr.opts
  have hreq' : ∀ call ∈ drv.calls, (requestPrepare opts.minCompress comp call.payload).payload.length < 2 ^ 32 := (by
      intro x hx
      obtain ⟨k, hk, hk2⟩ := List.getElem_of_mem hx
      obtain ⟨i, c, x', e1, e2, e3, e4⟩ := front_callOf hf hdrv k hk
      rw [List.getElem?_eq_getElem hk, hk2] at e3
      cases e3
      rw [e4]
      exact hreq c (List.mem_of_getElem? e1))
  obtain ⟨hr', hd, -, -, -, -⟩ := together_inv h0 hT (Nat.le_trans (front_calls_le hf hdrv) hids) hreq' hfits
  have hcc : c ∈ drv.chans := by rw [Req.chans_active hc]; simp
  have hpc : p ∈ d.conns := List.mem_append_left _ hp
  have hiss := all_read hr' hd hreq' hcc hpc hcw hpin hpo hpp
  have hdec : ∀ x q, (x, q) ∈ p.issued → tryDecompress D q.header.ctype q.payload ≠ none := by
    intro x q hx
    have hq : q ∈ c.sent.map (·.2) := by rw [← hiss]; exact List.mem_map.mpr ⟨_, hx, rfl⟩
    obtain ⟨y, hy, rfl⟩ := List.mem_map.mp hq
    exact sent_decodes hr' hinv hreq' hcc hy
  exact caller_answered_core D opts comp now max authn rcomp s acts d ht hinv hrinv hids hreq hfits drv hdrv c hc hend p hp hcw hpin hpo hpp
    (issued_responded hd hpc hdec hroom hnodrop hinbox hheld) e p' hidle hpe hpw hcin hco hcp i call hi hcan n hst hsent

/-! ### A history that meets the hypotheses -/

def drvOk (o : Option Req.State) (d : Rep.Driver A) : Bool := match o with | some x => netOk x d | none => true

omit [DecidableEq A] in
theorem drvOk_network {o : Option Req.State} {d : Rep.Driver A} (h : drvOk o d = true) : ∀ drv, o = some drv → Spec.Network drv d := by
  rintro drv rfl
  exact netOk_network h

/-- Plays a joint history; `none` if the network is not as it should be after some action, or if there is no room for
a request. -/
def playCallers (D : Decompressors) (s : Req.Socket) (d : Rep.Driver A) : List (Req.SAct ⊕ Rep.Act A) → Option (Req.Socket × Rep.Driver A)
  | [] => if d.inbox.length < 1024 then some (s, d) else none
  | .inl a :: l =>
    match s.act D a with
    | .ok s' => if drvOk s'.drv d then playCallers D s' d l else none
    | .panic => none
  | .inr a :: l =>
    match d.act D a with
    | .ok d' =>
      if drvOk s.drv d' && decide (d.inbox.length < 1024) then playCallers D s d' l else none
    | .panic => none

/-- The reply socket's part. -/
def callersServer (l : List (Req.SAct ⊕ Rep.Act A)) : List (Rep.Act A) := l.filterMap fun | .inl _ => none | .inr a => some a

theorem playCallers_together {D : Decompressors} (l : List (Req.SAct ⊕ Rep.Act A)) {s0 s s' : Req.Socket} {d0 d d' : Rep.Driver A}
    {acts : List (Rep.Act A)} (ht : Spec.CallersTogether D s0 d0 s acts d) (h : playCallers D s d l = some (s', d')) :
    Spec.CallersTogether D s0 d0 s' (acts ++ callersServer l) d' ∧
    ∀ (pre post : List (Rep.Act A)) (d1 : Rep.Driver A), callersServer l = pre ++ post → d.run D pre = .ok d1 → d1.inbox.length < 1024 := by
  induction l generalizing s d acts with
  | nil =>
    simp only [playCallers] at h
    split at h
    · rename_i hr
      cases h
      refine ⟨by simpa [callersServer] using ht, fun pre post d1 hl hd => ?_⟩
      have : pre = [] := (List.append_eq_nil_iff.mp (by simpa [callersServer] using hl.symm)).1
      subst this
      cases hd
      exact hr
    · cases h
  | cons a l ih =>
    cases a with
    | inl a =>
      simp only [playCallers] at h
      cases hs : s.act D a with
      | panic => rw [hs] at h; cases h
      | ok s1 =>
        rw [hs] at h
        simp only at h
        split at h
        · rename_i hn
          have := ih (ht.client a hs (drvOk_network hn)) h
          simpa [callersServer] using this
        · cases h
    | inr a =>
      simp only [playCallers] at h
      cases hs : d.act D a with
      | panic => rw [hs] at h; cases h
      | ok d2 =>
        rw [hs] at h
        simp only at h
        split at h
        · rename_i hn
          rw [Bool.and_eq_true, decide_eq_true_eq] at hn
          obtain ⟨g1, g2⟩ := ih (ht.server a hs (drvOk_network hn.1)) h
          refine ⟨by simpa [callersServer] using g1, fun pre post d1 hl hd => ?_⟩
          cases pre with
          | nil => cases hd; exact hn.2
          | cons b pre =>
            have hl' : a :: callersServer l = b :: pre ++ post := by simpa [callersServer] using hl
            simp only [List.cons_append, List.cons.injEq] at hl'
            obtain ⟨rfl, hl'⟩ := hl'
            simp only [Rep.Driver.run, hs] at hd
            exact g2 pre post d1 hl' hd
        · cases h

/-- A socket with three calls: one waits for room and is given up, the other two are answered in the other order. -/
def callerActs : List (Req.SAct ⊕ Rep.Act Nat) :=
  let resp : Bytes := reqBytes 1 [21] ++ reqBytes 0 [20, 20]
  let e : Rep.PEnv := ⟨[.ok 100, .ok 1], []⟩
  let ce : Req.SAct := .driver { flushAns := [.ok 100, .ok 1] }
  [.inl .connect, .inl (.driver {}), .inl (.advance 20000000), .inl (.driver {}), .inl (.request [10]), .inl (.request [11]), .inl (.request [12]),
   .inl (.cancel 2), .inl (.poll 0), .inl (.poll 2), .inl (.poll 1),
   .inl (.driver { task := some (some ⟨[.pending, .pending, .pending, .pending, .pending, .data resp], [], [], []⟩) }),
   .inl ce, .inl ce, .inl ce, .inl ce,
   .inr (.accept ⟨1, some 7, ⟨[.data (reqBytes 0 [10] ++ reqBytes 1 [11])], [], [], []⟩⟩),
   .inr (.ready 0 true), .inr (.peer 0 e), .inr .recv, .inr (.peer 0 e), .inr .recv, .inr (.peer 0 e), .inr (.respond 1 [21]),
   .inr (.peer 0 e), .inr (.peer 0 e), .inr (.respond 0 [20, 20]), .inr (.peer 0 e), .inr (.peer 0 e), .inr (.peer 0 e),
   .inr (.peer 0 e), .inl (.advance 5), .inl ce, .inl ce, .inl ce, .inl ce]

/-- It meets all hypotheses of `C92_every_caller_answered`. -/
example : let D : Decompressors := ⟨fun _ => none, fun _ => none, fun _ => none, fun _ => none⟩
    ∃ s d drv c p e p', Spec.CallersTogether D (Req.Socket.new {} none 0) (Rep.Driver.new none none none : Rep.Driver Nat) s (callersServer callerActs) d ∧
      s.drv = some drv ∧ drv.conn = .active c ∧ drv.ended = false ∧ p ∈ d.peers ∧
      c.wr.buf = [] ∧ dataOf p.input0 = c.wr.wire ∧ OpenAns p.input0 ∧ c.sent.length + p.input0.length + 1 ≤ p.polls ∧
      (∀ pre post d1, callersServer callerActs = pre ++ post →
        (Rep.Driver.new none none none : Rep.Driver Nat).run D pre = .ok d1 → d1.inbox.length < 1024) ∧
      (∀ i, .drop i ∉ callersServer callerActs) ∧ d.inbox = [] ∧ d.held = [] ∧
      p.iter d.comp d.slots d.next e = .ok (p', .pending) ∧ p.egress = [] ∧ p.wr.buf = [] ∧ dataOf c.input0 = p.wr.wire ∧
      OpenAns c.input0 ∧ c.sent.length + c.input0.length + 1 ≤ c.polls ∧
      s.callers.map (fun x => (x.stage, x.cancelled)) = [(.entered 0, false), (.entered 1, false), (.waiting, true)] ∧ c.sent.map (·.1) = [0, 1] ∧
      s.result 0 = some (.ok [20, 20]) ∧ s.result 1 = some (.ok [21]) ∧ s.result 2 = none := by
  intro D
  have key : (match playCallers D (Req.Socket.new {} none 0) (Rep.Driver.new none none none : Rep.Driver Nat) callerActs with
      | none => false
      | some (s, d) =>
        match s.drv with
        | none => false
        | some drv =>
          match drv.conn, d.peers with
          | .active c, [p] => decide (drv.ended = false ∧
              c.wr.buf = [] ∧ dataOf p.input0 = c.wr.wire ∧ (∀ a ∈ p.input0, a ≠ .err ∧ a ≠ .data []) ∧
              c.sent.length + p.input0.length + 1 ≤ p.polls ∧
              d.inbox = [] ∧ d.held = [] ∧ p.egress = [] ∧ p.wr.buf = [] ∧ dataOf c.input0 = p.wr.wire ∧
              (∀ a ∈ c.input0, a ≠ .err ∧ a ≠ .data []) ∧ c.sent.length + c.input0.length + 1 ≤ c.polls ∧
              s.callers.map (fun x => (x.stage, x.cancelled)) = [(.entered 0, false), (.entered 1, false), (.waiting, true)] ∧
              c.sent.map (·.1) = [0, 1] ∧
              s.result 0 = some (.ok [20, 20]) ∧ s.result 1 = some (.ok [21]) ∧ s.result 2 = none) &&
            match p.iter d.comp d.slots d.next ⟨[], []⟩ with
            | .ok (_, .pending) => true
            | _ => false
          | _, _ => false) = true := by decide +kernel
  cases hpl : playCallers D (Req.Socket.new {} none 0) (Rep.Driver.new none none none : Rep.Driver Nat) callerActs with
  | none => rw [hpl] at key; cases key
  | some x =>
    obtain ⟨s, d⟩ := x
    rw [hpl] at key
    simp only at key
    obtain ⟨ht, hroom⟩ := playCallers_together (acts := []) callerActs .start hpl
    cases hdrv : s.drv with
    | none => rw [hdrv] at key; cases key
    | some drv =>
      rw [hdrv] at key
      simp only at key
      cases hc : drv.conn with
      | inactive b => rw [hc] at key; cases key
      | active c =>
        rw [hc] at key
        cases hp : d.peers with
        | nil => rw [hp] at key; cases key
        | cons p ps =>
          rw [hp] at key
          cases ps with
          | cons _ _ => cases key
          | nil =>
            simp only [Bool.and_eq_true, decide_eq_true_eq] at key
            obtain ⟨⟨k2, k3, k4, k5, k6, k7, k8, k9, k10, k11, k12, k13, k14, k15, k17⟩, k16⟩ := key
            cases hit : p.iter d.comp d.slots d.next ⟨[], []⟩ with
            | panic => rw [hit] at k16; cases k16
            | ok y =>
              obtain ⟨p', o⟩ := y
              rw [hit] at k16
              have ho : o = .pending := by cases o <;> first | rfl | cases k16
              subst ho
              refine ⟨s, d, drv, c, p, ⟨[], []⟩, p', ht, hdrv, hc, k2, by rw [hp]; simp, k3, k4, k5, k6, hroom, ?_, k7, k8,
                hit, k9, k10, k11, k12, k13, k14, k15, k17⟩
              intro i
              simp [callersServer, callerActs]

end MsgRs.Props
