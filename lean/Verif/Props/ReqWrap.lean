import Verif.Props.ReqRep
import Verif.Proofs.ReqSocket
/-!
# C34 beyond the first 2^32 requests of a socket

Request ids are 32-bit numbers. `C34_own_response_mod` says what still holds after 2^32 calls; here is a history in which a call gets the answer to another one.
-/
namespace MsgRs.Props
open MsgRs Req

/-- The server's answer to the first request. -/
def wrapResp : Bytes := reqBytes 0 [9]

/-- What the connection answers to reads: nothing for `m` times, then the response. -/
def wrapInput (m : Nat) : List ReadAns := List.replicate m .pending ++ [.data wrapResp]

/-- The socket connects, the first request is made and sent. -/
def wrapStart (m : Nat) : List Act :=
  [.iter {}, .advance 20000000, .iter {}, .request [1],
    .iter { task := some (some ⟨.pending :: .pending :: .pending :: wrapInput m, [], [], []⟩) },
    .iter { readyAns := [.ok 1] }, .iter { flushAns := [.ok 100, .ok 1] }]

/-- The socket is connected, the first request was sent, `j` more calls were made and are waiting behind it; the connection takes nothing more. -/
structure Wrapped (m0 j m : Nat) (s : State) : Prop where
  opts : s.opts = { boundary := 0 }
  comp : s.comp = none
  now : s.now = 20000000
  ended : s.ended = false
  open' : s.closed = false
  quiet : s.shouldFlush = false
  flushIv : s.flushIv = none
  task : s.connTask = false
  queue : s.queue = []
  tick : s.checkIv = ⟨500000000, 500000000⟩
  conn : ∃ c, s.conn = .active c ∧ c.rd = Reader.new ReqRep.codec ∧ c.wr.boundary = 0 ∧ c.wr.wire = reqBytes 0 [1] ∧ c.input = wrapInput m ∧
    c.input0 = .pending :: .pending :: .pending :: wrapInput m0 ∧ c.sent = [(0, requestFrame { boundary := 0 } none 0 [1])] ∧ c.got = []
  past : s.past = []
  calls : s.calls = ⟨[1], 20000000⟩ :: List.replicate j ⟨[2], 20000000⟩
  id : s.idCounter = UInt32.ofNat (j + 1)
  pend : ⟨UInt32.ofNat j, j, 20000000⟩ ∈ s.pending

theorem wrap_iter (D : Decompressors) {s u : State} {e : Env} {c : Chan} {rest : List ReadAns} (h : (s.flushStep e).taskStep e = .ok u) (hc : u.conn = .active c)
    (hrd : c.rd = Reader.new ReqRep.codec) (hin : c.input = .pending :: rest) :
    s.iter D e = .ok (u.writeStep e { c with rd := Reader.new ReqRep.codec, input := rest, polls := c.polls + 1 }) := by
  have hp : c.rd.pollNext ReqRep.codec c.input = .ok (.pending, Reader.new ReqRep.codec, rest) := by rw [hrd, hin]; rfl
  unfold State.iter
  rw [h]
  simp only [R.bind_ok, hc, hp]
  rfl

theorem wrap_tick {s : State} (hi : s.checkIv = ⟨500000000, 500000000⟩) (hn : s.now = 20000000) (c : Chan) (n : Nat) :
    State.tickLoop (n + 1) { s with conn := .active c } = { s with conn := .active c } := by
  have ht : ({ s with conn := .active c } : State).checkIv.tick ({ s with conn := .active c } : State).now = (false, s.checkIv) := by
    show s.checkIv.tick s.now = _
    rw [hi, hn]
    rfl
  rw [State.tickLoop, ht]

theorem wrap_late {s : State} (hi : s.checkIv = ⟨500000000, 500000000⟩) (hn : s.now = 20000000) (e : Env) (c : Chan) {k : Nat} {p : Bytes}
    (hq : s.queue = [(k, p)]) : s.lateStep e c = (State.onCommand { s with conn := .active c, queue := [] } k p, .again) := by
  unfold State.lateStep
  rw [wrap_tick hi hn c s.now]
  simp only [hq]

theorem wrap_late_idle {s : State} (hi : s.checkIv = ⟨500000000, 500000000⟩) (hn : s.now = 20000000) (e : Env) (c : Chan)
    (hq : s.queue = []) (ho : s.closed = false) : s.lateStep e c = ({ s with conn := .active c }, .pending) := by
  unfold State.lateStep
  rw [wrap_tick hi hn c s.now]
  simp only [hq, ho]
  rfl

theorem wrap_write {s : State} {e : Env} (he : e.readyAns = []) {c : Chan} (hb : c.wr.boundary = 0) : s.writeStep e c = s.lateStep e c := by
  have hr : c.wr.ready e.readyAns = (.pending, c.wr) := by
    unfold Writer.ready
    rw [if_pos (by rw [hb]; exact Nat.zero_le _), he]
    rfl
  unfold State.writeStep
  rw [hr]

theorem wrap_flush {s : State} {e : Env} (h : s.shouldFlush = false) (hf : s.flushIv = none) (ht : s.connTask = false) : (s.flushStep e).taskStep e = .ok s := by
  have h1 : s.wantFlush = (false, s) := by
    unfold State.wantFlush
    rw [if_neg (by rw [h]; simp), hf]
    simp only [Option.map_none]
    rw [← hf]
  have h2 : s.flushStep e = s := by unfold State.flushStep; rw [h1]
  rw [h2]
  unfold State.taskStep
  rw [if_neg (by rw [ht]; simp)]

theorem wrap_first {s : State} (hi : s.checkIv = ⟨0, 500000000⟩) (hn : s.now = 20000000) (hp : s.pending = []) (c : Chan) :
    State.tickLoop (s.now + 1) { s with conn := .active c } = { s with conn := .active c, checkIv := ⟨500000000, 500000000⟩ } := by
  obtain ⟨n, hf⟩ : ∃ n, s.now + 1 = n + 1 + 1 := ⟨19999999, by omega⟩
  have k1 : ({ s with conn := .active c } : State).checkIv.tick ({ s with conn := .active c } : State).now = (true, ⟨500000000, 500000000⟩) := by
    show s.checkIv.tick s.now = _
    rw [hi, hn]
    rfl
  have k2 : State.checkTimeouts { s with conn := .active c, checkIv := ⟨500000000, 500000000⟩ } = { s with conn := .active c, checkIv := ⟨500000000, 500000000⟩ } := by
    unfold State.checkTimeouts
    simp [hp]
  rw [hf, State.tickLoop, k1]
  simp only [k2]
  exact wrap_tick (s := { s with checkIv := ⟨500000000, 500000000⟩ }) rfl hn c n

/-- One more call. -/
theorem wrap_step (D : Decompressors) {m0 j m : Nat} {s : State} (h : Wrapped m0 j (m + 1) s) :
    ∃ t, s.run D [.request [2], .iter {}] = .ok t ∧ Wrapped m0 (j + 1) m t := by
  obtain ⟨c, c1, c2, c3, c4, c5, c6, c7, c8⟩ := h.conn
  have hlen : s.calls.length = j + 1 := by rw [h.calls]; simp
  let s1 : State := { s with calls := s.calls ++ [{ payload := [2], time := s.now }], queue := [(j + 1, [2])], ended := false, closed := false }
  have ha : s.act D (.request [2]) = .ok s1 := by
    simp only [State.act, h.open', Bool.false_eq_true, if_false, h.ended, h.queue, List.nil_append, hlen]
    rfl
  have hi : s1.iter D {} = .ok (State.onCommand { s1 with conn := .active { c with rd := Reader.new ReqRep.codec, input := wrapInput m, polls := c.polls + 1 }, queue := [] } (j + 1) [2], .again) := by
    rw [wrap_iter D (u := s1) (c := c) (rest := wrapInput m) (wrap_flush h.quiet h.flushIv h.task) c1 c2 (by rw [c5]; rfl), wrap_write rfl (by exact c3), wrap_late (s := s1) h.tick h.now _ _ rfl]
  refine ⟨_, by
    rw [State.run, ha]
    simp only [R.bind_ok]
    rw [State.run, State.act, if_neg (by show ¬ false = true; simp), hi]
    rfl, ?_⟩
  exact {
    opts := h.opts, comp := h.comp, now := h.now, ended := rfl, open' := rfl, quiet := h.quiet, flushIv := h.flushIv, task := h.task, queue := rfl
    tick := h.tick
    conn := ⟨_, rfl, rfl, c3, c4, rfl, c6, c7, c8⟩
    past := h.past
    calls := by
      show s.calls ++ [{ payload := [2], time := s.now }] = _
      rw [h.calls, h.now, List.replicate_succ', List.cons_append]
    id := by
      show s.idCounter + 1 = _
      rw [h.id]
      simp
    pend := by
      show _ ∈ s.pending.filter (·.id ≠ s.idCounter) ++ [⟨s.idCounter, j + 1, s.now⟩]
      rw [h.id, h.now]
      simp }

theorem wrap_steps (D : Decompressors) {m0 : Nat} (n : Nat) : ∀ {j m : Nat} {s : State}, Wrapped m0 j (m + n) s →
    ∃ acts t, s.run D acts = .ok t ∧ Wrapped m0 (j + n) m t := by
  induction n with
  | zero => intro j m s h; exact ⟨[], s, rfl, h⟩
  | succ n ih =>
    intro j m s h
    obtain ⟨t, h1, h2⟩ := wrap_step D (m := m + n) h
    obtain ⟨acts, u, h3, h4⟩ := ih h2
    exact ⟨[.request [2], .iter {}] ++ acts, u, by rw [Req.run_append, h1]; exact h3, by rw [show j + (n + 1) = j + 1 + n by omega]; exact h4⟩

theorem wrap_start (D : Decompressors) (m : Nat) : ∃ s0 s, State.new { boundary := 0 } none 0 = .ok s0 ∧ s0.run D (wrapStart m) = .ok s ∧ Wrapped m 0 m s := by
  obtain ⟨s0, b, h0, h1⟩ : ∃ s0 b, State.new { boundary := 0 } none 0 = .ok s0 ∧
      s0.run D [.iter {}, .advance 20000000, .iter {}, .request [1]] = .ok { opts := { boundary := 0 }, comp := none, now := 20000000, queue := [(0, [1])], conn := .inactive b, connTask := true, checkIv := ⟨0, 500000000⟩, flushIv := none, calls := [⟨[1], 20000000⟩], tries := [20000000] } :=
    ⟨_, _, rfl, rfl⟩
  let via : HsEnv := ⟨.pending :: .pending :: .pending :: wrapInput m, [], [], []⟩
  let c0 : Chan := Chan.new 0 via via.reads
  let u : State := { opts := { boundary := 0 }, comp := none, now := 20000000, queue := [(0, [1])], conn := .active c0, connTask := false, checkIv := ⟨0, 500000000⟩, flushIv := none, calls := [⟨[1], 20000000⟩], tries := [20000000] }
  let c1 : Chan := { c0 with input := .pending :: .pending :: wrapInput m, polls := 1 }
  let u1 : State := State.onCommand { u with conn := .active c1, checkIv := ⟨500000000, 500000000⟩, queue := [] } 0 [1]
  have e2 : State.act D { opts := { boundary := 0 }, comp := none, now := 20000000, queue := [(0, [1])], conn := .inactive b, connTask := true, checkIv := ⟨0, 500000000⟩, flushIv := none, calls := [⟨[1], 20000000⟩], tries := [20000000] } (.iter { task := some (some via) }) = .ok u1 := by
    rw [State.act, if_neg (by simp), wrap_iter D (u := u) (c := c0) (rest := .pending :: .pending :: wrapInput m) rfl rfl rfl rfl, wrap_write rfl rfl]
    unfold State.lateStep
    rw [wrap_first (s := u) rfl rfl rfl]
    rfl
  let fr := requestFrame { boundary := 0 } none 0 [1]
  let c2 : Chan := { c1 with input := .pending :: wrapInput m, polls := 2, wr := { boundary := 0, buf := ReqRep.encode fr }, sent := [(0, fr)] }
  let u2 : State := { u1 with conn := .active c2, egress := [], bytesTx := fr.size, shouldFlush := true }
  have e3 : State.act D u1 (.iter { readyAns := [.ok 1] }) = .ok u2 := by
    rw [State.act, if_neg (by show ¬ false = true; simp), wrap_iter D (u := u1) (c := c1) (rest := .pending :: wrapInput m) rfl rfl rfl rfl]
    rfl
  let c3 : Chan := { c2 with wr := { boundary := 0, wire := reqBytes 0 [1] } }
  let u3 : State := { u2 with conn := .active c3, shouldFlush := false }
  have e4 : State.act D u2 (.iter { flushAns := [.ok 100, .ok 1] }) = .ok { u3 with conn := .active { c3 with input := wrapInput m, polls := 3 } } := by
    rw [State.act, if_neg (by show ¬ false = true; simp), wrap_iter D (u := u3) (c := c3) (rest := wrapInput m) rfl rfl rfl rfl, wrap_write rfl rfl,
      wrap_late_idle (s := u3) rfl rfl _ _ rfl rfl]
    rfl
  refine ⟨s0, { u3 with conn := .active { c3 with input := wrapInput m, polls := 3 } }, h0, ?_, ?_⟩
  · rw [show wrapStart m = [.iter {}, .advance 20000000, .iter {}, .request [1]] ++ [.iter { task := some (some via) }, .iter { readyAns := [.ok 1] }, .iter { flushAns := [.ok 100, .ok 1] }] from rfl,
      Req.run_append, h1]
    simp only [R.bind, State.run, e2, e3, e4, R.bind_ok]
  · exact ⟨rfl, rfl, rfl, rfl, rfl, rfl, rfl, rfl, rfl, rfl, ⟨_, rfl, rfl, rfl, rfl, rfl, rfl, rfl, rfl⟩, rfl, rfl, rfl, List.mem_singleton.2 rfl⟩

/-- The server: it accepts the connection, receives the one request that comes and answers it. -/
def wrapServer : List (Rep.Act Nat) :=
  let e : Rep.PEnv := ⟨[.ok 100, .ok 1], []⟩
  [.accept ⟨1, some 7, ⟨[.data (reqBytes 0 [1])], [], [], []⟩⟩, .ready 0 true, .peer 0 e, .recv, .respond 0 [9], .peer 0 e, .peer 0 e, .peer 0 e]

theorem dataOf_wrap (m : Nat) : dataOf (wrapInput m) = wrapResp := by
  unfold wrapInput
  induction m with
  | zero => rfl
  | succ m ih => rw [List.replicate_succ, List.cons_append]; exact ih

theorem dataOf_wrap' (m : Nat) : dataOf (.pending :: .pending :: .pending :: wrapInput m) = wrapResp := dataOf_wrap m

/-- C34 fails for the calls of a socket after the first 2^32: a call with payload `[1]` is made and sent; then 2^32 calls with payload `[2]` are made while the connection
takes no more bytes. The server has received the request `[1]`, and nothing else; it answers `[9]`, and the last of the calls, whose request has not been sent, returns `[9]`. -/
theorem C34_refuted_wrap (D : Decompressors) : ∃ (s : State) (c : Chan) (d : Rep.Driver Nat) (p : Rep.Peer Nat), ReqReach D { boundary := 0 } none s ∧
    (Rep.Driver.new none none none : Rep.Driver Nat).run D wrapServer = .ok d ∧ Spec.Network s d ∧ s.chans = [c] ∧ d.conns = [p] ∧ Spec.Linked c p ∧
    s.calls = ⟨[1], 20000000⟩ :: List.replicate (2 ^ 32) ⟨[2], 20000000⟩ ∧
    c.sent = [(0, requestFrame { boundary := 0 } none 0 [1])] ∧ p.issued.map (·.2) = [requestFrame { boundary := 0 } none 0 [1]] ∧
    (2 ^ 32, .ok [9], 20000000) ∈ s.done := by
  obtain ⟨d, p, d1, d2, d3, d4, d5, d6⟩ : ∃ (d : Rep.Driver Nat) (p : Rep.Peer Nat), (Rep.Driver.new none none none : Rep.Driver Nat).run D wrapServer = .ok d ∧ d.conns = [p] ∧
      p.wr.wire = wrapResp ∧ p.input = [] ∧ p.input0 = [.data (reqBytes 0 [1])] ∧ p.issued.map (·.2) = [requestFrame { boundary := 0 } none 0 [1]] :=
    ⟨_, _, rfl, rfl, rfl, rfl, rfl, rfl⟩
  obtain ⟨s0, s1, h0, h1, w1⟩ := wrap_start D (2 ^ 32)
  obtain ⟨acts, s, h2, w⟩ := wrap_steps D (2 ^ 32) (j := 0) (m := 0) (by rw [Nat.zero_add]; exact w1)
  rw [Nat.zero_add] at w
  have hreach : ReqReach D { boundary := 0 } none s := ⟨0, s0, wrapStart (2 ^ 32) ++ acts, h0, by rw [Req.run_append, h1]; exact h2⟩
  obtain ⟨c, c1, c2, c3, c4, c5, c6, c7, c8⟩ := w.conn
  let resp : ReqRep.Message := ReqRep.Message.new 0 0 [9]
  let c' : Chan := { c with rd := { Reader.new ReqRep.codec with readable := true }, input := [], polls := c.polls + 1, got := c.got ++ [resp] }
  let s2 : State := { s with conn := .active c' }
  have hread : c.rd.pollNext ReqRep.codec c.input = .ok (.item resp, c'.rd, []) := by rw [c2, c5]; rfl
  have hact : s.act D (.iter {}) = .ok (State.onMessage D s2 resp) := by
    rw [State.act, if_neg (by rw [w.ended]; simp)]
    unfold State.iter
    rw [wrap_flush w.quiet w.flushIv w.task]
    simp only [R.bind_ok, c1, hread]
    rfl
  have hp : (⟨0, 2 ^ 32, 20000000⟩ : Pending) ∈ s.pending := w.pend
  have hfind : s.pending.find? (fun x => decide (x.id = resp.header.id)) = some ⟨0, 2 ^ 32, 20000000⟩ := by
    cases hf : s.pending.find? (fun x => decide (x.id = resp.header.id)) with
    | none =>
      rw [List.find?_eq_none] at hf
      exact absurd (decide_eq_true (rfl : (0 : UInt32) = resp.header.id)) (hf _ hp)
    | some q =>
      have hq0 := List.find?_some hf
      have hq1 : q.id = 0 := of_decide_eq_true hq0
      have hq2 := List.mem_of_find?_eq_some hf
      have hids := hreach.inv.calls.ids
      have : q = ⟨0, 2 ^ 32, 20000000⟩ := by
        obtain ⟨i, hi, hi2⟩ := List.getElem_of_mem hq2
        obtain ⟨j, hj, hj2⟩ := List.getElem_of_mem hp
        have hij : i = j := by
          refine (List.getElem_inj (h₀ := by simpa using hi) (h₁ := by simpa using hj) hids).1 ?_
          rw [List.getElem_map, List.getElem_map, hi2, hj2, hq1]
        subst hij
        rw [← hi2, hj2]
      rw [this]
  have hmsg : ∃ x y z, State.onMessage D s2 resp = { s2 with pending := s2.pending.filter (·.id ≠ resp.header.id), done := s2.done ++ [(2 ^ 32, .ok [9], s2.now)], rtt := x, rttIdx := y, bytesRx := s2.bytesRx + resp.size, samples := z } := by
    have hfind' : s2.pending.find? (fun x => decide (x.id = resp.header.id)) = some ⟨0, 2 ^ 32, 20000000⟩ := hfind
    unfold State.onMessage
    rw [hfind']
    have : tryDecompress D resp.header.ctype resp.payload = some [9] := rfl
    simp only [this]
    exact ⟨_, _, _, rfl⟩
  obtain ⟨x, y, z, hmsg⟩ := hmsg
  have hlink : Spec.Linked c' p := by
    constructor
    · have : c'.input = [] := rfl
      have e0 : c'.input0 = .pending :: .pending :: .pending :: wrapInput (2 ^ 32) := c6
      unfold Spec.readSoFar
      rw [this, List.length_nil, Nat.sub_zero, List.take_length, e0, d3, dataOf_wrap']
      exact List.prefix_rfl
    · have e0 : c'.wr.wire = reqBytes 0 [1] := c4
      unfold Spec.readSoFar
      rw [d4, d5, e0]
      exact List.prefix_rfl
  have hchans : (State.onMessage D s2 resp).chans = [c'] := by
    rw [hmsg]
    show s.past ++ [c'] = [c']
    rw [w.past]
    rfl
  refine ⟨State.onMessage D s2 resp, c', d, p, ?_, d1, ?_, hchans, d2, hlink, ?_, c7, d6, ?_⟩
  · obtain ⟨now, s0', as, g1, g2⟩ := hreach
    exact ⟨now, s0', as ++ [.iter {}], g1, by rw [Req.run_append, g2]; simp only [R.bind, State.run, hact, R.bind_ok]⟩
  · intro k hk
    rw [hchans, List.mem_singleton] at hk
    subst hk
    exact .inr ⟨p, by rw [d2]; exact List.mem_singleton.2 rfl, hlink⟩
  · rw [hmsg]; exact w.calls
  · rw [hmsg]
    show _ ∈ s.done ++ [(2 ^ 32, .ok [9], s.now)]
    rw [w.now]
    exact List.mem_append_right _ (List.mem_singleton.2 rfl)

end MsgRs.Props
