import Verif.Proofs.ReqCalls
import Verif.Proofs.Mean
/-!
# The connections of a request socket: what is written, what is read, what is counted
-/
namespace MsgRs.Req
open MsgRs
variable {D : Decompressors}

theorem chans_active {s : State} {c : Chan} (h : s.conn = .active c) : s.chans = s.past ++ [c] := by
  simp [State.chans, h]

theorem chans_inactive {s : State} {b : Backoff} (h : s.conn = .inactive b) : s.chans = s.past := by
  simp [State.chans, h]

/-- True of every connection, also of lost ones. -/
structure ChanInv (token : Option Bytes) (c : Chan) : Prop where
  seen : Seen ReqRep.codec c.input0 c.polls c.got c.input
  bytes : c.wr.wire ++ c.wr.buf = c.sent.flatMap fun x => ReqRep.encode x.2
  via : (token = none ∧ c.input0 = c.via.reads) ∨
    ∃ tok id wire lost, token = some tok ∧ hsClient tok c.via = .accepted id wire c.input0 lost

/-- The completed calls that got a response, with it. -/
def okOf : Nat × Res × Nat → Option (Nat × Bytes)
  | (k, .ok b, _) => some (k, b)
  | _ => none

structure Chans (D : Decompressors) (s : State) : Prop where
  chan : ∀ c ∈ s.chans, ChanInv s.opts.token c
  cur : s.ended = false → ∀ c, s.conn = .active c → ReadInv ReqRep.codec c.input0 c.polls c.got c.rd c.input
  flow : s.chans.flatMap (·.sent) ++ s.egress = s.taken
  ok : ∀ k b t, (k, Res.ok b, t) ∈ s.done → ∃ m ∈ s.chans.flatMap (·.got), ∃ rq, (k, rq) ∈ s.taken ∧
    rq.header.id = m.header.id ∧ tryDecompress D m.header.ctype m.payload = some b
  tx : s.bytesTx = ((s.chans.flatMap (·.sent)).map (·.2.size)).sum
  rx : s.bytesRx = (s.samples.map (·.2.1.size)).sum
  idx : s.rttIdx = s.samples.length
  rtt : (s.samples.map (·.2.2)).sum < 2 ^ 64 → (∀ lo hi, (∀ x ∈ s.samples, lo ≤ x.2.2 ∧ x.2.2 ≤ hi) → s.samples ≠ [] → lo ≤ s.rtt ∧ s.rtt ≤ hi) ∧
    MeanOf (s.samples.map (·.2.2)) s.rtt
  samples : s.samples.map (fun x => (x.1, tryDecompress D x.2.1.header.ctype x.2.1.payload)) =
    (s.done.filterMap okOf).map fun x => (x.1, some x.2)
  sampled : ∀ x ∈ s.samples, x.2.1 ∈ s.chans.flatMap (·.got)

/-- Steps that only touch the queue of calls, timers and flags. -/
theorem Chans.frame {s t : State} (h : Chans D s) (h1 : t.conn = s.conn) (h2 : t.past = s.past)
    (h3 : t.egress = s.egress) (h4 : t.taken = s.taken) (h5 : t.done = s.done) (h6 : t.opts = s.opts)
    (h7 : t.bytesTx = s.bytesTx) (h8 : t.bytesRx = s.bytesRx) (h9 : t.rtt = s.rtt) (h10 : t.rttIdx = s.rttIdx)
    (h11 : t.samples = s.samples) (h12 : t.ended = false → s.ended = false) : Chans D t := by
  have hch : t.chans = s.chans := by simp only [State.chans, h1, h2]
  constructor
  · rw [hch, h6]; exact h.chan
  · rw [h1]; intro he; exact h.cur (h12 he)
  · rw [hch, h3, h4]; exact h.flow
  · rw [hch, h4, h5]; exact h.ok
  · rw [hch, h7]; exact h.tx
  · rw [h8, h11]; exact h.rx
  · rw [h10, h11]; exact h.idx
  · rw [h9, h11]; exact h.rtt
  · rw [h5, h11]; exact h.samples
  · rw [hch, h11]; exact h.sampled

/-- More completions, none of them a response. -/
theorem Chans.complete {s t : State} (h : Chans D s) (more : List (Nat × Res × Nat))
    (hm : ∀ x ∈ more, okOf x = none) (h1 : t.conn = s.conn) (h2 : t.past = s.past)
    (h3 : t.egress = s.egress) (h4 : t.taken = s.taken) (h5 : t.done = s.done ++ more) (h6 : t.opts = s.opts)
    (h7 : t.bytesTx = s.bytesTx) (h8 : t.bytesRx = s.bytesRx) (h9 : t.rtt = s.rtt) (h10 : t.rttIdx = s.rttIdx)
    (h11 : t.samples = s.samples) (h12 : t.ended = false → s.ended = false) : Chans D t := by
  have hch : t.chans = s.chans := by simp only [State.chans, h1, h2]
  constructor
  · rw [hch, h6]; exact h.chan
  · rw [h1]; intro he; exact h.cur (h12 he)
  · rw [hch, h3, h4]; exact h.flow
  · rw [hch, h4, h5]
    intro k b t hx
    rw [List.mem_append] at hx
    rcases hx with hx | hx
    · exact h.ok k b t hx
    · exact absurd (hm _ hx) (by simp [okOf])
  · rw [hch, h7]; exact h.tx
  · rw [h8, h11]; exact h.rx
  · rw [h10, h11]; exact h.idx
  · rw [h9, h11]; exact h.rtt
  · rw [h5, h11, List.filterMap_append]
    have : more.filterMap okOf = [] := by
      rw [List.filterMap_eq_nil_iff]; exact hm
    rw [this, List.append_nil]
    exact h.samples
  · rw [hch, h11]; exact h.sampled

/-- The current connection changes, but nothing more is sent on it. -/
theorem Chans.swap {s : State} (h : Chans D s) {c c' : Chan} (hc : s.conn = .active c) (hs : c'.sent = c.sent)
    (hg : c.got <+: c'.got) (hi : ChanInv s.opts.token c')
    (hr : s.ended = false → ReadInv ReqRep.codec c'.input0 c'.polls c'.got c'.rd c'.input) :
    Chans D { s with conn := .active c' } := by
  have h1 : s.chans = s.past ++ [c] := chans_active hc
  have h2 : ({ s with conn := .active c' } : State).chans = s.past ++ [c'] := rfl
  have hsent : ({ s with conn := .active c' } : State).chans.flatMap (·.sent) = s.chans.flatMap (·.sent) := by
    rw [h1, h2]; simp [hs]
  have hgot : ∀ m ∈ s.chans.flatMap (·.got), m ∈ ({ s with conn := .active c' } : State).chans.flatMap (·.got) := by
    rw [h1, h2]
    intro m hm
    simp only [List.flatMap_append, List.mem_append, List.flatMap_cons, List.flatMap_nil, List.append_nil] at hm ⊢
    rcases hm with hm | hm
    · exact .inl hm
    · exact .inr (hg.subset hm)
  constructor
  · rw [h2]
    intro x hx
    rw [List.mem_append, List.mem_singleton] at hx
    rcases hx with hx | rfl
    · exact h.chan x (by rw [h1]; exact List.mem_append_left _ hx)
    · exact hi
  · intro he x hx
    cases hx
    exact hr he
  · rw [hsent]; exact h.flow
  · intro k b t hx
    obtain ⟨m, hm, y⟩ := h.ok k b t hx
    exact ⟨m, hgot m hm, y⟩
  · rw [hsent]; exact h.tx
  · exact h.rx
  · exact h.idx
  · exact h.rtt
  · exact h.samples
  · intro x hx; exact hgot _ (h.sampled x hx)

theorem avg_bounds (lo hi x n a : Nat) (hx : lo ≤ x ∧ x ≤ hi) (ha : n = 0 ∨ (lo ≤ a ∧ a ≤ hi)) :
    lo ≤ (x + n * a) / (n + 1) ∧ (x + n * a) / (n + 1) ≤ hi := by
  rcases ha with rfl | ⟨h1, h2⟩
  · simpa using hx
  · constructor
    · rw [Nat.le_div_iff_mul_le (by omega), Nat.mul_succ, Nat.mul_comm lo n, Nat.add_comm]
      exact Nat.add_le_add hx.1 (Nat.mul_le_mul_left n h1)
    · apply Nat.le_of_lt_succ
      rw [Nat.div_lt_iff_lt_mul (by omega)]
      have h3 : n * a ≤ n * hi := Nat.mul_le_mul_left n h2
      have h4 : (hi + 1) * (n + 1) = n * hi + hi + n + 1 := by
        rw [Nat.add_mul, Nat.mul_add, Nat.one_mul, Nat.mul_one, Nat.mul_comm hi n]; omega
      show _ < (hi + 1) * (n + 1)
      omega

theorem Chans.onMessage {s : State} (h : Chans D s) (hcl : Calls s) (m : ReqRep.Message)
    (hm : m ∈ s.chans.flatMap (·.got)) : Chans D (s.onMessage D m) := by
  unfold State.onMessage
  split
  · exact h
  · rename_i p hp
    obtain ⟨hid, -⟩ := find_perm hcl.ids hp
    obtain ⟨rq, hrq, hrid, -⟩ := hcl.pend p (List.mem_of_find?_eq_some hp)
    simp only
    cases hd : tryDecompress D m.header.ctype m.payload with
    | none =>
      simp only
      exact h.complete [(p.call, Res.decompression, s.now)] (by simp [okOf]) rfl rfl rfl rfl rfl rfl rfl rfl rfl rfl rfl id
    | some b =>
      simp only
      constructor
      · exact h.chan
      · exact h.cur
      · exact h.flow
      · intro k b' t hx
        simp only [State.updateRtt, List.mem_append, List.mem_singleton] at hx
        rcases hx with hx | hx
        · exact h.ok k b' t hx
        · cases hx
          exact ⟨m, hm, rq, hrq, hrid.trans hid, hd⟩
      · exact h.tx
      · simp only [State.updateRtt, List.map_append, List.map_cons, List.map_nil, List.sum_append, List.sum_cons,
          List.sum_nil, Nat.add_zero]
        rw [h.rx]
      · simp only [State.updateRtt, List.length_append, List.length_cons, List.length_nil]
        rw [h.idx]
      · intro hs64
        simp only [State.updateRtt, List.map_append, List.map_cons, List.map_nil] at hs64
        have hold := h.rtt (sum_of_snoc hs64)
        have hnw := hold.2.no_wrap hs64
        rw [List.length_map, ← h.idx] at hnw
        refine ⟨?_, ?_⟩
        · intro lo hi hb _
          simp only [State.updateRtt, List.mem_append, List.mem_singleton] at hb ⊢
          rw [hnw]
          apply avg_bounds
          · exact hb (p.call, m, (s.now - p.start) / 1000) (.inr rfl)
          · by_cases hs : s.samples = []
            · left; rw [h.idx, hs]; rfl
            · right; exact hold.1 lo hi (fun x hx => hb x (.inl hx)) hs
        · have := hold.2.step ((s.now - p.start) / 1000)
          rw [List.length_map, ← h.idx] at this
          simp only [State.updateRtt, List.map_append, List.map_cons, List.map_nil]
          rw [hnw]
          exact this
      · simp only [State.updateRtt, List.map_append, List.filterMap_append, List.map_cons, List.map_nil]
        rw [h.samples]
        simp [okOf, hd]
      · intro x hx
        simp only [State.updateRtt, List.mem_append, List.mem_singleton] at hx
        rcases hx with hx | rfl
        · exact h.sampled x hx
        · exact hm

theorem taskResult_via {token : Option Bytes} {task : Option (Option HsEnv)} {via : HsEnv} {input : List ReadAns}
    (h : taskResult token task = .ok (some (some (via, input)))) :
    (token = none ∧ input = via.reads) ∨
    ∃ tok id wire lost, token = some tok ∧ hsClient tok via = .accepted id wire input lost := by
  unfold taskResult at h
  split at h
  · cases h
  · cases h
  · split at h
    · cases h; exact .inl ⟨rfl, rfl⟩
    · rename_i tok
      split at h
      · cases h
      · rename_i id wire rest lost hq; cases h; exact .inr ⟨tok, id, wire, lost, rfl, hq⟩
      · cases h
      · cases h

theorem Chans.step {s t : State} (hs : Step D s t) (h : Chans D s) (hcl : Calls s) : Chans D t := by
  cases hs with
  | now | misc | taskGone | drop | request =>
    exact h.frame rfl rfl rfl rfl rfl rfl rfl rfl rfl rfl rfl id
  | taskStart b b' d ts he hc hp hts =>
    have hch : ({ s with conn := .inactive b', connTask := true, tries := ts } : State).chans = s.chans := by
      rw [chans_inactive hc]; simp [State.chans]
    exact ⟨by rw [hch]; exact h.chan, (by intro _ c hc; cases hc), by rw [hch]; exact h.flow, by rw [hch]; exact h.ok,
      by rw [hch]; exact h.tx, h.rx, h.idx, h.rtt, h.samples, by rw [hch]; exact h.sampled⟩
  | write c wr he hc ht hw =>
    have hi := h.chan c (by rw [chans_active hc]; simp)
    exact h.swap hc rfl ⟨[], by simp⟩ ⟨hi.seen, by have := hi.bytes; simp only [Writer.total] at ht; rw [ht]; exact this, hi.via⟩
      (fun he => h.cur he c hc)
  | connect task via input he hct hr =>
    have hch : ({ s with connTask := false, conn := .active (Chan.new s.opts.boundary via input), past := s.chans } : State).chans =
        s.chans ++ [Chan.new s.opts.boundary via input] := rfl
    constructor
    · rw [hch]
      intro x hx
      rw [List.mem_append, List.mem_singleton] at hx
      rcases hx with hx | rfl
      · exact h.chan x hx
      · exact ⟨(ReadInv.start ReqRep.codec input).seen, rfl, taskResult_via hr⟩
    · intro _ c hc
      cases hc
      exact ReadInv.start ReqRep.codec input
    · rw [hch, List.flatMap_append]
      simp only [List.flatMap_cons, List.flatMap_nil, Chan.new, List.append_nil]
      exact h.flow
    · rw [hch, List.flatMap_append]
      simp only [List.flatMap_cons, List.flatMap_nil, Chan.new, List.append_nil]
      exact h.ok
    · rw [hch, List.flatMap_append]
      simp only [List.flatMap_cons, List.flatMap_nil, Chan.new, List.append_nil]
      exact h.tx
    · exact h.rx
    · exact h.idx
    · exact h.rtt
    · exact h.samples
    · rw [hch, List.flatMap_append]
      simp only [List.flatMap_cons, List.flatMap_nil, Chan.new, List.append_nil]
      exact h.sampled
  | backoff b b' he hc hp =>
    have hch : ({ s with conn := .inactive b' } : State).chans = s.chans := by rw [chans_inactive hc]; simp [State.chans]
    exact ⟨by rw [hch]; exact h.chan, (by intro _ c hc; cases hc), by rw [hch]; exact h.flow, by rw [hch]; exact h.ok,
      by rw [hch]; exact h.tx, h.rx, h.idx, h.rtt, h.samples, by rw [hch]; exact h.sampled⟩
  | giveUp b b' he hc hp =>
    have hch : ({ s with conn := .inactive b' } : State).chans = s.chans := by rw [chans_inactive hc]; simp [State.chans]
    have h' : Chans D { s with conn := .inactive b' } :=
      ⟨by rw [hch]; exact h.chan, (by intro _ c hc; cases hc), by rw [hch]; exact h.flow, by rw [hch]; exact h.ok,
      by rw [hch]; exact h.tx, h.rx, h.idx, h.rtt, h.samples, by rw [hch]; exact h.sampled⟩
    refine h'.complete ((s.pending.map fun p => (p.call, Res.closed, s.now)) ++ (s.queue.map fun c => (c.1, Res.closed, s.now)))
      ?_ rfl rfl rfl rfl ?_ rfl rfl rfl rfl rfl rfl (fun _ => he)
    · intro x hx
      simp only [List.mem_append, List.mem_map] at hx
      rcases hx with ⟨_, -, rfl⟩ | ⟨_, -, rfl⟩ <;> rfl
    · simp [State.terminate]
  | readItem c m rd input he hc hp =>
    obtain ⟨o, r', as', ho, hinv⟩ := (h.cur he c hc).step ReqRep.inc
    rw [hp] at ho
    cases ho
    have hi := h.chan c (by rw [chans_active hc]; simp)
    have h' := h.swap (c' := { c with rd, input, polls := c.polls + 1, got := c.got ++ [m] }) hc rfl ⟨[m], rfl⟩
      ⟨hinv.seen, hi.bytes, hi.via⟩ (fun _ => hinv)
    refine h'.onMessage (hcl.frame rfl rfl rfl rfl rfl rfl rfl (Nat.le_refl _) rfl rfl) m ?_
    simp [State.chans]
  | readIdle c rd input he hc hp =>
    obtain ⟨o, r', as', ho, hinv⟩ := (h.cur he c hc).step ReqRep.inc
    rw [hp] at ho
    cases ho
    have hi := h.chan c (by rw [chans_active hc]; simp)
    exact h.swap (c' := { c with rd, input, polls := c.polls + 1 }) hc rfl ⟨[], by simp⟩
      ⟨hinv.seen, hi.bytes, hi.via⟩ (fun _ => hinv)
  | readErr c x rd input he hc hp =>
    obtain ⟨o, r', as', ho, hinv⟩ := (h.cur he c hc).step ReqRep.inc
    rw [hp] at ho
    cases ho
    have hi := h.chan c (by rw [chans_active hc]; simp)
    have h' := h.swap (c' := { c with rd, input, polls := c.polls + 1 }) hc rfl ⟨[], by simp⟩
      ⟨hinv.seen, hi.bytes, hi.via⟩ (fun _ => hinv)
    have hch : ({ s with conn := .inactive backoff0, past := s.past ++ [{ c with rd, input, polls := c.polls + 1 }] } : State).chans =
        ({ s with conn := .active { c with rd, input, polls := c.polls + 1 } } : State).chans := by simp [State.chans]
    exact ⟨by rw [hch]; exact h'.chan, (by intro _ c hc; cases hc), by rw [hch]; exact h'.flow, by rw [hch]; exact h'.ok,
      by rw [hch]; exact h'.tx, h'.rx, h'.idx, h'.rtt, h'.samples, by rw [hch]; exact h'.sampled⟩
  | readEnd c rd input he hc hp =>
    obtain ⟨o, r', as', ho, hinv⟩ := (h.cur he c hc).step ReqRep.inc
    rw [hp] at ho
    cases ho
    have hi := h.chan c (by rw [chans_active hc]; simp)
    have hchs : ({ s with ended := true } : State).chans = s.chans := rfl
    have h0 : Chans D { s with ended := true } := h.frame rfl rfl rfl rfl rfl rfl rfl rfl rfl rfl rfl (fun h => by cases h)
    have h' := h0.swap (c' := { c with rd, input, polls := c.polls + 1 }) hc rfl ⟨[], by simp⟩
      ⟨hinv, hi.bytes, hi.via⟩ (fun h => by cases h)
    refine h'.complete ((s.pending.map fun p => (p.call, Res.closed, s.now)) ++ (s.queue.map fun c => (c.1, Res.closed, s.now)))
      ?_ rfl rfl rfl rfl ?_ rfl rfl rfl rfl rfl rfl id
    · intro x hx
      simp only [List.mem_append, List.mem_map] at hx
      rcases hx with ⟨_, -, rfl⟩ | ⟨_, -, rfl⟩ <;> rfl
    · simp [State.terminate]
  | send c k m ms he hc hg =>
    have hi := h.chan c (by rw [chans_active hc]; simp)
    have h1 : s.chans = s.past ++ [c] := chans_active hc
    have hfl := h.flow
    have htx := h.tx
    have hok := h.ok
    have hsm := h.sampled
    rw [h1] at hfl htx hok hsm
    simp only [List.flatMap_append, List.flatMap_cons, List.flatMap_nil, List.append_nil, List.append_assoc] at hfl htx hok hsm
    constructor
    · intro x hx
      simp only [State.chans, List.mem_append, List.mem_singleton] at hx
      rcases hx with hx | rfl
      · exact h.chan x (by rw [h1]; exact List.mem_append_left _ hx)
      · refine ⟨hi.seen, ?_, hi.via⟩
        simp only [Writer.send_wire, Writer.send_buf, List.flatMap_append, List.flatMap_cons, List.flatMap_nil,
          List.append_nil]
        rw [← List.append_assoc, hi.bytes]
    · intro he x hx
      cases hx
      exact h.cur he c hc
    · simp only [State.chans, List.flatMap_append, List.flatMap_cons, List.flatMap_nil, List.append_nil, List.append_assoc]
      rw [hg] at hfl
      simpa using hfl
    · simpa [State.chans] using hok
    · simp only [State.chans, List.flatMap_append, List.flatMap_cons, List.flatMap_nil, List.append_nil, List.map_append,
        List.sum_append, List.map_cons, List.map_nil, List.sum_cons, List.sum_nil, Nat.add_zero] at htx ⊢
      omega
    · exact h.rx
    · exact h.idx
    · exact h.rtt
    · exact h.samples
    · simpa [State.chans] using hsm
  | tick iv he hi =>
    refine h.complete ((s.pending.filter fun p => decide (s.now - p.start > s.opts.timeout)).map fun p => (p.call, Res.timeout, s.now))
      ?_ rfl rfl rfl rfl rfl rfl rfl rfl rfl rfl rfl id
    intro x hx
    simp only [List.mem_map] at hx
    obtain ⟨_, -, rfl⟩ := hx
    rfl
  | command k payload q he hq =>
    let m := (requestPrepare s.opts.minCompress s.comp payload).intoWire s.idCounter
    have h' : Chans D { s with egress := s.egress ++ [(k, m)], taken := s.taken ++ [(k, m)] } := by
      refine ⟨h.chan, h.cur, ?_, ?_, h.tx, h.rx, h.idx, h.rtt, h.samples, h.sampled⟩
      · show s.chans.flatMap (·.sent) ++ (s.egress ++ [(k, m)]) = s.taken ++ [(k, m)]
        rw [← List.append_assoc, h.flow]
      · intro k b t hx
        obtain ⟨m, h1, rq, h2, h3⟩ := h.ok k b t hx
        exact ⟨m, h1, rq, List.mem_append_left _ h2, h3⟩
    refine h'.complete ((s.pending.filter (·.id = s.idCounter)).map fun p => (p.call, Res.closed, s.now))
      ?_ rfl rfl rfl rfl rfl rfl rfl rfl rfl rfl rfl id
    intro x hx
    simp only [List.mem_map] at hx
    obtain ⟨_, -, rfl⟩ := hx
    rfl
  | close he hq hc =>
    refine h.complete ((s.pending.map fun p => (p.call, Res.closed, s.now)) ++ (s.queue.map fun c => (c.1, Res.closed, s.now)))
      ?_ rfl rfl rfl rfl ?_ rfl rfl rfl rfl rfl rfl (fun _ => he)
    · intro x hx
      simp only [List.mem_append, List.mem_map] at hx
      rcases hx with ⟨_, -, rfl⟩ | ⟨_, -, rfl⟩ <;> rfl
    · simp [State.terminate]
  | requestLate payload he hc =>
    exact h.complete [(s.calls.length, Res.closed, s.now)] (by simp [okOf]) rfl rfl rfl rfl rfl rfl rfl rfl rfl rfl rfl id

theorem new_fields {opts : Options} {comp : Option Compressor} {now : Nat} {s : State}
    (h : State.new opts comp now = .ok s) : 0 < opts.timeout / 10 ∧ ∃ f, 
      s = { opts := opts, comp := comp, now := now, conn := .inactive backoff0, checkIv := ⟨now, opts.timeout / 10⟩, flushIv := f } := by
  unfold State.new at h
  cases hi : Interval.new now (opts.timeout / 10) with
  | panic => rw [hi] at h; cases h
  | ok iv =>
    rw [hi] at h
    have hz : 0 < opts.timeout / 10 ∧ iv = { next := now, period := opts.timeout / 10 } := by
      unfold Interval.new at hi
      split at hi
      · cases hi
      · cases hi; exact ⟨by omega, rfl⟩
    obtain ⟨hz, rfl⟩ := hz
    simp only [R.bind_ok] at h
    refine ⟨hz, ?_⟩
    split at h
    · cases h; exact ⟨none, rfl⟩
    · rename_i p _
      cases hj : Interval.new now p with
      | panic => rw [hj] at h; cases h
      | ok iv2 => rw [hj] at h; cases h; exact ⟨some iv2, rfl⟩

theorem new_chans {opts : Options} {comp : Option Compressor} {now : Nat} {s : State}
    (h : State.new opts comp now = .ok s) : Chans D s := by
  obtain ⟨-, f, rfl⟩ := new_fields h
  constructor <;> simp [State.chans, MeanOf.nil]

theorem Steps.both {s t : State} (h : Steps D s t) (h0 : Calls s ∧ Chans D s) : Calls t ∧ Chans D t :=
  h.induct (P := fun s => Calls s ∧ Chans D s) (fun _ _ hs h => ⟨h.1.step hs, h.2.step hs h.1⟩) h0

end MsgRs.Req
