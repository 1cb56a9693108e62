import Verif.Proofs.SubStats
import Verif.Spec.SubRuns
import Verif.Props.Req
/-!
# Properties C87, C88: what the statistics say

`d.addrs[u]?` is the address session number `u` of a subscriber is connected to; sessions are numbered in the order
their connections were established. `got` are the messages a session has read from its connection, `samples` their
latencies. `processed` are the user's commands the driver has handled.
-/
namespace MsgRs.Props
open MsgRs

section
open MsgRs.Sub
variable {A : Type} [DecidableEq A]

/-! ## C87 -/

/-- C87: whatever happened to a subscriber socket, if `bytes_rx(a)` is a number then it is the number of payload
bytes read over one connection: the last one that was established to `a`. -/
theorem C87_bytes_of_last_connection (L : Lossy) (D : Decompressors) (d : Driver A) (h : Reach L D d) (a : A) (n : Nat)
    (hn : d.bytesRx a = some n) : ∃ (u : Nat) (s : Session), d.sessions[u]? = some s ∧ d.addrs[u]? = some a ∧
      (∀ v, u < v → d.addrs[v]? ≠ some a) ∧ n = (s.got.map fun m => m.payload.length).sum := by
  unfold Driver.bytesRx Driver.statsOf at hn
  cases hl : lookup a d.stats with
  | none => rw [hl] at hn; cases hn
  | some u =>
    rw [hl] at hn
    obtain ⟨h1, h2⟩ := h.statInv.last a u hl
    have hu : u < d.sessions.length := by rw [← h.inv.len]; exact (List.getElem?_eq_some_iff.1 h1).1
    refine ⟨u, d.sessions[u], List.getElem?_eq_getElem hu, h1, h2, ?_⟩
    simp only [List.getElem?_eq_getElem hu, Option.map_some, Option.some.injEq] at hn
    rw [← hn]
    exact (h.inv.sess u _ (List.getElem?_eq_getElem hu)).bytes

/-- C87: while a connection to `a` is in use, `bytes_rx(a)` counts its payload bytes. -/
theorem C87_counts_while_connected (L : Lossy) (D : Decompressors) (d : Driver A) (h : Reach L D d) (a : A) (u : Nat)
    (ha : d.Active a u) : ∃ s, d.sessions[u]? = some s ∧
      d.bytesRx a = some (s.got.map fun m => m.payload.length).sum := by
  obtain ⟨-, s, hs, -⟩ := h.inv.act a u ha
  refine ⟨s, hs, ?_⟩
  unfold Driver.bytesRx Driver.statsOf
  rw [h.statInv.act a u ha]
  simp only [hs, Option.map_some, Option.some.injEq]
  exact (h.inv.sess u s hs).bytes

theorem statsOf_isSome {L : Lossy} {D : Decompressors} {d : Driver A} (h : Reach L D d) (a : A) :
    (d.bytesRx a).isSome = (lookup a d.stats).isSome := by
  unfold Driver.bytesRx Driver.statsOf
  cases hl : lookup a d.stats with
  | none => rfl
  | some u =>
    obtain ⟨h1, -⟩ := h.statInv.last a u hl
    have hu : u < d.sessions.length := by rw [← h.inv.len]; exact (List.getElem?_eq_some_iff.1 h1).1
    simp [List.getElem?_eq_getElem hu]

theorem reach_run {L : Lossy} {D : Decompressors} {d e : Driver A} (h : Reach L D d) (acts : List (Act A))
    (hr : d.run L D acts = .ok e) : Reach L D e := by
  obtain ⟨opts, now, d0, as, h0, h1⟩ := h
  refine ⟨opts, now, d0, as ++ acts, h0, ?_⟩
  clear h0
  induction as generalizing d0 with
  | nil => cases h1; exact hr
  | cons x as ih =>
    simp only [List.cons_append, Driver.run] at h1 ⊢
    cases hx : d0.act L D x with
    | panic => rw [hx] at h1; cases h1
    | ok d1 => rw [hx] at h1; exact ih d1 h1

/-- C87: the entry for `a` is there from the first connection on for as long as the driver handles no
`disconnect` of `a`, through lost connections, failed attempts and new connections. -/
theorem C87_kept_until_disconnect (L : Lossy) (D : Decompressors) (d e : Driver A) (h : Reach L D d) (a : A)
    (acts : List (Act A)) (hr : d.run L D acts = .ok e) (ha : (d.bytesRx a).isSome = true) :
    ∃ more, e.processed = d.processed ++ more ∧
      (Command.disconnect a ∉ more → (e.bytesRx a).isSome = true) := by
  have hs := run_steps (L := L) (D := D) acts d e hr
  obtain ⟨more, hm⟩ := processed_grow hs
  refine ⟨more, hm, fun hn => ?_⟩
  rw [statsOf_isSome (reach_run h acts hr)]
  rw [statsOf_isSome h] at ha
  exact stats_keeps hs a ha more hm hn

/-- C87 (partial): handling a `disconnect` of a publisher the socket is connected to, or trying to connect to, removes its
statistics (and no other's). Missing: a publisher the driver has given up on, or a connection that is established after the
`disconnect` (`C87_zombie_refuted`). -/
theorem C87_removed_partial (d : Driver A) (a : A) (ha : (lookup a d.pubs).isSome = true) :
    (d.onCommand (.disconnect a)).bytesRx a = none ∧
    ∀ b, b ≠ a → lookup b (d.onCommand (.disconnect a)).stats = lookup b d.stats := by
  have hc : d.onCommand (.disconnect a) =
      { d.hangUp a with pubs := erase a (d.hangUp a).pubs, stats := erase a (d.hangUp a).stats } := by
    show (if _ then _ else _) = _
    rw [if_pos ha]
  rw [hc]
  refine ⟨?_, fun b hb => ?_⟩
  · unfold Driver.bytesRx Driver.statsOf
    simp only [lookup_erase_self, Option.map_none]
  · simp only [(hangUp_pubs d a).2.1, lookup_erase_ne hb]

/-- A subscriber that received two messages of one byte from publisher 7 (and one it has not read yet). -/
theorem stats_example : after {} [.call (.connect 7), .iter ⟨[], [], none⟩, .iter ⟨[], [], conn [.data (msgA 0 5 ++ msgA 0 6 ++ msgA 0 7)]⟩,
    .session 0 eager, .session 0 eager] (fun d => d.bytesRx 7 == some 2 && decide (lookup 7 d.pubs = some (.active 0)) && d.bytesRx 8 == none) =
      true := by decide +kernel

/-- The hypotheses of the C87 theorems can be met. -/
example : ∃ d : Driver Nat, Reach Lossy.strict noDec d ∧ d.bytesRx 7 = some 2 ∧ d.Active 7 0 ∧
    (lookup 7 d.pubs).isSome = true := by
  obtain ⟨d, h1, h2⟩ := after_reach stats_example
  simp only [Bool.and_eq_true, beq_iff_eq, decide_eq_true_eq] at h2
  exact ⟨d, h1, h2.1.1, h2.1.2, by rw [h2.1.2]; rfl⟩

/-- C87 (refuted as stated): after `connect` and `disconnect` the connection task finishes: there are statistics for a
publisher whose last command was `disconnect`. -/
theorem C87_zombie_refuted : ∃ d : Driver Nat, Reach Lossy.strict noDec d ∧
    d.processed = [.connect 7, .disconnect 7] ∧ d.cmdq = [] ∧ d.bytesRx 7 = some 1 := by
  have h : after {} [.call (.connect 7), .call (.disconnect 7), .iter ⟨[], [], none⟩, .iter ⟨[], [], none⟩,
      .iter ⟨[], [], conn [.data (msgA 0 5)]⟩, .session 0 eager]
      (fun d => decide (d.processed = [.connect 7, .disconnect 7]) && decide (d.cmdq = []) && d.bytesRx 7 == some 1) = true := by
    decide +kernel
  obtain ⟨d, h1, h2⟩ := after_reach h
  simp only [Bool.and_eq_true, beq_iff_eq, decide_eq_true_eq] at h2
  exact ⟨d, h1, h2.1.1, h2.1.2, h2.2⟩

/-! ## C88 -/

/-- C88 for the subscriber (partial): `avg_latency(a)` belongs to the last connection to `a`; with `n` latencies recorded on
it (one for every message read) that add up to less than `2 ^ 64` it is never above their mean, below it by no more than `(n - 1) / 2`, and between the
smallest and the largest. Missing: the difference (`C88_latency_refuted`), and larger sums, which wrap around (`C88_wrap_refuted`). -/
theorem C88_latency_partial (L : Lossy) (D : Decompressors) (d : Driver A) (h : Reach L D d) (a : A) (avg : Nat)
    (hn : d.avgLatency a = some avg) : ∃ (u : Nat) (s : Session), d.sessions[u]? = some s ∧ d.addrs[u]? = some a ∧
      (∀ v, u < v → d.addrs[v]? ≠ some a) ∧ s.samples.length = s.got.length ∧ (s.samples.sum < 2 ^ 64 →
      avg * s.samples.length ≤ s.samples.sum ∧
      2 * s.samples.sum ≤ 2 * avg * s.samples.length + s.samples.length * (s.samples.length - 1) ∧
      (s.samples ≠ [] → ∀ lo hi, (∀ x ∈ s.samples, lo ≤ x ∧ x ≤ hi) → lo ≤ avg ∧ avg ≤ hi)) := by
  unfold Driver.avgLatency Driver.statsOf at hn
  cases hl : lookup a d.stats with
  | none => rw [hl] at hn; cases hn
  | some u =>
    rw [hl] at hn
    obtain ⟨h1, h2⟩ := h.statInv.last a u hl
    have hu : u < d.sessions.length := by rw [← h.inv.len]; exact (List.getElem?_eq_some_iff.1 h1).1
    refine ⟨u, d.sessions[u], List.getElem?_eq_getElem hu, h1, h2, ?_⟩
    simp only [List.getElem?_eq_getElem hu, Option.map_some, Option.some.injEq] at hn
    have hi := h.inv.sess u _ (List.getElem?_eq_getElem hu)
    subst hn
    exact ⟨hi.idx', fun hs => ⟨(hi.ca hs).le, (hi.ca hs).close, hi.lat hs⟩⟩

/-- The session's loop finds a message at time `x`. -/
def at' (x : UInt64) : Act Nat := .session 0 { eager with now := x }

/-- C88 (refuted as stated): with latencies of 0, 1, 2, 3 and 4 microseconds, whose mean is 2, the average latency
reported is 0. -/
theorem C88_latency_refuted : ∃ d : Driver Nat, Reach Lossy.strict noDec d ∧ d.avgLatency 7 = some 0 ∧
    ∃ s, d.sessions = [s] ∧ s.samples = [0, 1, 2, 3, 4] := by
  have h : after {} [.call (.connect 7), .iter ⟨[], [], none⟩,
      .iter ⟨[], [], conn [.data (msgA 0 5 ++ msgA 0 6 ++ msgA 0 7 ++ msgA 0 8 ++ msgA 0 9)]⟩,
      at' 0, at' 1, at' 2, at' 3, at' 4]
      (fun d => d.avgLatency 7 == some 0 && decide (d.sessions.map (·.samples) = [[0, 1, 2, 3, 4]])) = true := by
    decide +kernel
  obtain ⟨d, h1, h2⟩ := after_reach h
  simp only [Bool.and_eq_true, beq_iff_eq, decide_eq_true_eq] at h2
  refine ⟨d, h1, h2.1, ?_⟩
  obtain ⟨s, l, h3, h4, h5⟩ := List.map_eq_cons_iff.1 h2.2
  exact ⟨s, by rw [h3, List.map_eq_nil_iff.1 h5], h4⟩

/-- The running average over `n` values of which the last is `n - 1` more than the average so far. -/
theorem freeze (k n : Nat) : (k + n + n * k) / (n + 1) = k := by
  have : k + n + n * k = (n + 1) * k + n := by rw [Nat.add_mul, Nat.one_mul]; omega
  rw [this, Nat.mul_add_div (by omega), Nat.div_eq_of_lt (by omega), Nat.add_zero]

/-- C88 (refuted, in general): once `n` messages were counted, latencies up to `n` above the reported average do not
move it: however many more messages arrive, if each latency exceeds the average by no more than the number of messages
before it, the average stays (`hmax`: the sums stay below `2 ^ 64`). -/
theorem C88_freeze_refuted (st : Stats) (ms : List (UInt64 × TopicMsg))
    (h : ∀ (i : Nat) (x : UInt64 × TopicMsg), ms[i]? = some x → st.latency ≤ x.1.toNat - x.2.timestamp.toNat ∧
      x.1.toNat - x.2.timestamp.toNat ≤ st.latency + st.latencyIdx + i)
    (hmax : (st.latency + 1) * (st.latencyIdx + ms.length) < 2 ^ 64) :
    (ms.foldl (fun st x => st.update x.1 x.2) st).latency = st.latency := by
  induction ms generalizing st with
  | nil => rfl
  | cons x ms ih =>
    obtain ⟨h1, h2⟩ := h 0 x rfl
    have hx : (st.update x.1 x.2).latency = st.latency := by
      simp only [Stats.update]
      generalize x.1.toNat - x.2.timestamp.toNat = y at h1 h2
      obtain ⟨z, rfl⟩ := Nat.exists_eq_add_of_le h1
      have : st.latency + z + st.latencyIdx * st.latency = (st.latencyIdx + 1) * st.latency + z := by
        rw [Nat.add_mul, Nat.one_mul]; omega
      have hw : (st.latencyIdx + 1) * st.latency + z < 2 ^ 64 := by
        have h4 : (st.latencyIdx + 1) * st.latency + z ≤ (st.latency + 1) * (st.latencyIdx + 1) := by
          rw [Nat.add_mul st.latency 1, Nat.mul_comm st.latency, Nat.one_mul]; omega
        have h5 : (st.latency + 1) * (st.latencyIdx + 1) ≤ (st.latency + 1) * (st.latencyIdx + (x :: ms).length) :=
          Nat.mul_le_mul_left _ (by simp only [List.length_cons]; omega)
        omega
      rw [this, Nat.mod_eq_of_lt hw, Nat.mul_add_div (by omega), Nat.div_eq_of_lt (by omega), Nat.add_zero]
    rw [List.foldl_cons, ih, hx]
    intro i y hy
    have := h (i + 1) y hy
    rw [hx]
    refine ⟨this.1, ?_⟩
    have h3 : (st.update x.1 x.2).latencyIdx = st.latencyIdx + 1 := rfl
    rw [h3]; omega
    rw [hx]
    have h3 : (st.update x.1 x.2).latencyIdx = st.latencyIdx + 1 := rfl
    rw [h3]
    simpa only [List.length_cons, Nat.add_assoc, Nat.add_comm 1] using hmax

/-- A subscriber one of whose connections (the only one) has read `k` messages of latency `c` and will answer reads with `L`. -/
structure Skewed (c k : Nat) (L : List ReadAns) (d : Driver Nat) : Prop where
  sess : ∃ s b, d.sessions = [s] ∧ s.input = L ∧ s.rd = { st := .header, readable := b } ∧ s.over = false ∧ s.samples = List.replicate k c ∧ s.stats.latencyIdx = k ∧
    (k * c < 2 ^ 64 → 0 < k → s.stats.latency = c)
  stats : lookup 5 d.stats = some 0

theorem skewed_step {c : UInt64} {k : Nat} {L : List ReadAns} {d : Driver Nat} (h : Skewed c.toNat k (.data (msgA 0 1) :: L) d) (hk : k * c.toNat < 2 ^ 64) :
    ∃ d', d.act Lossy.strict noDec (.session 0 { now := c }) = .ok d' ∧ Skewed c.toNat (k + 1) L d' ∧
      d'.avgLatency 5 = some (((k + 1) * c.toNat) % 2 ^ 64 / (k + 1)) := by
  obtain ⟨⟨s, b, s1, s2, s3, s4, s5, s6, s7⟩, hst⟩ := h
  let m : PubSub.Message := ⟨⟨0, 1, [97], 0, 0, 1⟩, [1]⟩
  have hr : s.rd.pollNext PubSub.codec s.input = .ok (.item m, { st := .header, readable := true }, L) := by
    rw [s2, s3]
    cases b <;> cases L <;> rfl
  have hfl : s.flushStep { now := c } = s := by
    unfold Session.flushStep
    split
    · have hw : s.wr.flush ({ now := c } : SEnv).flushAns = (.pending, s.wr) := rfl
      rw [hw]
    · rfl
  obtain ⟨s', e1, f1, f2, f3, f4, f5, f6⟩ : ∃ s', s.step Lossy.strict { now := c } = s' ∧ s'.input = L ∧ s'.rd = { st := .header, readable := true } ∧ s'.over = false ∧
      s'.samples = s.samples ++ [c.toNat] ∧ s'.stats.latencyIdx = s.stats.latencyIdx + 1 ∧
      s'.stats.latency = (c.toNat + s.stats.latencyIdx * s.stats.latency) % 2 ^ 64 / (s.stats.latencyIdx + 1) := by
    refine ⟨_, rfl, ?_⟩
    have : s.iter Lossy.strict { now := c } = .ok (({ s with rd := { st := .header, readable := true }, input := L, polls := s.polls + 1 } : Session).onIncoming Lossy.strict m c, .again) := by
      unfold Session.iter
      rw [hfl]
      simp only
      rw [hr]
      rfl
    unfold Session.step
    rw [if_neg (by rw [s4]; simp), this]
    simp only
    unfold Session.onIncoming
    simp only
    split
    · exact ⟨rfl, rfl, s4, rfl, rfl, rfl⟩
    · exact ⟨rfl, rfl, s4, rfl, rfl, rfl⟩
  have hlat : s'.stats.latency = ((k + 1) * c.toNat) % 2 ^ 64 / (k + 1) := by
    rw [f6, s6]
    by_cases h0 : k = 0
    · subst h0; simp
    · rw [s7 hk (by omega)]
      congr 2
      rw [Nat.add_mul, Nat.one_mul, Nat.add_comm]
  refine ⟨{ d with sessions := [s'], woken := d.woken || (s.armed && !s'.armed) }, ?_, ⟨⟨s', true, rfl, f1, f2, f3, ?_, by rw [f5, s6], ?_⟩, hst⟩, ?_⟩
  · simp only [Driver.act, s1, List.getElem?_cons_zero, e1, List.set]
  · rw [f4, s5, List.replicate_succ']
  · intro hlt _
    rw [hlat, Nat.mod_eq_of_lt hlt, Nat.mul_div_cancel_left _ (by omega)]
  · unfold Driver.avgLatency Driver.statsOf
    simp only [hst, List.getElem?_cons_zero, Option.map_some, hlat]

/-- C88 (refuted as stated): the sum is computed in 64 bits. A publisher's clock stands at 0 (it was never set, say); the subscriber's says `c` (microseconds since 1970, today about 1.8 * 10^15).
Each message then has the latency `c`, and the average is `c`, until the first `n` with `n * c ≥ 2 ^ 64` (some ten thousand messages): then the average reported is less than `c / n`. -/
theorem C88_wrap_refuted (c : UInt64) (hc : 0 < c.toNat) : ∃ (n avg : Nat) (d : Driver Nat) (s : Session), Reach Lossy.strict noDec d ∧ (n - 1) * c.toNat < 2 ^ 64 ∧ 0 < n ∧
    d.sessions = [s] ∧ s.samples = List.replicate n c.toNat ∧ d.avgLatency 5 = some avg ∧ avg * n < c.toNat := by
  obtain ⟨n, h1, h2⟩ : ∃ n, n * c.toNat < 2 ^ 64 ∧ 2 ^ 64 ≤ (n + 1) * c.toNat := by
    have hd := Nat.div_add_mod (2 ^ 64 - 1) c.toNat
    have hm := Nat.mod_lt (2 ^ 64 - 1) hc
    refine ⟨(2 ^ 64 - 1) / c.toNat, ?_, ?_⟩
    · rw [Nat.mul_comm]; omega
    · rw [Nat.add_mul, Nat.mul_comm]; omega
  have many : ∀ (j k : Nat) (d : Driver Nat), Reach Lossy.strict noDec d → (k + j) * c.toNat < 2 ^ 64 → Skewed c.toNat k (List.replicate (j + 1) (.data (msgA 0 1))) d →
      ∃ e, Reach Lossy.strict noDec e ∧ Skewed c.toNat (k + j) [.data (msgA 0 1)] e := by
    intro j
    induction j with
    | zero => intro k d hr _ hs; exact ⟨d, hr, hs⟩
    | succ j ih =>
      intro k d hr hlt hs
      have hk : k * c.toNat < 2 ^ 64 := Nat.lt_of_le_of_lt (Nat.mul_le_mul_right _ (by omega)) hlt
      obtain ⟨d', g1, g2, -⟩ := skewed_step (L := List.replicate (j + 1) (.data (msgA 0 1))) hs hk
      obtain ⟨e, k1, k2⟩ := ih (k + 1) d' (reach_run hr [.session 0 { now := c }] (by simp only [Driver.run, g1, R.bind_ok])) (by rw [show k + 1 + j = k + (j + 1) by omega]; exact hlt) g2
      exact ⟨e, k1, by rw [show k + (j + 1) = k + 1 + j by omega]; exact k2⟩
  obtain ⟨d0, d, i1, i2, i3⟩ : ∃ d0 d : Driver Nat, Driver.new {} 0 = .ok d0 ∧
      d0.run Lossy.strict noDec [.call (.connect 5), .iter ⟨[], [], none⟩, .iter ⟨[], [], some (0, .connected ⟨List.replicate (n + 1) (.data (msgA 0 1)), [], [], []⟩)⟩] = .ok d ∧
      Skewed c.toNat 0 (List.replicate (n + 1) (.data (msgA 0 1))) d :=
    ⟨_, _, rfl, rfl, ⟨⟨_, _, rfl, rfl, rfl, rfl, rfl, rfl, fun _ h => absurd h (by omega)⟩, rfl⟩⟩
  obtain ⟨e, k1, k2⟩ := many n 0 d ⟨_, _, d0, _, i1, i2⟩ (by rw [Nat.zero_add]; exact h1) i3
  rw [Nat.zero_add] at k2
  obtain ⟨f, g1, g2, g3⟩ := skewed_step k2 h1
  obtain ⟨⟨s, -, q1, -, -, -, q2, -⟩, -⟩ := g2
  refine ⟨n + 1, _, f, s, reach_run k1 [.session 0 { now := c }] (by simp only [Driver.run, g1, R.bind_ok]), by rw [Nat.add_sub_cancel]; exact h1, by omega, q1, q2, g3, ?_⟩
  have hlt : (n + 1) * c.toNat - 2 ^ 64 < c.toNat := by
    rw [Nat.add_mul, Nat.one_mul]; omega
  have hmod : ((n + 1) * c.toNat) % 2 ^ 64 ≤ (n + 1) * c.toNat - 2 ^ 64 := by
    rw [Nat.mod_eq_sub_mod h2]
    exact Nat.mod_le _ _
  exact Nat.lt_of_le_of_lt (Nat.le_trans (Nat.div_mul_le_self _ _) hmod) hlt

end

section
open MsgRs.Req

/-- C88 for the request socket (partial): `rtt()` is never above the mean of the round-trip times recorded (one for every
call that got a response), and below it by no more than `(n - 1) / 2` for `n` of them, as long as they add up to less than `2 ^ 64` µs. Missing: the difference
(`C88_rtt_refuted`). -/
theorem C88_rtt_partial (D : Decompressors) (opts comp) (s : State) (h : ReqReach D opts comp s) :
    let l := s.samples.map (·.2.2)
    (l.sum < 2 ^ 64 → s.rtt * l.length ≤ l.sum ∧ 2 * l.sum ≤ 2 * s.rtt * l.length + l.length * (l.length - 1)) ∧
    l.length = (s.done.filterMap okOf).length := by
  refine ⟨fun hs => ⟨(h.inv.chans.rtt hs).2.le, (h.inv.chans.rtt hs).2.close⟩, ?_⟩
  have := congrArg List.length h.inv.chans.samples
  simpa using this

/-- What is known of the round-trip times: `n` calls were received by time `T`, in a state with samples `old`. -/
def Rtts (n T : Nat) (old : List (Nat × ReqRep.Message × Nat)) (s : State) : Prop :=
  ∀ x ∈ s.samples, ∃ b t call, (x.1, Res.ok b, t) ∈ s.done ∧ s.calls[x.1]? = some call ∧
    call.time + x.2.2 * 1000 ≤ t ∧ (x.1 < n → x ∈ old ∨ t < T + (x.2.2 + 1) * 1000)

theorem rtts_same {n T : Nat} {old : List (Nat × ReqRep.Message × Nat)} {s t : State} (h : Rtts n T old s) (h1 : t.samples = s.samples)
    (h2 : s.done <+: t.done) (h3 : s.calls <+: t.calls) : Rtts n T old t := by
  intro x hx
  rw [h1] at hx
  obtain ⟨b, u, call, g1, g2, g3, g4⟩ := h x hx
  refine ⟨b, u, call, h2.subset g1, ?_, g3, g4⟩
  obtain ⟨r, hr⟩ := h3
  rw [← hr, List.getElem?_append_left (List.getElem?_eq_some_iff.1 g2).1]
  exact g2

theorem rtts_step {D : Decompressors} {n T : Nat} {old : List (Nat × ReqRep.Message × Nat)} {s t : State} (hs : Step D s t)
    (hi : Req.Inv D s) (hr : ReceivedBy n T s) (h : Rtts n T old s) : Rtts n T old t := by
  have hg := done_grows hs
  cases hs with
  | readItem c m rd input he hc hp =>
    clear hg
    unfold State.onMessage
    split
    · exact rtts_same h rfl List.prefix_rfl List.prefix_rfl
    · rename_i p hf
      simp only
      split
      · exact rtts_same h rfl (List.prefix_append _ _) List.prefix_rfl
      · rename_i b hd
        have hp := List.mem_of_find?_eq_some hf
        obtain ⟨-, -, -, call, g1, g2, g3⟩ := hi.calls.pend p hp
        intro x hx
        simp only [State.updateRtt, List.mem_append, List.mem_singleton] at hx ⊢
        rcases hx with hx | rfl
        · obtain ⟨b', u, call', k1, k2, k3, k4⟩ := h x hx
          exact ⟨b', u, call', .inl k1, k2, k3, k4⟩
        · refine ⟨b, s.now, call, .inr rfl, g1, ?_, ?_⟩
          · simp only
            have := Nat.div_mul_le_self (s.now - p.start) 1000
            omega
          · intro hk
            right
            have := hr.1 p hp hk
            simp only
            omega
  | requestLate payload he hc => exact rtts_same h rfl hg (List.prefix_append _ _)
  | request payload he hc => exact rtts_same h rfl hg (List.prefix_append _ _)
  | _ => exact rtts_same h rfl hg List.prefix_rfl

theorem received_now {D : Decompressors} {s : State} (hi : Req.Inv D s) : ReceivedBy s.taken.length s.now s := by
  refine ⟨?_, ?_, hi.calls.le⟩
  · intro p hp _
    obtain ⟨-, -, -, call, -, -, h⟩ := hi.calls.pend p hp
    exact h
  · intro x hx
    obtain ⟨i, hx⟩ := List.mem_iff_getElem?.1 hx
    rw [(hi.calls.queue i x hx).1]
    exact Nat.le_add_right _ _

/-- C88: what is recorded is the time in microseconds the call took from when the driver received it: for every round-trip
time `r` recorded there is the completed call; `r` is no more than the time since the call was made; and if the driver had
received the call by the time of some earlier state, it is (rounded down) no less than the time since then. -/
theorem C88_rtt_samples (D : Decompressors) (opts comp) (s t : State) (h : ReqReach D opts comp s) (acts : List Act)
    (hr : s.run D acts = .ok t) (k : Nat) (m : ReqRep.Message) (r : Nat) (hx : (k, m, r) ∈ t.samples) :
    ∃ b u call, (k, Res.ok b, u) ∈ t.done ∧ t.calls[k]? = some call ∧ call.time + r * 1000 ≤ u ∧
      ((∃ rq, (k, rq) ∈ s.taken) → (k, m, r) ∉ s.samples → u < s.now + (r + 1) * 1000) := by
  have h0 : Rtts s.taken.length s.now s.samples s := by
    obtain ⟨now, s0, as, g0, g1⟩ := h
    have hb : Req.Inv D s ∧ Rtts 0 0 [] s :=
      ((run_steps (D := D) as s0 s g1).induct (P := fun s => Req.Inv D s ∧ ReceivedBy 0 0 s ∧ Rtts 0 0 [] s)
        (fun a b hs hi => ⟨hs.steps.inv hi.1, receivedBy_step hs hi.2.1, rtts_step hs hi.1 hi.2.1 hi.2.2⟩)
        ⟨new_inv g0, ⟨fun _ _ h => absurd h (Nat.not_lt_zero _), fun _ _ => Nat.zero_le _, Nat.zero_le _⟩, by
          obtain ⟨-, f, rfl⟩ := new_fields g0
          intro x hx; cases hx⟩).imp id (·.2)
    intro x hx
    obtain ⟨b, u, call, k1, k2, k3, -⟩ := hb.2 x hx
    exact ⟨b, u, call, k1, k2, k3, fun _ => .inl hx⟩
  have hb : Rtts s.taken.length s.now s.samples t :=
    ((run_steps (D := D) acts s t hr).induct
      (P := fun t => Req.Inv D t ∧ ReceivedBy s.taken.length s.now t ∧ Rtts s.taken.length s.now s.samples t)
      (fun a b hs hi => ⟨hs.steps.inv hi.1, receivedBy_step hs hi.2.1, rtts_step hs hi.1 hi.2.1 hi.2.2⟩)
      ⟨h.inv, received_now h.inv, h0⟩).2.2
  obtain ⟨b, u, call, k1, k2, k3, k4⟩ := hb _ hx
  refine ⟨b, u, call, k1, k2, k3, ?_⟩
  rintro ⟨rq, hrq⟩ hno
  obtain ⟨i, hi⟩ := List.mem_iff_getElem?.1 hrq
  have : k = i := (h.inv.calls.taken i _ hi).1
  subst this
  rcases k4 (List.getElem?_eq_some_iff.1 hi).1 with k4 | k4
  · exact absurd k4 hno
  · exact k4

/-- A history in which three calls are answered: the first at once, the second after 1 µs, the third after 2 µs. -/
def rttRun : List Req.Act :=
  [.iter {}, .request [1], .request [2], .request [3], .advance 20000000, .iter {},
   .iter { task := some (some ⟨[.pending, .pending, .pending, .pending, .pending, .pending, .pending, .pending, .data (reqBytes 0 [9]), .pending, .data (reqBytes 1 [9]), .pending, .data (reqBytes 2 [9])], [], [], []⟩) },
   .iter {}, .iter {}, .iter {}, .iter {}, .iter {}, .iter {}, .iter {}, .iter {}, .iter {},
   .advance 1000, .iter {}, .iter {}, .advance 1000, .iter {}, .iter {}]

/-- A property of the states after a first and a second part of a history from the start. -/
def reqAfter (as bs : List Req.Act) (p : State → State → Bool) : Bool :=
  match (State.new {} none 0 : R State) with
  | .panic => false
  | .ok s0 =>
    match s0.run noDec as with
    | .panic => false
    | .ok s =>
      match s.run noDec bs with
      | .panic => false
      | .ok t => p s t

theorem reqAfter_reach {as bs : List Req.Act} {p : State → State → Bool} (h : reqAfter as bs p = true) :
    ∃ s t, ReqReach noDec {} none s ∧ s.run noDec bs = .ok t ∧ p s t = true := by
  unfold reqAfter at h
  cases h0 : (State.new {} none 0 : R State) with
  | panic => rw [h0] at h; cases h
  | ok s0 =>
    rw [h0] at h
    simp only at h
    cases h1 : s0.run noDec as with
    | panic => rw [h1] at h; cases h
    | ok s =>
      rw [h1] at h
      simp only at h
      cases h2 : s.run noDec bs with
      | panic => rw [h2] at h; cases h
      | ok t => rw [h2] at h; exact ⟨s, t, ⟨0, s0, as, h0, h1⟩, h2, h⟩

/-- C88 (refuted as stated): round-trip times of 0, 1 and 2 µs, whose mean is 1, give an average of 0. -/
theorem C88_rtt_refuted : ∃ s : State, ReqReach noDec {} none s ∧ s.samples.map (fun x => x.2.2) = [0, 1, 2] ∧
    s.rtt = 0 := by
  have h : reqAfter rttRun [] (fun s _ => decide (s.samples.map (fun x => x.2.2) = [0, 1, 2]) && decide (s.rtt = 0)) = true := by
    decide +kernel
  obtain ⟨s, t, h1, -, h2⟩ := reqAfter_reach h
  simp only [Bool.and_eq_true, decide_eq_true_eq] at h2
  exact ⟨s, h1, h2⟩

/-- The hypotheses of `C88_rtt_samples` can be met: the first state is the one after fourteen actions, when the driver has
received all three calls and none is answered. -/
example : ∃ s t m, ReqReach noDec {} none s ∧ s.run noDec (rttRun.drop 14) = .ok t ∧ (2, m, 2) ∈ t.samples ∧
    (∃ rq, (2, rq) ∈ s.taken) ∧ s.samples = [] := by
  have h : reqAfter (rttRun.take 14) (rttRun.drop 14) (fun s t => decide (s.samples = []) &&
      decide (2 ∈ s.taken.map (·.1)) && decide ((2, 2) ∈ t.samples.map (fun x => (x.1, x.2.2)))) = true := by
    decide +kernel
  obtain ⟨s, t, h1, h2, h3⟩ := reqAfter_reach h
  simp only [Bool.and_eq_true, decide_eq_true_eq, List.mem_map] at h3
  obtain ⟨⟨h3, x, h4, h5⟩, y, h6, h7⟩ := h3
  obtain ⟨k, m, r⟩ := y
  obtain ⟨k', rq⟩ := x
  cases h7; cases h5
  exact ⟨s, t, m, h1, h2, h6, ⟨rq, h4⟩, h3⟩

end

end MsgRs.Props
