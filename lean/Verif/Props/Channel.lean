import Verif.Proofs.Channel
/-!
# C60 — the bi-directional channel

`accepted`, `arrived` (Spec/Channel) read off the reports of the calls what the left end was told it sent and what
the right end received; `mirror…` swaps the two ends.
-/
namespace MsgRs.Props
open MsgRs Chan Spec

section
variable {S T : Type}

/-- C60, one direction of the claim: what the right end receives is, in order and without loss or duplicates, what
the left end sent successfully; what is missing is still in the channel, which never holds more than its capacity;
while the right end keeps its receiver nothing is dropped. -/
theorem C60_fifo {n m : Nat} {p p' : Pair S T} {as : List (Act S T)} {es : List (Ev S T)}
    (h0 : channel S T n m = .ok p) (h : p.run as = .ok (p', es)) :
    es.filterMap arrived <+: es.filterMap accepted ∧
    ((∀ a ∈ as, keepsRx a = true) → es.filterMap arrived ++ p'.lr.queue = es.filterMap accepted) ∧
    p'.lr.queue.length ≤ n := by
  obtain ⟨hi, hc, -, -, -, -, -, -, hrx⟩ := new_inv h0
  have hr := run_inv as hi h
  obtain ⟨f1, f2⟩ := run_frame as h
  simp only [List.nil_append] at hr
  refine ⟨(List.prefix_append _ _).trans hr.pre, fun hk => hr.exact ((f2 hk).trans hrx), ?_⟩
  have := hr.cap
  unfold Dir.used at this
  omega

/-- C60, the other direction: the same with the ends exchanged. -/
theorem C60_fifo_back {n m : Nat} {p p' : Pair S T} {as : List (Act S T)} {es : List (Ev S T)}
    (h0 : channel S T n m = .ok p) (h : p.run as = .ok (p', es)) :
    (es.map mirrorEv).filterMap arrived <+: (es.map mirrorEv).filterMap accepted ∧
    ((∀ a ∈ as, keepsRx (mirrorAct a) = true) →
      (es.map mirrorEv).filterMap arrived ++ p'.rl.queue = (es.map mirrorEv).filterMap accepted) ∧
    p'.rl.queue.length ≤ m := by
  have h0' : channel T S m n = .ok (mirror p) := by
    unfold channel at *
    split at h0
    · cases h0
    · cases h0
      rw [if_neg (by omega)]; rfl
  have h' : (mirror p).run (as.map mirrorAct) = .ok (mirror p', es.map mirrorEv) := by rw [mirror_run, h]
  obtain ⟨a, b, c⟩ := C60_fifo h0' h'
  exact ⟨a, fun hk => b (by
    intro x hx
    obtain ⟨y, hy, rfl⟩ := List.mem_map.1 hx
    exact hk y hy), c⟩

/-- C60, independence: the traffic left to right is the same whatever the state of the opposite direction (its
capacity, contents, whether it is closed). -/
theorem C60_independent {p q p' q' : Pair S T} {as : List (Act S T)} {es fs : List (Ev S T)} (hpq : p.lr = q.lr)
    (hp : p.run as = .ok (p', es)) (hq : q.run as = .ok (q', fs)) :
    p'.lr = q'.lr ∧ es.map aboutLR = fs.map aboutLR := by
  induction as generalizing p q es fs with
  | nil => cases hp; cases hq; exact ⟨hpq, rfl⟩
  | cons a as ih =>
    obtain ⟨p1, e, es', h1, h2, rfl⟩ := run_cons hp
    obtain ⟨q1, f, fs', h3, h4, rfl⟩ := run_cons hq
    have key : p1.lr = q1.lr ∧ aboutLR e = aboutLR f := by
      obtain ⟨l, r⟩ := p
      obtain ⟨l', r'⟩ := q
      cases hpq
      cases a with
      | left c =>
        unfold Pair.act at h1 h3
        cases c with
        | pollSend x =>
          simp only [Call.run] at h1 h3
          cases hs : l.pollSend x with
          | panic => rw [hs] at h1; cases h1
          | ok y => rw [hs] at h1 h3; cases h1; cases h3; exact ⟨rfl, rfl⟩
        | startSend x =>
          simp only [Call.run] at h1 h3
          cases hs : l.startSend x with
          | panic => rw [hs] at h1; cases h1
          | ok y => rw [hs] at h1 h3; cases h1; cases h3; exact ⟨rfl, rfl⟩
        | _ => cases h1; cases h3; exact ⟨rfl, rfl⟩
      | right c =>
        unfold Pair.act at h1 h3
        cases c with
        | pollSend x =>
          simp only [Call.run] at h1 h3
          cases hs : r.pollSend x with
          | panic => rw [hs] at h1; cases h1
          | ok y =>
            cases hs' : r'.pollSend x with
            | panic => rw [hs'] at h3; cases h3
            | ok y' => rw [hs] at h1; rw [hs'] at h3; cases h1; cases h3; exact ⟨rfl, rfl⟩
        | startSend x =>
          simp only [Call.run] at h1 h3
          cases hs : r.startSend x with
          | panic => rw [hs] at h1; cases h1
          | ok y =>
            cases hs' : r'.startSend x with
            | panic => rw [hs'] at h3; cases h3
            | ok y' => rw [hs] at h1; rw [hs'] at h3; cases h1; cases h3; exact ⟨rfl, rfl⟩
        | _ => cases h1; cases h3; exact ⟨rfl, rfl⟩
    obtain ⟨i1, i2⟩ := ih key.1 h2 h4
    exact ⟨i1, by rw [List.map_cons, List.map_cons, key.2, i2]⟩

/-- The calls msg-socket makes on its channels: `try_send` and the two ways of receiving. -/
def plain : Act S T → Bool
  | .left (.trySend _) | .left .tryRecv | .left .pollRecv => true
  | .right (.trySend _) | .right .tryRecv | .right .pollRecv => true
  | _ => false

theorem plain_step {p p' : Pair S T} {a : Act S T} {e : Ev S T} (hp : plain a = true) (h : p.act a = .ok (p', e))
    (h1 : p.lr.tx = .idle) (h2 : p.lr.sender = true) (h3 : p.lr.rx = true) :
    p'.lr.tx = .idle ∧ p'.lr.sender = true ∧ p'.lr.rx = true := by
  cases a with
  | left c =>
    cases c with
    | trySend x =>
      cases h
      unfold Dir.trySend
      rw [if_pos h2, if_pos h3]
      split <;> exact ⟨h1, h2, h3⟩
    | tryRecv => cases h; exact ⟨h1, h2, h3⟩
    | pollRecv => cases h; exact ⟨h1, h2, h3⟩
    | _ => cases hp
  | right c =>
    have hg : ∀ q, ({ p.lr with queue := q } : Dir S).grant = { p.lr with queue := q } := by
      intro q; unfold Dir.grant; simp only [h1]
    cases c with
    | trySend x => cases h; exact ⟨h1, h2, h3⟩
    | tryRecv =>
      cases h
      rcases recv_cases p.lr p.lr.tryRecv.1 p.lr.tryRecv.2 (.inr rfl) with ⟨x, q, _, _, hd⟩ | ⟨_, hd, _⟩
      · rw [hg] at hd; simp only [hd]; exact ⟨h1, h2, h3⟩
      · simp only [hd]; exact ⟨h1, h2, h3⟩
    | pollRecv =>
      cases h
      rcases recv_cases p.lr p.lr.pollRecv.1 p.lr.pollRecv.2 (.inl rfl) with ⟨x, q, _, _, hd⟩ | ⟨_, hd, _⟩
      · rw [hg] at hd; simp only [hd]; exact ⟨h1, h2, h3⟩
      · simp only [hd]; exact ⟨h1, h2, h3⟩
    | _ => cases hp

theorem plain_run (as : List (Act S T)) : ∀ {p p' : Pair S T} {es : List (Ev S T)}, (∀ a ∈ as, plain a = true) →
    p.run as = .ok (p', es) → p.lr.tx = .idle → p.lr.sender = true → p.lr.rx = true →
    p'.lr.tx = .idle ∧ p'.lr.sender = true ∧ p'.lr.rx = true := by
  induction as with
  | nil => intro p p' es _ h h1 h2 h3; cases h; exact ⟨h1, h2, h3⟩
  | cons a as ih =>
    intro p p' es hk h h1 h2 h3
    obtain ⟨q, e, es', ha, hq, -⟩ := run_cons h
    obtain ⟨i1, i2, i3⟩ := plain_step (hk a List.mem_cons_self) ha h1 h2 h3
    exact ih (fun b hb => hk b (List.mem_cons_of_mem _ hb)) hq i1 i2 i3

/-- C60, capacity: with the calls msg-socket makes, a `try_send` succeeds exactly if fewer than `n` accepted messages
have not been received yet; otherwise it reports that the channel is full and nothing is sent. -/
theorem C60_bounded {n m : Nat} {p p' : Pair S T} {as : List (Act S T)} {es : List (Ev S T)} (a : S)
    (h0 : channel S T n m = .ok p) (hk : ∀ x ∈ as, plain x = true) (h : p.run as = .ok (p', es)) :
    p'.lr.trySend a =
      if (es.filterMap accepted).length - (es.filterMap arrived).length < n
      then (.ok, { p'.lr with queue := p'.lr.queue ++ [a] }) else (.full, p'.lr) := by
  obtain ⟨hi, hc, -, -, -, -, htx, hs, hrx⟩ := new_inv h0
  obtain ⟨h1, h2, h3⟩ := plain_run as hk h htx hs hrx
  have hr := run_inv as hi h
  simp only [List.nil_append] at hr
  have hq := congrArg List.length (hr.exact h3)
  rw [List.length_append] at hq
  have hu : p'.lr.used = p'.lr.queue.length := by unfold Dir.used; rw [h1]; rfl
  unfold Dir.trySend
  have hcap : p'.lr.cap = n := (run_frame as h).1.trans hc
  rw [if_pos h2, if_pos h3]
  by_cases hl : p'.lr.used < p'.lr.cap
  · rw [if_pos hl, if_pos (by omega)]
  · rw [if_neg hl, if_neg (by omega)]

/-- The sender and the permit of the left end, from its calls. -/
theorem ends_step {p p' : Pair S T} {a : Act S T} {e : Ev S T} {held : Bool} (ha : p.act a = .ok (p', e))
    (hp : p.lr.tx = .ready ↔ held = true) :
    (p'.lr.sender = (p.lr.sender && !endsSender a)) ∧ (p'.lr.tx = .ready ↔ permitAfter held e = true) := by
  cases a with
  | left c =>
    unfold Pair.act at ha
    cases c with
    | trySend x =>
      cases ha
      have : (p.lr.trySend x).2.sender = p.lr.sender ∧ (p.lr.trySend x).2.tx = p.lr.tx := by
        unfold Dir.trySend; split <;> (try split) <;> (try split) <;> exact ⟨rfl, rfl⟩
      exact ⟨by simp [this.1, endsSender], by rw [show permitAfter held _ = held from rfl, ← hp, this.2]⟩
    | pollSend x =>
      simp only [Call.run] at ha
      rcases hs : p.lr.pollSend x with ⟨o, d⟩ | _
      rotate_left
      · rw [hs] at ha; cases ha
      rw [hs] at ha; cases ha
      unfold Dir.pollSend Dir.pollReady at hs
      cases htx : p.lr.tx with
      | closed =>
        rw [htx] at hs hp; cases hs
        exact ⟨by simp [endsSender], by rw [htx]; exact hp⟩
      | ready =>
        rw [htx] at hs
        simp only [Dir.startSend, htx] at hs
        cases hs
        refine ⟨by simp [endsSender], ?_⟩
        simp only [permitAfter]
        cases p.lr.sender <;> simp
      | idle =>
        rw [htx] at hs hp
        simp only at hs
        by_cases h1 : p.lr.rx = true
        · rw [if_pos h1] at hs
          by_cases h2 : p.lr.used < p.lr.cap
          · rw [if_pos h2] at hs
            simp only [Dir.startSend] at hs
            cases hs
            refine ⟨by simp [endsSender], ?_⟩
            simp only [permitAfter]
            cases p.lr.sender <;> simp
          · rw [if_neg h2] at hs
            cases hs
            refine ⟨by simp [endsSender], ?_⟩
            rw [show permitAfter held _ = held from rfl, ← hp]; simp
        · rw [if_neg h1] at hs
          cases hs
          refine ⟨by simp [endsSender], ?_⟩
          rw [show permitAfter held _ = held from rfl, ← hp]; simp
      | acquiring g =>
        rw [htx] at hs hp
        simp only at hs
        by_cases h1 : p.lr.rx = true
        · rw [if_pos h1] at hs
          by_cases h2 : g = true
          · rw [if_pos h2] at hs
            simp only [Dir.startSend] at hs
            cases hs
            refine ⟨by simp [endsSender], ?_⟩
            simp only [permitAfter]
            cases p.lr.sender <;> simp
          · rw [if_neg h2] at hs
            cases hs
            refine ⟨by simp [endsSender], ?_⟩
            rw [show permitAfter held _ = held from rfl, ← hp, htx]
        · rw [if_neg h1] at hs
          cases hs
          refine ⟨by simp [endsSender], ?_⟩
          rw [show permitAfter held _ = held from rfl, ← hp]; simp
    | pollReady =>
      cases ha
      show (p.lr.pollReady.2.sender = _) ∧ (p.lr.pollReady.2.tx = .ready ↔
        permitAfter held (Ev.left (T := T) .pollReady p.lr.pollReady.1 .ok) = true)
      unfold Dir.pollReady
      cases htx : p.lr.tx with
      | closed =>
        rw [htx] at hp
        exact ⟨by simp [endsSender], by rw [show permitAfter held _ = held from rfl, ← hp, htx]⟩
      | ready => exact ⟨by simp [endsSender], by simp [permitAfter, htx]⟩
      | idle =>
        rw [htx] at hp
        simp only
        split
        · split
          · exact ⟨by simp [endsSender], by simp [permitAfter]⟩
          · exact ⟨by simp [endsSender], by rw [show permitAfter held _ = held from rfl, ← hp]; simp⟩
        · exact ⟨by simp [endsSender], by rw [show permitAfter held _ = held from rfl, ← hp]; simp⟩
      | acquiring g =>
        rw [htx] at hp
        simp only
        split
        · split
          · exact ⟨by simp [endsSender], by simp [permitAfter]⟩
          · exact ⟨by simp [endsSender], by rw [show permitAfter held _ = held from rfl, ← hp, htx]⟩
        · exact ⟨by simp [endsSender], by rw [show permitAfter held _ = held from rfl, ← hp]; simp⟩
    | startSend x =>
      simp only [Call.run] at ha
      rcases hs : p.lr.startSend x with ⟨o, d⟩ | _
      rotate_left
      · rw [hs] at ha; cases ha
      rw [hs] at ha; cases ha
      unfold Dir.startSend at hs
      cases htx : p.lr.tx with
      | closed =>
        rw [htx] at hs hp; cases hs
        exact ⟨by simp [endsSender], by rw [htx]; exact hp⟩
      | ready =>
        rw [htx] at hs; cases hs
        refine ⟨by simp [endsSender], ?_⟩
        simp only [permitAfter]
        cases p.lr.sender <;> simp
      | idle => rw [htx] at hs; cases hs
      | acquiring g => rw [htx] at hs; cases hs
    | close =>
      cases ha
      refine ⟨by simp [endsSender, Dir.close], ?_⟩
      rw [show permitAfter held _ = held from rfl, ← hp]
      simp only [Dir.close]
      cases p.lr.tx <;> simp
    | drop =>
      cases ha
      exact ⟨by simp [endsSender, Dir.dropTx], by simp [permitAfter, Dir.dropTx]⟩
    | tryRecv => cases ha; exact ⟨by simp [endsSender], hp⟩
    | pollRecv => cases ha; exact ⟨by simp [endsSender], hp⟩
  | right c =>
    have hg : ∀ d : Dir S, d.grant.sender = d.sender ∧ (d.grant.tx = .ready ↔ d.tx = .ready) := by
      intro d
      rcases grant_eq d with h | ⟨h1, -, h⟩
      · rw [h]; exact ⟨rfl, Iff.rfl⟩
      · rw [h, h1]; exact ⟨rfl, by simp⟩
    unfold Pair.act at ha
    have hh : ∀ (c : Call T) (x : Out T) (y : Out S), permitAfter held (Ev.right c x y) = held := fun _ _ _ => rfl
    cases c with
    | tryRecv =>
      cases ha
      rw [hh]
      rcases recv_cases p.lr p.lr.tryRecv.1 p.lr.tryRecv.2 (.inr rfl) with ⟨x, q, _, _, e⟩ | ⟨_, e, _⟩
      · rw [e]; exact ⟨by simp [(hg _).1, endsSender], (hg _).2.trans hp⟩
      · rw [e]; exact ⟨by simp [endsSender], hp⟩
    | pollRecv =>
      cases ha
      rw [hh]
      rcases recv_cases p.lr p.lr.pollRecv.1 p.lr.pollRecv.2 (.inl rfl) with ⟨x, q, _, _, e⟩ | ⟨_, e, _⟩
      · rw [e]; exact ⟨by simp [(hg _).1, endsSender], (hg _).2.trans hp⟩
      · rw [e]; exact ⟨by simp [endsSender], hp⟩
    | pollSend x =>
      simp only [Call.run] at ha
      rcases hs : p.rl.pollSend x with _ | ⟨o, d⟩ <;> rw [hs] at ha <;> cases ha
      exact ⟨by simp [endsSender], hp⟩
    | startSend x =>
      simp only [Call.run] at ha
      rcases hs : p.rl.startSend x with _ | ⟨o, d⟩ <;> rw [hs] at ha <;> cases ha
      exact ⟨by simp [endsSender], hp⟩
    | _ => cases ha; exact ⟨by simp [endsSender, Dir.dropRx], hp⟩

theorem ends_run (as : List (Act S T)) : ∀ {p p' : Pair S T} {es : List (Ev S T)} {held : Bool},
    (p.lr.tx = .ready ↔ held = true) → p.run as = .ok (p', es) →
    (p'.lr.sender = (p.lr.sender && !as.any endsSender)) ∧ (p'.lr.tx = .ready ↔ es.foldl permitAfter held = true) := by
  induction as with
  | nil => intro p p' es held hp h; cases h; exact ⟨by simp, hp⟩
  | cons a as ih =>
    intro p p' es held hp h
    obtain ⟨q, e, es', ha, hq, rfl⟩ := run_cons h
    obtain ⟨h1, h2⟩ := ends_step ha hp
    obtain ⟨h3, h4⟩ := ih h2 hq
    refine ⟨?_, h4⟩
    rw [h3, h1]
    simp [Bool.and_assoc]

/-- C60, end: a receiver is told that the channel ended exactly if the other end closed or dropped its sender, holds no permit
any more, and everything sent was received. -/
theorem C60_end {n m : Nat} {p p' : Pair S T} {as : List (Act S T)} {es : List (Ev S T)}
    (h0 : channel S T n m = .ok p) (h : p.run as = .ok (p', es)) (hk : ∀ a ∈ as, keepsRx a = true) :
    (p'.lr.pollRecv.1 = .ended ↔
      as.any endsSender = true ∧ holdsPermit es = false ∧ es.filterMap arrived = es.filterMap accepted) ∧
    (p'.lr.tryRecv.1 = .ended ↔ p'.lr.pollRecv.1 = .ended) := by
  obtain ⟨hi, hc, -, -, -, -, htx, hs, hrx⟩ := new_inv h0
  obtain ⟨e1, e2⟩ := ends_run as (held := false) (by rw [htx]; simp) h
  rw [hs, Bool.true_and] at e1
  have hr := run_inv as hi h
  simp only [List.nil_append] at hr
  have hq := hr.exact (((run_frame as h).2 hk).trans hrx)
  rcases recv_cases p'.lr p'.lr.pollRecv.1 p'.lr.pollRecv.2 (.inl rfl) with ⟨x, q, hx, ho, -⟩ | ⟨hx, -, -, he⟩ <;>
  rcases recv_cases p'.lr p'.lr.tryRecv.1 p'.lr.tryRecv.2 (.inr rfl) with ⟨y, r, hy, ho', -⟩ | ⟨hy, -, -, he'⟩
  · rw [ho, ho']
    refine ⟨⟨fun h => (by cases h), ?_⟩, ⟨fun h => (by cases h), fun h => (by cases h)⟩⟩
    rintro ⟨-, -, h3⟩
    rw [h3, hx] at hq
    exact absurd (congrArg List.length hq) (by simp)
  · rw [hx] at hy; cases hy
  · rw [hx] at hy; cases hy
  · refine ⟨he.trans ?_, he'.trans he.symm⟩
    rw [hx, List.append_nil] at hq
    unfold Dir.live holdsPermit
    rw [e1]
    have e3 : decide (p'.lr.tx = .ready) = es.foldl permitAfter false := by
      rw [Bool.eq_iff_iff, decide_eq_true_iff]; exact e2
    rw [e3]
    cases as.any endsSender <;> cases es.foldl permitAfter false <;> simp [hq]

/-- C60, closing: once an end closed (or dropped) its sender, nothing more is accepted from its `try_send`, and its `poll_ready`
fails unless it still holds a permit. -/
theorem C60_closed {n m : Nat} {p p' : Pair S T} {as : List (Act S T)} {es : List (Ev S T)} (a : S)
    (h0 : channel S T n m = .ok p) (h : p.run as = .ok (p', es)) (hend : as.any endsSender = true) :
    p'.lr.trySend a = (.closed, p'.lr) ∧ (holdsPermit es = false → p'.lr.pollReady.1 = .closed) := by
  obtain ⟨hi, hc, -, -, -, -, htx, hs, hrx⟩ := new_inv h0
  obtain ⟨e1, e2⟩ := ends_run as (held := false) (by rw [htx]; simp) h
  rw [hs, Bool.true_and, hend] at e1
  have hr := run_inv as hi h
  refine ⟨by unfold Dir.trySend; rw [e1]; simp, fun hp => ?_⟩
  rcases hr.sndr e1 with h4 | h4
  · unfold Dir.pollReady; rw [h4]
  · have := e2.1 h4
    unfold holdsPermit at hp
    rw [hp] at this; cases this

/-- C60: no call panics except `start_send` without a preceding successful `poll_ready` (and creating a channel
without room). -/
theorem C60_no_panic {p : Pair S T} {as : List (Act S T)}
    (hk : ∀ a ∈ as, (∀ x, a ≠ .left (.startSend x)) ∧ (∀ x, a ≠ .right (.startSend x))) : p.run as ≠ .panic := by
  induction as generalizing p with
  | nil => intro h; cases h
  | cons a as ih =>
    have hsend : ∀ {X : Type} (d : Dir X) (x : X), ∃ y, d.pollSend x = .ok y := by
      intro X d x
      unfold Dir.pollSend
      rcases hp : d.pollReady with ⟨o, d1⟩
      cases o with
      | ok =>
        simp only
        unfold Dir.pollReady at hp
        unfold Dir.startSend
        cases htx : d.tx with
        | ready => rw [htx] at hp; cases hp; rw [htx]; exact ⟨_, rfl⟩
        | closed => rw [htx] at hp; cases hp
        | idle =>
          rw [htx] at hp
          simp only at hp
          split at hp
          · split at hp
            · cases hp; exact ⟨_, rfl⟩
            · cases hp
          · cases hp
        | acquiring g =>
          rw [htx] at hp
          simp only at hp
          split at hp
          · split at hp
            · cases hp; exact ⟨_, rfl⟩
            · cases hp
          · cases hp
      | _ => exact ⟨_, rfl⟩
    have hact : ∃ q e, p.act a = .ok (q, e) := by
      have hka := hk a List.mem_cons_self
      cases a with
      | left c =>
        unfold Pair.act
        cases c with
        | pollSend x =>
          obtain ⟨y, hy⟩ := hsend p.lr x
          simp only [Call.run, hy]; exact ⟨_, _, rfl⟩
        | startSend x => exact absurd rfl (hka.1 x)
        | _ => exact ⟨_, _, rfl⟩
      | right c =>
        unfold Pair.act
        cases c with
        | pollSend x =>
          obtain ⟨y, hy⟩ := hsend p.rl x
          simp only [Call.run, hy]; exact ⟨_, _, rfl⟩
        | startSend x => exact absurd rfl (hka.2 x)
        | _ => exact ⟨_, _, rfl⟩
    obtain ⟨q, e, ha⟩ := hact
    unfold Pair.run
    rw [ha]
    simp only [R.bind_ok]
    cases hq : q.run as with
    | panic => exact absurd hq (ih fun b hb => hk b (List.mem_cons_of_mem _ hb))
    | ok y => intro h; cases h

/-- A permit outlives a close: the channel ends only after it was used. -/
example :
    ((channel Nat Bool 2 1 >>= fun p => p.run
      [.left .pollReady, .left .close, .left (.trySend 1), .right .pollRecv, .left (.startSend 2), .right .pollRecv,
       .right .pollRecv]) >>= fun r => .ok r.2) =
    .ok [.left .pollReady .ok .ok, .left .close .ok .ok, .left (.trySend 1) .closed .ok, .right .pollRecv .ok .pending,
      .left (.startSend 2) .ok .ok, .right .pollRecv .ok (.item 2), .right .pollRecv .ok .ended] := by
  decide

/-- A history meeting the hypotheses: traffic in both directions, a full channel, a send that waits and gets the
place that becomes free, the left end dropped, the rest drained. -/
example :
    ((channel Nat Bool 2 1 >>= fun p => p.run
      [.left (.trySend 1), .left (.trySend 2), .left (.trySend 3), .left (.pollSend 4), .right (.trySend true),
       .right .pollRecv, .left (.trySend 5), .left (.pollSend 4), .left .tryRecv, .left .drop,
       .right .pollRecv, .right .tryRecv, .right .pollRecv]) >>= fun r => .ok r.2) =
    .ok [.left (.trySend 1) .ok .ok, .left (.trySend 2) .ok .ok, .left (.trySend 3) .full .ok,
      .left (.pollSend 4) .pending .ok, .right (.trySend true) .ok .ok, .right .pollRecv .ok (.item 1),
      .left (.trySend 5) .full .ok, .left (.pollSend 4) .ok .ok, .left .tryRecv .ok (.item true), .left .drop .ok .ok,
      .right .pollRecv .ok (.item 2), .right .tryRecv .ok (.item 4), .right .pollRecv .ok .ended] := by
  decide

end
end MsgRs.Props
