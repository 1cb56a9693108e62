import Verif.Proofs.ReqChans
import Verif.Proofs.Backoff
import Verif.Proofs.Handshake
/-!
# The request driver never panics; timeouts are prompt
-/
namespace MsgRs.Req
open MsgRs
variable {D : Decompressors}

/-- The backoff of a live driver. -/
def BackInv (s : State) : Prop :=
  s.ended = false → (∀ b, s.conn = .inactive b → b.Ok 20000000 16) ∧ (s.connTask = true → ∃ b, s.conn = .inactive b)

theorem backoff0_ok : backoff0.Ok 20000000 16 := Backoff.new_ok _ _

theorem backoff_count {b : Backoff} (h : b.Ok 20000000 16) : 20000000 * 2 ^ (b.count + 1) ≤ Duration.max := by
  have : b.count < 16 := by rcases h.more with h | h <;> omega
  have h2 : 2 ^ (b.count + 1) ≤ 2 ^ 16 := Nat.pow_le_pow_right (by omega) (by omega)
  have : Duration.max = 18446744073709551615999999999 := by decide
  omega

theorem BackInv.step {s t : State} (hs : Step D s t) (h : BackInv s) : BackInv t := by
  cases hs with
  | now | misc | request | drop | tick | requestLate => exact h
  | send c k m ms he hc hg =>
    intro _
    refine ⟨by simp, fun ht => ?_⟩
    obtain ⟨b, hb⟩ := (h he).2 ht
    rw [hc] at hb; cases hb
  | write c wr he hc ht hw =>
    intro _
    refine ⟨by simp, fun ht => ?_⟩
    obtain ⟨b, hb⟩ := (h he).2 ht
    rw [hc] at hb; cases hb
  | command k payload q he hq => exact h
  | taskGone he => intro _; exact ⟨(h he).1, by simp⟩
  | connect task via input he hct hr => intro _; exact ⟨by simp, by simp⟩
  | backoff b b' he hc hp =>
    intro _
    obtain ⟨o', b'', h1, h2⟩ := Backoff.poll_ok (now := s.now) ((h he).1 b hc) (backoff_count ((h he).1 b hc))
    rw [hp] at h1
    cases h1
    exact ⟨by intro b hb; cases hb; exact h2 (by simp), fun _ => ⟨_, rfl⟩⟩
  | taskStart b b' d ts he hc hp hts =>
    intro _
    obtain ⟨o', b'', h1, h2⟩ := Backoff.poll_ok (now := s.now) ((h he).1 b hc) (backoff_count ((h he).1 b hc))
    rw [hp] at h1
    cases h1
    exact ⟨by intro b hb; cases hb; exact h2 (by simp), fun _ => ⟨_, rfl⟩⟩
  | giveUp | readEnd | close => intro he; simp [State.terminate] at he
  | readItem c m rd input he hc hp =>
    intro _
    have h1 : ∀ u : State, u.connTask = s.connTask → ∀ b, (u.onMessage D m).conn = .inactive b → u.conn = .inactive b := by
      intro u _ b; unfold State.onMessage; split <;> try exact id
      simp only; split <;> exact id
    have h2 : ∀ u : State, (u.onMessage D m).connTask = u.connTask := by
      intro u; unfold State.onMessage; split <;> try rfl
      simp only; split <;> rfl
    refine ⟨fun b hb => ?_, fun ht => ?_⟩
    · have := h1 _ (by rfl) b hb; cases this
    · rw [h2] at ht
      obtain ⟨b, hb⟩ := (h he).2 ht
      rw [hc] at hb; cases hb
  | readIdle c rd input he hc hp =>
    intro _
    refine ⟨by simp, fun ht => ?_⟩
    obtain ⟨b, hb⟩ := (h he).2 ht
    rw [hc] at hb; cases hb
  | readErr c x rd input he hc hp =>
    intro _
    exact ⟨by intro b hb; cases hb; exact backoff0_ok, fun _ => ⟨_, rfl⟩⟩

/-- The timer of the timeout check is never far behind. -/
structure Timely (s : State) : Prop where
  pos : 0 < s.checkIv.period
  period : s.checkIv.period = s.opts.timeout / 10
  next : s.checkIv.next ≤ s.now + s.checkIv.period
  young : ∀ p ∈ s.pending, s.checkIv.next ≤ p.start + s.opts.timeout + s.checkIv.period

theorem Timely.frame {s t : State} (h : Timely s) (h1 : t.checkIv = s.checkIv) (h2 : t.opts = s.opts)
    (h3 : s.now ≤ t.now) (h4 : ∀ p ∈ t.pending, p ∈ s.pending) : Timely t := by
  constructor
  · rw [h1]; exact h.pos
  · rw [h1, h2]; exact h.period
  · rw [h1]; have := h.next; omega
  · rw [h1, h2]; intro p hp; exact h.young p (h4 p hp)

theorem Timely.step {s t : State} (hs : Step D s t) (h : Timely s) : Timely t := by
  cases hs with
  | now dt => exact h.frame rfl rfl (Nat.le_add_right _ _) (fun _ => id)
  | misc | write | taskGone | connect | backoff | taskStart | readIdle | readErr | send | drop | request | requestLate =>
    exact h.frame rfl rfl (Nat.le_refl _) (fun _ => id)
  | giveUp | readEnd | close => exact h.frame rfl rfl (Nat.le_refl _) (fun _ hp => by simp [State.terminate] at hp)
  | readItem c m rd input he hc hp =>
    unfold State.onMessage
    split
    · exact h.frame rfl rfl (Nat.le_refl _) (fun _ => id)
    · simp only
      split <;> exact h.frame rfl rfl (Nat.le_refl _) (fun _ hp => (List.mem_filter.mp hp).1)
  | tick iv he hi =>
    unfold Interval.tick at hi
    split at hi
    · rename_i hn
      cases hi
      refine ⟨h.pos, h.period, ?_, ?_⟩
      · simp only [State.checkTimeouts]; omega
      · intro p hp
        simp only [State.checkTimeouts, List.mem_filter, Bool.not_eq_true', decide_eq_false_iff_not] at hp ⊢
        omega
    · cases hi
  | command k payload q he hq =>
    refine ⟨h.pos, h.period, h.next, ?_⟩
    intro p hp
    simp only [State.onCommand, List.mem_append, List.mem_singleton] at hp
    rcases hp with hp | rfl
    · exact h.young p (List.mem_filter.mp hp).1
    · have := h.next; simp only [State.onCommand]; omega

/-- Everything at once. -/
structure Inv (D : Decompressors) (s : State) : Prop where
  calls : Calls s
  chans : Chans D s
  back : BackInv s
  timely : Timely s

theorem Inv.step {s t : State} (hs : Step D s t) (h : Inv D s) : Inv D t :=
  ⟨h.calls.step hs, h.chans.step hs h.calls, h.back.step hs, h.timely.step hs⟩

theorem Steps.inv {s t : State} (h : Steps D s t) (h0 : Inv D s) : Inv D t := h.induct (fun _ _ hs h => h.step hs) h0

theorem new_inv {opts : Options} {comp : Option Compressor} {now : Nat} {s : State}
    (h : State.new opts comp now = .ok s) : Inv D s := by
  refine ⟨new_calls h, new_chans h, ?_, ?_⟩
  · obtain ⟨-, f, rfl⟩ := new_fields h
    intro _
    exact ⟨by intro b hb; cases hb; exact backoff0_ok, by simp⟩
  · obtain ⟨hz, f, rfl⟩ := new_fields h
    exact ⟨hz, rfl, Nat.le_add_right _ _, by simp⟩

theorem client_never_panics (tok : Bytes) (e : HsEnv) : hsClient tok e ≠ .panicked := by
  unfold hsClient
  have hst : (Auth.encode Auth.clientCodec.init (.auth tok)).1 = .ack := rfl
  rcases hq : Auth.encode Auth.clientCodec.init (.auth tok) with ⟨st, frame⟩
  rw [hq] at hst
  simp only at hst ⊢
  split
  · simp
  · simp
  · split
    · simp
    · simp
    · split
      · rename_i h; exact absurd h (client_no_panic _ _ hst)
      · simp
      · simp
      · simp

theorem Inv.taskStep {s : State} (e : Env) : ∃ t, s.taskStep e = .ok t := by
  unfold State.taskStep
  split
  · have : ∃ r, taskResult s.opts.token e.task = .ok r := by
      unfold taskResult
      split
      · exact ⟨_, rfl⟩
      · exact ⟨_, rfl⟩
      · split
        · exact ⟨_, rfl⟩
        · rename_i hs _ _ tok _
          cases hq : hsClient tok hs with
          | panicked => exact absurd hq (client_never_panics tok hs)
          | waiting => exact ⟨_, rfl⟩
          | accepted => exact ⟨_, rfl⟩
          | failed => exact ⟨_, rfl⟩
    obtain ⟨r, hr⟩ := this
    rw [hr]
    rcases r with _ | (_ | ⟨via, input⟩) <;> exact ⟨_, rfl⟩
  · exact ⟨_, rfl⟩

theorem Inv.iter {s : State} (h : Inv D s) (he : s.ended = false) (e : Env) : ∃ t o, s.iter D e = .ok (t, o) := by
  unfold State.iter
  obtain ⟨u, hu⟩ := Inv.taskStep (s := s.flushStep e) e
  have h1 : Inv D u := ((flushStep_steps s e he).trans (taskStep_steps _ u e ((flushStep_ended s e).1.trans he) hu)).inv h
  have hue : u.ended = false := by rw [(taskStep_ended _ _ e hu).1, (flushStep_ended s e).1, he]
  rw [hu]
  simp only [R.bind_ok]
  cases hc : u.conn with
  | inactive b =>
    have hb := (h1.back hue).1 b hc
    obtain ⟨o', b', h2, -⟩ := Backoff.poll_ok (now := u.now) hb (backoff_count hb)
    simp only [h2, R.bind_ok, R.pure_eq]
    cases o' <;> exact ⟨_, _, rfl⟩
  | active c =>
    obtain ⟨o, r', as', ho, -⟩ := (h1.chans.cur hue c hc).step ReqRep.inc
    simp only [ho, R.bind_ok, R.pure_eq]
    cases o <;> exact ⟨_, _, rfl⟩

theorem run_inv (acts : List Act) {s : State} (h : Inv D s) : ∃ t, s.run D acts = .ok t ∧ Inv D t := by
  induction acts generalizing s with
  | nil => exact ⟨s, rfl, h⟩
  | cons a acts ih =>
    have : ∃ u, s.act D a = .ok u := by
      cases a with
      | iter e =>
        unfold State.act
        simp only
        split
        · exact ⟨_, rfl⟩
        · rename_i he
          obtain ⟨t, o, hi⟩ := h.iter (by simpa using he) e
          rw [hi]; exact ⟨_, rfl⟩
      | advance dt => exact ⟨_, rfl⟩
      | request p => unfold State.act; simp only; repeat' split
                     all_goals exact ⟨_, rfl⟩
      | dropSocket => exact ⟨_, rfl⟩
    obtain ⟨u, hu⟩ := this
    obtain ⟨t, ht, hit⟩ := ih ((act_steps s u a hu).inv h)
    exact ⟨t, by unfold State.run; rw [hu]; exact ht, hit⟩

/-! ## Timeouts -/

theorem tickLoop_next (n : Nat) (s : State) (hp : 0 < s.checkIv.period) (hn : s.now < s.checkIv.next + n) :
    s.now < (s.tickLoop n).checkIv.next := by
  induction n generalizing s with
  | zero => exact hn
  | succ n ih =>
    unfold State.tickLoop
    by_cases hle : s.checkIv.next ≤ s.now
    · have : s.checkIv.tick s.now = (true, { s.checkIv with next := s.checkIv.next + s.checkIv.period }) := by
        simp [Interval.tick, hle]
      rw [this]
      exact ih ({ s with checkIv := { s.checkIv with next := s.checkIv.next + s.checkIv.period } } : State).checkTimeouts hp
        (by simp only [State.checkTimeouts]; omega)
    · have : s.checkIv.tick s.now = (false, s.checkIv) := by simp [Interval.tick, hle]
      rw [this]
      simp only
      omega

theorem lateStep_pending {s t : State} {e : Env} {c : Chan} (hp : 0 < s.checkIv.period)
    (h : s.lateStep e c = (t, .pending)) : t.queue = [] ∧ t.now < t.checkIv.next := by
  unfold State.lateStep at h
  simp only at h
  have h1 := tickLoop_next (s.now + 1) { s with conn := .active c } hp (by simp only; omega)
  have hnow : ({ s with conn := .active c }.tickLoop (s.now + 1)).now = s.now := by
    have : ∀ n (u : State), (u.tickLoop n).now = u.now := by
      intro n
      induction n with
      | zero => intro u; rfl
      | succ n ih =>
        intro u
        unfold State.tickLoop
        split
        · rw [ih]; rfl
        · rfl
    rw [this]
  generalize { s with conn := .active c }.tickLoop (s.now + 1) = u at *
  simp only at h1
  cases hq : u.queue with
  | cons x q => simp only [hq] at h; cases h
  | nil =>
    simp only [hq] at h
    split at h
    · rcases hw : c.wr.flush e.closeAns with ⟨o, wr⟩
      rw [hw] at h
      cases o with
      | pending => cases h; exact ⟨rfl, by simp only; omega⟩
      | ok => cases h
      | err => cases h
    · cases h; exact ⟨hq, (by omega)⟩

theorem iter_pending {s t : State} {e : Env} (hi : Inv D s) (he : s.ended = false) (h : s.iter D e = .ok (t, .pending))
    {c : Chan} (hc : t.conn = .active c) : t.queue = [] ∧ t.now < t.checkIv.next := by
  unfold State.iter at h
  obtain ⟨u, hu⟩ := Inv.taskStep (s := s.flushStep e) e
  have h1 : Inv D u := ((flushStep_steps s e he).trans (taskStep_steps _ u e ((flushStep_ended s e).1.trans he) hu)).inv hi
  rw [hu] at h
  simp only [R.bind_ok, R.pure_eq] at h
  cases hcn : u.conn with
  | inactive b =>
    simp only [hcn] at h
    cases hb : b.poll u.now with
    | panic => rw [hb] at h; cases h
    | ok r =>
      obtain ⟨x, b'⟩ := r
      rw [hb] at h
      simp only [R.bind_ok] at h
      cases x with
      | pending => cases h; cases hc
      | item d => cases h; rw [State.retry_eq] at hc; cases hc
      | ended => cases h
  | active c =>
    simp only [hcn] at h
    cases hp : c.rd.pollNext ReqRep.codec c.input with
    | panic => rw [hp] at h; cases h
    | ok r =>
      obtain ⟨x, rd, input⟩ := r
      rw [hp] at h
      simp only [R.bind_ok] at h
      cases x with
      | item m => cases h
      | err x => cases h
      | ended => cases h
      | pending =>
        simp only [R.ok.injEq] at h
        unfold State.writeStep at h
        simp only at h
        split at h
        · exact lateStep_pending h1.timely.pos h
        · exact lateStep_pending h1.timely.pos h
        · cases h

end MsgRs.Req
