import Verif.Model.ReqSocket
import Verif.Props.Req
/-!
# The front-end of the request socket
-/
namespace MsgRs.Req
open MsgRs MsgRs.Props
variable {D : Decompressors}

/-- What iterations of the driver leave alone. -/
def Keep (s t : State) : Prop :=
  t.calls = s.calls ∧ t.now = s.now ∧ t.closed = s.closed ∧ t.queue.length ≤ s.queue.length

theorem Keep.trans {s t u : State} (h : Keep s t) (h' : Keep t u) : Keep s u :=
  ⟨h'.1.trans h.1, h'.2.1.trans h.2.1, h'.2.2.1.trans h.2.2.1, Nat.le_trans h'.2.2.2 h.2.2.2⟩

theorem Keep.of {s t : State} (h1 : t.calls = s.calls) (h2 : t.now = s.now) (h3 : t.closed = s.closed)
    (h4 : t.queue = s.queue) : Keep s t := ⟨h1, h2, h3, by rw [h4]; exact Nat.le_refl _⟩

theorem Keep.terminate (s : State) : Keep s s.terminate := ⟨rfl, rfl, rfl, Nat.zero_le _⟩

theorem wantFlush_keep {s t : State} {b : Bool} (h : s.wantFlush = (b, t)) : Keep s t := by
  unfold State.wantFlush at h
  split at h
  · split at h
    · cases h; exact .of rfl rfl rfl rfl
    · cases h; exact .of rfl rfl rfl rfl
  · cases h; exact .of rfl rfl rfl rfl

theorem flushStep_keep (s : State) (e : Env) : Keep s (s.flushStep e) := by
  unfold State.flushStep
  rcases hw : s.wantFlush with ⟨b, t⟩
  have hk := wantFlush_keep hw
  cases b with
  | false => exact hk
  | true =>
    simp only
    split
    · split <;> exact hk.trans (.of rfl rfl rfl rfl)
    · exact hk

theorem taskStep_keep {s t : State} {e : Env} (h : s.taskStep e = .ok t) : Keep s t := by
  unfold State.taskStep at h
  split at h
  · cases hr : taskResult s.opts.token e.task with
    | panic => rw [hr] at h; cases h
    | ok r =>
      rw [hr] at h
      simp only [R.bind_ok, R.pure_eq] at h
      rcases r with _ | (_ | ⟨via, input⟩) <;> cases h <;> exact .of rfl rfl rfl rfl
  · cases h; exact .of rfl rfl rfl rfl

theorem tickLoop_keep (n : Nat) (s : State) : Keep s (s.tickLoop n) := by
  induction n generalizing s with
  | zero => exact .of rfl rfl rfl rfl
  | succ n ih =>
    unfold State.tickLoop
    split
    · exact Keep.trans (.of rfl rfl rfl rfl) (ih _)
    · exact .of rfl rfl rfl rfl

theorem lateStep_keep (s : State) (e : Env) (c : Chan) : Keep s (s.lateStep e c).1 := by
  unfold State.lateStep
  have hk : Keep s ({ s with conn := .active c }.tickLoop (s.now + 1)) := Keep.trans (.of rfl rfl rfl rfl) (tickLoop_keep _ _)
  simp only
  generalize { s with conn := .active c }.tickLoop (s.now + 1) = t at *
  rcases hq : t.queue with _ | ⟨⟨k, payload⟩, q⟩
  rotate_left
  · refine hk.trans ⟨rfl, rfl, rfl, ?_⟩
    rw [hq]
    simp [State.onCommand]
  · simp only
    split
    · split
      · exact hk.trans (.of rfl rfl rfl hq.symm)
      · exact hk.trans ⟨rfl, rfl, rfl, Nat.zero_le _⟩
    · exact hk.trans (.of rfl rfl rfl (by simp [hq]))

theorem writeStep_keep (s : State) (e : Env) (c : Chan) : Keep s (s.writeStep e c).1 := by
  unfold State.writeStep
  split
  · exact lateStep_keep _ _ _
  · exact lateStep_keep _ _ _
  · exact .of rfl rfl rfl rfl

theorem onMessage_keep (s : State) (m : ReqRep.Message) : Keep s (State.onMessage D s m) := by
  unfold State.onMessage
  split
  · exact .of rfl rfl rfl rfl
  · simp only; split <;> exact .of rfl rfl rfl rfl

theorem iter_keep {s t : State} {e : Env} {o : Out} (h : s.iter D e = .ok (t, o)) : Keep s t := by
  obtain ⟨u, hu, hr⟩ := iter_rest h
  refine (flushStep_keep s e).trans ((taskStep_keep hu).trans ?_)
  unfold State.rest at hr
  cases hc : u.conn with
  | inactive b =>
    simp only [hc] at hr
    cases hb : b.poll u.now with
    | panic => rw [hb] at hr; cases hr
    | ok r =>
      obtain ⟨x, b'⟩ := r
      rw [hb] at hr
      simp only [R.bind_ok, R.pure_eq, State.retry_eq] at hr
      cases x <;> cases hr
      · exact .of rfl rfl rfl rfl
      · exact .of rfl rfl rfl rfl
      · exact Keep.trans (.of rfl rfl rfl rfl) (Keep.terminate _)
  | active c =>
    simp only [hc] at hr
    cases hp : c.rd.pollNext ReqRep.codec c.input with
    | panic => rw [hp] at hr; cases hr
    | ok r =>
      obtain ⟨x, rd, input⟩ := r
      rw [hp] at hr
      simp only [R.bind_ok, R.pure_eq] at hr
      cases x with
      | item m => cases hr; exact Keep.trans (.of rfl rfl rfl rfl) (onMessage_keep _ _)
      | err x => cases hr; exact .of rfl rfl rfl rfl
      | ended => cases hr; exact Keep.trans (.of rfl rfl rfl rfl) (Keep.terminate _)
      | pending =>
        simp only [R.ok.injEq] at hr
        have := writeStep_keep u e { c with rd, input, polls := c.polls + 1 }
        rw [hr] at this
        exact this

theorem run_append (s : State) (as bs : List Act) : s.run D (as ++ bs) = (s.run D as).bind fun t => t.run D bs := by
  induction as generalizing s with
  | nil => rfl
  | cons a as ih =>
    simp only [List.cons_append, State.run]
    cases h : s.act D a with
    | panic => rfl
    | ok t => simp only [R.bind_ok]; exact ih t

theorem reach_act {opts comp} {s t : State} (h : ReqReach D opts comp s) {a : Act} (ha : s.act D a = .ok t) :
    ReqReach D opts comp t := by
  obtain ⟨now, s0, acts, h0, hr⟩ := h
  refine ⟨now, s0, acts ++ [a], h0, ?_⟩
  rw [run_append, hr]
  simp only [R.bind, State.run, ha]
  rfl

theorem iter_pending_alive {s t : State} {e : Env} (he : s.ended = false) (h : s.iter D e = .ok (t, .pending)) : t.ended = false := by
  obtain ⟨u, hu, hr⟩ := iter_rest h
  have hue : u.ended = false := by rw [(taskStep_ended _ _ e hu).1, (flushStep_ended s e).1, he]
  unfold State.rest at hr
  cases hcu : u.conn with
  | inactive b =>
    simp only [hcu] at hr
    cases hb : b.poll u.now with
    | panic => rw [hb] at hr; cases hr
    | ok r =>
      obtain ⟨x, b'⟩ := r
      rw [hb] at hr
      simp only [R.bind_ok, R.pure_eq, State.retry_eq] at hr
      cases x <;> cases hr <;> exact hue
  | active c1 =>
    simp only [hcu] at hr
    cases hp : c1.rd.pollNext ReqRep.codec c1.input with
    | panic => rw [hp] at hr; cases hr
    | ok r =>
      obtain ⟨x, rd, input⟩ := r
      rw [hp] at hr
      simp only [R.bind_ok, R.pure_eq] at hr
      cases x with
      | item m => cases hr
      | err x => cases hr
      | ended => cases hr
      | pending =>
        simp only [R.ok.injEq] at hr
        have late : ∀ (v : State) (c : Chan), v.ended = false → v.lateStep e c = (t, .pending) → t.ended = false := by
          intro v c hv hl
          unfold State.lateStep at hl
          obtain ⟨-, k, -⟩ := tickLoop_steps (D := D) (v.now + 1) { v with conn := .active c } hv
          simp only at hl
          generalize { v with conn := .active c }.tickLoop (v.now + 1) = w at *
          cases hq : w.queue with
          | cons x q => simp only [hq] at hl; cases hl
          | nil =>
            simp only [hq] at hl
            split at hl
            · rcases hw : c.wr.flush e.closeAns with ⟨o, wr⟩
              rw [hw] at hl
              cases o <;> cases hl
              exact k
            · cases hl; exact k
        unfold State.writeStep at hr
        simp only at hr
        split at hr
        · exact late _ _ hue hr
        · exact late _ _ hue hr
        · cases hr

/-- The connection between the calls of the front-end and those of the driver. -/
structure FrontInv (D : Decompressors) (s : Socket) : Prop where
  reach : ∀ d, s.drv = some d → ReqReach D s.opts s.comp d ∧ d.now = s.now ∧ d.closed = s.dropped ∧ d.queue.length ≤ chanCap
  idle : s.drv = none → ∀ c ∈ s.callers, c.stage = .refused
  entered : ∀ (i : Nat) (c : Caller) (k : Nat), s.callers[i]? = some c → c.stage = .entered k → ∃ d call, s.drv = some d ∧ d.calls[k]? = some call ∧
    call.payload = c.payload ∧ c.time ≤ call.time
  inj : ∀ (i j : Nat) (c c' : Caller) (k : Nat), s.callers[i]? = some c → s.callers[j]? = some c' → c.stage = .entered k → c'.stage = .entered k → i = j
  surj : ∀ (d : State) (k : Nat), s.drv = some d → k < d.calls.length → ∃ (i : Nat) (c : Caller), s.callers[i]? = some c ∧ c.stage = .entered k
  time : ∀ c ∈ s.callers, c.time ≤ s.now
  transport : s.drv ≠ none → s.transport = false

theorem FrontInv.new (opts : Options) (comp : Option Compressor) (now : Nat) : FrontInv D (Socket.new opts comp now) := by
  constructor <;> simp [Socket.new]

/-- Actions of the driver that are no calls. -/
theorem FrontInv.onDriver {s t : Socket} (h : FrontInv D s) {a : Act} (ha : ∀ p, a ≠ .request p) (dt : Nat) (dr : Bool)
    (h0 : ∀ d d', s.drv = some d → d.act D a = .ok d' → d'.now = s.now + dt ∧ d'.closed = dr)
    (hs : s.onDriver D a = .ok t) : FrontInv D { t with now := t.now + dt, dropped := dr } ∧ t.now = s.now := by
  unfold Socket.onDriver at hs
  cases hd : s.drv with
  | none =>
    rw [hd] at hs
    cases hs
    refine ⟨⟨?_, h.idle, h.entered, h.inj, h.surj, ?_, h.transport⟩, rfl⟩
    · intro d hx; rw [hd] at hx; cases hx
    · intro c hc; exact Nat.le_trans (h.time c hc) (Nat.le_add_right _ _)
  | some d =>
    rw [hd] at hs
    simp only at hs
    cases hd' : d.act D a with
    | panic => rw [hd'] at hs; cases hs
    | ok d' =>
      rw [hd'] at hs
      simp only [R.bind_ok, R.pure_eq] at hs
      cases hs
      obtain ⟨hr, hn, hcl, hq⟩ := h.reach d hd
      have hk : d'.calls = d.calls ∧ d'.queue.length ≤ d.queue.length := by
        cases a with
        | request p => exact absurd rfl (ha p)
        | advance dt => cases hd'; exact ⟨rfl, Nat.le_refl _⟩
        | dropSocket => cases hd'; exact ⟨rfl, Nat.le_refl _⟩
        | iter e =>
          simp only [State.act] at hd'
          split at hd'
          · cases hd'; exact ⟨rfl, Nat.le_refl _⟩
          · cases hi : d.iter D e with
            | panic => rw [hi] at hd'; cases hd'
            | ok r =>
              obtain ⟨x, o⟩ := r
              rw [hi] at hd'
              cases hd'
              have := iter_keep hi
              exact ⟨this.1, this.2.2.2⟩
      refine ⟨⟨?_, ?_, ?_, h.inj, ?_, ?_, ?_⟩, rfl⟩
      · intro x hx
        cases hx
        obtain ⟨k1, k2⟩ := h0 d d' hd hd'
        exact ⟨reach_act hr hd', k1, k2, Nat.le_trans hk.2 hq⟩
      · intro hx; cases hx
      · intro i c k hi hc
        obtain ⟨x, call, k1, k2, k3⟩ := h.entered i c k hi hc
        rw [hd] at k1
        cases k1
        exact ⟨d', call, rfl, by rw [hk.1]; exact k2, k3⟩
      · intro x k hx hlt
        cases hx
        rw [hk.1] at hlt
        exact h.surj d k hd hlt
      · intro c hc; exact Nat.le_trans (h.time c hc) (Nat.le_add_right _ _)
      · intro _; exact h.transport (by rw [hd]; simp)

/-- A caller's cancellation flag and, in the wake of the driver's end, its refusal. -/
theorem FrontInv.setCaller {s : Socket} (h : FrontInv D s) {i : Nat} {c c' : Caller} (hi : s.callers[i]? = some c)
    (hp : c'.payload = c.payload) (ht : c'.time = c.time) (hs : c'.stage = c.stage ∨ c.stage = .waiting ∧ c'.stage = .refused)
    : FrontInv D { s with callers := s.callers.set i c' } := by
  have hlt : i < s.callers.length := (List.getElem?_eq_some_iff.1 hi).1
  have get : ∀ (j : Nat) (x : Caller), (s.callers.set i c')[j]? = some x → ∀ k, x.stage = .entered k → ∃ y : Caller, s.callers[j]? = some y ∧
      y.stage = .entered k ∧ y.payload = x.payload ∧ y.time = x.time := by
    intro j x hj k hk
    rw [List.getElem?_set] at hj
    split at hj
    · rename_i hij
      subst hij
      cases hj
      rcases hs with hs | ⟨-, hs⟩
      · exact ⟨c, hi, by rw [← hs]; exact hk, hp.symm, ht.symm⟩
      · rw [hs] at hk; cases hk
    · exact ⟨x, hj, hk, rfl, rfl⟩
  refine ⟨h.reach, ?_, ?_, ?_, ?_, ?_, h.transport⟩
  · intro hd x hx
    rcases List.mem_or_eq_of_mem_set hx with hx | rfl
    · exact h.idle hd x hx
    · have := h.idle hd c (List.mem_of_getElem? hi)
      rcases hs with hs | ⟨-, hs⟩
      · rw [hs]; exact this
      · exact hs
  · intro j x k hj hk
    obtain ⟨y, h1, h2, h3, h4⟩ := get j x hj k hk
    obtain ⟨d, call, k1, k2, k3, k4⟩ := h.entered j y k h1 h2
    exact ⟨d, call, k1, k2, k3.trans h3, by rw [← h4]; exact k4⟩
  · intro j j' x x' k h1 h2 h3 h4
    obtain ⟨y, a1, a2, -⟩ := get j x h1 k h3
    obtain ⟨y', b1, b2, -⟩ := get j' x' h2 k h4
    exact h.inj j j' y y' k a1 b1 a2 b2
  · intro d k hd hk
    obtain ⟨j, y, h1, h2⟩ := h.surj d k hd hk
    by_cases hij : i = j
    · subst hij
      rw [hi] at h1
      cases h1
      refine ⟨i, c', ?_, ?_⟩
      · simp only [List.getElem?_set, if_pos hlt, if_true]
      · rcases hs with hs | ⟨hs, -⟩
        · rw [hs]; exact h2
        · rw [hs] at h2; cases h2
    · exact ⟨j, y, by simp only [List.getElem?_set, if_neg hij]; exact h1, h2⟩
  · intro x hx
    rcases List.mem_or_eq_of_mem_set hx with hx | rfl
    · exact h.time x hx
    · rw [ht]; exact h.time c (List.mem_of_getElem? hi)

theorem FrontInv.pollCall {s t : Socket} (h : FrontInv D s) {i : Nat} (hs : s.pollCall D i = .ok t) : FrontInv D t := by
  unfold Socket.pollCall at hs
  split at hs
  · rename_i c d hi hd
    split at hs
    · rename_i hc
      split at hs
      · cases hs
        exact h.setCaller hi rfl rfl (.inr ⟨hc.1, rfl⟩)
      · rename_i hend
        split at hs
        · rename_i hq
          have hend : d.ended = false := by simpa using hend
          obtain ⟨hr, hn, hcl, -⟩ := h.reach d hd
          have hcl : d.closed = false := by rw [hcl]; exact hc.2.2
          have ha : d.act D (.request c.payload) = .ok { d with
              calls := d.calls ++ [{ payload := c.payload, time := d.now }]
              queue := d.queue ++ [(d.calls.length, c.payload)] } := by
            simp only [State.act, hcl, hend]
            rfl
          rw [ha] at hs
          simp only [R.bind_ok, R.pure_eq] at hs
          cases hs
          have hlt : i < s.callers.length := (List.getElem?_eq_some_iff.1 hi).1
          have hle : ∀ (j : Nat) (x : Caller) (k : Nat), s.callers[j]? = some x → x.stage = .entered k → k < d.calls.length := by
            intro j x k hj hk
            obtain ⟨d', call, k1, k2, -⟩ := h.entered j x k hj hk
            rw [hd] at k1
            cases k1
            exact (List.getElem?_eq_some_iff.1 k2).1
          have get : ∀ (j : Nat) (x : Caller), (s.callers.set i { c with stage := .entered d.calls.length })[j]? = some x →
              (j = i ∧ x = { c with stage := .entered d.calls.length }) ∨ (j ≠ i ∧ s.callers[j]? = some x) := by
            intro j x hj
            rw [List.getElem?_set] at hj
            split at hj
            · rename_i hij
              cases hj
              exact .inl ⟨hij.symm, rfl⟩
            · rename_i hij
              exact .inr ⟨fun h => hij h.symm, hj⟩
          refine ⟨?_, ?_, ?_, ?_, ?_, ?_, ?_⟩
          · intro x hx
            cases hx
            refine ⟨reach_act hr ha, hn, (h.reach d hd).2.2.1, ?_⟩
            simp only [List.length_append, List.length_cons, List.length_nil]
            omega
          · intro hx; cases hx
          · intro j x k hj hk
            rcases get j x hj with ⟨rfl, rfl⟩ | ⟨hne, hj⟩
            · cases hk
              refine ⟨_, { payload := c.payload, time := d.now }, rfl, by simp, rfl, ?_⟩
              rw [hn]
              exact h.time c (List.mem_of_getElem? hi)
            · obtain ⟨d', call, k1, k2, k3⟩ := h.entered j x k hj hk
              rw [hd] at k1
              cases k1
              refine ⟨_, call, rfl, ?_, k3⟩
              simp only
              rw [List.getElem?_append_left (List.getElem?_eq_some_iff.1 k2).1]
              exact k2
          · intro j j' x x' k h1 h2 h3 h4
            rcases get j x h1 with ⟨e1, rfl⟩ | ⟨hne, g1⟩ <;> rcases get j' x' h2 with ⟨e2, rfl⟩ | ⟨hne', g2⟩
            · rw [e1, e2]
            · cases h3
              have := hle _ _ _ g2 h4
              omega
            · cases h4
              have := hle _ _ _ g1 h3
              omega
            · exact h.inj j j' x x' k g1 g2 h3 h4
          · intro x k hx hk
            cases hx
            simp only [List.length_append, List.length_cons, List.length_nil] at hk
            by_cases hkk : k = d.calls.length
            · subst hkk
              exact ⟨i, { c with stage := .entered d.calls.length }, by simp [List.getElem?_set, hlt], rfl⟩
            · obtain ⟨j, y, h1, h2⟩ := h.surj d k hd (by omega)
              refine ⟨j, y, ?_, h2⟩
              rw [List.getElem?_set, if_neg]
              · exact h1
              · intro hij
                subst hij
                rw [hi] at h1
                cases h1
                rw [hc.1] at h2
                cases h2
          · intro x hx
            rcases List.mem_or_eq_of_mem_set hx with hx | rfl
            · exact h.time x hx
            · exact h.time c (List.mem_of_getElem? hi)
          · intro _; exact h.transport (by rw [hd]; simp)
        · cases hs; exact h
    · cases hs; exact h
  · cases hs; exact h

theorem FrontInv.request {s : Socket} (h : FrontInv D s) (payload : Bytes) : FrontInv D (s.request payload) := by
  have app : ∀ x : Caller, (∀ k, x.stage ≠ .entered k) → x.time = s.now → (s.drv = none → x.stage = .refused) →
      FrontInv D { s with callers := s.callers ++ [x] } := by
    intro x hx ht hn
    have get : ∀ (j : Nat) (y : Caller), (s.callers ++ [x])[j]? = some y → ∀ k, y.stage = .entered k → s.callers[j]? = some y := by
      intro j y hj k hk
      rw [List.getElem?_append] at hj
      split at hj
      · exact hj
      · have := List.mem_of_getElem? hj
        simp only [List.mem_singleton] at this
        subst this
        exact absurd hk (hx k)
    refine ⟨h.reach, ?_, ?_, ?_, ?_, ?_, h.transport⟩
    · intro hd y hy
      rcases List.mem_append.1 hy with hy | hy
      · exact h.idle hd y hy
      · rw [List.mem_singleton] at hy; subst hy; exact hn hd
    · intro j y k hj hk; exact h.entered j y k (get j y hj k hk) hk
    · intro j j' y y' k h1 h2 h3 h4
      exact h.inj j j' y y' k (get _ _ h1 _ h3) (get _ _ h2 _ h4) h3 h4
    · intro d k hd hk
      obtain ⟨j, y, h1, h2⟩ := h.surj d k hd hk
      exact ⟨j, y, by rw [List.getElem?_append_left (List.getElem?_eq_some_iff.1 h1).1]; exact h1, h2⟩
    · intro y hy
      rcases List.mem_append.1 hy with hy | hy
      · exact h.time y hy
      · rw [List.mem_singleton] at hy; subst hy; rw [ht]; exact Nat.le_refl _
  unfold Socket.request
  split
  · exact app _ (fun k hk => by cases hk) rfl (fun _ => rfl)
  · rename_i d hd
    exact app _ (fun k hk => by cases hk) rfl (fun hn => by rw [hd] at hn; cases hn)

theorem FrontInv.connect {s : Socket} (h : FrontInv D s) (hdr : s.dropped = false) : FrontInv D s.tryConnect.2 := by
  unfold Socket.tryConnect
  split
  · rename_i ht
    have hdn : s.drv = none := by
      cases hd : s.drv with
      | none => rfl
      | some d => have := h.transport (by rw [hd]; simp); rw [this] at ht; cases ht
    split
    · refine ⟨h.reach, h.idle, h.entered, h.inj, h.surj, h.time, fun _ => rfl⟩
    · rename_i d hd
      have hx := new_fields hd
      obtain ⟨-, f, hf⟩ := hx
      refine ⟨?_, ?_, ?_, h.inj, ?_, h.time, fun _ => rfl⟩
      · intro x hx
        cases hx
        refine ⟨⟨s.now, d, [], hd, rfl⟩, ?_, ?_, ?_⟩
        · rw [hf]
        · rw [hf, hdr]
        · rw [hf]; exact Nat.zero_le _
      · intro hx; cases hx
      · intro i c k hi hc
        have := h.idle hdn c (List.mem_of_getElem? hi)
        rw [this] at hc; cases hc
      · intro x k hx hk
        cases hx
        rw [hf] at hk
        simp at hk
  · exact h

theorem FrontInv.act {s t : Socket} (h : FrontInv D s) (a : SAct) (ha : s.act D a = .ok t) : FrontInv D t := by
  cases a with
  | connect =>
    simp only [Socket.act, R.ok.injEq] at ha
    subst ha
    split
    · exact h
    · rename_i hd; exact h.connect (by simpa using hd)
  | request payload =>
    simp only [Socket.act, R.ok.injEq] at ha
    subst ha
    split
    · exact h
    · exact h.request payload
  | poll i => exact h.pollCall ha
  | cancel i =>
    simp only [Socket.act, R.ok.injEq] at ha
    subst ha
    unfold Socket.cancel
    split
    · rename_i c hi; exact h.setCaller hi rfl rfl (.inl rfl)
    · exact h
  | driver e =>
    have ha' : s.onDriver D (.iter e) = .ok t := ha
    have hx : t.dropped = s.dropped := by
      unfold Socket.onDriver at ha'
      split at ha'
      · cases ha'; rfl
      · cases hd : State.act D ‹_› (.iter e) with
        | panic => rw [hd] at ha'; cases ha'
        | ok d' => rw [hd] at ha'; cases ha'; rfl
    have := (h.onDriver (a := .iter e) (fun p hp => by cases hp) 0 s.dropped ?_ ha').1
    · rw [← hx] at this; exact this
    · intro d d' hd hd'
      obtain ⟨-, hn, hc, -⟩ := h.reach d hd
      simp only [State.act] at hd'
      split at hd'
      · cases hd'; exact ⟨hn, hc⟩
      · cases hi : d.iter D e with
        | panic => rw [hi] at hd'; cases hd'
        | ok r =>
          obtain ⟨x, o⟩ := r
          rw [hi] at hd'
          cases hd'
          have := iter_keep hi
          exact ⟨this.2.1.trans hn, this.2.2.1.trans hc⟩
  | advance dt =>
    simp only [Socket.act] at ha
    cases hu : s.onDriver D (.advance dt) with
    | panic => rw [hu] at ha; cases ha
    | ok u =>
      rw [hu] at ha
      cases ha
      have hx : u.dropped = s.dropped := by
        unfold Socket.onDriver at hu
        split at hu <;> cases hu <;> rfl
      have := (h.onDriver (a := .advance dt) (fun p hp => by cases hp) dt s.dropped ?_ hu).1
      · rw [← hx] at this; exact this
      · intro d d' hd hd'
        obtain ⟨-, hn, hc, -⟩ := h.reach d hd
        cases hd'
        exact ⟨by rw [← hn], hc⟩
  | drop =>
    simp only [Socket.act] at ha
    cases hu : s.onDriver D .dropSocket with
    | panic => rw [hu] at ha; cases ha
    | ok u =>
      rw [hu] at ha
      cases ha
      refine (h.onDriver (a := .dropSocket) (fun p hp => by cases hp) 0 true ?_ hu).1
      intro d d' hd hd'
      obtain ⟨-, hn, hc, -⟩ := h.reach d hd
      cases hd'
      exact ⟨hn, rfl⟩

theorem FrontInv.run {s t : Socket} (h : FrontInv D s) (acts : List SAct) (hr : s.run D acts = .ok t) : FrontInv D t := by
  induction acts generalizing s with
  | nil => cases hr; exact h
  | cons a as ih =>
    simp only [Socket.run] at hr
    cases ha : s.act D a with
    | panic => rw [ha] at hr; cases hr
    | ok u => rw [ha] at hr; exact ih (h.act a ha) hr

theorem act_opts {s t : Socket} (a : SAct) (ha : s.act D a = .ok t) : t.opts = s.opts ∧ t.comp = s.comp := by
  have hon : ∀ a u, s.onDriver D a = .ok u → u.opts = s.opts ∧ u.comp = s.comp := by
    intro a u h
    unfold Socket.onDriver at h
    split at h
    · cases h; exact ⟨rfl, rfl⟩
    · cases hd : State.act D ‹_› a with
      | panic => rw [hd] at h; cases h
      | ok d' => rw [hd] at h; cases h; exact ⟨rfl, rfl⟩
  cases a with
  | connect =>
    simp only [Socket.act, R.ok.injEq] at ha
    subst ha
    split
    · exact ⟨rfl, rfl⟩
    · unfold Socket.tryConnect; split
      · split <;> exact ⟨rfl, rfl⟩
      · exact ⟨rfl, rfl⟩
  | request payload =>
    simp only [Socket.act, R.ok.injEq] at ha
    subst ha
    split
    · exact ⟨rfl, rfl⟩
    · unfold Socket.request; split <;> exact ⟨rfl, rfl⟩
  | poll i =>
    have ha' : s.pollCall D i = .ok t := ha
    unfold Socket.pollCall at ha'
    split at ha'
    · split at ha'
      · split at ha'
        · cases ha'; exact ⟨rfl, rfl⟩
        · split at ha'
          · rename_i c d _ _ _ _ _
            cases hd : State.act D d (.request c.payload) with
            | panic => rw [hd] at ha'; cases ha'
            | ok d' => rw [hd] at ha'; cases ha'; exact ⟨rfl, rfl⟩
          · cases ha'; exact ⟨rfl, rfl⟩
      · cases ha'; exact ⟨rfl, rfl⟩
    · cases ha'; exact ⟨rfl, rfl⟩
  | cancel i =>
    simp only [Socket.act, R.ok.injEq] at ha
    subst ha
    unfold Socket.cancel
    split <;> exact ⟨rfl, rfl⟩
  | driver e => exact hon _ _ ha
  | advance dt =>
    simp only [Socket.act] at ha
    cases hu : s.onDriver D (.advance dt) with
    | panic => rw [hu] at ha; cases ha
    | ok u => rw [hu] at ha; cases ha; exact hon _ u hu
  | drop =>
    simp only [Socket.act] at ha
    cases hu : s.onDriver D .dropSocket with
    | panic => rw [hu] at ha; cases ha
    | ok u => rw [hu] at ha; cases ha; exact hon _ u hu

theorem run_opts {s t : Socket} (acts : List SAct) (hr : s.run D acts = .ok t) : t.opts = s.opts ∧ t.comp = s.comp := by
  induction acts generalizing s with
  | nil => cases hr; exact ⟨rfl, rfl⟩
  | cons a as ih =>
    simp only [Socket.run] at hr
    cases ha : s.act D a with
    | panic => rw [ha] at hr; cases hr
    | ok u =>
      rw [ha] at hr
      obtain ⟨h1, h2⟩ := ih hr
      obtain ⟨h3, h4⟩ := act_opts a ha
      exact ⟨h1.trans h3, h2.trans h4⟩

theorem srun_append (s : Socket) (as bs : List SAct) : s.run D (as ++ bs) = (s.run D as).bind fun t => t.run D bs := by
  induction as generalizing s with
  | nil => rfl
  | cons a as ih =>
    simp only [List.cons_append, Socket.run]
    cases h : s.act D a with
    | panic => rfl
    | ok t => simp only [R.bind_ok]; exact ih t

end MsgRs.Req
