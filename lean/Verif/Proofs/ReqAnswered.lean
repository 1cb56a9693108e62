import Verif.Proofs.ReqFlush
import Verif.Proofs.ReqSocket
/-!
# The responses a request socket has read
-/
namespace MsgRs.Req
open MsgRs
variable {D : Decompressors}

/-- All responses read so far. -/
def State.gotAll (s : State) : List ReqRep.Message := s.chans.flatMap (·.got)

theorem gotAll_active {s : State} {c : Chan} (h : s.conn = .active c) : s.gotAll = s.past.flatMap (·.got) ++ c.got := by
  simp [State.gotAll, chans_active h]

theorem gotAll_inactive {s : State} {b : Backoff} (h : s.conn = .inactive b) : s.gotAll = s.past.flatMap (·.got) := by
  simp [State.gotAll, chans_inactive h]

/-- No call is pending under the id of a response that was read. -/
def Settled (s : State) : Prop := ∀ m ∈ s.gotAll, ∀ p ∈ s.pending, p.id ≠ m.header.id

/-- Every response read has the id of a request made. -/
def Asked (s : State) : Prop := ∀ m ∈ s.gotAll, ∃ x ∈ s.taken, x.2.header.id = m.header.id

theorem wantFlush_got {s t : State} {b : Bool} (h : s.wantFlush = (b, t)) :
    t.gotAll = s.gotAll ∧ t.pending = s.pending ∧ t.taken = s.taken := by
  unfold State.wantFlush at h
  split at h
  · split at h
    · rename_i iv _
      rcases hi : iv.tick s.now with ⟨r, iv'⟩
      rw [hi] at h
      cases h
      exact ⟨rfl, rfl, rfl⟩
    · cases h; exact ⟨rfl, rfl, rfl⟩
  · cases h; exact ⟨rfl, rfl, rfl⟩

theorem gotAll_write {s : State} {c : Chan} (hc : s.conn = .active c) (wr : Writer) (b : Bool) :
    ({ s with conn := .active { c with wr }, shouldFlush := b } : State).gotAll = s.gotAll := by
  rw [gotAll_active hc, gotAll_active (s := { s with conn := .active { c with wr }, shouldFlush := b }) rfl]

theorem flushStep_got (s : State) (e : Env) :
    (s.flushStep e).gotAll = s.gotAll ∧ (s.flushStep e).pending = s.pending ∧ (s.flushStep e).taken = s.taken := by
  unfold State.flushStep
  rcases hw : s.wantFlush with ⟨b, t⟩
  obtain ⟨h1, h2, h3⟩ := wantFlush_got hw
  cases b with
  | false => exact ⟨h1, h2, h3⟩
  | true =>
    simp only
    cases hc : t.conn with
    | inactive b => exact ⟨h1, h2, h3⟩
    | active c =>
      simp only
      rcases hf : c.wr.flush e.flushAns with ⟨o, wr⟩
      have hg := gotAll_write hc wr
      cases o
      · exact ⟨(hg false).trans h1, h2, h3⟩
      · exact ⟨(hg t.shouldFlush).trans h1, h2, h3⟩
      · exact ⟨(hg t.shouldFlush).trans h1, h2, h3⟩

theorem taskStep_got {s t : State} {e : Env} (h : s.taskStep e = .ok t) :
    t.gotAll = s.gotAll ∧ t.pending = s.pending ∧ t.taken = s.taken := by
  unfold State.taskStep at h
  split at h
  · cases hr : taskResult s.opts.token e.task with
    | panic => rw [hr] at h; cases h
    | ok r =>
      rw [hr] at h
      simp only [R.bind_ok, R.pure_eq] at h
      rcases r with _ | (_ | ⟨via, input⟩)
      · cases h; exact ⟨rfl, rfl, rfl⟩
      · cases h; exact ⟨rfl, rfl, rfl⟩
      · cases h
        refine ⟨?_, rfl, rfl⟩
        rw [gotAll_active (c := Chan.new s.opts.boundary via input) rfl]
        simp only [Chan.new, List.append_nil]
        cases hc : s.conn with
        | active c => simp [gotAll_active hc]
        | inactive b => simp [gotAll_inactive hc]
  · cases h; exact ⟨rfl, rfl, rfl⟩

theorem tickLoop_pending (n : Nat) (s : State) : (s.tickLoop n).pending ⊆ s.pending ∧ (s.tickLoop n).taken = s.taken ∧
    (s.tickLoop n).idCounter = s.idCounter ∧ (s.tickLoop n).queue = s.queue := by
  induction n generalizing s with
  | zero => exact ⟨fun _ h => h, rfl, rfl, rfl⟩
  | succ n ih =>
    unfold State.tickLoop
    rcases hq : s.checkIv.tick s.now with ⟨b, iv⟩
    cases b with
    | false => exact ⟨fun _ h => h, rfl, rfl, rfl⟩
    | true =>
      obtain ⟨h1, h2, h3⟩ := ih { s with checkIv := iv }.checkTimeouts
      refine ⟨fun x hx => ?_, h2, h3⟩
      have := h1 hx
      simp only [State.checkTimeouts, List.mem_filter] at this
      exact this.1

/-- What a write step does to the pending calls. -/
theorem writeStep_pending (s : State) (e : Env) (c : Chan) :
    ∀ p ∈ (s.writeStep e c).1.pending, p ∈ s.pending ∨ (p.id = s.idCounter ∧ s.queue ≠ []) := by
  have late : ∀ c' : Chan, ∀ p ∈ (s.lateStep e c').1.pending, p ∈ s.pending ∨ (p.id = s.idCounter ∧ s.queue ≠ []) := by
    intro c' p hp
    unfold State.lateStep at hp
    obtain ⟨h1, h2, h3⟩ := tickLoop_pending (s.now + 1) { s with conn := .active c' }
    revert hp h1 h2 h3
    generalize ({ s with conn := .active c' } : State).tickLoop (s.now + 1) = u
    intro hp h1 h2 h3
    simp only at hp
    split at hp
    · simp only [State.onCommand, List.mem_append, List.mem_filter, List.mem_singleton] at hp
      rcases hp with hp | rfl
      · exact .inl (h1 hp.1)
      · rename_i hq
        exact .inr ⟨h3.1, fun hn => by rw [h3.2, hn] at hq; cases hq⟩
    · split at hp
      · split at hp
        · exact .inl (h1 hp)
        · simp [State.terminate] at hp
      · exact .inl (h1 hp)
  intro p hp
  unfold State.writeStep at hp
  split at hp
  · exact late _ p hp
  · exact late _ p hp
  · exact .inl hp

theorem lateStep_taken (s : State) (e : Env) (c : Chan) : s.taken <+: (s.lateStep e c).1.taken := by
  unfold State.lateStep
  obtain ⟨h1, h2, h3⟩ := tickLoop_pending (s.now + 1) { s with conn := .active c }
  revert h1 h2 h3
  generalize ({ s with conn := .active c } : State).tickLoop (s.now + 1) = u
  intro h1 h2 h3
  simp only
  have h2' : u.taken = s.taken := h2
  rw [← h2']
  split
  · exact List.prefix_append _ _
  · split
    · split <;> exact List.prefix_rfl
    · exact List.prefix_rfl

theorem writeStep_got (s : State) (e : Env) (c : Chan) :
    (s.writeStep e c).1.gotAll = s.past.flatMap (·.got) ++ c.got ∧ s.taken <+: (s.writeStep e c).1.taken := by
  have late : ∀ wr : Writer, (s.lateStep e { c with wr }).1.gotAll = s.past.flatMap (·.got) ++ c.got := by
    intro wr0
    obtain ⟨h1, -, -, -, -, h6, -⟩ := tickLoop_fields (s.now + 1) { s with conn := .active { c with wr := wr0 } }
    unfold State.lateStep
    revert h1 h6
    generalize ({ s with conn := .active { c with wr := wr0 } } : State).tickLoop (s.now + 1) = u
    intro h1 h6
    simp only
    have hu : u.gotAll = s.past.flatMap (·.got) ++ c.got := by rw [gotAll_active h1, h6]
    split
    · exact hu
    · split
      · split
        · rw [gotAll_active rfl]; simp only [h6]
        · rw [gotAll_active (c := _) rfl]; simp only [State.terminate, h6]
      · exact hu
  unfold State.writeStep
  split
  · exact ⟨late _, lateStep_taken _ _ _⟩
  · exact ⟨late _, lateStep_taken _ _ _⟩
  · exact ⟨by rw [gotAll_active rfl], List.prefix_rfl⟩

theorem onMessage_pending (s : State) (m : ReqRep.Message) :
    (∀ p ∈ (State.onMessage D s m).pending, p ∈ s.pending ∧ p.id ≠ m.header.id) ∧ (State.onMessage D s m).taken = s.taken := by
  unfold State.onMessage
  cases hf : s.pending.find? (·.id = m.header.id) with
  | none =>
    simp only [List.find?_eq_none, decide_eq_true_eq] at hf
    exact ⟨fun p hp => ⟨hp, hf p hp⟩, rfl⟩
  | some p0 =>
    simp only
    split <;> refine ⟨fun p hp => ?_, rfl⟩
    all_goals
      have hp' : p ∈ s.pending.filter (fun x => decide (x.id ≠ m.header.id)) := hp
      rw [List.mem_filter] at hp'
      exact ⟨hp'.1, of_decide_eq_true hp'.2⟩

/-- No two calls have the same id as long as there are at most 2^32. -/
theorem taken_id {s : State} (h : Calls s) {n : Nat} {x : Nat × ReqRep.Message} (hx : s.taken[n]? = some x) :
    x.1 = n ∧ x.2.header.id = UInt32.ofNat n := by
  obtain ⟨a1, call, a2, a3⟩ := h.taken n x hx
  exact ⟨a1, by rw [a3]; rfl⟩

theorem ofNat_inj {n k : Nat} (hn : n < 2 ^ 32) (hk : k < 2 ^ 32) (h : UInt32.ofNat n = UInt32.ofNat k) : n = k := by
  have q := congrArg UInt32.toNat h
  rw [UInt32.toNat_ofNat', UInt32.toNat_ofNat', Nat.mod_eq_of_lt hn, Nat.mod_eq_of_lt hk] at q
  exact q

theorem Settled.iter {s t : State} (hi : Inv D s) (he : s.ended = false) (h : Settled s) (ha : Asked s)
    (hids : s.calls.length ≤ 2 ^ 32) {e : Env} {o : Out} (hit : s.iter D e = .ok (t, o)) : Settled t := by
  obtain ⟨u, hu, hr⟩ := iter_rest hit
  have hsu : Steps D s u := (flushStep_steps s e he).trans
    (taskStep_steps _ u e (by rw [(flushStep_ended s e).1]; exact he) hu)
  have hcu := (hsu.inv hi).calls
  have heu : u.ended = false := by
    rw [(taskStep_ended _ u e hu).1, (flushStep_ended s e).1]; exact he
  have hku : u.calls = s.calls := by
    have h1 : (s.flushStep e).calls = s.calls := (flushStep_keep s e).1
    rw [(taskStep_keep hu).1, h1]
  obtain ⟨f1, f2, f3⟩ := flushStep_got s e
  obtain ⟨g1, g2, g3⟩ := taskStep_got hu
  rw [f1] at g1; rw [f2] at g2; rw [f3] at g3
  have hs : Settled u := fun m hm p hp => h m (g1 ▸ hm) p (g2 ▸ hp)
  have hau : Asked u := fun m hm => by rw [g3]; exact ha m (g1 ▸ hm)
  clear hit h ha hu f1 f2 f3 g1 g2 g3 hsu
  unfold State.rest at hr
  cases hc : u.conn with
  | inactive b =>
    simp only [hc] at hr
    cases hb : b.poll u.now with
    | panic => rw [hb] at hr; cases hr
    | ok r =>
      obtain ⟨x, b'⟩ := r
      rw [hb] at hr
      simp only [R.bind_ok, R.pure_eq, State.retry_eq] at hr
      rw [Settled, gotAll_inactive hc] at hs
      cases x
      · cases hr
        intro m hm p hp
        rw [gotAll_inactive (b := b') rfl] at hm
        exact hs m hm p hp
      · cases hr
        intro m hm p hp
        rw [gotAll_inactive (b := b') rfl] at hm
        exact hs m hm p hp
      · cases hr
        intro m hm p hp
        simp [State.terminate] at hp
  | active c =>
    simp only [hc] at hr
    cases hp : c.rd.pollNext ReqRep.codec c.input with
    | panic => rw [hp] at hr; cases hr
    | ok r =>
      obtain ⟨x, rd, input⟩ := r
      rw [hp] at hr
      simp only [R.bind_ok, R.pure_eq] at hr
      cases x with
      | item m =>
        simp only [R.ok.injEq, Prod.mk.injEq] at hr
        obtain ⟨rfl, rfl⟩ := hr
        obtain ⟨k1, -, -, -, -, k6, -⟩ := onMessage_fields (D := D)
          { u with conn := .active { c with rd, input, polls := c.polls + 1, got := c.got ++ [m] } } m
        obtain ⟨q1, -⟩ := onMessage_pending (D := D)
          { u with conn := .active { c with rd, input, polls := c.polls + 1, got := c.got ++ [m] } } m
        intro m' hm' p' hp'
        rw [gotAll_active k1, k6, ← List.append_assoc, List.mem_append, List.mem_singleton] at hm'
        rcases hm' with hm' | rfl
        · exact hs m' (by rw [gotAll_active hc]; exact hm') p' (q1 p' hp').1
        · exact (q1 p' hp').2
      | err x =>
        cases hr
        intro m hm p' hp'
        rw [gotAll_inactive (b := backoff0) rfl] at hm
        exact hs m (by rw [gotAll_active hc]; simpa using hm) p' hp'
      | ended =>
        cases hr
        intro m hm p' hp'
        simp [State.terminate] at hp'
      | pending =>
        simp only [R.ok.injEq] at hr
        have w1 := writeStep_pending u e { c with rd, input, polls := c.polls + 1 }
        obtain ⟨w2, -⟩ := writeStep_got u e { c with rd, input, polls := c.polls + 1 }
        rw [hr] at w1 w2
        intro m hm p' hp'
        have hm' : m ∈ u.gotAll := by rw [gotAll_active hc]; rw [w2] at hm; exact hm
        rcases w1 p' hp' with hp' | ⟨hp', hq⟩
        · exact hs m hm' p' hp'
        · obtain ⟨x, hx, hxi⟩ := hau m hm'
          obtain ⟨n, hn⟩ := List.mem_iff_getElem?.mp hx
          have hnl := (List.getElem?_eq_some_iff.mp hn).1
          have hlt : u.taken.length < 2 ^ 32 := by
            have h1 := hcu.len heu
            have h2 := List.length_pos_iff.mpr hq
            rw [hku] at h1
            omega
          intro heq
          rw [hp', hcu.idc, ← hxi, (taken_id hcu hn).2] at heq
          have := ofNat_inj hlt (Nat.lt_trans hnl hlt) heq
          omega

theorem Settled.act {s t : State} (hi : Inv D s) (h : Settled s) (ha : Asked s)
    (hids : s.calls.length ≤ 2 ^ 32) {a : Act} (hs : s.act D a = .ok t) : Settled t := by
  cases a with
  | iter e =>
    simp only [State.act] at hs
    split at hs
    · cases hs; exact h
    · rename_i he
      simp only [Bool.not_eq_true] at he
      cases hit : s.iter D e with
      | panic => rw [hit] at hs; cases hs
      | ok r =>
        obtain ⟨t', o⟩ := r
        rw [hit] at hs
        cases hs
        exact h.iter hi he ha hids hit
  | advance dt => simp only [State.act, R.ok.injEq] at hs; subst hs; exact h
  | request payload =>
    simp only [State.act] at hs
    split at hs
    · cases hs; exact h
    · split at hs <;> cases hs <;> exact h
  | dropSocket => simp only [State.act, R.ok.injEq] at hs; subst hs; exact h

/-- How calls end. -/
structure Ends (D : Decompressors) (s : State) : Prop where
  bad : ∀ k t, (k, Res.decompression, t) ∈ s.done → ∃ m ∈ s.gotAll, tryDecompress D m.header.ctype m.payload = none
  closed : ∀ k t, (k, Res.closed, t) ∈ s.done → s.ended = true ∨ 2 ^ 32 < s.calls.length

theorem Ends.more {s t : State} (h : Ends D s) (more : List (Nat × Res × Nat)) (hd : t.done = s.done ++ more)
    (hm : ∀ x ∈ more, (x.2.1 ≠ .decompression) ∧ (x.2.1 = .closed → t.ended = true ∨ 2 ^ 32 < t.calls.length))
    (hg : s.gotAll ⊆ t.gotAll) (he : s.ended = true → t.ended = true) (hc : s.calls.length ≤ t.calls.length) : Ends D t := by
  refine ⟨fun k u hk => ?_, fun k u hk => ?_⟩
  · rw [hd, List.mem_append] at hk
    rcases hk with hk | hk
    · obtain ⟨m, h1, h2⟩ := h.bad k u hk
      exact ⟨m, hg h1, h2⟩
    · exact absurd rfl (hm _ hk).1
  · rw [hd, List.mem_append] at hk
    rcases hk with hk | hk
    · exact (h.closed k u hk).imp he (fun h => by omega)
    · exact (hm _ hk).2 rfl

theorem Ends.frame {s t : State} (h : Ends D s) (hd : t.done = s.done) (hg : s.gotAll ⊆ t.gotAll)
    (he : s.ended = true → t.ended = true) (hc : s.calls.length ≤ t.calls.length) : Ends D t :=
  h.more [] (by rw [hd, List.append_nil]) (by simp) hg he hc

theorem Ends.terminate {s t : State} (h : Ends D s) (hd : t.done = s.done) (hg : s.gotAll ⊆ t.gotAll)
    (hc : s.calls.length ≤ t.calls.length) : Ends D t.terminate := by
  refine h.more ((t.pending.map fun p => (p.call, Res.closed, t.now)) ++ (t.queue.map fun c => (c.1, Res.closed, t.now)))
    (by simp only [State.terminate, hd, List.append_assoc]) ?_ hg (fun _ => rfl) hc
  intro x hx
  rw [List.mem_append] at hx
  rcases hx with hx | hx
  all_goals
    obtain ⟨y, -, rfl⟩ := List.mem_map.mp hx
    exact ⟨by simp, fun _ => .inl rfl⟩

theorem Ends.step {s t : State} (hs : Step D s t) (hcl : Calls s) (h : Ends D s) : Ends D t := by
  have same : ∀ {c c' : Chan}, s.conn = .active c → c'.got = c.got →
      s.gotAll = s.past.flatMap (·.got) ++ c'.got := fun hc hg => by rw [gotAll_active hc, hg]
  cases hs with
  | now dt => exact h.frame rfl (fun _ h => h) id (Nat.le_refl _)
  | misc b iv he => exact h.frame rfl (fun _ h => h) id (Nat.le_refl _)
  | write c wr he hc => exact h.frame rfl (by rw [gotAll_active hc, gotAll_active (c := { c with wr }) rfl]; exact fun _ h => h) id (Nat.le_refl _)
  | taskGone he => exact h.frame rfl (fun _ h => h) id (Nat.le_refl _)
  | connect task via input he h1 h2 =>
    refine h.frame rfl ?_ id (Nat.le_refl _)
    rw [gotAll_active (s := { s with connTask := false, conn := .active (Chan.new s.opts.boundary via input), past := s.chans })
      (c := Chan.new s.opts.boundary via input) rfl]
    exact fun _ h => List.mem_append_left _ h
  | backoff b b' he hc h1 =>
    exact h.frame rfl (by rw [gotAll_inactive hc, gotAll_inactive (b := b') rfl]; exact fun _ h => h) id (Nat.le_refl _)
  | taskStart b b' d ts he hc h1 hts =>
    exact h.frame rfl (by rw [gotAll_inactive hc, gotAll_inactive (b := b') rfl]; exact fun _ h => h) id (Nat.le_refl _)
  | giveUp b b' he hc h1 =>
    exact h.terminate rfl (by rw [gotAll_inactive hc, gotAll_inactive (b := b') rfl]; exact fun _ h => h) (Nat.le_refl _)
  | readItem c m rd input he hc hp =>
    obtain ⟨k1, -, -, -, -, k6, k7⟩ := onMessage_fields (D := D)
      { s with conn := .active { c with rd, input, polls := c.polls + 1, got := c.got ++ [m] } } m
    have hgot : (State.onMessage D { s with conn := .active { c with rd, input, polls := c.polls + 1, got := c.got ++ [m] } } m).gotAll =
        s.gotAll ++ [m] := by
      rw [gotAll_active k1, k6, gotAll_active hc, List.append_assoc]
    have hsub : s.gotAll ⊆ (State.onMessage D { s with conn := .active { c with rd, input, polls := c.polls + 1, got := c.got ++ [m] } } m).gotAll := by
      rw [hgot]; exact fun _ h => List.mem_append_left _ h
    have hmem : m ∈ (State.onMessage D { s with conn := .active { c with rd, input, polls := c.polls + 1, got := c.got ++ [m] } } m).gotAll := by
      rw [hgot]; simp
    revert hsub hmem k7
    unfold State.onMessage
    cases hf : s.pending.find? (·.id = m.header.id) with
    | none => exact fun k7 hsub _ => h.frame rfl hsub (fun hh => by rw [he] at hh; cases hh) (Nat.le_refl _)
    | some p =>
      simp only
      cases hd : tryDecompress D m.header.ctype m.payload with
      | some b =>
        intro k7 hsub _
        exact h.more [(p.call, Res.ok b, s.now)] rfl (by simp) hsub (fun hh => by rw [he] at hh; cases hh) (Nat.le_refl _)
      | none =>
        intro k7 hsub hmem
        refine ⟨fun k u hk => ?_, fun k u hk => ?_⟩
        · simp only [List.mem_append, List.mem_singleton] at hk
          rcases hk with hk | hk
          · obtain ⟨m', h1, h2⟩ := h.bad k u hk
            exact ⟨m', hsub h1, h2⟩
          · exact ⟨m, hmem, hd⟩
        · simp only [List.mem_append, List.mem_singleton] at hk
          rcases hk with hk | hk
          · exact h.closed k u hk
          · simp at hk
  | readIdle c rd input he hc hp =>
    exact h.frame rfl (by rw [gotAll_active hc, gotAll_active (c := { c with rd, input, polls := c.polls + 1 }) rfl]; exact fun _ h => h) id (Nat.le_refl _)
  | readErr c x rd input he hc hp =>
    refine h.frame rfl ?_ id (Nat.le_refl _)
    rw [gotAll_active hc, gotAll_inactive (b := backoff0) rfl]
    simp
  | readEnd c rd input he hc hp =>
    exact h.terminate rfl (by rw [gotAll_active hc, gotAll_active (c := { c with rd, input, polls := c.polls + 1 }) rfl]; exact fun _ h => h) (Nat.le_refl _)
  | send c k m ms he hc hq =>
    refine h.frame rfl ?_ id (Nat.le_refl _)
    rw [gotAll_active hc, gotAll_active (c := { c with wr := c.wr.send (ReqRep.encode m), sent := c.sent ++ [(k, m)] }) rfl]
    exact fun _ h => h
  | tick iv he hq =>
    refine h.more _ rfl ?_ (fun _ h => h) id (Nat.le_refl _)
    intro x hx
    obtain ⟨y, -, rfl⟩ := List.mem_map.mp hx
    exact ⟨by simp, fun h => by simp at h⟩
  | command k payload q he hq =>
    refine h.more _ rfl ?_ (fun _ h => h) id (Nat.le_refl _)
    intro x hx
    obtain ⟨p, hp, rfl⟩ := List.mem_map.mp hx
    refine ⟨by simp, fun _ => .inr ?_⟩
    simp only [List.mem_filter, decide_eq_true_eq] at hp
    obtain ⟨hp, hid⟩ := hp
    obtain ⟨m, h1, h2, -⟩ := hcl.pend p hp
    obtain ⟨n, hn⟩ := List.mem_iff_getElem?.mp h1
    have hnl := (List.getElem?_eq_some_iff.mp hn).1
    have hlen := hcl.len he
    rw [hq, List.length_cons] at hlen
    show 2 ^ 32 < s.calls.length
    refine Nat.lt_of_not_le fun hle => ?_
    rw [← h2, (taken_id hcl hn).2, hcl.idc] at hid
    have := ofNat_inj (by omega) (by omega) hid
    omega
  | close he hq hcl' => exact h.terminate rfl (fun _ h => h) (Nat.le_refl _)
  | request payload he hc => exact h.frame rfl (fun _ h => h) id (by simp)
  | requestLate payload he hc =>
    refine h.more _ rfl ?_ (fun _ h => h) id (by simp)
    intro x hx
    rw [List.mem_singleton] at hx
    subst hx
    exact ⟨by simp, fun _ => .inl he⟩
  | drop => exact h.frame rfl (fun _ h => h) id (Nat.le_refl _)

theorem new_ends {opts : Options} {comp : Option Compressor} {now : Nat} {s : State}
    (h : State.new opts comp now = .ok s) : Ends D s ∧ Settled s ∧ s.gotAll = [] := by
  unfold State.new at h
  cases hc : Interval.new now (opts.timeout / 10) with
  | panic => rw [hc] at h; cases h
  | ok iv =>
    rw [hc] at h
    simp only [R.bind_ok] at h
    split at h
    · cases h
      exact ⟨⟨by simp, by simp⟩, by simp [Settled], rfl⟩
    · rename_i p _
      cases hp : Interval.new now p with
      | panic => rw [hp] at h; cases h
      | ok iv2 =>
        rw [hp] at h
        cases h
        exact ⟨⟨by simp, by simp⟩, by simp [Settled], rfl⟩

theorem Steps.ends {s t : State} (h : Steps D s t) (h0 : Inv D s) (h1 : Ends D s) : Ends D t :=
  (h.induct (P := fun s => Inv D s ∧ Ends D s) (fun _ _ hs h => ⟨h.1.step hs, h.2.step hs h.1.calls⟩) ⟨h0, h1⟩).2

end MsgRs.Req
