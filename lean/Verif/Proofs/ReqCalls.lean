import Verif.Proofs.ReqStep
/-!
# Every call is queued, pending or done
-/
namespace MsgRs.Req
open MsgRs
variable {D : Decompressors}

theorem find_perm {l : List Pending} {x : UInt32} {p : Pending} (hn : (l.map (·.id)).Nodup)
    (h : l.find? (·.id = x) = some p) : p.id = x ∧ l.Perm (p :: l.filter (·.id ≠ x)) := by
  induction l with
  | nil => cases h
  | cons q l ih =>
    simp only [List.map_cons, List.nodup_cons, List.mem_map, not_exists, not_and] at hn
    by_cases hq : q.id = x
    · simp only [List.find?_cons, hq, decide_true] at h
      cases h
      refine ⟨hq, ?_⟩
      have h1 : l.filter (·.id ≠ x) = l := by
        rw [List.filter_eq_self]
        intro y hy
        have := hn.1 y hy
        rw [hq] at this
        simpa using this
      simp only [List.filter_cons, hq]
      simp only [ne_eq, not_true, decide_false]
      simp only [ne_eq] at h1
      rw [h1]
      exact List.Perm.refl _
    · simp only [List.find?_cons, hq, decide_false] at h
      obtain ⟨h1, h2⟩ := ih hn.2 h
      refine ⟨h1, ?_⟩
      simp only [List.filter_cons, ne_eq, hq, not_false_eq_true, decide_true, if_true]
      exact (List.Perm.cons q h2).trans (List.Perm.swap p q _)

/-- Conservation of calls. -/
structure Calls (s : State) : Prop where
  perm : (s.queue.map (·.1) ++ (s.pending.map (·.call) ++ s.done.map (·.1))).Perm (List.range s.calls.length)
  ids : (s.pending.map (·.id)).Nodup
  taken : ∀ n x, s.taken[n]? = some x → x.1 = n ∧ ∃ call, s.calls[n]? = some call ∧
    x.2 = (requestPrepare s.opts.minCompress s.comp call.payload).intoWire (UInt32.ofNat n)
  idc : s.idCounter = UInt32.ofNat s.taken.length
  queue : ∀ i x, s.queue[i]? = some x → x.1 = s.taken.length + i ∧ ∃ call, s.calls[x.1]? = some call ∧ call.payload = x.2
  len : s.ended = false → s.taken.length + s.queue.length = s.calls.length
  le : s.taken.length ≤ s.calls.length
  pend : ∀ p ∈ s.pending, ∃ m, (p.call, m) ∈ s.taken ∧ m.header.id = p.id ∧
    ∃ call, s.calls[p.call]? = some call ∧ call.time ≤ p.start ∧ p.start ≤ s.now
  over : s.ended = true → s.queue = [] ∧ s.pending = []
  late : ∀ k t, (k, Res.timeout, t) ∈ s.done → ∃ call, s.calls[k]? = some call ∧ call.time + s.opts.timeout < t
  doneAt : ∀ x ∈ s.done, x.2.2 ≤ s.now
  called : ∀ call ∈ s.calls, call.time ≤ s.now

/-- Steps that leave all this alone. -/
theorem Calls.frame {s t : State} (h : Calls s) (h1 : t.queue = s.queue) (h2 : t.pending = s.pending)
    (h3 : t.done = s.done) (h4 : t.calls = s.calls) (h5 : t.taken = s.taken) (h6 : t.idCounter = s.idCounter)
    (h7 : t.ended = s.ended) (h8 : s.now ≤ t.now) (h9 : t.opts = s.opts) (h10 : t.comp = s.comp) : Calls t := by
  constructor
  · rw [h1, h2, h3, h4]; exact h.perm
  · rw [h2]; exact h.ids
  · rw [h4, h5, h9, h10]; exact h.taken
  · rw [h5, h6]; exact h.idc
  · rw [h1, h4, h5]; exact h.queue
  · rw [h1, h4, h5, h7]; exact h.len
  · rw [h4, h5]; exact h.le
  · rw [h2, h4, h5]
    intro p hp
    obtain ⟨m, a, b, call, c, d, e⟩ := h.pend p hp
    exact ⟨m, a, b, call, c, d, by omega⟩
  · rw [h1, h2, h7]; exact h.over
  · rw [h3, h4, h9]; exact h.late
  · rw [h3]; intro x hx; have := h.doneAt x hx; omega
  · rw [h4]; intro x hx; have := h.called x hx; omega

theorem Calls.terminate {s : State} (h : Calls s) : Calls s.terminate := by
  constructor
  · refine List.Perm.trans ?_ h.perm
    simp only [State.terminate, List.map_nil, List.nil_append, List.map_append, List.map_map, Function.comp_def,
      List.append_assoc]
    refine (List.perm_append_comm.trans ?_)
    simp only [List.append_assoc]
    simp only [← List.append_assoc]
    exact List.Perm.append_right _ List.perm_append_comm
  · simp [State.terminate]
  · exact h.taken
  · exact h.idc
  · simp [State.terminate]
  · simp [State.terminate]
  · exact h.le
  · simp [State.terminate]
  · simp [State.terminate]
  · intro k t hx
    simp only [State.terminate, List.mem_append, List.mem_map] at hx
    rcases hx with (hx | ⟨p, -, hp⟩) | ⟨p, -, hp⟩
    · exact h.late k t hx
    · cases hp
    · cases hp
  · intro x hx
    simp only [State.terminate, List.mem_append, List.mem_map] at hx ⊢
    rcases hx with (hx | ⟨p, -, rfl⟩) | ⟨p, -, rfl⟩
    · exact h.doneAt x hx
    · exact Nat.le_refl _
    · exact Nat.le_refl _
  · exact h.called

theorem Calls.onMessage {s : State} (h : Calls s) (m : ReqRep.Message) (he : s.ended = false) : Calls (s.onMessage D m) := by
  unfold State.onMessage
  split
  · exact h
  · rename_i p hp
    obtain ⟨hid, hperm⟩ := find_perm h.ids hp
    have key : ∀ (r : Res), r ≠ .timeout →
        Calls { s with pending := s.pending.filter (·.id ≠ m.header.id), done := s.done ++ [(p.call, r, s.now)] } := by
      intro r hr
      constructor
      · refine List.Perm.trans ?_ h.perm
        refine List.Perm.append_left _ ?_
        have := hperm.map (·.call)
        refine List.Perm.trans ?_ (List.Perm.append_right _ this.symm)
        simp only [List.map_append, List.map_cons, List.map_nil, List.cons_append]
        rw [← List.append_assoc]
        exact List.perm_append_comm
      · exact h.ids.sublist (List.Sublist.map _ List.filter_sublist)
      · exact h.taken
      · exact h.idc
      · exact h.queue
      · exact h.len
      · exact h.le
      · intro q hq; exact h.pend q (List.mem_filter.mp hq).1
      · intro hc; rw [he] at hc; cases hc
      · intro k t hx
        simp only [List.mem_append, List.mem_singleton] at hx
        rcases hx with hx | hx
        · exact h.late k t hx
        · cases hx; exact absurd rfl hr
      · intro x hx
        simp only [List.mem_append, List.mem_singleton] at hx
        rcases hx with hx | rfl
        · exact h.doneAt x hx
        · exact Nat.le_refl _
      · exact h.called
    simp only
    split
    · exact key _ (by simp)
    · exact (key (.ok _) (by simp)).frame rfl rfl rfl rfl rfl rfl rfl (Nat.le_refl _) rfl rfl

theorem Calls.checkTimeouts {s : State} (h : Calls s) (he : s.ended = false) : Calls s.checkTimeouts := by
  constructor
  · refine List.Perm.trans ?_ h.perm
    refine List.Perm.append_left _ ?_
    have := (List.filter_append_perm (fun p : Pending => decide (s.now - p.start > s.opts.timeout)) s.pending).map (·.call)
    refine List.Perm.trans ?_ (List.Perm.append_right _ this)
    simp only [State.checkTimeouts, List.map_append, List.map_map, Function.comp_def]
    refine (List.Perm.append_left _ List.perm_append_comm).trans ?_
    rw [← List.append_assoc]
    exact List.Perm.append_right _ List.perm_append_comm
  · exact h.ids.sublist (List.Sublist.map _ List.filter_sublist)
  · exact h.taken
  · exact h.idc
  · exact h.queue
  · exact h.len
  · exact h.le
  · intro q hq; exact h.pend q (List.mem_filter.mp hq).1
  · intro hc; simp only [State.checkTimeouts] at hc; rw [he] at hc; cases hc
  · intro k t hx
    simp only [State.checkTimeouts, List.mem_append, List.mem_map, List.mem_filter, decide_eq_true_eq] at hx
    rcases hx with hx | ⟨p, ⟨hp, hl⟩, hx⟩
    · exact h.late k t hx
    · cases hx
      obtain ⟨-, -, -, call, hc, h1, h2⟩ := h.pend p hp
      exact ⟨call, hc, by simp only [State.checkTimeouts]; omega⟩
  · intro x hx
    simp only [State.checkTimeouts, List.mem_append, List.mem_map] at hx ⊢
    rcases hx with hx | ⟨p, -, rfl⟩
    · exact h.doneAt x hx
    · exact Nat.le_refl _
  · exact h.called

theorem Calls.command {s : State} (h : Calls s) (k : Nat) (payload : Bytes) (q : List (Nat × Bytes))
    (he : s.ended = false) (hq : s.queue = (k, payload) :: q) : Calls ({ s with queue := q }.onCommand k payload) := by
  obtain ⟨hk, call, hcall, hpl⟩ := h.queue 0 (k, payload) (by rw [hq]; rfl)
  simp only [Nat.add_zero] at hk hcall hpl
  subst hk
  have hlen := h.len he
  rw [hq] at hlen
  simp only [List.length_cons] at hlen
  constructor
  · refine List.Perm.trans ?_ h.perm
    have := (List.filter_append_perm (fun p : Pending => decide (p.id = s.idCounter)) s.pending).map (·.call)
    refine List.Perm.trans ?_ (List.Perm.append_left _ (List.Perm.append_right _ this))
    simp only [State.onCommand, List.map_append, List.map_map, Function.comp_def, hq, List.map_cons, List.map_nil,
      List.cons_append, List.append_assoc, List.nil_append]
    refine List.Perm.trans ?_ List.perm_middle
    refine List.Perm.append_left _ ?_
    have e : (s.pending.filter fun p => decide (p.id ≠ s.idCounter)) = s.pending.filter fun p => !decide (p.id = s.idCounter) := by
      congr 1; funext p; simp
    rw [e]
    refine List.perm_middle.trans (List.Perm.cons _ ?_)
    refine (List.Perm.append_left _ List.perm_append_comm).trans ?_
    rw [← List.append_assoc, ← List.append_assoc]
    exact List.Perm.append_right _ List.perm_append_comm
  · simp only [State.onCommand, List.map_append, List.map_cons, List.map_nil]
    rw [List.nodup_append]
    refine ⟨h.ids.sublist (List.Sublist.map _ List.filter_sublist), by simp, ?_⟩
    intro a ha b hb
    simp only [List.mem_map, List.mem_filter] at ha
    obtain ⟨p, ⟨-, hp⟩, rfl⟩ := ha
    simp only [List.mem_singleton] at hb
    subst hb
    simpa using hp
  · intro n x hx
    simp only [State.onCommand] at hx ⊢
    rw [List.getElem?_append] at hx
    split at hx
    · exact h.taken n x hx
    · rename_i hn
      have : n - s.taken.length = 0 := by
        cases hd : n - s.taken.length with
        | zero => rfl
        | succ j => rw [hd] at hx; simp at hx
      rw [this] at hx
      simp only [List.getElem?_cons_zero, Option.some.injEq] at hx
      subst hx
      have hn' : n = s.taken.length := by omega
      subst hn'
      exact ⟨rfl, call, hcall, by rw [hpl, ← h.idc]⟩
  · simp only [State.onCommand, List.length_append, List.length_cons, List.length_nil, h.idc]
    rw [UInt32.ofNat_add]
    rfl
  · intro i x hx
    obtain ⟨a, b⟩ := h.queue (i + 1) x (by rw [hq]; exact hx)
    refine ⟨?_, b⟩
    simp only [State.onCommand, List.length_append, List.length_cons, List.length_nil]
    omega
  · intro _
    simp only [State.onCommand, List.length_append, List.length_cons, List.length_nil]
    omega
  · simp only [State.onCommand, List.length_append, List.length_cons, List.length_nil]
    omega
  · intro p hp
    simp only [State.onCommand, List.mem_append, List.mem_singleton] at hp
    rcases hp with hp | rfl
    · obtain ⟨m, a, b⟩ := h.pend p (List.mem_filter.mp hp).1
      exact ⟨m, List.mem_append_left _ a, b⟩
    · refine ⟨_, List.mem_append_right _ (List.mem_singleton.mpr rfl), rfl, call, hcall, ?_, Nat.le_refl _⟩
      exact h.called call (List.mem_of_getElem? hcall)
  · intro hc; simp only [State.onCommand] at hc; rw [he] at hc; cases hc
  · intro k t hx
    simp only [State.onCommand, List.mem_append, List.mem_map] at hx
    rcases hx with hx | ⟨p, -, hx⟩
    · exact h.late k t hx
    · cases hx
  · intro x hx
    simp only [State.onCommand, List.mem_append, List.mem_map] at hx ⊢
    rcases hx with hx | ⟨p, -, rfl⟩
    · exact h.doneAt x hx
    · exact Nat.le_refl _
  · exact h.called

theorem getElem?_append_some {α : Type} {l l' : List α} {n : Nat} {x : α} (h : l[n]? = some x) : (l ++ l')[n]? = some x := by
  have hn : n < l.length := (List.getElem?_eq_some_iff.mp h).1
  rw [List.getElem?_append_left hn, h]

theorem Calls.request {s : State} (h : Calls s) (payload : Bytes) (he : s.ended = false) :
    Calls { s with calls := s.calls ++ [{ payload, time := s.now }], queue := s.queue ++ [(s.calls.length, payload)] } := by
  have hlen := h.len he
  constructor
  · simp only [List.map_append, List.map_cons, List.map_nil, List.length_append, List.length_cons, List.length_nil,
      List.append_assoc, List.cons_append, List.nil_append]
    rw [List.range_succ]
    refine List.perm_middle.trans ?_
    refine List.Perm.trans ?_ List.perm_append_comm
    exact List.Perm.cons _ h.perm
  · exact h.ids
  · intro n x hx
    obtain ⟨a, call, b, c⟩ := h.taken n x hx
    exact ⟨a, call, getElem?_append_some b, c⟩
  · exact h.idc
  · intro i x hx
    rw [List.getElem?_append] at hx
    split at hx
    · obtain ⟨a, call, b, c⟩ := h.queue i x hx
      exact ⟨a, call, getElem?_append_some b, c⟩
    · rename_i hn
      have : i - s.queue.length = 0 := by
        cases hd : i - s.queue.length with
        | zero => rfl
        | succ j => rw [hd] at hx; simp at hx
      rw [this] at hx
      simp only [List.getElem?_cons_zero, Option.some.injEq] at hx
      subst hx
      refine ⟨?_, { payload, time := s.now }, ?_, rfl⟩
      · show s.calls.length = s.taken.length + i
        omega
      · show (s.calls ++ [_])[s.calls.length]? = _
        rw [List.getElem?_concat_length]
  · intro _
    simp only [List.length_append, List.length_cons, List.length_nil]
    omega
  · simp only [List.length_append, List.length_cons, List.length_nil]
    have := h.le; omega
  · intro p hp
    obtain ⟨m, a, b, call, c, d⟩ := h.pend p hp
    exact ⟨m, a, b, call, getElem?_append_some c, d⟩
  · intro hc; simp only at hc; rw [he] at hc; cases hc
  · intro k t hx
    obtain ⟨call, a, b⟩ := h.late k t hx
    exact ⟨call, getElem?_append_some a, b⟩
  · exact h.doneAt
  · intro call hc
    simp only [List.mem_append, List.mem_singleton] at hc
    rcases hc with hc | rfl
    · exact h.called call hc
    · exact Nat.le_refl _

theorem Calls.requestLate {s : State} (h : Calls s) (payload : Bytes) (he : s.ended = true) :
    Calls { s with calls := s.calls ++ [{ payload, time := s.now }], done := s.done ++ [(s.calls.length, Res.closed, s.now)] } := by
  obtain ⟨hq, hp⟩ := h.over he
  constructor
  · simp only [List.map_append, List.map_cons, List.map_nil, List.length_append, List.length_cons, List.length_nil]
    rw [List.range_succ, ← List.append_assoc, ← List.append_assoc]
    refine List.Perm.append_right _ ?_
    rw [List.append_assoc]
    exact h.perm
  · exact h.ids
  · intro n x hx
    obtain ⟨a, call, b, c⟩ := h.taken n x hx
    exact ⟨a, call, getElem?_append_some b, c⟩
  · exact h.idc
  · simp [hq]
  · intro hc; simp only at hc; rw [he] at hc; cases hc
  · simp only [List.length_append, List.length_cons, List.length_nil]
    have := h.le; omega
  · simp [hp]
  · intro _; exact ⟨hq, hp⟩
  · intro k t hx
    simp only [List.mem_append, List.mem_singleton] at hx
    rcases hx with hx | hx
    · obtain ⟨call, a, b⟩ := h.late k t hx
      exact ⟨call, getElem?_append_some a, b⟩
    · cases hx
  · intro x hx
    simp only [List.mem_append, List.mem_singleton] at hx
    rcases hx with hx | rfl
    · exact h.doneAt x hx
    · exact Nat.le_refl _
  · intro call hc
    simp only [List.mem_append, List.mem_singleton] at hc
    rcases hc with hc | rfl
    · exact h.called call hc
    · exact Nat.le_refl _

theorem Calls.step {s t : State} (hs : Step D s t) (h : Calls s) : Calls t := by
  cases hs with
  | now dt => exact h.frame rfl rfl rfl rfl rfl rfl rfl (Nat.le_add_right _ _) rfl rfl
  | misc | write | taskGone | connect | backoff | taskStart | readIdle | readErr | send | drop =>
    exact h.frame rfl rfl rfl rfl rfl rfl rfl (Nat.le_refl _) rfl rfl
  | giveUp b b' he hc hp =>
    have h' : Calls { s with conn := .inactive b' } := h.frame rfl rfl rfl rfl rfl rfl rfl (Nat.le_refl _) rfl rfl
    exact h'.terminate
  | readItem c m rd input he hc hp =>
    have h' : Calls { s with conn := .active { c with rd, input, polls := c.polls + 1, got := c.got ++ [m] } } :=
      h.frame rfl rfl rfl rfl rfl rfl rfl (Nat.le_refl _) rfl rfl
    exact h'.onMessage m he
  | readEnd c rd input he hc hp =>
    have h' : Calls { s with conn := .active { c with rd, input, polls := c.polls + 1 } } :=
      h.frame rfl rfl rfl rfl rfl rfl rfl (Nat.le_refl _) rfl rfl
    exact h'.terminate
  | tick iv he hi =>
    have h' : Calls { s with checkIv := iv } := h.frame rfl rfl rfl rfl rfl rfl rfl (Nat.le_refl _) rfl rfl
    exact h'.checkTimeouts he
  | command k payload q he hq => exact h.command k payload q he hq
  | close he hq hc => exact h.terminate
  | request payload he hc => exact h.request payload he
  | requestLate payload he hc => exact h.requestLate payload he

theorem new_calls {opts : Options} {comp : Option Compressor} {now : Nat} {s : State}
    (h : State.new opts comp now = .ok s) : Calls s := by
  unfold State.new at h
  cases hi : Interval.new now (opts.timeout / 10) with
  | panic => rw [hi] at h; cases h
  | ok iv =>
    rw [hi] at h
    simp only [R.bind_ok] at h
    have key : ∀ (f : Option Interval), Calls { opts, comp, now, conn := .inactive backoff0, checkIv := iv, flushIv := f } := by
      intro f
      constructor <;> simp
    split at h
    · cases h; exact key none
    · rename_i p _
      cases hj : Interval.new now p with
      | panic => rw [hj] at h; cases h
      | ok iv2 => rw [hj] at h; cases h; exact key (some iv2)

theorem Steps.calls {s t : State} (h : Steps D s t) (h0 : Calls s) : Calls t :=
  h.induct (P := Calls) (fun _ _ hs h => h.step hs) h0

end MsgRs.Req
