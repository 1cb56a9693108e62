import Verif.Proofs.ReqSocket
import Verif.Props.ReqRep
import Verif.Props.Returns
/-!
# Properties C78–C80: the front-end of the request socket

A history is a list of `Req.SAct`: the user connects, calls `request()`, polls or drops the future of a call, drops the socket; the
driver runs; time passes. Calls are numbered in the order they are made; `result i` is what call `i` has returned.
-/
namespace MsgRs.Props
open MsgRs MsgRs.Req

/-- A request socket some history leads to. -/
def SocketReach (D : Decompressors) (opts : Options) (comp : Option Compressor) (s : Socket) : Prop :=
  ∃ now acts, (Socket.new opts comp now).run D acts = .ok s

theorem SocketReach.inv {D opts comp s} (h : SocketReach D opts comp s) : FrontInv D s := by
  obtain ⟨now, acts, hr⟩ := h
  exact (FrontInv.new opts comp now).run acts hr

theorem SocketReach.opts {D opts comp s} (h : SocketReach D opts comp s) : s.opts = opts ∧ s.comp = comp := by
  obtain ⟨now, acts, hr⟩ := h
  exact run_opts acts hr

/-! ## C78 -/

/-- C78: in no history does the driver panic. (Sums of instants are unbounded here; a flush interval so large that
the clock overflows is C107.) -/
theorem C78_no_panic (D : Decompressors) (opts : Options) (comp : Option Compressor) (now : Nat) (acts : List SAct) :
    ∃ s, (Socket.new opts comp now).run D acts = .ok s := by
  have key : ∀ (acts : List SAct) (s : Socket), FrontInv D s → ∃ t, s.run D acts = .ok t := by
    intro acts
    induction acts with
    | nil => intro s _; exact ⟨s, rfl⟩
    | cons a as ih =>
      intro s hs
      have hdrv : ∀ d x, s.drv = some d → ∃ d', d.act D x = .ok d' := by
        intro d x hd
        obtain ⟨⟨now, s0, acts, h0, hr⟩, -⟩ := hs.reach d hd
        obtain ⟨t, ht⟩ := (C36_no_panic D s.opts s.comp now).2 s0 h0 (acts ++ [x])
        rw [run_append, hr] at ht
        simp only [R.bind, State.run] at ht
        cases hx : d.act D x with
        | panic => rw [hx] at ht; cases ht
        | ok d' => exact ⟨d', rfl⟩
      have hon : ∀ x, ∃ u, s.onDriver D x = .ok u := by
        intro x
        unfold Socket.onDriver
        split
        · exact ⟨_, rfl⟩
        · rename_i d hd
          obtain ⟨d', h⟩ := hdrv d x hd
          rw [h]
          exact ⟨_, rfl⟩
      have ha : ∃ t, s.act D a = .ok t := by
        cases a with
        | connect => exact ⟨_, rfl⟩
        | request p => exact ⟨_, rfl⟩
        | cancel i => exact ⟨_, rfl⟩
        | driver e => exact hon _
        | advance dt => obtain ⟨u, hu⟩ := hon (.advance dt); simp only [Socket.act, hu]; exact ⟨_, rfl⟩
        | drop => obtain ⟨u, hu⟩ := hon .dropSocket; simp only [Socket.act, hu]; exact ⟨_, rfl⟩
        | poll i =>
          simp only [Socket.act, Socket.pollCall]
          split
          · split
            · split
              · exact ⟨_, rfl⟩
              · split
                · rename_i c d _ hd _ _ _
                  obtain ⟨d', h⟩ := hdrv d (.request c.payload) hd
                  rw [h]
                  exact ⟨_, rfl⟩
                · exact ⟨_, rfl⟩
            · exact ⟨_, rfl⟩
          · exact ⟨_, rfl⟩
      obtain ⟨t, ht⟩ := ha
      obtain ⟨u, hu⟩ := ih t (hs.act a ht)
      exact ⟨u, by simp only [Socket.run, ht]; exact hu⟩
  exact key acts _ (FrontInv.new opts comp now)

theorem onDriver_same {D : Decompressors} {s t : Socket} {a : Act} (h : s.onDriver D a = .ok t) :
    t.transport = s.transport ∧ (s.drv = none → t.drv = none) ∧ t.dropped = s.dropped ∧ t.callers = s.callers := by
  unfold Socket.onDriver at h
  split at h
  · rename_i hd; cases h; exact ⟨rfl, id, rfl, rfl⟩
  · rename_i d hd
    cases hx : d.act D a with
    | panic => rw [hx] at h; cases h
    | ok d' => rw [hx] at h; cases h; exact ⟨rfl, fun hn => (by rw [hd] at hn; cases hn), rfl, rfl⟩

/-- Only connecting takes the transport or makes a driver. -/
theorem act_transport {D : Decompressors} {s t : Socket} {a : SAct} (h : s.act D a = .ok t) (ha : a ≠ .connect) :
    t.transport = s.transport ∧ (s.drv = none → t.drv = none) ∧ (a ≠ .drop → t.dropped = s.dropped) := by
  cases a with
  | connect => exact absurd rfl ha
  | request p =>
    simp only [Socket.act, R.ok.injEq] at h
    subst h
    split
    · exact ⟨rfl, id, fun _ => rfl⟩
    · unfold Socket.request; split
      · exact ⟨rfl, id, fun _ => rfl⟩
      · exact ⟨rfl, id, fun _ => rfl⟩
  | cancel i =>
    simp only [Socket.act, R.ok.injEq] at h
    subst h
    unfold Socket.cancel; split
    · exact ⟨rfl, id, fun _ => rfl⟩
    · exact ⟨rfl, id, fun _ => rfl⟩
  | driver e => obtain ⟨h1, h2, h3, -⟩ := onDriver_same h; exact ⟨h1, h2, fun _ => h3⟩
  | advance dt =>
    simp only [Socket.act] at h
    cases hu : s.onDriver D (.advance dt) with
    | panic => rw [hu] at h; cases h
    | ok u => rw [hu] at h; cases h; obtain ⟨h1, h2, h3, -⟩ := onDriver_same hu; exact ⟨h1, h2, fun _ => h3⟩
  | drop =>
    simp only [Socket.act] at h
    cases hu : s.onDriver D .dropSocket with
    | panic => rw [hu] at h; cases h
    | ok u => rw [hu] at h; cases h; obtain ⟨h1, h2, h3, -⟩ := onDriver_same hu; exact ⟨h1, h2, fun h => absurd rfl h⟩
  | poll i =>
    have ha' : s.pollCall D i = .ok t := h
    unfold Socket.pollCall at ha'
    split at ha'
    · rename_i c d _ hd
      split at ha'
      · split at ha'
        · cases ha'; exact ⟨rfl, id, fun _ => rfl⟩
        · split at ha'
          · cases hx : State.act D d (.request c.payload) with
            | panic => rw [hx] at ha'; cases ha'
            | ok d' => rw [hx] at ha'; cases ha'; exact ⟨rfl, fun hn => (by rw [hd] at hn; cases hn), fun _ => rfl⟩
          · cases ha'; exact ⟨rfl, id, fun _ => rfl⟩
      · cases ha'; exact ⟨rfl, id, fun _ => rfl⟩
    · cases ha'; exact ⟨rfl, id, fun _ => rfl⟩

/-- C78: as long as the user has not connected, every call fails at once with `SocketClosed`, and connecting is still
possible: it succeeds unless the timeout is below 10 ns or the flush interval is zero. -/
theorem C78_unconnected (D : Decompressors) (opts : Options) (comp : Option Compressor) (now : Nat) (acts : List SAct)
    (s : Socket) (hr : (Socket.new opts comp now).run D acts = .ok s) (hno : .connect ∉ acts) :
    (∀ i c, s.callers[i]? = some c → c.cancelled = false → s.result i = some .closed) ∧
    (s.tryConnect.1 = true ↔ 10 ≤ opts.timeout ∧ opts.flushInterval ≠ some 0) := by
  have key : ∀ (acts : List SAct) (s t : Socket), .connect ∉ acts → s.run D acts = .ok t →
      t.transport = s.transport ∧ (s.drv = none → t.drv = none) := by
    intro acts
    induction acts with
    | nil => intro s t _ h; cases h; exact ⟨rfl, id⟩
    | cons a as ih =>
      intro s t hno h
      simp only [Socket.run] at h
      cases ha : s.act D a with
      | panic => rw [ha] at h; cases h
      | ok u =>
        rw [ha] at h
        obtain ⟨h1, h2⟩ := ih u t (fun hm => hno (List.mem_cons_of_mem _ hm)) h
        obtain ⟨h3, h4, -⟩ := act_transport ha (fun hc => hno (by rw [hc]; exact List.mem_cons_self ..))
        exact ⟨h1.trans h3, h2 ∘ h4⟩
  obtain ⟨ht, hd⟩ := key acts _ s hno hr
  have hd := hd rfl
  have hi : FrontInv D s := (FrontInv.new opts comp now).run acts hr
  obtain ⟨ho, hcp⟩ := run_opts acts hr
  constructor
  · intro i c hc hcan
    have := hi.idle hd c (List.mem_of_getElem? hc)
    simp [Socket.result, hc, hcan, this]
  · have hpanic := (C36_no_panic D s.opts s.comp s.now).1
    have ht' : s.transport = true := ht
    have ho' : s.opts = opts := ho
    unfold Socket.tryConnect
    rw [if_pos ht']
    cases hn : State.new s.opts s.comp s.now with
    | panic =>
      rw [hn] at hpanic
      have := hpanic.1 rfl
      rw [ho'] at this
      simp only [Bool.false_eq_true, false_iff]
      intro ⟨h1, h2⟩
      rcases this with h | h
      · omega
      · exact h2 h
    | ok d =>
      rw [hn] at hpanic
      simp only [true_iff]
      rw [ho'] at hpanic
      constructor
      · apply Nat.le_of_not_lt
        intro h
        have := hpanic.2 (.inl h)
        cases this
      · intro h
        have := hpanic.2 (.inr h)
        cases this

/-- C78: once the user has tried to connect, successfully or not, every further attempt panics and changes nothing. -/
theorem C78_connects_once (D : Decompressors) (opts : Options) (comp : Option Compressor) (now : Nat) (acts : List SAct)
    (s : Socket) (hr : (Socket.new opts comp now).run D acts = .ok s) (hc : .connect ∈ acts) (hdrop : .drop ∉ acts) :
    s.tryConnect = (false, s) := by
  have key : ∀ (acts : List SAct) (s t : Socket), .drop ∉ acts → s.dropped = false → (s.transport = false ∨ .connect ∈ acts) →
      s.run D acts = .ok t → t.transport = false := by
    intro acts
    induction acts with
    | nil =>
      intro s t _ _ h hr
      cases hr
      exact h.resolve_right (by simp)
    | cons a as ih =>
      intro s t hd hdr h hr
      simp only [Socket.run] at hr
      cases ha : s.act D a with
      | panic => rw [ha] at hr; cases hr
      | ok u =>
        rw [ha] at hr
        have hd' : SAct.drop ∉ as := fun hm => hd (List.mem_cons_of_mem _ hm)
        by_cases hcon : a = .connect
        · subst hcon
          simp only [Socket.act, hdr, Bool.false_eq_true, if_false, R.ok.injEq] at ha
          subst ha
          have hu : s.tryConnect.2.dropped = false ∧ s.tryConnect.2.transport = false := by
            unfold Socket.tryConnect
            split
            · split <;> exact ⟨hdr, rfl⟩
            · rename_i hx; exact ⟨hdr, by simpa using hx⟩
          exact ih _ t hd' hu.1 (.inl hu.2) hr
        · obtain ⟨h1, -, h3⟩ := act_transport ha hcon
          refine ih u t hd' ?_ ?_ hr
          · rw [h3 (fun hx => hd (by rw [hx]; exact List.mem_cons_self ..))]; exact hdr
          · rcases h with h | h
            · exact .inl (h1.trans h)
            · rcases List.mem_cons.1 h with h | h
              · exact absurd h.symm hcon
              · exact .inr h
  have := key acts _ s hdrop rfl (.inr hc) hr
  simp [Socket.tryConnect, this]

/-- A call before connecting, then connecting, then connecting again. -/
example : ∃ s, (Socket.new {} none 0).run noDec [.request [1], .connect, .request [2]] = .ok s ∧
    s.result 0 = some .closed ∧ s.result 1 = none ∧ s.tryConnect.1 = false ∧
    (Socket.new {} none 0).tryConnect.1 = true ∧ (Socket.new { timeout := 9 } none 0).tryConnect.1 = false :=
  ⟨_, rfl, rfl, rfl, rfl, rfl, rfl⟩

/-! ## C79 -/

/-- The action polls the future of call `i`. -/
def isPoll (i : Nat) : SAct → Bool
  | .poll j => j = i
  | _ => false

theorem cancel_act {D : Decompressors} {s : Socket} {i : Nat} (hi : i < s.callers.length) (a : SAct) :
    ((s.cancel i).act D a = if isPoll i a then .ok (s.cancel i) else (s.act D a).bind fun t => .ok (t.cancel i)) ∧
    ∀ t, s.act D a = .ok t → i < t.callers.length := by
  obtain ⟨c, hc⟩ : ∃ c, s.callers[i]? = some c := ⟨_, List.getElem?_eq_getElem hi⟩
  have hcan : s.cancel i = { s with callers := s.callers.set i { c with cancelled := true } } := by
    simp [Socket.cancel, hc]
  have hon : ∀ x, (s.cancel i).onDriver D x = (s.onDriver D x).bind fun t => .ok (t.cancel i) := by
    intro x
    rw [hcan]
    unfold Socket.onDriver
    cases hd : s.drv with
    | none => simp only [R.bind]; rw [hcan, hd]
    | some d =>
      simp only
      cases hx : d.act D x with
      | panic => rfl
      | ok d' =>
        simp only [R.bind_ok, R.pure_eq, R.bind]
        simp [Socket.cancel, hc]
  have hlen : ∀ x t, s.onDriver D x = .ok t → i < t.callers.length := by
    intro x t h
    rw [(onDriver_same h).2.2.2]; exact hi
  cases a with
  | connect =>
    refine ⟨?_, ?_⟩
    · simp only [Socket.act, isPoll, Bool.false_eq_true, if_false, R.bind]
      congr 1
      rw [hcan]
      split
      · rw [hcan]
      · unfold Socket.tryConnect
        simp only
        split
        · split <;> simp [Socket.cancel, hc]
        · simp [Socket.cancel, hc]
    · intro t ht
      simp only [Socket.act, R.ok.injEq] at ht
      subst ht
      split
      · exact hi
      · unfold Socket.tryConnect
        split
        · split <;> exact hi
        · exact hi
  | request p =>
    have e1 : ∀ x : Caller, (s.callers ++ [x])[i]? = some c := fun x => by rw [List.getElem?_append_left hi]; exact hc
    have e2 : ∀ x y : Caller, (s.callers ++ [x]).set i y = s.callers.set i y ++ [x] := fun x y => by
      rw [List.set_append_left _ _ hi]
    refine ⟨?_, ?_⟩
    · simp only [Socket.act, isPoll, Bool.false_eq_true, if_false, R.bind]
      congr 1
      rw [hcan]
      split
      · rw [hcan]
      · unfold Socket.request
        cases hd : s.drv with
        | none => simp only; unfold Socket.cancel; simp only [e1, e2, hd]
        | some d => simp only; unfold Socket.cancel; simp only [e1, e2, hd]
    · intro t ht
      simp only [Socket.act, R.ok.injEq] at ht
      subst ht
      split
      · exact hi
      · unfold Socket.request; split <;> simp <;> omega
  | cancel j =>
    refine ⟨?_, ?_⟩
    · simp only [Socket.act, isPoll, Bool.false_eq_true, if_false, R.bind]
      congr 1
      rw [hcan]
      by_cases hji : j = i
      · subst hji
        simp only [Socket.cancel, hc, List.getElem?_set, if_true, hi, if_pos]
      · unfold Socket.cancel
        simp only [List.getElem?_set, if_neg (fun h => hji h.symm : ¬ i = j)]
        cases hj : s.callers[j]? with
        | none => simp only [hc]
        | some c' =>
          simp only [List.getElem?_set, if_neg hji, hc]
          rw [List.set_comm _ _ (fun h => hji h.symm)]
    · intro t ht
      simp only [Socket.act, R.ok.injEq] at ht
      subst ht
      unfold Socket.cancel
      split
      · simp only [List.length_set]; exact hi
      · exact hi
  | driver e => exact ⟨by simp only [isPoll, Bool.false_eq_true, if_false]; exact hon _, fun t ht => hlen _ t ht⟩
  | advance dt =>
    refine ⟨?_, ?_⟩
    · simp only [Socket.act, isPoll, Bool.false_eq_true, if_false, hon]
      cases hu : s.onDriver D (.advance dt) with
      | panic => rfl
      | ok u =>
        simp only [R.bind, R.bind_ok, R.pure_eq]
        simp only [Socket.cancel]
        cases u.callers[i]? <;> rfl
    · intro t ht
      simp only [Socket.act] at ht
      cases hu : s.onDriver D (.advance dt) with
      | panic => rw [hu] at ht; cases ht
      | ok u => rw [hu] at ht; cases ht; exact hlen _ u hu
  | drop =>
    refine ⟨?_, ?_⟩
    · simp only [Socket.act, isPoll, Bool.false_eq_true, if_false, hon]
      cases hu : s.onDriver D .dropSocket with
      | panic => rfl
      | ok u =>
        simp only [R.bind, R.bind_ok, R.pure_eq]
        simp only [Socket.cancel]
        cases u.callers[i]? <;> rfl
    · intro t ht
      simp only [Socket.act] at ht
      cases hu : s.onDriver D .dropSocket with
      | panic => rw [hu] at ht; cases ht
      | ok u => rw [hu] at ht; cases ht; exact hlen _ u hu
  | poll j =>
    have hlen' : ∀ t, s.pollCall D j = .ok t → t.callers.length = s.callers.length := by
      intro t ht
      unfold Socket.pollCall at ht
      split at ht
      · rename_i c' d _ hd
        split at ht
        · split at ht
          · cases ht; simp
          · split at ht
            · cases hx : State.act D d (.request c'.payload) with
              | panic => rw [hx] at ht; cases ht
              | ok d' => rw [hx] at ht; cases ht; simp
            · cases ht; rfl
        · cases ht; rfl
      · cases ht; rfl
    refine ⟨?_, fun t ht => by rw [hlen' t ht]; exact hi⟩
    by_cases hji : j = i
    · subst hji
      simp only [isPoll, decide_true, if_true]
      rw [hcan]
      simp only [Socket.act, Socket.pollCall, List.getElem?_set, if_true, hi]
      cases hd : s.drv with
      | none => rfl
      | some d => simp
    · simp only [isPoll, hji, decide_false, Bool.false_eq_true, if_false]
      rw [hcan]
      simp only [Socket.act, Socket.pollCall, List.getElem?_set, if_neg (fun h => hji h.symm : ¬ i = j)]
      have same : ∀ t : Socket, t.callers = s.callers → t.cancel i = { t with callers := s.callers.set i { c with cancelled := true } } := by
        intro t ht
        simp [Socket.cancel, ht, hc]
      have other : ∀ (t : Socket) (y : Caller), t.callers = s.callers.set j y →
          t.cancel i = { t with callers := (s.callers.set i { c with cancelled := true }).set j y } := by
        intro t y ht
        simp only [Socket.cancel, ht, List.getElem?_set, if_neg hji, hc]
        rw [List.set_comm _ _ hji]
      cases hj : s.callers[j]? with
      | none => simp only [R.bind]; rw [same s rfl]
      | some c' =>
        cases hd : s.drv with
        | none => simp only [R.bind]; rw [same s rfl]; simp [hd]
        | some d =>
          simp only
          split
          · split
            · simp only [R.bind]
              rw [other _ _ rfl]
            · split
              · cases hx : State.act D d (.request c'.payload) with
                | panic => rfl
                | ok d' =>
                  simp only [R.bind_ok, R.pure_eq, R.bind]
                  rw [other _ _ rfl]
              · simp only [R.bind]; rw [same s rfl]; simp [hd]
          · simp only [R.bind]; rw [same s rfl]; simp [hd]

/-- C79: giving up a call (dropping its future) has no effect on anything else: what follows is what would have happened
if the user had just not polled the future of that call any more: the driver (and with it everything on the wire) and all
other calls are the same. -/
theorem C79_cancel_isolated (D : Decompressors) (opts : Options) (comp : Option Compressor) (now : Nat)
    (pre post : List SAct) (i : Nat) (s0 s : Socket) (hpre : (Socket.new opts comp now).run D pre = .ok s0)
    (hmade : i < s0.callers.length) (hr : (Socket.new opts comp now).run D (pre ++ .cancel i :: post) = .ok s) :
    ∃ s', (Socket.new opts comp now).run D (pre ++ post.filter (!isPoll i ·)) = .ok s' ∧ s.drv = s'.drv ∧
      s.callers.length = s'.callers.length ∧ ∀ j, j ≠ i → s.callers[j]? = s'.callers[j]? ∧ s.result j = s'.result j := by
  have key : ∀ (post : List SAct) (s0 s : Socket), i < s0.callers.length → (s0.cancel i).run D post = .ok s →
      ∃ s', s0.run D (post.filter (!isPoll i ·)) = .ok s' ∧ s = s'.cancel i := by
    intro post
    induction post with
    | nil => intro s0 s _ h; cases h; exact ⟨s0, rfl, rfl⟩
    | cons a as ih =>
      intro s0 s hi h
      obtain ⟨h1, h2⟩ := cancel_act (D := D) hi a
      simp only [Socket.run, h1] at h
      cases hp : isPoll i a with
      | true =>
        simp only [hp, if_true, R.bind_ok] at h
        obtain ⟨s', h3, h4⟩ := ih s0 s hi h
        exact ⟨s', by simp only [List.filter_cons, hp, Bool.not_true, Bool.false_eq_true, if_false]; exact h3, h4⟩
      | false =>
        simp only [hp, Bool.false_eq_true, if_false] at h
        cases hx : s0.act D a with
        | panic => rw [hx] at h; cases h
        | ok u =>
          rw [hx] at h
          simp only [R.bind, R.bind_ok] at h
          obtain ⟨s', h3, h4⟩ := ih u s (h2 u hx) h
          refine ⟨s', ?_, h4⟩
          simp only [List.filter_cons, hp, Bool.not_false, if_true, Socket.run, hx]
          exact h3
  rw [srun_append, hpre] at hr
  simp only [R.bind, Socket.run, Socket.act, R.bind_ok] at hr
  obtain ⟨s', h1, h2⟩ := key post s0 s hmade hr
  refine ⟨s', ?_, ?_⟩
  · rw [srun_append, hpre]; exact h1
  · subst h2
    unfold Socket.cancel
    split
    · rename_i c hc
      refine ⟨rfl, by simp, fun j hj => ?_⟩
      have : (s'.callers.set i { c with cancelled := true })[j]? = s'.callers[j]? := by
        rw [List.getElem?_set, if_neg (fun h => hj h.symm)]
      refine ⟨this, ?_⟩
      unfold Socket.result
      rw [this]
    · exact ⟨rfl, rfl, fun j _ => ⟨rfl, rfl⟩⟩

/-- C79: a call given up while it waited for room never reaches the driver. -/
theorem C79_cancelled_waiting (D : Decompressors) (s t : Socket) (i : Nat) (c : Caller) (hc : s.callers[i]? = some c)
    (hw : c.stage = .waiting) (post : List SAct) (hr : s.run D (.cancel i :: post) = .ok t) :
    ∃ c', t.callers[i]? = some c' ∧ c'.stage = .waiting := by
  have hi : i < s.callers.length := (List.getElem?_eq_some_iff.1 hc).1
  have step : ∀ (s t : Socket) (a : SAct), s.act D a = .ok t → (∃ c, s.callers[i]? = some c ∧ c.stage = .waiting ∧ c.cancelled = true) →
      ∃ c, t.callers[i]? = some c ∧ c.stage = .waiting ∧ c.cancelled = true := by
    intro s t a ha ⟨c, hc, hw, hcan⟩
    have hi : i < s.callers.length := (List.getElem?_eq_some_iff.1 hc).1
    have setk : ∀ j y, (j ≠ i ∨ y = c) → (s.callers.set j y)[i]? = some c := by
      intro j y h
      rw [List.getElem?_set]
      split
      · rename_i hij
        subst hij
        rw [if_pos hi]
        rcases h with h | h
        · exact absurd rfl h
        · rw [h]
      · exact hc
    cases a with
    | connect =>
      simp only [Socket.act, R.ok.injEq] at ha
      subst ha
      split
      · exact ⟨c, hc, hw, hcan⟩
      · unfold Socket.tryConnect
        split
        · split <;> exact ⟨c, hc, hw, hcan⟩
        · exact ⟨c, hc, hw, hcan⟩
    | request p =>
      simp only [Socket.act, R.ok.injEq] at ha
      subst ha
      split
      · exact ⟨c, hc, hw, hcan⟩
      · unfold Socket.request
        split <;> exact ⟨c, by simp only [List.getElem?_append_left hi]; exact hc, hw, hcan⟩
    | driver e => rw [(onDriver_same ha).2.2.2]; exact ⟨c, hc, hw, hcan⟩
    | advance dt =>
      simp only [Socket.act] at ha
      cases hu : s.onDriver D (.advance dt) with
      | panic => rw [hu] at ha; cases ha
      | ok u => rw [hu] at ha; cases ha; simp only [(onDriver_same hu).2.2.2]; exact ⟨c, hc, hw, hcan⟩
    | drop =>
      simp only [Socket.act] at ha
      cases hu : s.onDriver D .dropSocket with
      | panic => rw [hu] at ha; cases ha
      | ok u => rw [hu] at ha; cases ha; simp only [(onDriver_same hu).2.2.2]; exact ⟨c, hc, hw, hcan⟩
    | cancel j =>
      simp only [Socket.act, R.ok.injEq] at ha
      subst ha
      unfold Socket.cancel
      split
      · rename_i c' hj
        refine ⟨c, setk j _ ?_, hw, hcan⟩
        by_cases hji : j = i
        · subst hji
          rw [hc] at hj
          cases hj
          right
          cases c
          simp_all
        · exact .inl hji
      · exact ⟨c, hc, hw, hcan⟩
    | poll j =>
      have ha' : s.pollCall D j = .ok t := ha
      unfold Socket.pollCall at ha'
      split at ha'
      · rename_i c' d hj hd
        split at ha'
        · rename_i hcond
          have hji : j ≠ i := by
            intro h
            subst h
            rw [hc] at hj
            cases hj
            rw [hcan] at hcond
            cases hcond.2.1
          split at ha'
          · cases ha'; exact ⟨c, setk j _ (.inl hji), hw, hcan⟩
          · split at ha'
            · cases hx : State.act D d (.request c'.payload) with
              | panic => rw [hx] at ha'; cases ha'
              | ok d' => rw [hx] at ha'; cases ha'; exact ⟨c, setk j _ (.inl hji), hw, hcan⟩
            · cases ha'; exact ⟨c, hc, hw, hcan⟩
        · cases ha'; exact ⟨c, hc, hw, hcan⟩
      · cases ha'; exact ⟨c, hc, hw, hcan⟩
  have key : ∀ (post : List SAct) (s t : Socket), s.run D post = .ok t → (∃ c, s.callers[i]? = some c ∧ c.stage = .waiting ∧ c.cancelled = true) →
      ∃ c, t.callers[i]? = some c ∧ c.stage = .waiting ∧ c.cancelled = true := by
    intro post
    induction post with
    | nil => intro s t h hc; cases h; exact hc
    | cons a as ih =>
      intro s t h hc
      simp only [Socket.run] at h
      cases ha : s.act D a with
      | panic => rw [ha] at h; cases h
      | ok u => rw [ha] at h; exact ih u t h (step s u a ha hc)
  simp only [Socket.run, Socket.act, R.bind_ok] at hr
  obtain ⟨c', h1, h2, -⟩ := key post _ t hr ⟨{ c with cancelled := true }, by
    simp only [Socket.cancel, hc, List.getElem?_set, if_true, hi], hw, rfl⟩
  exact ⟨c', h1, h2⟩

/-- C79: the `n`-th request handed to the connections of the socket (over all of them) is the frame of exactly one
call, one that had entered the command channel as the `n`-th. So no call is sent twice, given up or not, and one
that did not enter the channel not at all. -/
theorem C79_sent_at_most_once (D : Decompressors) (opts comp) (s : Socket) (h : SocketReach D opts comp s) (d : State)
    (hd : s.drv = some d) (n : Nat) (x : Nat × ReqRep.Message) (hx : (d.chans.flatMap (·.sent))[n]? = some x) :
    ∃ (i : Nat) (c : Caller), s.callers[i]? = some c ∧ c.stage = .entered n ∧ x = (n, requestFrame opts comp n c.payload) ∧
      ∀ (j : Nat) (c' : Caller), s.callers[j]? = some c' → c'.stage = .entered n → j = i := by
  have hi := h.inv
  obtain ⟨ho, hcp⟩ := h.opts
  obtain ⟨hr, -⟩ := hi.reach d hd
  rw [ho, hcp] at hr
  obtain ⟨⟨m, hm⟩, -⟩ := C40_in_order_at_most_once D opts comp d hr
  rw [hm] at hx
  rw [List.getElem?_map] at hx
  cases hz : (d.calls.take m).zipIdx[n]? with
  | none => rw [hz] at hx; cases hx
  | some y =>
    rw [hz] at hx
    simp only [Option.map_some, Option.some.injEq] at hx
    rw [List.getElem?_zipIdx] at hz
    cases ht : (d.calls.take m)[n]? with
    | none => rw [ht] at hz; cases hz
    | some call =>
      rw [ht] at hz
      simp only [Option.map_some, Option.some.injEq, Nat.zero_add] at hz
      subst hz
      have hcall : d.calls[n]? = some call := by
        rw [List.getElem?_take] at ht
        split at ht
        · exact ht
        · cases ht
      obtain ⟨i, c, h1, h2⟩ := hi.surj d n hd (List.getElem?_eq_some_iff.1 hcall).1
      obtain ⟨d', call', k1, k2, k3, -⟩ := hi.entered i c n h1 h2
      rw [hd] at k1
      cases k1
      rw [hcall] at k2
      cases k2
      exact ⟨i, c, h1, h2, by rw [← hx, ← k3], fun j c' hj hc' => hi.inj j i c' c n hj h1 hc' h2⟩

/-- What a call returned, the driver has recorded for it. -/
theorem result_done {s : Socket} {i : Nat} {r : Res} (h : s.result i = some r) : ∃ c, s.callers[i]? = some c ∧
    (c.stage = .refused ∧ r = .closed ∨ ∃ k d t, c.stage = .entered k ∧ s.drv = some d ∧ (k, r, t) ∈ d.done) := by
  unfold Socket.result at h
  split at h
  · cases h
  · rename_i c hc
    refine ⟨c, hc, ?_⟩
    split at h
    · cases h
    · split at h
      · cases h
      · rename_i hs; cases h; exact .inl ⟨hs, rfl⟩
      · rename_i k hs
        cases hd : s.drv with
        | none => rw [hd] at h; cases h
        | some d =>
          rw [hd] at h
          simp only [Option.bind_some, Option.map_eq_some_iff] at h
          obtain ⟨⟨r', t⟩, h1, h2⟩ := h
          simp only at h2
          subst h2
          refine .inr ⟨k, d, t, hs, rfl, ?_⟩
          obtain ⟨l1, l2, hl, -⟩ := List.lookup_eq_some_iff.1 h1
          rw [hl]
          simp

/-- Every call the driver knows was made by a caller. -/
theorem front_callOf {D : Decompressors} {s : Socket} (hi : FrontInv D s) {d : State} (hd : s.drv = some d) :
    ∀ k < d.calls.length, ∃ (i : Nat) (c : Caller) (call : Call), s.callers[i]? = some c ∧ c.stage = .entered k ∧ d.calls[k]? = some call ∧
      call.payload = c.payload := by
  intro k hk
  obtain ⟨i, c, h1, h2⟩ := hi.surj d k hd hk
  obtain ⟨d', call, k1, k2, k3, -⟩ := hi.entered i c k h1 h2
  rw [hd] at k1
  cases k1
  exact ⟨i, c, call, h1, h2, k2, k3⟩

/-- The driver knows at most as many calls as were made. -/
theorem front_calls_le {D : Decompressors} {s : Socket} (hi : FrontInv D s) {d : State} (hd : s.drv = some d) :
    d.calls.length ≤ s.callers.length := by
  -- distinct driver calls belong to distinct callers
  have hex : ∃ f : Nat → Nat, ∀ k, k < d.calls.length → ∃ c, s.callers[f k]? = some c ∧ c.stage = .entered k := by
    refine ⟨fun k => if hk : k < d.calls.length then (hi.surj d k hd hk).choose else 0, fun k hk => ?_⟩
    simp only [dif_pos hk]
    exact (hi.surj d k hd hk).choose_spec
  obtain ⟨f, hf⟩ := hex
  have hnd : ((List.range d.calls.length).map f).Nodup := by
    unfold List.Nodup
    rw [List.pairwise_map]
    refine List.Pairwise.imp_of_mem ?_ List.pairwise_lt_range
    intro a b ha hb hab heq
    obtain ⟨x, x1, x2⟩ := hf a (List.mem_range.1 ha)
    obtain ⟨y, y1, y2⟩ := hf b (List.mem_range.1 hb)
    rw [heq, y1] at x1
    cases x1
    rw [y2] at x2
    cases x2
    omega
  have hsub : (List.range d.calls.length).map f ⊆ List.range s.callers.length := by
    intro z hz
    obtain ⟨k, hk, rfl⟩ := List.mem_map.1 hz
    obtain ⟨x, x1, -⟩ := hf k (List.mem_range.1 hk)
    exact List.mem_range.2 (List.getElem?_eq_some_iff.1 x1).1
  have := hnd.length_le_of_subset hsub
  simpa using this

/-- C79, and C34 for the calls as the user makes them: whatever other calls are made, polled or given up, if call `i` returned
the payload `b`, the server application received a request with the payload of call `i` and called `respond(b)` on it. -/
theorem C79_own_response {A : Type} [DecidableEq A] (D : Decompressors)
    (opts : Req.Options) (comp : Option Compressor) (s : Socket) (h : SocketReach D opts comp s) (d : State) (hd : s.drv = some d)
    (max authn rcomp) (acts : List (Rep.Act A)) (srv : Rep.Driver A)
    (hsrv : (Rep.Driver.new max authn rcomp : Rep.Driver A).run D acts = .ok srv)
    (hnet : Spec.Network d srv)
    (hinv : ∀ c, comp = some c → Spec.Inverts D c) (hrinv : ∀ c, rcomp = some c → Spec.Inverts D c)
    (hids : s.callers.length ≤ 2 ^ 32)
    (hreq : ∀ c ∈ s.callers, (requestPrepare opts.minCompress comp c.payload).payload.length < 2 ^ 32)
    (hresp : ∀ p ∈ srv.conns, ∀ x ∈ p.answers, x.2.payload.length < 2 ^ 32)
    (i : Nat) (b : Bytes) (hres : s.result i = some (.ok b)) :
    ∃ c, s.callers[i]? = some c ∧
      ∃ pre n post srv0 r, acts = pre ++ .respond n b :: post ∧
        (Rep.Driver.new max authn rcomp : Rep.Driver A).run D pre = .ok srv0 ∧ srv0.held[n]? = some r ∧ r.msg = c.payload := by
  have hi := h.inv
  obtain ⟨ho, hcp⟩ := h.opts
  obtain ⟨hr, -⟩ := hi.reach d hd
  rw [ho, hcp] at hr
  obtain ⟨c, hc, h' | ⟨k, d', t, h1, h2, h3⟩⟩ := result_done hres
  · cases h'.2
  · rw [hd] at h2
    cases h2
    have hcalls := front_callOf hi hd
    have hlen := front_calls_le hi hd
    obtain ⟨call, g1, cc, g2, p, g3, g4, pre, n, post, srv0, r, g5, g6, g7, g8, g9, g10⟩ := C34_own_response D opts comp d hr max authn rcomp acts srv hsrv hnet hinv hrinv
      (Nat.le_trans hlen hids) (by
        intro call hcall
        obtain ⟨k, hk, hk2⟩ := List.getElem_of_mem hcall
        obtain ⟨i, c, call', e1, e2, e3, e4⟩ := hcalls k hk
        rw [List.getElem?_eq_getElem hk, hk2] at e3
        cases e3
        rw [e4]
        exact hreq c (List.mem_of_getElem? e1)) hresp k b t h3
    obtain ⟨d', call', k1, k2, k3, -⟩ := hi.entered i c k hc h1
    rw [hd] at k1
    cases k1
    rw [g1] at k2
    cases k2
    exact ⟨c, hc, pre, n, post, srv0, r, g5, g6, g7, by rw [g9, k3]⟩

/-- C79: when the driver is gone, every call that was not given up returns when its future is polled: those that had
entered the channel have a result already, those still waiting for room get `SocketClosed`. -/
theorem C79_all_resolve (D : Decompressors) (opts comp) (s : Socket) (h : SocketReach D opts comp s) (d : State)
    (hd : s.drv = some d) (he : d.ended = true) (hdr : s.dropped = false) (i : Nat) (c : Caller) (hc : s.callers[i]? = some c)
    (hcan : c.cancelled = false) (t : Socket) (ht : s.act D (.poll i) = .ok t) : ∃ r, t.result i = some r := by
  have hi := h.inv
  have hlt : i < s.callers.length := (List.getElem?_eq_some_iff.1 hc).1
  obtain ⟨hr, -⟩ := hi.reach d hd
  have ht' : s.pollCall D i = .ok t := ht
  unfold Socket.pollCall at ht'
  rw [hc, hd] at ht'
  simp only [hcan, hdr, he, if_true, and_self, and_true] at ht'
  by_cases hw : c.stage = .waiting
  · rw [if_pos hw] at ht'
    cases ht'
    exact ⟨.closed, by simp [Socket.result, hlt]⟩
  · rw [if_neg hw] at ht'
    cases ht'
    cases hs : c.stage with
    | waiting => exact absurd hs hw
    | refused => exact ⟨.closed, by simp [Socket.result, hc, hcan, hs]⟩
    | entered k =>
      obtain ⟨d', call, k1, k2, -⟩ := hi.entered i c k hc hs
      rw [hd] at k1
      cases k1
      obtain ⟨r, u, hru⟩ := (C36_end_resolves_all D s.opts s.comp d hr).1 he k (List.getElem?_eq_some_iff.1 k2).1
      cases hl : d.done.lookup k with
      | none =>
        have := List.lookup_eq_none_iff.1 hl (k, r, u) hru
        simp at this
      | some y => exact ⟨y.1, by simp [Socket.result, hc, hcan, hs, hd, hl]⟩

/-- Three calls, the second given up after it entered the channel: all three go out, the first and the third get their answers;
then the server hangs up, the socket reconnects and is refused; a fourth call, given up before it entered, is not sent. -/
example : ∃ s d, (Socket.new {} none 0).run noDec [.connect, .request [1], .poll 0, .request [2], .poll 1, .request [3], .poll 2,
    .cancel 1, .request [4], .cancel 3, .poll 3, .driver {}, .advance 20000000, .driver {},
    .driver { task := some (some ⟨[.pending, .pending, .pending, .pending, .pending, .data (reqBytes 0 [9] ++ reqBytes 1 [8] ++ reqBytes 2 [7])], [], [], []⟩) },
    .driver {}, .driver {}, .driver {}, .driver {}, .driver {}, .driver {}, .driver {}, .driver {}] = .ok s ∧
    s.drv = some d ∧ s.callers.map (·.stage) = [.entered 0, .entered 1, .entered 2, .waiting] ∧
    (d.chans.flatMap (·.sent)).map (·.2.payload) = [[1], [2], [3]] ∧
    s.result 0 = some (.ok [9]) ∧ s.result 1 = none ∧ s.result 2 = some (.ok [7]) ∧ s.result 3 = none ∧
    d.done.map (·.2.1) = [.ok [9], .ok [8], .ok [7]] :=
  ⟨_, _, rfl, rfl, rfl, rfl, rfl, rfl, rfl, rfl, rfl⟩

/-! ## C80 -/

/-- C80: at no time are more than 1024 requests waiting for the driver in the command channel; further callers wait. -/
theorem C80_bounded (D : Decompressors) (opts comp) (s : Socket) (h : SocketReach D opts comp s) (d : State)
    (hd : s.drv = some d) : d.queue.length ≤ 1024 := (h.inv.reach d hd).2.2.2

/-- C80: a call that finds the channel full waits: polling its future changes nothing. -/
theorem C80_waits (D : Decompressors) (opts comp) (s : Socket) (h : SocketReach D opts comp s) (d : State) (hd : s.drv = some d)
    (he : d.ended = false) (hfull : d.queue.length = 1024) (i : Nat) (c : Caller) (hc : s.callers[i]? = some c)
    (hw : c.stage = .waiting) (t : Socket) (ht : s.act D (.poll i) = .ok t) : t = s ∧ t.result i = none := by
  have ht' : s.pollCall D i = .ok t := ht
  have : s.pollCall D i = .ok s := by
    unfold Socket.pollCall
    rw [hc, hd]
    simp only
    split
    · rw [if_neg (by simp [he]), if_neg (by rw [hfull]; decide)]
    · rfl
  rw [this] at ht'
  cases ht'
  exact ⟨rfl, by simp [Socket.result, hc, hw]⟩

/-- Every fill level of the channel occurs: here with a driver that was not run at all. -/
theorem queue_fills (D : Decompressors) (n : Nat) (hn : n ≤ 1024) : ∃ s d,
    (Socket.new {} none 0).run D (.connect :: (List.range n).flatMap fun k => [.request [1], .poll k]) = .ok s ∧
    s.drv = some d ∧ d.ended = false ∧ d.closed = false ∧ s.dropped = false ∧ s.callers.length = n ∧ d.queue.length = n := by
  induction n with
  | zero => exact ⟨_, _, rfl, rfl, rfl, rfl, rfl, rfl, rfl⟩
  | succ n ih =>
    obtain ⟨s, d, h1, h2, h3, h3', h4, h5, h6⟩ := ih (by omega)
    have hr : State.act D d (.request [1]) = .ok { d with
        calls := d.calls ++ [{ payload := [1], time := d.now }]
        queue := d.queue ++ [(d.calls.length, [1])] } := by
      simp only [State.act, h3, h3']
      rfl
    have hp : s.run D [.request [1], .poll n] = .ok { s with
        drv := some { d with calls := d.calls ++ [{ payload := [1], time := d.now }], queue := d.queue ++ [(d.calls.length, [1])] }
        callers := s.callers ++ [{ payload := [1], time := s.now, stage := .entered d.calls.length }] } := by
      have hget : (s.callers ++ [({ payload := [1], time := s.now } : Caller)])[n]? = some { payload := [1], time := s.now } := by
        rw [List.getElem?_append_right (by omega)]
        simp [h5]
      have hset : (s.callers ++ [({ payload := [1], time := s.now } : Caller)]).set n { payload := [1], time := s.now, stage := .entered d.calls.length } =
          s.callers ++ [{ payload := [1], time := s.now, stage := .entered d.calls.length }] := by
        rw [List.set_append_right _ _ (by omega)]
        simp [h5]
      simp only [Socket.run, Socket.act, h4, Socket.request, h2, R.bind_ok, Bool.false_eq_true, if_false, Socket.pollCall, hget]
      rw [if_pos (by simp), if_neg (by simp [h3]), if_pos (by simp [chanCap]; omega), hr]
      simp only [R.bind_ok, hset]
      rfl
    have hrun := srun_append (D := D) (Socket.new {} none 0) (.connect :: (List.range n).flatMap fun k => [.request [1], .poll k])
      [.request [1], .poll n]
    simp only [h1, R.bind, hp] at hrun
    rw [List.range_succ, List.flatMap_append]
    exact ⟨_, _, hrun, rfl, h3, h3', h4, by simp [h5], by simp [h6]⟩

/-- A full channel, and a call that finds it full. -/
example (D : Decompressors) : ∃ s d, SocketReach D {} none s ∧ s.drv = some d ∧ d.ended = false ∧ d.queue.length = 1024 ∧
    s.callers[1024]? = some ⟨[2], s.now, .waiting, false⟩ := by
  obtain ⟨s, d, h1, h2, h3, -, h4, h5, h6⟩ := queue_fills D 1024 (Nat.le_refl _)
  generalize hl : SAct.connect :: List.flatMap (fun k => [SAct.request [1], SAct.poll k]) (List.range 1024) = l at h1
  refine ⟨s.request [2], d, ⟨0, l ++ [.request [2]], ?_⟩, ?_, h3, h6, ?_⟩
  · rw [srun_append, h1]
    simp only [R.bind, Socket.run, Socket.act, h4]
    rfl
  · simp [Socket.request, h2]
  · simp [Socket.request, h2, h5]

/-- C80: and they do not wait for ever: when the driver of a connected socket has run until it is idle, the channel is empty and any
call that was waiting for room enters it when its future is polled. -/
theorem C80_room (D : Decompressors) (opts comp) (s : Socket) (h : SocketReach D opts comp s) (d d' : State)
    (hd : s.drv = some d) (he : d.ended = false) (e : Env) (hit : d.iter D e = .ok (d', .pending)) (ch : Chan)
    (hconn : d'.conn = .active ch) (hdr : s.dropped = false) (i : Nat) (c : Caller) (hc : s.callers[i]? = some c)
    (hw : c.stage = .waiting) (hcan : c.cancelled = false) (t : Socket)
    (ht : s.run D [.driver e, .poll i] = .ok t) :
    ∃ c' d'', t.callers[i]? = some c' ∧ c'.stage = .entered d'.calls.length ∧ t.drv = some d'' ∧ d''.queue = [(d'.calls.length, c.payload)] := by
  have hi := h.inv
  have hlt : i < s.callers.length := (List.getElem?_eq_some_iff.1 hc).1
  obtain ⟨hr, -, hcl, -⟩ := hi.reach d hd
  obtain ⟨hq, -⟩ := C70_idle_means_sent D s.opts s.comp d hr he e d' hit ch hconn
  have hk := iter_keep hit
  have hended : d'.ended = false := iter_pending_alive he hit
  have h1 : s.act D (.driver e) = .ok { s with drv := some d' } := by
    simp only [Socket.act, Socket.onDriver, hd, State.act, he, hit]
    rfl
  have h2 : State.act D d' (.request c.payload) = .ok { d' with
      calls := d'.calls ++ [{ payload := c.payload, time := d'.now }]
      queue := d'.queue ++ [(d'.calls.length, c.payload)] } := by
    have hcl' : d'.closed = false := by rw [hk.2.2.1, hcl, hdr]
    simp only [State.act, hcl', hended]
    rfl
  simp only [Socket.run] at ht
  rw [h1] at ht
  simp only [R.bind_ok, Socket.act, Socket.pollCall, hc, hw, hcan, hdr, hended] at ht
  rw [if_pos (by simp), if_neg (by simp), hq] at ht
  rw [if_pos (by decide : ([] : List (Nat × Bytes)).length < chanCap)] at ht
  rw [h2] at ht
  cases ht
  exact ⟨{ c with stage := .entered d'.calls.length, cancelled := false }, _, by simp [hlt], rfl, rfl, by simp [hq]⟩

/-- A call waiting for room, a connected socket whose driver goes idle, and the call entering then. -/
example : ∃ s d d' ch, (Socket.new {} none 0).run noDec [.connect, .request [1], .poll 0, .driver {}, .advance 20000000, .driver {},
    .driver { task := some (some ⟨[], [], [], []⟩) }, .driver {}, .request [2]] = .ok s ∧ s.drv = some d ∧ d.ended = false ∧
    d.iter noDec {} = .ok (d', .pending) ∧ d'.conn = .active ch ∧
    s.callers[1]? = some ⟨[2], 20000000, .waiting, false⟩ :=
  ⟨_, _, _, _, rfl, rfl, rfl, rfl, rfl, rfl⟩

/-! ## C35 for the socket -/

/-- C35, for the calls as the users make them: a call returns `Timeout` only when more than the configured time has passed since
it was made (waiting for room in the channel included). -/
theorem C35_call_never_early (D : Decompressors) (opts comp) (s : Socket) (h : SocketReach D opts comp s) (i : Nat)
    (hres : s.result i = some .timeout) : ∃ c : Caller, s.callers[i]? = some c ∧ c.time + opts.timeout < s.now := by
  have hi := h.inv
  obtain ⟨c, hc, h' | ⟨k, d, t, h1, h2, h3⟩⟩ := result_done hres
  · cases h'.2
  · obtain ⟨hr, hn, -⟩ := hi.reach d h2
    obtain ⟨ho, hcp⟩ := h.opts
    rw [ho, hcp] at hr
    obtain ⟨call, g1, g2, g3⟩ := C35_never_early D opts comp d hr k t h3
    obtain ⟨d', call', k1, k2, -, k4⟩ := hi.entered i c k hc h1
    rw [h2] at k1
    cases k1
    rw [g1] at k2
    cases k2
    exact ⟨c, hc, by omega⟩

/-- A call that times out: made after 20 ms, with a timeout of 100 ms, it returns after 130 ms. -/
example (D : Decompressors) : ∃ (s : Socket), (Socket.new { timeout := 100000000 } none 0).run D [.connect, .driver {}, .advance 20000000, .driver {},
    .driver { task := some (some ⟨[], [], [], []⟩) }, .request [7], .poll 0, .driver {}, .driver {}, .driver {}, .advance 110000000, .driver {}, .driver {},
    .driver {}, .driver {}] = .ok s ∧
    s.result 0 = some .timeout ∧ s.now = 130000000 := by
  refine ⟨_, rfl, rfl, rfl⟩

/-! ## C73 for the socket -/

/-- C73 (partial) for the socket as the user sees it: once it has been dropped (whatever happened before and since), a poll of its background task ends
the task, unless it leaves the task without a connection or the connection does not take the bytes offered when it is
closed. (Its task sees the socket as gone exactly when it was dropped.) Missing: as in `C73_drop_ends_partial`. -/
theorem C73_socket_drop_partial (D : Decompressors) (opts comp) (s : Socket) (h : SocketReach D opts comp s) (d : State)
    (hd : s.drv = some d) :
    d.closed = s.dropped ∧
    (s.dropped = true → d.ended = false → ∀ (es : List Env) (t : State) (o : Out),
      Spec.poll (State.iter D) (· = .again) d es = .ok (t, some o) →
      (o = .ended ∧ t.ended = true) ∨ (o = .pending ∧ ∃ b, t.conn = .inactive b) ∨
      (o = .pending ∧ ∃ c, t.conn = .active c ∧ ∃ e ∈ es, ∃ w : Writer, w.flush e.closeAns = (.pending, c.wr))) := by
  obtain ⟨h1, -, h3, -⟩ := h.inv.reach d hd
  refine ⟨h3, fun hdr he es t o hp => ?_⟩
  rcases C73_drop_ends_partial D _ _ d h1 he (h3.trans hdr) es t o hp with ⟨k1, k2, -⟩ | k | k
  · exact .inl ⟨k1, k2⟩
  · exact .inr (.inl k)
  · exact .inr (.inr k)

/-- A dropped socket: a request was made and sent, then the socket was dropped; the next poll ends its task. -/
example (D : Decompressors) : ∃ (s : Socket) (d : State) (t : State),
    (Socket.new {} none 0).run D [.connect, .driver {}, .advance 20000000, .driver {}, .driver { task := some (some ⟨[], [], [], []⟩) },
      .request [7], .poll 0, .drop] = .ok s ∧
    s.dropped = true ∧ s.drv = some d ∧ d.ended = false ∧
    Spec.poll (State.iter D) (· = .again) d [{}, {}, { closeAns := [.ok 100, .ok 0] }] = .ok (t, some .ended) := by
  refine ⟨_, _, _, rfl, rfl, rfl, rfl, rfl⟩

end MsgRs.Props
