import Verif.Proofs.PubDrop
import Verif.Props.Pub
/-!
# Dropping a publisher
-/
namespace MsgRs.Props
open MsgRs Pub Spec

/-- How often session `i` was run. -/
def Spec.stepsOf (i : Nat) (acts : List Act) : Nat :=
  acts.countP fun
    | .step j _ => decide (j = i)
    | _ => false

/-- Nothing is published (the socket is gone). -/
def Spec.silent (acts : List Act) : Prop := ∀ m, Act.publish m ∉ acts

theorem closed_act (L : Lossy) (s : Sys) (a : Act) (h : s.chan.closed = true) : (s.act L a).chan.closed = true := by
  cases a with
  | publish m => exact h
  | connect i bd input => simp only [Sys.act]; split <;> exact h
  | step i e => exact h
  | drop => rfl

theorem closed_run (L : Lossy) (acts : List Act) (s : Sys) (h : s.chan.closed = true ∨ .drop ∈ acts) : (s.run L acts).chan.closed = true := by
  induction acts generalizing s with
  | nil => rcases h with h | h
           · exact h
           · cases h
  | cons a acts ih =>
    apply ih (s.act L a)
    rcases h with h | h
    · exact .inl (closed_act L s a h)
    · rcases List.mem_cons.1 h with h | h
      · subst h; exact .inl rfl
      · exact .inr h

/-- What a session of a dropped publisher looks like later. -/
structure Drained (L : Lossy) (log : List PubMsg) (i : Nat) (t : Task) (post : List Act) (t' : Task) : Prop where
  evs : ∃ new, t'.evs = t.evs ++ new ∧ (t'.over = false → Spec.stepsOf i post + t'.left log ≤ new.count .blocked + t.left log) ∧
    (t'.over = true → t.over = false → new.getLast? = some .ended)
  next : t.over = false → t'.over = true → t'.next = log.length ∧ t'.sess.pending = none
  back : t'.over = false → t.over = false
  close : t.over = false → t'.over = true →
    (∀ e, Act.step i e ∈ post → ∃ n as, e.closeAns = .ok n :: .ok 1 :: as ∧ t'.sess.wr.total.length ≤ n ∧ 0 < n) → t'.sess.wr.buf = []

theorem over_stays (L : Lossy) (acts : List Act) (i : Nat) (s : Sys) (t : Task) (h : s.tasks i = some t) (ho : t.over = true) :
    (s.run L acts).tasks i = some t := by
  induction acts generalizing s with
  | nil => exact h
  | cons a acts ih =>
    apply ih (s.act L a)
    cases a with
    | publish m => exact h
    | drop => exact h
    | connect j bd input =>
      simp only [Sys.act]
      split
      · exact h
      · rename_i hj
        simp only
        rw [if_neg]
        · exact h
        · intro hij; subst hij; rw [h] at hj; cases hj
    | step j e =>
      simp only [Sys.act]
      by_cases hj : i = j
      · subst hj; simp [h, Task.step, ho]
      · rw [if_neg hj]; exact h

theorem drained {L : Lossy} {n log n0} (post : List Act) (i : Nat) {s : Sys} (h : SInv L n log s) (hc : s.chan.closed = true)
    (hm : ∀ m ∈ log, (utf8 m.topic).length ≤ 65535) (hs : Spec.silent post) {t : Task} (ht : s.tasks i = some t) (hn : TInv L log n0 t)
    (ho : t.over = false) :
    ∃ t', (s.run L post).tasks i = some t' ∧ TInv L log n0 t' ∧ Drained L log i t post t' := by
  induction post generalizing s t with
  | nil => exact ⟨t, ht, hn, ⟨⟨[], by simp, by simp [Spec.stepsOf], by simp [ho]⟩, by simp [ho], by simp, by simp [ho]⟩⟩
  | cons a post ih =>
    have hs' : Spec.silent post := fun m hm => hs m (by simp [hm])
    have hnp : published [a] = [] := by
      cases a with
      | publish m => exact absurd (by simp) (hs m)
      | _ => rfl
    have hS := sinv_act (L := L) h a
    rw [hnp, List.append_nil] at hS
    have hC := closed_act L s a hc
    by_cases hme : ∃ e, a = .step i e
    · obtain ⟨e, rfl⟩ := hme
      have ht1 : (s.act L (.step i e)).tasks i = some (t.step L s.chan e) := by simp [Sys.act, ht]
      have hn1 := task_step h.chan e hn
      have hcnt : Spec.stepsOf i (.step i e :: post) = Spec.stepsOf i post + 1 := by simp [Spec.stepsOf]
      rcases step_closed h.chan hc e hn ho hm with ⟨ev, h1, h2, h3⟩ | ⟨h1, h2, h3, h4, h5⟩
      · obtain ⟨t', k1, k2, ⟨⟨new, k3, k4, k5⟩, k6, k7, k8⟩⟩ := ih hS hC hs' ht1 hn1 h2
        refine ⟨t', k1, k2, ⟨⟨ev :: new, by rw [k3, h1]; simp, ?_, ?_⟩, ?_, ?_, ?_⟩⟩
        · intro hov
          have := k4 hov
          rw [hcnt]
          rcases h3 with ⟨rfl, h3⟩ | h3
          · simp only [List.count_cons_self]
            omega
          · have : new.count Ev.blocked ≤ (ev :: new).count Ev.blocked := List.count_le_count_cons
            omega
        · intro hov _
          have := k5 hov h2
          rw [List.getLast?_cons, this]
          rfl
        · exact fun _ hov => k6 h2 hov
        · exact fun _ => ho
        · exact fun _ hov hcl => k8 h2 hov (fun e' he' => hcl e' (by simp [he']))
      · have hst := over_stays L post i _ _ ht1 h2
        refine ⟨_, hst, hn1, ⟨⟨[.ended], h1, by simp [h2], by simp⟩, fun _ _ => ⟨h3, h4⟩, by simp [h2], ?_⟩⟩
        intro _ _ hcl
        exact h5 (hcl e (by simp))
    · have ht1 : (s.act L a).tasks i = some t := by
        cases a with
        | publish m => exact ht
        | drop => exact ht
        | connect j bd input =>
          simp only [Sys.act]
          split
          · exact ht
          · rename_i hj
            simp only
            rw [if_neg]
            · exact ht
            · intro hij; subst hij; rw [ht] at hj; cases hj
        | step j e =>
          simp only [Sys.act]
          rw [if_neg]
          · exact ht
          · intro hij; subst hij; exact hme ⟨e, rfl⟩
      obtain ⟨t', k1, k2, ⟨⟨new, k3, k4, k5⟩, k6, k7, k8⟩⟩ := ih hS hC hs' ht1 hn ho
      have hcnt : Spec.stepsOf i (a :: post) = Spec.stepsOf i post := by
        cases a with
        | step j e =>
          simp only [Spec.stepsOf, List.countP_cons]
          rw [if_neg]
          · rfl
          · simp only [decide_eq_true_eq]; intro hij; subst hij; exact hme ⟨e, rfl⟩
        | _ => simp [Spec.stepsOf]
      exact ⟨t', k1, k2, ⟨⟨new, k3, by rw [hcnt]; exact k4, k5⟩, k6, k7, fun x y z => k8 x y (fun e he => z e (by simp [he]))⟩⟩

/-- C84 (partial): the publisher was dropped (all clones), session `i` having connected before or after that. Let the session be alive at some time after both;
whatever happens later, if it is over then it has gone through everything that was published after it connected (taken, or told how many it
missed) and, for every message taken whose topic was subscribed then, a frame was handed to the connection, in order; and if the connection takes what is
left when it is being closed, all these frames are on the wire in full. Missing: a connection that is busy at that moment loses them
(`C84_close_loses_refuted`). -/
theorem C84_drop_delivers_partial (L : Lossy) (n : Nat) (acts₁ acts₂ post : List Act) (i boundary : Nat) (input : List ReadAns)
    (hfresh : ((Sys.new n).run L acts₁).tasks i = none) (hdrop : .drop ∈ acts₁ ∨ .drop ∈ acts₂) (hs : Spec.silent post)
    (hm : ∀ m ∈ published (acts₁ ++ acts₂), (utf8 m.topic).length ≤ 65535)
    (t t' : Task) (ht : ((Sys.new n).run L (acts₁ ++ .connect i boundary input :: acts₂)).tasks i = some t) (ho : t.over = false)
    (ht' : ((Sys.new n).run L (acts₁ ++ .connect i boundary input :: acts₂ ++ post)).tasks i = some t') (ho' : t'.over = true) :
    (tookOf t'.evs).length + missedOf t'.evs = (published acts₂).length ∧
    (missedOf t'.evs = 0 → tookOf t'.evs = published acts₂) ∧
    sentOf t'.evs = due L [] 0 t'.evs ∧
    t'.sess.wr.wire ++ t'.sess.wr.buf = (sentOf t'.evs).flatMap PubSub.encode ∧
    ((∀ e, Act.step i e ∈ post → ∃ N as, e.closeAns = .ok N :: .ok 1 :: as ∧ ((sentOf t'.evs).flatMap PubSub.encode).length ≤ N ∧ 0 < N) →
      t'.sess.wr.wire = (sentOf t'.evs).flatMap PubSub.encode) := by
  have h1 := sinv_run (L := L) acts₁ (sinv_new L n)
  rw [List.nil_append] at h1
  have h2 := sinv_act (L := L) h1 (.connect i boundary input)
  have hpub : published [Act.connect i boundary input] = [] := rfl
  rw [hpub, List.append_nil] at h2
  let t0 : Task := { next := ((Sys.new n).run L acts₁).chan.resubscribe, sess := Session.new boundary input }
  have ht0 : (((Sys.new n).run L acts₁).act L (.connect i boundary input)).tasks i = some t0 := by
    simp [Sys.act, hfresh, t0]
  have hn0 : t0.next = (published acts₁).length := by simp [t0, Bcast.resubscribe, h1.chan.tail]
  have hti : TInv L (published acts₁) (published acts₁).length t0 := by
    refine ⟨inv_new L boundary input, by omega, by omega, ?_, ?_, ?_⟩
    · simp [t0, tookOf]
    · simp only [hn0]; simp [t0, tookOf, missedOf]
    · simp [t0, replay, Bcast.resubscribe, h1.chan.tail]
  obtain ⟨t1, ht1, hT⟩ := task_persists (L := L) acts₂ h2 ht0 hti
  have h3 := sinv_run (L := L) acts₂ h2
  have hrun : (Sys.new n).run L (acts₁ ++ .connect i boundary input :: acts₂) =
      (((Sys.new n).run L acts₁).act L (.connect i boundary input)).run L acts₂ := by simp [Sys.run, List.foldl_append]
  have hclosed : ((((Sys.new n).run L acts₁).act L (.connect i boundary input)).run L acts₂).chan.closed = true := by
    rw [← hrun]
    apply closed_run
    right
    simp only [List.mem_append, List.mem_cons]
    rcases hdrop with h | h
    · exact .inl h
    · exact .inr (.inr h)
  rw [hrun, ht1] at ht
  cases ht
  obtain ⟨t2, k1, k2, k3⟩ := drained post i h3 hclosed (by rw [← published_append]; exact hm) hs ht1 hT ho
  have hrun2 : (Sys.new n).run L (acts₁ ++ .connect i boundary input :: acts₂ ++ post) =
      ((((Sys.new n).run L acts₁).act L (.connect i boundary input)).run L acts₂).run L post := by simp [Sys.run, List.foldl_append]
  rw [hrun2, k1] at ht'
  cases ht'
  obtain ⟨j1, j2⟩ := k3.next ho ho'
  have hcount := k2.cur.count
  rw [j1, List.length_append] at hcount
  have hlen : (tookOf t'.evs).length + missedOf t'.evs = (published acts₂).length := by omega
  have hsent : sentOf t'.evs = due L [] 0 t'.evs := by
    have := k2.inv.due
    rw [j2] at this
    simpa using this
  have hbytes := k2.inv.bytes
  refine ⟨hlen, ?_, hsent, hbytes, ?_⟩
  · intro hz
    have h4 := replay_took _ _ _ _ k2.cur.walk hz
    have h5 : (published acts₁ ++ published acts₂).drop (published acts₁).length = published acts₂ := by simp
    rw [h5] at h4
    rw [h4]
    apply List.take_of_length_le
    omega
  · intro hcl
    have hb := k3.close ho ho' (by rw [hbytes]; exact hcl)
    have : t'.sess.wr.wire ++ t'.sess.wr.buf = (sentOf t'.evs).flatMap PubSub.encode := hbytes
    rw [hb, List.append_nil] at this
    exact this

/-- C84: the sessions of a dropped publisher end. A session that is alive some time after the drop is over after at most `2 k + 1` more iterations, `k`
the number of messages ever published, not counting those in which the connection did not take a frame; and then the last thing it did was to end. (This includes
sessions of clients that connect after the drop: they end at once.) -/
theorem C84_sessions_end (L : Lossy) (n : Nat) (acts post : List Act) (i : Nat) (hdrop : .drop ∈ acts) (hs : Spec.silent post)
    (hm : ∀ m ∈ published acts, (utf8 m.topic).length ≤ 65535)
    (t : Task) (ht : ((Sys.new n).run L acts).tasks i = some t) (ho : t.over = false) :
    ∃ t' new, ((Sys.new n).run L (acts ++ post)).tasks i = some t' ∧ t'.evs = t.evs ++ new ∧
      (t'.over = true ∧ new.getLast? = some .ended ∨
        t'.over = false ∧ Spec.stepsOf i post ≤ new.count .blocked + 2 * ((published acts).length - (tookOf t.evs).length - missedOf t.evs) + 1) := by
  have h1 := sinv_run (L := L) acts (sinv_new L n)
  rw [List.nil_append] at h1
  obtain ⟨n0, hT⟩ := h1.tasks i t ht
  obtain ⟨t', k1, k2, ⟨⟨new, k3, k4, k5⟩, k6, k7, k8⟩⟩ := drained post i h1 (closed_run L acts _ (.inr hdrop)) hm hs ht hT ho
  refine ⟨t', new, ?_, k3, ?_⟩
  · simpa [Sys.run, List.foldl_append] using k1
  · cases hov : t'.over with
    | true => exact .inl ⟨rfl, k5 hov ho⟩
    | false =>
      refine .inr ⟨rfl, ?_⟩
      have := k4 hov
      have hl : t.left (published acts) ≤ 2 * ((published acts).length - (tookOf t.evs).length - missedOf t.evs) + 1 := by
        simp only [Task.left]
        have := hT.cur.count
        have : t.sess.pending.toList.length ≤ 1 := by cases t.sess.pending <;> simp
        omega
      omega

/-- A subscriber of everything; three messages are published and the socket is dropped while the session is still behind. -/
def dropEnv : Env := ⟨true, [.ok 1000, .ok 1], [.ok 1000, .ok 1], [.ok 1000, .ok 1], .pending, 7⟩
/-- The connection is busy. -/
def busyEnv : Env := ⟨true, [], [], [], .pending, 7⟩
def subA' : Bytes := PubSub.encode ⟨⟨0, 9, PubSub.subPrefix ++ [0x61], 0, 0, 0⟩, []⟩
def msgA' (b : UInt8) : PubMsg := ⟨.none, ['a'], [b]⟩

/-- Both theorems' hypotheses are met: the session is behind by three messages when the socket goes, and is over 7 iterations later. -/
example :
    let acts₂ : List Act := [.step 0 dropEnv, .publish (msgA' 1), .publish (msgA' 2), .publish (msgA' 3), .drop]
    let post : List Act := List.replicate 7 (.step 0 dropEnv)
    (∃ t, ((Sys.new 4).run Lossy.strict ([.connect 0 100 [.data subA', .pending]] ++ acts₂)).tasks 0 = some t ∧ t.over = false) ∧
    (∃ t', ((Sys.new 4).run Lossy.strict ([.connect 0 100 [.data subA', .pending]] ++ acts₂ ++ post)).tasks 0 = some t' ∧ t'.over = true ∧
      (sentOf t'.evs).map (·.payload) = [[1], [2], [3]] ∧ t'.sess.wr.buf = []) := by
  refine ⟨⟨_, rfl, by decide +kernel⟩, ⟨_, rfl, by decide +kernel, by decide +kernel, by decide +kernel⟩⟩

/-- C84 (refuted as stated): one message is published for a subscriber, and handed to its connection, which is busy; the socket is dropped. The session ends and the
message is lost, however soon the connection could take it. -/
theorem C84_close_loses_refuted :
    let acts : List Act := [.connect 0 100 [.data subA', .pending], .step 0 busyEnv, .publish (msgA' 1), .drop,
      .step 0 busyEnv, .step 0 busyEnv, .step 0 busyEnv]
    ∃ t, ((Sys.new 4).run Lossy.strict acts).tasks 0 = some t ∧ t.over = true ∧ tookOf t.evs = [msgA' 1] ∧ (sentOf t.evs).length = 1 ∧
      t.sess.wr.wire = [] ∧ ∀ post : List Act, ((Sys.new 4).run Lossy.strict (acts ++ post)).tasks 0 = some t := by
  refine ⟨_, rfl, by decide +kernel, by decide +kernel, by decide +kernel, by decide +kernel, fun post => ?_⟩
  rw [Sys.run, List.foldl_append]
  exact over_stays Lossy.strict post 0 _ _ rfl (by decide +kernel)

end MsgRs.Props
