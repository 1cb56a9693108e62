import Verif.Props.PubServer
import Verif.Props.PubDrop
/-!
# C84 on the publisher as a whole: dropping the socket delivers what was published
-/
namespace MsgRs.Props
open MsgRs Spec Pub
variable {A : Type}

theorem closed_only (L : Lossy) (acts : List Act) (s : Sys) (h : (s.run L acts).chan.closed = true) : s.chan.closed = true ∨ .drop ∈ acts := by
  induction acts generalizing s with
  | nil => exact .inl h
  | cons a acts ih =>
    rcases ih (s.act L a) h with k | k
    · cases a with
      | publish m => exact .inl k
      | connect i bd input =>
        simp only [Sys.act] at k
        split at k <;> exact .inl k
      | step i e => exact .inl k
      | drop => exact .inr (by simp)
    · exact .inr (List.mem_cons_of_mem _ k)

/-- The channel of a bound publisher is closed once the socket is dropped. -/
theorem drop_closes (L : Lossy) (acts : List (SrvAct A)) : ∀ (s : Server A), (s.dropped = true → ∀ b, s.sock.chan = some b → b.closed = true) →
    (s.run L acts).dropped = true → ∀ b, (s.run L acts).sock.chan = some b → b.closed = true := by
  induction acts with
  | nil => intro s h; exact h
  | cons a acts ih =>
    intro s h
    refine ih (s.act L a) ?_
    intro hd b hb
    rcases (act_dropped L s a).1 hd with h1 | rfl
    · have h2 := h h1
      cases a with
      | bind => simp only [Server.act, h1, if_true] at hb; exact h2 b hb
      | publish => simp only [Server.act, h1, if_true] at hb; exact h2 b hb
      | tryPublish => simp only [Server.act, h1, if_true] at hb; exact h2 b hb
      | drop => simp only [Server.act, h1, if_true] at hb; exact h2 b hb
      | driver e => simp only [Server.act] at hb; split at hb <;> exact h2 b hb
      | session i e => simp only [Server.act] at hb; split at hb <;> exact h2 b hb
    · simp only [Server.act] at hb
      split at hb
      · exact h (by assumption) b hb
      · cases hc : s.sock.chan with
        | none => simp [hc] at hb
        | some b0 => simp [hc] at hb; subst hb; rfl

/-- What is in the channel was given to `publish` or `try_publish`. -/
theorem log_topics (L : Lossy) (acts : List (SrvAct A)) : ∀ (s : Server A) (m : PubMsg), m ∈ (s.run L acts).log →
    m ∈ s.log ∨ ∃ p, .publish m.topic p ∈ acts ∨ .tryPublish m.topic p ∈ acts := by
  induction acts with
  | nil => intro s m h; exact .inl h
  | cons a acts ih =>
    intro s m h
    have hrec : ∀ o r, m ∈ (s.record o r).log → m ∈ s.log ∨ o = some m := by
      rintro o ⟨_ | _, _⟩ h
      · exact .inl h
      · simp only [Server.record, List.mem_append, Option.mem_toList] at h
        exact h
    rcases ih (s.act L a) m h with k | ⟨p, k⟩
    · cases a with
      | bind =>
        simp only [Server.act] at k
        split at k
        · exact .inl k
        · split at k <;> exact .inl k
      | publish t p =>
        simp only [Server.act] at k
        split at k
        · exact .inl k
        · rcases hrec _ _ k with k | k
          · exact .inl k
          · have := prepare_topic (c := ⟨false, t, p⟩) (minSize := s.sock.minCompress) (comp := s.sock.comp) k
            exact .inr ⟨p, .inl (by rw [this]; simp)⟩
      | tryPublish t p =>
        simp only [Server.act] at k
        split at k
        · exact .inl k
        · rcases hrec _ _ k with k | k
          · exact .inl k
          · have := prepare_topic (c := ⟨true, t, p⟩) (minSize := s.sock.minCompress) (comp := s.sock.comp) k
            exact .inr ⟨p, .inr (by rw [this]; simp)⟩
      | drop => simp only [Server.act] at k; split at k <;> exact .inl k
      | driver e => simp only [Server.act] at k; split at k <;> exact .inl k
      | session i e => simp only [Server.act] at k; split at k <;> exact .inl k
    · exact .inr ⟨p, k.imp (List.mem_cons_of_mem _) (List.mem_cons_of_mem _)⟩

/-- How often the task of session `i` runs. -/
def turnsOf (i : Nat) (acts : List (SrvAct A)) : Nat :=
  acts.countP fun a => match a with
    | .session j _ => j = i
    | _ => false

/-- After the drop nothing but the driver and the session tasks act. -/
theorem dropped_act (L : Lossy) (s : Server A) (b : Bcast PubMsg) (hb : s.sock.chan = some b) (hd : s.dropped = true) (a : SrvAct A) :
    ∃ as, (s.act L a).sock.chan = some b ∧ (s.act L a).sys b = (s.sys b).run L as ∧ Spec.silent as ∧
      (∀ i e, Act.step i e ∈ as → a = .session i e) ∧ ∀ i, Spec.stepsOf i as = turnsOf i [a] := by
  have noop : s.act L a = s → (∀ i, turnsOf i [a] = 0) → ∃ as, (s.act L a).sock.chan = some b ∧ (s.act L a).sys b = (s.sys b).run L as ∧ Spec.silent as ∧
      (∀ i e, Act.step i e ∈ as → a = .session i e) ∧ ∀ i, Spec.stepsOf i as = turnsOf i [a] := by
    intro h ht
    rw [h]
    exact ⟨[], hb, rfl, by simp [Spec.silent], by simp, fun i => by rw [ht]; simp [Spec.stepsOf]⟩
  cases a with
  | bind => exact noop (by simp [Server.act, hd]) (by simp [turnsOf])
  | publish => exact noop (by simp [Server.act, hd]) (by simp [turnsOf])
  | tryPublish => exact noop (by simp [Server.act, hd]) (by simp [turnsOf])
  | drop => exact noop (by simp [Server.act, hd]) (by simp [turnsOf])
  | session i e =>
    refine ⟨[.step i e], ?_, ?_, by simp [Spec.silent], by simp, fun j => by simp [Spec.stepsOf, turnsOf]⟩
    · simp only [Server.act]; split <;> exact hb
    · simp only [Server.act, hb]
      cases hx : s.ses[i]? with
      | none =>
        simp only [Sys.run, List.foldl_cons, List.foldl_nil, Sys.act, Server.sys, hx, Option.map_none, Sys.mk.injEq, true_and]
        funext j
        by_cases hj : j = i
        · subst hj; simp [hx]
        · simp [hj]
      | some x =>
        simp only [Sys.run, List.foldl_cons, List.foldl_nil, Sys.act, Server.sys, hx, Option.map_some, Sys.mk.injEq, true_and]
        funext j
        by_cases hj : j = i
        · subst hj
          have hlt := (List.getElem?_eq_some_iff.1 hx).1
          simp [hlt]
        · rw [List.getElem?_set_ne (fun h => hj h.symm), if_neg hj]
  | driver e =>
    cases hdr : s.drv with
    | none => exact noop (by simp [Server.act, hdr]) (by simp [turnsOf])
    | some d =>
      simp only [Server.act, hdr, hb]
      rcases iter_sessions d e with hs | ⟨⟨c, input⟩, hs⟩
      · refine ⟨[], by trivial, ?_, by simp [Spec.silent], by simp, fun i => by simp [Spec.stepsOf, turnsOf]⟩
        rw [hs]
        simp [Server.sys, Sys.run]
      · refine ⟨[.connect s.ses.length s.boundary input], by trivial, ?_, by simp [Spec.silent], by simp, fun i => by simp [Spec.stepsOf, turnsOf]⟩
        rw [hs]
        have hfresh : (s.sys b).tasks s.ses.length = none := by simp [Server.sys]
        simp only [Sys.run, List.foldl_cons, List.foldl_nil, Sys.act, hfresh, List.drop_left', List.map_cons, List.map_nil]
        simp only [Server.sys, Sys.mk.injEq, true_and]
        funext j
        by_cases hj : j = s.ses.length
        · subst hj; simp
        · rw [if_neg hj]
          by_cases hlt : j < s.ses.length
          · rw [List.getElem?_append_left hlt]
          · rw [List.getElem?_eq_none (l := s.ses) (by omega), List.getElem?_eq_none (by simp; omega)]

theorem dropped_run (L : Lossy) (acts : List (SrvAct A)) : ∀ (s : Server A) (b : Bcast PubMsg), s.sock.chan = some b → s.dropped = true →
    ∃ as, (s.run L acts).sock.chan = some b ∧ (s.run L acts).sys b = (s.sys b).run L as ∧ Spec.silent as ∧
      (∀ i e, Act.step i e ∈ as → .session i e ∈ acts) ∧ ∀ i, Spec.stepsOf i as = turnsOf i acts := by
  induction acts with
  | nil => intro s b hb _; exact ⟨[], hb, rfl, by simp [Spec.silent], by simp, fun i => by simp [Spec.stepsOf, turnsOf]⟩
  | cons a acts ih =>
    intro s b hb hd
    obtain ⟨as, h1, h2, h3, h4, h5⟩ := dropped_act L s b hb hd a
    obtain ⟨as', k1, k2, k3, k4, k5⟩ := ih (s.act L a) b h1 ((act_dropped L s a).2 (.inl hd))
    refine ⟨as ++ as', k1, ?_, ?_, ?_, ?_⟩
    · show ((s.act L a).run L acts).sys b = _
      rw [k2, h2]
      simp [Sys.run, List.foldl_append]
    · intro m hm
      rcases List.mem_append.1 hm with hm | hm
      · exact h3 m hm
      · exact k3 m hm
    · intro i e hm
      rcases List.mem_append.1 hm with hm | hm
      · rw [h4 i e hm]; simp
      · exact List.mem_cons_of_mem _ (k4 i e hm)
    · intro i
      have e1 : Spec.stepsOf i (as ++ as') = Spec.stepsOf i as + Spec.stepsOf i as' := by simp [Spec.stepsOf, List.countP_append]
      have e2 : turnsOf i (a :: acts) = turnsOf i [a] + turnsOf i acts := by
        simp only [turnsOf]
        rw [← List.countP_append]
        rfl
      rw [e1, e2, h5, k5]

/-- C84 (partial), the publisher as a whole: after `before` the socket has been dropped, and session `i` is not over. Whatever happens afterwards, if the session is over then it has gone through
every message of the successful calls to `publish` and `try_publish` since it was started (taken, or told how many it missed); for every message taken whose topic its client had subscribed at that moment a
frame was handed to the connection, in order; and if the connection takes what is left when it is being closed, all these frames are on the wire in full. Missing: a connection that is busy at that moment loses them
(`C84_close_loses_refuted`). -/
theorem C84_publisher_drop_partial (L : Lossy) (max : Option Nat) (authn : Option (Bytes → Bool)) (boundary minCompress bufferSize : Nat) (comp : Option Compressor)
    (before after : List (SrvAct A)) (hdrop : .drop ∈ before)
    (hm : ∀ t p, .publish t p ∈ before ∨ .tryPublish t p ∈ before → (utf8 t).length ≤ 65535)
    (i : Nat) (x x' : Ses A)
    (hx : ((Server.new max authn boundary minCompress bufferSize comp : Server A).run L before).ses[i]? = some x) (ho : x.task.over = false)
    (hx' : ((Server.new max authn boundary minCompress bufferSize comp : Server A).run L (before ++ after)).ses[i]? = some x') (ho' : x'.task.over = true) :
    ∃ pre e post, before = pre ++ .driver e :: post ∧
      startedBy L (Server.new max authn boundary minCompress bufferSize comp : Server A) pre e i ∧
      ∃ given, given = (callsAfter pre (.driver e :: post)).filterMap (PubCall.prepare minCompress comp) ∧
        (tookOf x'.task.evs).length + missedOf x'.task.evs = given.length ∧
        (missedOf x'.task.evs = 0 → tookOf x'.task.evs = given) ∧
        sentOf x'.task.evs = due L [] 0 x'.task.evs ∧
        x'.task.sess.wr.wire ++ x'.task.sess.wr.buf = (sentOf x'.task.evs).flatMap PubSub.encode ∧
        ((∀ e, .session i e ∈ after → ∃ N as, e.closeAns = .ok N :: .ok 1 :: as ∧ ((sentOf x'.task.evs).flatMap PubSub.encode).length ≤ N ∧ 0 < N) →
          x'.task.sess.wr.wire = (sentOf x'.task.evs).flatMap PubSub.encode) := by
  obtain ⟨pre, e, post, h1, h2, acts₁, acts₂, b, h3, h4, h5, h6, h7⟩ :=
    session_history' L max authn boundary minCompress bufferSize comp before i x hx
  have hd := (run_dropped L before (Server.new max authn boundary minCompress bufferSize comp : Server A)).2 (.inr hdrop)
  obtain ⟨as, k1, k2, k3, k4, k5⟩ := dropped_run L after _ b h3 hd
  have hrun : (Server.new max authn boundary minCompress bufferSize comp : Server A).run L (before ++ after) =
      ((Server.new max authn boundary minCompress bufferSize comp : Server A).run L before).run L after := by simp [Server.run, List.foldl_append]
  have hclosed : b.closed = true := drop_closes L before _ (by simp [Server.new]) hd b h3
  have hdm : Act.drop ∈ acts₁ ∨ Act.drop ∈ acts₂ := by
    have := closed_only L (acts₁ ++ .connect i boundary x.input :: acts₂) (Sys.new bufferSize) (by rw [h5]; exact hclosed)
    rcases this with h | h
    · cases h
    · simpa using h
  have hlog : ∀ m ∈ published (acts₁ ++ acts₂), (utf8 m.topic).length ≤ 65535 := by
    intro m hmem
    rw [published_append, h6] at hmem
    rcases log_topics L before _ m hmem with h | ⟨p, h⟩
    · simp [Server.new] at h
    · exact hm _ p h
  have := C84_drop_delivers_partial L bufferSize acts₁ acts₂ as i boundary x.input h4 hdm k3 hlog x.task x'.task
    (by rw [h5]; simp [Server.sys, hx]) ho
    (by
      have : (Sys.new bufferSize).run L (acts₁ ++ .connect i boundary x.input :: acts₂ ++ as) =
          ((Sys.new bufferSize).run L (acts₁ ++ .connect i boundary x.input :: acts₂)).run L as := by simp [Sys.run, List.foldl_append]
      rw [this, h5, ← k2, ← hrun]
      simp [Server.sys, hx']) ho'
  rw [h7] at this
  obtain ⟨j1, j2, j3, j4, j5⟩ := this
  exact ⟨pre, e, post, h1, h2, _, rfl, j1, j2, j3, j4, fun hc => j5 (fun e he => hc e (k4 i e he))⟩

theorem log_length (L : Lossy) (acts : List (SrvAct A)) : ∀ (s : Server A),
    (s.run L acts).log.length ≤ s.log.length + if s.dropped then 0 else (pubCalls acts).length := by
  induction acts with
  | nil => intro s; simp [Server.run]
  | cons a acts ih =>
    intro s
    have hrec : ∀ o r, (s.record o r).log.length ≤ s.log.length + 1 := by
      rintro o ⟨_ | _, _⟩
      · simp [Server.record]
      · cases o <;> simp [Server.record]
    have h := ih (s.act L a)
    have hrun : s.run L (a :: acts) = (s.act L a).run L acts := rfl
    rw [hrun]
    have hl : (s.act L a).log.length ≤ s.log.length + if s.dropped then 0 else (pubCalls [a]).length := by
      cases a with
      | bind =>
        simp only [Server.act]
        split
        · simp
        · split <;> simp
      | publish t p => simp only [Server.act]; split <;> simp [pubCalls, *]
      | tryPublish t p => simp only [Server.act]; split <;> simp [pubCalls, *]
      | drop => simp only [Server.act]; split <;> simp
      | driver e => simp only [Server.act]; split <;> simp
      | session i e => simp only [Server.act]; split <;> simp
    cases hd : s.dropped with
    | true =>
      rw [(act_dropped L s a).2 (.inl hd)] at h
      rw [hd] at hl
      simp only [if_true] at h hl ⊢
      omega
    | false =>
      rw [hd] at hl
      by_cases ha : a = .drop
      · subst ha
        rw [(act_dropped L s .drop).2 (.inr rfl)] at h
        simp only [if_true, Bool.false_eq_true, if_false, pubCalls, List.length_nil] at h hl ⊢
        omega
      · have : (s.act L a).dropped = false := by
          cases hx : (s.act L a).dropped with
          | false => rfl
          | true => rcases (act_dropped L s a).1 hx with h | h
                    · rw [hd] at h; cases h
                    · exact absurd h ha
        rw [this] at h
        rw [pubCalls_cons a acts ha, List.length_append]
        simp only [Bool.false_eq_true, if_false] at h hl ⊢
        omega

/-- C84, the publisher as a whole: the sessions of a dropped publisher end. A session that is alive after the drop is over after at most `2 k + 1` more turns of its task, `k` the number of messages it has neither taken nor been told it missed, not counting the turns
in which the connection did not take a frame; and then the last thing it did was to end. -/
theorem C84_publisher_sessions_end (L : Lossy) (max : Option Nat) (authn : Option (Bytes → Bool)) (boundary minCompress bufferSize : Nat) (comp : Option Compressor)
    (before after : List (SrvAct A)) (hdrop : .drop ∈ before)
    (hm : ∀ t p, .publish t p ∈ before ∨ .tryPublish t p ∈ before → (utf8 t).length ≤ 65535)
    (i : Nat) (x : Ses A)
    (hx : ((Server.new max authn boundary minCompress bufferSize comp : Server A).run L before).ses[i]? = some x) (ho : x.task.over = false) :
    ∃ (x' : Ses A) (new : List Ev), ((Server.new max authn boundary minCompress bufferSize comp : Server A).run L (before ++ after)).ses[i]? = some x' ∧
      x'.task.evs = x.task.evs ++ new ∧
      (x'.task.over = true ∧ new.getLast? = some .ended ∨
        x'.task.over = false ∧ turnsOf i after ≤ new.count .blocked + 2 * ((pubCalls before).length - (tookOf x.task.evs).length - missedOf x.task.evs) + 1) := by
  obtain ⟨pre, e, post, h1, h2, acts₁, acts₂, b, h3, h4, h5, h6, h7⟩ :=
    session_history' L max authn boundary minCompress bufferSize comp before i x hx
  have hd := (run_dropped L before (Server.new max authn boundary minCompress bufferSize comp : Server A)).2 (.inr hdrop)
  obtain ⟨as, k1, k2, k3, k4, k5⟩ := dropped_run L after _ b h3 hd
  have hrun : (Server.new max authn boundary minCompress bufferSize comp : Server A).run L (before ++ after) =
      ((Server.new max authn boundary minCompress bufferSize comp : Server A).run L before).run L after := by simp [Server.run, List.foldl_append]
  have hclosed : b.closed = true := drop_closes L before _ (by simp [Server.new]) hd b h3
  have hdm : Act.drop ∈ acts₁ ++ .connect i boundary x.input :: acts₂ := by
    rcases closed_only L (acts₁ ++ .connect i boundary x.input :: acts₂) (Sys.new bufferSize) (by rw [h5]; exact hclosed) with h | h
    · cases h
    · exact h
  have hpub : published (acts₁ ++ .connect i boundary x.input :: acts₂) =
      ((Server.new max authn boundary minCompress bufferSize comp : Server A).run L before).log := by
    rw [← h6, published_append]; simp [published]
  have hlog : ∀ m ∈ published (acts₁ ++ .connect i boundary x.input :: acts₂), (utf8 m.topic).length ≤ 65535 := by
    intro m hmem
    rw [hpub] at hmem
    rcases log_topics L before _ m hmem with h | ⟨p, h⟩
    · simp [Server.new] at h
    · exact hm _ p h
  obtain ⟨t', new, j1, j2, j3⟩ := C84_sessions_end L bufferSize (acts₁ ++ .connect i boundary x.input :: acts₂) as i hdm k3 hlog x.task
    (by rw [h5]; simp [Server.sys, hx]) ho
  have hlen := log_length L before (Server.new max authn boundary minCompress bufferSize comp : Server A)
  have e0 : (Server.new max authn boundary minCompress bufferSize comp : Server A).log.length = 0 := rfl
  have e1 : (Server.new max authn boundary minCompress bufferSize comp : Server A).dropped = false := rfl
  rw [e0, e1] at hlen
  simp only [Bool.false_eq_true, if_false, Nat.zero_add] at hlen
  have hrun2 : (Sys.new bufferSize).run L (acts₁ ++ .connect i boundary x.input :: acts₂ ++ as) =
      ((Sys.new bufferSize).run L (acts₁ ++ .connect i boundary x.input :: acts₂)).run L as := by simp [Sys.run, List.foldl_append]
  rw [hrun2, h5, ← k2, ← hrun] at j1
  simp only [Server.sys, Option.map_eq_some_iff] at j1
  obtain ⟨x', j4, j5⟩ := j1
  subst j5
  refine ⟨x', new, j4, j2, j3.imp id (fun h => ⟨h.1, ?_⟩)⟩
  have h8 := h.2
  rw [k5, hpub] at h8
  omega

/-- C41, the publisher as a whole (partial): at any time, the publisher's `bytes_tx` is the number of bytes it has handed to all its connections ever, minus one for every frame. Missing: that one
(`C41_publisher_bytes_refuted`). Payloads are assumed to be below 4 GiB as they are sent. -/
theorem C41_publisher_total_partial (L : Lossy) (max : Option Nat) (authn : Option (Bytes → Bool)) (boundary minCompress bufferSize : Nat) (comp : Option Compressor)
    (acts : List (SrvAct A)) (hsmall : ∀ c ∈ pubCalls acts, ∀ m, c.prepare minCompress comp = some m → m.payload.length < 2 ^ 32) :
    let s := (Server.new max authn boundary minCompress bufferSize comp : Server A).run L acts
    s.bytesTx + (s.ses.map fun x => (sentOf x.task.evs).length).sum = (s.ses.map fun x => (x.task.sess.wr.wire ++ x.task.sess.wr.buf).length).sum := by
  have key : ∀ x ∈ ((Server.new max authn boundary minCompress bufferSize comp : Server A).run L acts).ses,
      x.task.sess.bytesTx + (sentOf x.task.evs).length = (x.task.sess.wr.wire ++ x.task.sess.wr.buf).length := by
    intro x hmem
    obtain ⟨i, hi⟩ := List.mem_iff_getElem?.1 hmem
    obtain ⟨pre, e, post, h1, h2, acts₁, acts₂, h3, h4, h5⟩ := session_history L max authn boundary minCompress bufferSize comp acts i x hi
    obtain ⟨es, hes⟩ := sys_task_run h3 h4
    obtain ⟨t, g1, g2, -⟩ := C23_feed_subsequence L bufferSize acts₁ acts₂ i boundary x.input h3
    rw [h4] at g1
    cases g1
    refine C41_publisher_bytes_partial L boundary x.input es _ _ hes (fun m hm => ?_)
    have := g2.subset hm
    rw [h5] at this
    obtain ⟨c, hc1, hc2⟩ := List.mem_filterMap.1 this
    exact hsmall c (by rw [h1]; exact List.mem_of_mem_drop hc1) m hc2
  simp only [Server.bytesTx]
  generalize ((Server.new max authn boundary minCompress bufferSize comp : Server A).run L acts).ses = l at key
  induction l with
  | nil => rfl
  | cons x l ih =>
    have h1 := key x (by simp)
    have h2 := ih (fun y hy => key y (List.mem_cons_of_mem _ hy))
    simp only [List.map_cons, List.sum_cons]
    omega

/-- A publisher with a subscriber of topic `a`: two of three messages are for it; the socket is dropped while the session is behind by all three, and the session works through them. -/
def droppedSrv : List (SrvAct Nat) :=
  [.bind some [80], .driver ⟨none, none, some ⟨0, some 0, ⟨[.data subA', .pending], [], [], []⟩⟩⟩, .driver ⟨none, some (0, true), none⟩, .session 0 dropEnv,
    .publish ['a'] [1], .tryPublish ['b'] [2], .publish ['a'] [3, 4], .drop]

/-- The hypotheses of the theorems above are met by it. -/
example :
    (match ((Server.new none none 8192 10 8 none : Server Nat).run Lossy.strict droppedSrv).ses[0]? with
      | some x => !x.task.over && decide (tookOf x.task.evs = [])
      | none => false) = true ∧
    (match ((Server.new none none 8192 10 8 none : Server Nat).run Lossy.strict (droppedSrv ++ List.replicate 6 (.session 0 dropEnv))).ses[0]? with
      | some x => x.task.over && decide ((sentOf x.task.evs).map (·.payload) = [[1], [3, 4]]) && decide (x.task.sess.wr.buf = [])
      | none => false) = true ∧
    ((Server.new none none 8192 10 8 none : Server Nat).run Lossy.strict (droppedSrv ++ List.replicate 6 (.session 0 dropEnv))).bytesTx = 43 := by
  decide +kernel

end MsgRs.Props
