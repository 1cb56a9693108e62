import Verif.Props.Queues
import Verif.Proofs.SubStay
import Verif.Spec.SubCalls
/-!
# C105: what the calls of a subscriber return is what happens
-/
namespace MsgRs.Props
open MsgRs MsgRs.Sub Spec
variable {A : Type} [DecidableEq A]

theorem trySend_cases (d : Driver A) (c : Command A) :
    d.trySend c = if d.cmdq.length < 1024 then (.ok (), { d with cmdq := d.cmdq ++ [c], woken := true }) else (.error .channelFull, d) := rfl

theorem send_cases (d : Driver A) (c : Command A) :
    d.send c = if d.cmdq.length < 1024 then (some (.ok ()), { d with cmdq := d.cmdq ++ [c], woken := true }) else (none, d) := rfl

theorem reserved_iff (t : Str) : reserved t = true ↔ ['M', 'S', 'G'] <+: t := List.isPrefixOf_iff_prefix

/-- C105: what a call returns. A reserved topic is refused. Otherwise, while fewer than 1024 commands are queued the call returns `Ok(())`, and what it asks for is queued, last;
with 1024 queued a `try_` method returns `ChannelFull` and the others wait, and nothing is queued. In all cases the background task was started. -/
theorem C105_call (d : Driver A) (c : Call A) (k : Command A) (hk : asks c = some k) :
    (namesReserved c → returns d c = some (.error .reservedTopic) ∧ d.call c = { d with started := true }) ∧
    (¬ namesReserved c → d.cmdq.length < 1024 →
      returns d c = some (.ok ()) ∧ d.call c = { d with started := true, woken := true, cmdq := d.cmdq ++ [k] }) ∧
    (¬ namesReserved c → 1024 ≤ d.cmdq.length →
      returns d c = (if waits c then none else some (.error .channelFull)) ∧ d.call c = { d with started := true }) := by
  cases c with
  | recv => cases hk
  | subscribe t | trySubscribe t | unsubscribe t | tryUnsubscribe t =>
    cases hk
    refine ⟨fun h => ?_, fun h hl => ?_, fun h hl => ?_⟩
    · have hr := (reserved_iff t).2 h
      simp [returns, Driver.call, Driver.subscribeAsync, Driver.trySubscribe, Driver.unsubscribeAsync, Driver.tryUnsubscribe, hr, Driver.ensureActive]
    · have hr : reserved t = false := by
        cases hx : reserved t with
        | false => rfl
        | true => exact absurd ((reserved_iff t).1 hx) h
      simp [returns, Driver.call, Driver.subscribeAsync, Driver.trySubscribe, Driver.unsubscribeAsync, Driver.tryUnsubscribe, hr, Driver.ensureActive,
        trySend_cases, send_cases, hl]
    · have hr : reserved t = false := by
        cases hx : reserved t with
        | false => rfl
        | true => exact absurd ((reserved_iff t).1 hx) h
      simp [returns, Driver.call, Driver.subscribeAsync, Driver.trySubscribe, Driver.unsubscribeAsync, Driver.tryUnsubscribe, hr, Driver.ensureActive,
        trySend_cases, send_cases, Nat.not_lt.2 hl, waits]
  | connect a | tryConnect a | disconnect a | tryDisconnect a =>
    cases hk
    refine ⟨fun h => h.elim, fun _ hl => ?_, fun _ hl => ?_⟩
    · simp [returns, Driver.call, Driver.connectAsync, Driver.tryConnect, Driver.disconnectAsync, Driver.tryDisconnect, Driver.ensureActive, trySend_cases, send_cases, hl]
    · simp [returns, Driver.call, Driver.connectAsync, Driver.tryConnect, Driver.disconnectAsync, Driver.tryDisconnect, Driver.ensureActive, trySend_cases, send_cases,
        Nat.not_lt.2 hl, waits]

theorem pollPub_log (D : Decompressors) {d d' : Driver A} {p : Bool} (a : A) (h : d.pollPub D a = .ok (d', p)) :
    d'.cmdq = d.cmdq ∧ d'.processed = d.processed := by
  have hdel : ∀ (d : Driver A) a u t p, (d.deliver a u t p).cmdq = d.cmdq ∧ (d.deliver a u t p).processed = d.processed := by
    intro d a u t p; unfold Driver.deliver; repeat' split
    all_goals exact ⟨rfl, rfl⟩
  have hres : ∀ (d : Driver A) a, (d.resetPublisher a).cmdq = d.cmdq ∧ (d.resetPublisher a).processed = d.processed := by
    intro d a; rw [reset_eq]; exact ⟨rfl, rfl⟩
  have hcon : ∀ (d : Driver A) a, (d.connect a).cmdq = d.cmdq ∧ (d.connect a).processed = d.processed := by
    intro d a; unfold Driver.connect; split <;> exact ⟨rfl, rfl⟩
  unfold Driver.pollPub at h
  split at h
  · cases h; exact ⟨rfl, rfl⟩
  · split at h
    · cases h; exact ⟨rfl, rfl⟩
    · split at h
      · simp only at h
        split at h
        · cases h; exact ⟨rfl, rfl⟩
        · cases h; exact hdel _ _ _ _ _
      · cases h; exact hres _ _
      · cases h; exact ⟨rfl, rfl⟩
  · rename_i b _
    cases hb : b.poll d.now with
    | panic => rw [hb] at h; cases h
    | ok r =>
      rw [hb] at h
      obtain ⟨o, b'⟩ := r
      simp only [R.bind_ok, R.pure_eq] at h
      cases o with
      | pending => cases h; exact ⟨rfl, rfl⟩
      | item i => cases h; exact hcon _ _
      | ended => cases h; exact ⟨rfl, rfl⟩

theorem pollPublishers_log (D : Decompressors) (order : List A) {d d' : Driver A} {p : Bool} (h : d.pollPublishers D order = .ok (d', p)) :
    d'.cmdq = d.cmdq ∧ d'.processed = d.processed := by
  induction order generalizing d d' p with
  | nil => cases h; exact ⟨rfl, rfl⟩
  | cons a as ih =>
    unfold Driver.pollPublishers at h
    cases h1 : d.pollPub D a with
    | panic => rw [h1] at h; cases h
    | ok r =>
      rw [h1] at h
      simp only [R.bind_ok] at h
      cases h2 : r.1.pollPublishers D as with
      | panic => rw [h2] at h; cases h
      | ok r2 =>
        rw [h2] at h
        cases h
        obtain ⟨g1, g2⟩ := ih h2
        obtain ⟨g3, g4⟩ := pollPub_log D a (d' := r.1) (p := r.2) h1
        exact ⟨g1.trans g3, g2.trans g4⟩

theorem joinStep_log (d : Driver A) (e : Env A) : (d.joinStep e).1.cmdq = d.cmdq ∧ (d.joinStep e).1.processed = d.processed := by
  unfold Driver.joinStep
  split
  · exact ⟨rfl, rfl⟩
  · split
    · exact ⟨rfl, rfl⟩
    · split
      · exact ⟨rfl, rfl⟩
      · exact ⟨rfl, rfl⟩
      · exact ⟨rfl, rfl⟩
      · have := fun (d : Driver A) (o : List Str) (a : A) v i => onConnection_same d o a v i
        simp only
        exact ⟨(this _ _ _ _ _).2.1, (this _ _ _ _ _).1⟩

/-- One iteration of the background task handles at most the first command of the queue. -/
theorem iter_log (D : Decompressors) {d d' : Driver A} {e : Env A} {o : Out} (h : d.iter D e = .ok (d', o)) : d'.log = d.log := by
  unfold Driver.iter at h
  cases h1 : d.pollPublishers D e.order with
  | panic => rw [h1] at h; cases h
  | ok r =>
    rw [h1] at h
    obtain ⟨d1, p⟩ := r
    obtain ⟨g1, g2⟩ := pollPublishers_log D _ h1
    simp only [R.bind_ok, R.pure_eq] at h
    have hd : d1.log = d.log := by simp only [Driver.log, g1, g2]
    cases p with
    | true => simp only [if_true] at h; cases h; exact hd
    | false =>
      simp only [Bool.false_eq_true, if_false] at h
      rw [← hd]
      cases hq : d1.cmdq with
      | nil =>
        rw [hq] at h
        have hj : d' = (d1.joinStep e).1 := by
          have := R.ok.inj h
          rw [this]
        obtain ⟨k1, k2⟩ := joinStep_log d1 e
        rw [hj]
        simp only [Driver.log, k1, k2]
      | cons c q =>
        rw [hq] at h
        cases h
        obtain ⟨k1, k2, -⟩ := onCommand_same { d1 with cmdq := q, processed := d1.processed ++ [c] } c
        simp only [Driver.log, k1, k2, hq]
        simp

theorem act_promised (L : Lossy) (D : Decompressors) (d d' : Driver A) (x : Act A) (h : d.act L D x = .ok d') : d'.log = d.log ++ promised d x := by
  cases x with
  | iter e =>
    simp only [Driver.act] at h
    simp only [promised, List.append_nil]
    split at h
    · cases h1 : d.iter D e with
      | panic => rw [h1] at h; cases h
      | ok r => rw [h1] at h; cases h; exact iter_log D (d' := r.1) (o := r.2) h1
    · cases h; rfl
  | session u e =>
    simp only [Driver.act] at h
    simp only [promised, List.append_nil]
    split at h <;> cases h <;> rfl
  | advance dt => cases h; simp [promised, Driver.log]
  | call c =>
    simp only [Driver.act] at h
    cases hc : d.closed with
    | true => rw [hc] at h; cases h; simp [promised, hc]
    | false =>
      rw [hc] at h
      simp only [Bool.false_eq_true, if_false] at h
      cases h
      simp only [promised, hc, true_and]
      cases hk : asks c with
      | none =>
        cases c with
        | recv =>
          simp only [returnedOk, returns, Driver.call, Driver.recv]
          split <;> simp [Driver.log]
        | _ => cases hk
      | some k =>
        obtain ⟨g1, g2, g3⟩ := C105_call d c k hk
        by_cases hr : namesReserved c
        · rw [(g1 hr).2]
          simp [returnedOk, (g1 hr).1, Driver.log]
        · by_cases hl : d.cmdq.length < 1024
          · rw [(g2 hr hl).2]
            simp [returnedOk, (g2 hr hl).1, Driver.log]
          · obtain ⟨k1, k2⟩ := g3 hr (Nat.not_lt.1 hl)
            rw [k2]
            cases hw : waits c <;> simp [returnedOk, k1, hw, Driver.log]
  | dropSocket =>
    simp only [Driver.act] at h
    cases hc : d.closed with
    | true => rw [hc] at h; cases h; simp [promised, hc]
    | false =>
      rw [hc] at h
      simp only [Bool.false_eq_true, if_false] at h
      cases h
      simp only [promised, hc, true_and, Driver.dropSocket, trySend_cases]
      split <;> simp [Driver.log]

/-- C105: whatever the history, the commands the background task handled, followed by those still queued, are those of the calls that returned `Ok(())`, each once, in the order of
the calls (and the shutdown the drop of the socket asks for); calls that returned an error or did not return have no effect. -/
theorem C105_history (L : Lossy) (D : Decompressors) (opts : Options) (now : Nat) (d0 d : Driver A) (acts : List (Act A)) (h0 : Driver.new opts now = .ok d0)
    (h : d0.run L D acts = .ok d) : d.processed ++ d.cmdq = promises L D d0 acts := by
  have gen : ∀ (acts : List (Act A)) (d0 : Driver A), d0.run L D acts = .ok d → d.log = d0.log ++ promises L D d0 acts := by
    intro acts
    induction acts with
    | nil => intro d0 h; cases h; simp [promises]
    | cons x xs ih =>
      intro d0 h
      simp only [Driver.run] at h
      cases h1 : d0.act L D x with
      | panic => rw [h1] at h; cases h
      | ok d1 =>
        rw [h1] at h
        simp only [R.bind_ok] at h
        rw [ih d1 h, act_promised L D d0 d1 x h1]
        simp only [promises, h1, List.append_assoc]
  have := gen acts d0 h
  have hn : d0.log = [] := by
    unfold Driver.new at h0
    split at h0 <;> cases h0
    rfl
  rw [hn] at this
  exact this

/-- A history with accepted and refused calls. -/
example : after {} [.call (.trySubscribe ['a']), .call (.tryConnect 5), .call (.trySubscribe ['M', 'S', 'G']), .iter ⟨[], [], none⟩, .call (.tryUnsubscribe ['b']), .call .recv,
      .call (.disconnect 7), .dropSocket, .call (.tryConnect 9)]
    (fun d => decide (d.processed = [.subscribe ['a']]) && decide (d.cmdq = [.connect 5, .unsubscribe ['b'], .disconnect 7, .shutdown])) = true := by decide +kernel

theorem fill (L : Lossy) (D : Decompressors) (opts : Options) (n : Nat) (hn : n ≤ 1024) (d : Driver Nat) (hd : (Driver.new opts 0 : R (Driver Nat)) = .ok d) :
    ∃ d', d.run L D (List.replicate n (.call (.tryConnect 1))) = .ok d' ∧ d'.cmdq = List.replicate n (.connect 1) ∧ d'.closed = false := by
  have h0 : d.cmdq = [] ∧ d.closed = false := by
    unfold Driver.new at hd; split at hd <;> cases hd; exact ⟨rfl, rfl⟩
  have gen : ∀ (n : Nat) (d : Driver Nat), d.closed = false → d.cmdq.length + n ≤ 1024 →
      ∃ d', d.run L D (List.replicate n (.call (.tryConnect 1))) = .ok d' ∧ d'.cmdq = d.cmdq ++ List.replicate n (.connect 1) ∧ d'.closed = false := by
    intro n
    induction n with
    | zero => intro d hc _; exact ⟨d, rfl, by simp, hc⟩
    | succ n ih =>
      intro d hc hl
      have h1 := ((C105_call d (.tryConnect 1) (.connect 1) rfl).2.1 (fun h => h) (by omega)).2
      obtain ⟨d', g1, g2, g3⟩ := ih { d with started := true, woken := true, cmdq := d.cmdq ++ [.connect 1] } hc (by simp only [List.length_append, List.length_singleton]; omega)
      refine ⟨d', ?_, ?_, g3⟩
      · rw [List.replicate_succ]
        have ha : d.act L D (.call (.tryConnect 1)) = .ok (d.call (.tryConnect 1)) := by
          simp only [Driver.act]; rw [if_neg (by rw [hc]; decide)]
        show (d.act L D (.call (.tryConnect 1)) >>= fun d => Driver.run L D d (List.replicate n (.call (.tryConnect 1)))) = _
        rw [ha, h1]
        exact g1
      · rw [g2, List.replicate_succ]; simp
  obtain ⟨d', g1, g2, g3⟩ := gen n d h0.2 (by rw [h0.1]; simpa using hn)
  exact ⟨d', g1, by rw [g2, h0.1]; rfl, g3⟩

/-- The full queue exists: after 1024 calls before the background task ran, the next `try_subscribe` returns `ChannelFull`, and `subscribe` waits. -/
theorem C105_full (L : Lossy) (D : Decompressors) : ∃ d : Driver Nat, Reach L D d ∧ d.closed = false ∧
    returns d (.trySubscribe ['a']) = some (.error .channelFull) ∧ returns d (.subscribe ['a']) = none ∧ returns d (.tryDisconnect 1) = some (.error .channelFull) := by
  obtain ⟨d', g1, g2, g3⟩ := fill L D {} 1024 (Nat.le_refl _) _ rfl
  have hl : 1024 ≤ d'.cmdq.length := by rw [g2, List.length_replicate]; exact Nat.le_refl _
  refine ⟨d', ⟨{}, 0, _, _, rfl, g1⟩, g3, ?_, ?_, ?_⟩
  · exact ((C105_call d' (.trySubscribe ['a']) _ rfl).2.2 (by simp [namesReserved]) hl).1
  · exact ((C105_call d' (.subscribe ['a']) _ rfl).2.2 (by simp [namesReserved]) hl).1
  · exact ((C105_call d' (.tryDisconnect 1) _ rfl).2.2 (fun h => h) hl).1

end MsgRs.Props
