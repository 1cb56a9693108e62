import Verif.Model.OptionPanics
import Verif.Proofs.PubTimed
import Verif.Proofs.SubRetry
import Verif.Props.Req
import Verif.Props.RepSocket
import Verif.Props.ReturnsSub
import Verif.Props.PubServer
/-!
# Property C107: option values and panics

Buffer sizes and intervals are passed to tokio as they are; some values make the socket, or a task of it, panic. Here: which do, that no others do, and what
is left of the socket then. The panics at creation are in the models of the sockets; those of the background tasks in `Model/OptionPanics`, which puts them into
the models of the request driver (`runC`), the publisher's sessions (`Timed.runC`) and its driver (`Host`).
-/
namespace MsgRs.Props
open MsgRs
variable {A : Type}

/-! ## Subscriber -/

theorem sub_act_opts [DecidableEq A] {L : Lossy} {D : Decompressors} {d d' : Sub.Driver A} (a : Sub.Act A) (h : d.act L D a = .ok d') : d'.opts = d.opts := by
  cases a with
  | iter e =>
    simp only [Sub.Driver.act] at h
    split at h
    · cases hi : d.iter D e with
      | panic => rw [hi] at h; cases h
      | ok r =>
        obtain ⟨u, o⟩ := r
        rw [hi] at h
        cases h
        exact (Sub.iter_now hi).2
    · cases h; rfl
  | session u e =>
    simp only [Sub.Driver.act] at h
    split at h <;> cases h <;> rfl
  | advance dt => cases h; rfl
  | call c =>
    simp only [Sub.Driver.act] at h
    split at h
    · cases h; rfl
    · cases h
      have hs : ∀ (x : Sub.Driver A) c, (x.trySend c).2.opts = x.opts := by
        intro x c; unfold Sub.Driver.trySend; split <;> rfl
      have hs' : ∀ (x : Sub.Driver A) c, (x.send c).2.opts = x.opts := by
        intro x c; unfold Sub.Driver.send; split <;> rfl
      cases c with
      | subscribe t => simp only [Sub.Driver.call, Sub.Driver.subscribeAsync]; split <;> first | rfl | exact hs' _ _
      | trySubscribe t => simp only [Sub.Driver.call, Sub.Driver.trySubscribe]; split <;> first | rfl | exact hs _ _
      | unsubscribe t => simp only [Sub.Driver.call, Sub.Driver.unsubscribeAsync]; split <;> first | rfl | exact hs' _ _
      | tryUnsubscribe t => simp only [Sub.Driver.call, Sub.Driver.tryUnsubscribe]; split <;> first | rfl | exact hs _ _
      | connect a => exact hs' _ _
      | tryConnect a => exact hs _ _
      | disconnect a => exact hs' _ _
      | tryDisconnect a => exact hs _ _
      | recv => simp only [Sub.Driver.call, Sub.Driver.recv]; split <;> rfl
  | dropSocket =>
    simp only [Sub.Driver.act] at h
    split at h
    · cases h; rfl
    · cases h
      simp only [Sub.Driver.dropSocket, Sub.Driver.trySend]
      split <;> rfl

theorem sub_runC [DecidableEq A] (L : Lossy) (D : Decompressors) (acts : List (Sub.Act A)) (d : Sub.Driver A) (h : d.opts.readBuffer < 2 ^ 63) :
    d.runC L D acts = d.run L D acts := by
  induction acts generalizing d with
  | nil => rfl
  | cons a as ih =>
    simp only [Sub.Driver.runC, Sub.Driver.run, Sub.Driver.actC]
    cases ha : d.act L D a with
    | panic => rfl
    | ok d' =>
      simp only [R.bind_ok]
      rw [if_neg (by omega)]
      simp only [R.bind_ok]
      exact ih d' (by rw [sub_act_opts a ha]; exact h)

/-- C107 (partial), subscriber: with an ingress buffer of at least 1 and less than `2 ^ 61` messages, a read buffer of less than `2 ^ 63` bytes and an initial backoff that can be doubled
16 times, the socket can be made, its driver never panics and it does what it does in the model without the panic of the read
buffer. Missing: other buffer sizes panic (`C107_refuted_sizes`, `C107_refuted_read_buffer`). -/
theorem C107_subscriber_partial [DecidableEq A] (L : Lossy) (D : Decompressors) (opts : Sub.Options) (now : Nat) (h0 : 0 < opts.ingress) (h1 : opts.ingress < 2 ^ 61)
    (h2 : opts.readBuffer < 2 ^ 63) (hb : opts.initialBackoff * 2 ^ 16 ≤ Duration.max) :
    ∃ d0 : Sub.Driver A, Sub.Driver.new opts now = .ok d0 ∧ ∀ acts, ∃ d, d0.runC L D acts = .ok d ∧ d0.run L D acts = .ok d := by
  have hn : (Sub.Driver.new opts now : R (Sub.Driver A)) = .ok { opts, now } := by
    unfold Sub.Driver.new
    rw [if_neg (by omega)]
  refine ⟨_, hn, fun acts => ?_⟩
  have hnp := C75_subscriber_no_panic L D opts now acts _ hn hb
  rw [sub_runC L D acts _ h2]
  cases hr : ({ opts, now } : Sub.Driver A).run L D acts with
  | panic => exact absurd hr hnp
  | ok d => exact ⟨d, rfl, rfl⟩

/-- C107 (refuted as stated): with a read buffer of `2 ^ 63` bytes or more (`usize::MAX`) a subscriber can be made, and the driver panics as soon as a publisher is
connected. In no history it has a session. -/
theorem C107_refuted_read_buffer [DecidableEq A] (L : Lossy) (D : Decompressors) (opts : Sub.Options) (now : Nat) (h0 : 0 < opts.ingress) (h1 : opts.ingress < 2 ^ 61)
    (h2 : 2 ^ 63 ≤ opts.readBuffer) (htok : opts.token = none) (a : A) :
    ∃ d0 : Sub.Driver A, Sub.Driver.new opts now = .ok d0 ∧
      d0.runC L D [.call (.connect a), .iter { order := [] }, .iter { order := [], join := some (0, .connected ⟨[], [], [], []⟩) }] = .panic ∧
      ∀ acts d, d0.runC L D acts = .ok d → d.sessions = [] := by
  have hn : (Sub.Driver.new opts now : R (Sub.Driver A)) = .ok { opts, now } := by
    unfold Sub.Driver.new
    rw [if_neg (by omega)]
  refine ⟨_, hn, ?_, ?_⟩
  · have e1 : ({ opts, now } : Sub.Driver A).actC L D (.call (.connect a)) =
        .ok { opts, now, started := true, cmdq := [.connect a] } := by
      simp [Sub.Driver.actC, Sub.Driver.act, Sub.Driver.call, Sub.Driver.connectAsync, Sub.Driver.send, Sub.Driver.ensureActive, Sub.cmdCap]
    have e2 : ({ opts, now, started := true, cmdq := [.connect a] } : Sub.Driver A).actC L D (.iter { order := [] }) =
        .ok { opts, now, started := true, processed := [.connect a], keys := [a], tasks := [a], pubs := [(a, .inactive (Backoff.new opts.initialBackoff 16))] } := by
      simp [Sub.Driver.actC, Sub.Driver.act, Sub.Driver.iter, Sub.Driver.pollPublishers, Sub.Driver.onCommand, Sub.lookup, Sub.Driver.connect,
        Sub.Driver.resetPublisher, Sub.Driver.hangUp, Sub.insert, Sub.erase]
    simp only [Sub.Driver.runC, e1, e2, R.bind_ok]
    have e3 : ({ opts, now, started := true, processed := [.connect a], keys := [a], tasks := [a], pubs := [(a, .inactive (Backoff.new opts.initialBackoff 16))] } : Sub.Driver A).actC
        L D (.iter { order := [], join := some (0, .connected ⟨[], [], [], []⟩) }) = .panic := by
      simp [Sub.Driver.actC, Sub.Driver.act, Sub.Driver.iter, Sub.Driver.pollPublishers, Sub.Driver.joinStep, Sub.taskResult, htok, Sub.Driver.onConnection,
        Sub.lookup]
      omega
    rw [e3]
    rfl
  · have key : ∀ (acts : List (Sub.Act A)) (d0 d : Sub.Driver A), d0.sessions = [] → d0.opts = opts → d0.runC L D acts = .ok d → d.sessions = [] := by
      intro acts
      induction acts with
      | nil => intro d0 d hs _ h; cases h; exact hs
      | cons x as ih =>
        intro d0 d hs ho h
        simp only [Sub.Driver.runC, Sub.Driver.actC] at h
        cases ha : d0.act L D x with
        | panic => rw [ha] at h; cases h
        | ok d1 =>
          rw [ha] at h
          simp only [R.bind_ok] at h
          split at h
          · cases h
          · rename_i hx
            have hl : d1.sessions = [] := by
              have : ¬ d0.sessions.length < d1.sessions.length := fun hy => hx ⟨by rw [ho]; exact h2, hy⟩
              rw [hs] at this
              exact List.length_eq_zero_iff.1 (by simp only [List.length_nil] at this; omega)
            exact ih d1 d hl ((sub_act_opts x ha).trans ho) h
    exact fun acts d h => key acts _ d rfl rfl h

/-! ## Binding -/

/-- C107 (partial), publisher and reply socket: with a session buffer of at least 1 and less than `2 ^ 63` messages a publisher that has not been bound can be bound to
any addresses without panic, and so can a reply socket with fewer than `2 ^ 63` maximum clients (or no maximum). Missing: other sizes
panic (`C107_refuted_sizes`). -/
theorem C107_bind_partial (bind : A → Option A) (addrs : List A) :
    (∀ minCompress bufferSize comp, 0 < bufferSize → bufferSize < 2 ^ 63 →
      (Pub.Socket.new minCompress bufferSize comp : Pub.Socket A).tryBind bind addrs ≠ .panic) ∧
    (∀ max authn comp, (∀ n, max = some n → n < 2 ^ 63) →
      (Rep.Socket.new max authn comp : Rep.Socket A).tryBind bind addrs ≠ .panic) := by
  constructor
  · intro mc bs comp h0 h1
    have hb : ¬ (bs = 0 ∨ 2 ^ 63 ≤ bs) := by omega
    have he : (Pub.Socket.new mc bs comp : Pub.Socket A).tryBind bind addrs = _ := if_neg hb
    rw [he]
    simp only [Pub.Socket.new]
    cases Pub.bindLoop bind none addrs <;> simp
  · intro max authn comp h
    have hm : ¬ 2 ^ 63 ≤ max.getD 64 := by
      cases max with
      | none => simp
      | some n => have := h n rfl; simp only [Option.getD_some]; omega
    unfold Rep.Socket.tryBind
    have h1 : (Rep.Socket.new max authn comp : Rep.Socket A).transport = some none := rfl
    have h2 : (Rep.Socket.new max authn comp : Rep.Socket A).max = max := rfl
    rw [h1]
    simp only
    cases Pub.bindLoop bind none addrs with
    | none => simp
    | some l => simp only [h2]; rw [if_neg hm]; simp

/-- C107 (refuted as stated): sizes that panic. A subscriber cannot be made with an ingress buffer of 0 or of `2 ^ 61` and more (`usize::MAX`), a publisher not be bound
with a session buffer of 0 or of `2 ^ 63` and more, a reply socket not with a maximum of `2 ^ 63` or more clients: after that it has no transport any more,
whatever is tried. A request socket cannot be connected with a timeout below 10 ns or a zero flush interval. -/
theorem C107_refuted_sizes :
    (∀ (opts : Sub.Options) now, opts.ingress = 0 ∨ 2 ^ 61 ≤ opts.ingress → (Sub.Driver.new opts now : R (Sub.Driver A)) = .panic) ∧
    (∀ minCompress bufferSize comp bind addrs, bufferSize = 0 ∨ 2 ^ 63 ≤ bufferSize →
      (Pub.Socket.new minCompress bufferSize comp : Pub.Socket A).tryBind bind addrs = .panic) ∧
    (∀ n authn comp (bind : A → Option A) addrs, 2 ^ 63 ≤ n → (∃ a ∈ addrs, bind a ≠ none) →
      (Rep.Socket.new (some n) authn comp : Rep.Socket A).tryBind bind addrs = .panic) ∧
    (∀ (opts : Req.Options) comp now, opts.timeout < 10 ∨ opts.flushInterval = some 0 → Req.State.new opts comp now = .panic) := by
  refine ⟨?_, ?_, ?_, ?_⟩
  · intro opts now h
    unfold Sub.Driver.new
    rw [if_pos h]
  · intro mc bs comp bind addrs h
    exact if_pos h
  · intro n authn comp bind addrs hn ⟨a, ha, hb⟩
    have : ∃ l, Pub.bindLoop bind none addrs = some l := by
      cases hl : Pub.bindLoop bind none addrs with
      | some l => exact ⟨l, rfl⟩
      | none => exact absurd (Rep.bindLoop_none.1 hl a ha) hb
    obtain ⟨l, hl⟩ := this
    simp only [Rep.Socket.tryBind, Rep.Socket.new, hl]
    exact if_pos hn
  · intro opts comp now h
    exact (C36_no_panic ⟨fun _ => none, fun _ => none, fun _ => none, fun _ => none⟩ opts comp now).1.2 h

/-! ## Request socket -/

/-- The time that passes in a history. -/
def Spec.elapsed : List Req.Act → Nat
  | [] => 0
  | .advance dt :: as => dt + Spec.elapsed as
  | _ :: as => Spec.elapsed as

theorem req_act_now {D : Decompressors} {s t : Req.State} (a : Req.Act) (h : s.act D a = .ok t) :
    t.opts = s.opts ∧ ∀ as, t.now + Spec.elapsed as = s.now + Spec.elapsed (a :: as) := by
  have ho : t.opts = s.opts := by
    have := Req.run_steps (D := D) [a] s t (by simp only [Req.State.run, h]; rfl)
    exact this.induct (P := fun x => x.opts = s.opts) (fun _ _ hs hx => (step_opts hs).1.trans hx) rfl
  refine ⟨ho, fun as => ?_⟩
  cases a with
  | advance dt => cases h; simp only [Spec.elapsed]; omega
  | dropSocket => cases h; rfl
  | request p =>
    simp only [Req.State.act] at h
    repeat' split at h
    all_goals cases h
    all_goals rfl
  | iter e =>
    simp only [Req.State.act] at h
    split at h
    · cases h; rfl
    · cases hi : s.iter D e with
      | panic => rw [hi] at h; cases h
      | ok r =>
        obtain ⟨u, o⟩ := r
        rw [hi] at h
        cases h
        obtain ⟨v, hv, hr⟩ := Req.iter_rest hi
        have : u.now = s.now := (Req.rest_fields hr).2.2.1.trans ((Req.taskStep_ended _ _ e hv).2.trans (Req.flushStep_ended s e).2)
        simp only [Spec.elapsed, this]

/-- The first time, in nanoseconds, that the operating system's clock type cannot represent: its seconds are a signed 64-bit number. -/
def Spec.noInstant : Nat := 9223372036854775808 * 1000000000

theorem instant_limit : Instant.limit = Spec.noInstant := by decide

/-- C107 (partial), request socket: with a timeout of at least 10 ns and a positive flush interval that, added to any time reached, is still an instant (and without
one), connecting succeeds and the driver never panics. Missing: other values panic (`C107_refuted_sizes`, `C107_refuted_huge_flush`). -/
theorem C107_requester_partial (D : Decompressors) (opts : Req.Options) (comp : Option Compressor) (now : Nat) (ht : 10 ≤ opts.timeout)
    (h0 : opts.flushInterval ≠ some 0) :
    ∃ s0, Req.State.new opts comp now = .ok s0 ∧ ∀ acts,
      (∀ p, opts.flushInterval = some p → now + Spec.elapsed acts + p < Spec.noInstant) →
      ∃ s, s0.runC D acts = .ok s ∧ s0.run D acts = .ok s := by
  have hnp := C36_no_panic D opts comp now
  cases hs0 : Req.State.new opts comp now with
  | panic =>
    rcases hnp.1.1 hs0 with h | h
    · omega
    · exact absurd h h0
  | ok s0 =>
    refine ⟨s0, rfl, fun acts hp => ?_⟩
    obtain ⟨s, hs⟩ := hnp.2 s0 hs0 acts
    refine ⟨s, ?_, hs⟩
    have hn0 : s0.now = now ∧ s0.opts = opts := by
      obtain ⟨-, f, rfl⟩ := Req.new_fields hs0
      exact ⟨rfl, rfl⟩
    have key : ∀ (acts : List Req.Act) (s0 : Req.State), Req.FInv s0 → s0.opts = opts →
        (∀ p, opts.flushInterval = some p → s0.now + Spec.elapsed acts + p < Spec.noInstant) → s0.run D acts = .ok s → s0.runC D acts = .ok s := by
      intro acts
      induction acts with
      | nil => intro s0 _ _ _ h; exact h
      | cons a as ih =>
        intro s0 hf ho hp h
        simp only [Req.State.run] at h
        cases ha : s0.act D a with
        | panic => rw [ha] at h; cases h
        | ok s1 =>
          rw [ha] at h
          obtain ⟨k1, k2⟩ := req_act_now a ha
          have hC : s0.actC D a = .ok s1 := by
            cases a with
            | iter e =>
              have hfl : s0.flushPanics = false := by
                cases hv : s0.flushIv with
                | none => simp [Req.State.flushPanics, hv]
                | some iv =>
                  have hi := hf.iv
                  rw [hv, ho] at hi
                  have := hp iv.period (by rw [← hi]; rfl)
                  simp only [Req.State.flushPanics, hv, Option.any_some, Interval.overflows, instant_limit, Bool.and_eq_false_iff, decide_eq_false_iff_not]
                  right
                  omega
              simp only [Req.State.actC, hfl, Bool.and_false, Bool.false_eq_true, if_false]
              exact ha
            | advance dt => exact ha
            | request p => exact ha
            | dropSocket => exact ha
          simp only [Req.State.runC, hC]
          exact ih s1 (hf.act ha) (k1.trans ho) (fun p hpp => by rw [k2]; exact hp p hpp) h
    exact key acts s0 (Req.FInv.new hs0) hn0.2 (fun p hpp => by rw [hn0.1]; exact hp p hpp) hs

/-- C107 (refuted as stated): the flush interval is too large (`Duration::MAX` is): connecting succeeds, and then the first time the driver runs it panics. The same for every session of a
publisher. -/
theorem C107_refuted_huge_flush (D : Decompressors) (opts : Req.Options) (comp : Option Compressor) (now p : Nat) (ht : 10 ≤ opts.timeout)
    (hp : opts.flushInterval = some p) (hbig : Spec.noInstant ≤ p) :
    (∃ s0, Req.State.new opts comp now = .ok s0 ∧ ∀ e, s0.actC D (.iter e) = .panic) ∧
    (∀ L boundary input, ∃ t, Pub.Timed.new boundary input (some p) now = .ok t ∧ ∀ e as, t.runC L (.iter e :: as) = .panic) := by
  have hp0 : p ≠ 0 := by
    intro h
    subst h
    exact absurd hbig (by decide)
  have hover : decide (Spec.noInstant ≤ now + p) = true := by simp only [decide_eq_true_eq]; omega
  constructor
  · have ht0 : opts.timeout / 10 ≠ 0 := by omega
    refine ⟨_, by simp only [Req.State.new, Interval.new, if_neg ht0, hp, if_neg hp0]; rfl, fun e => ?_⟩
    simp only [Req.State.actC, Req.State.flushPanics, Option.any_some, Interval.overflows, instant_limit, hover]
    rfl
  · intro L boundary input
    refine ⟨_, by simp only [Pub.Timed.new, Interval.new, if_neg hp0]; rfl, fun e as => ?_⟩
    simp only [Pub.Timed.runC, Pub.Timed.flushPanics, Option.any_some, Interval.overflows, instant_limit, hover]
    rfl

example : ∃ p, Spec.noInstant ≤ p ∧ p = Duration.max := ⟨_, by decide, rfl⟩

/-! ## Publisher -/

/-- The time that passes in a history of a session. -/
def Spec.elapsedT : List Pub.TAct → Nat
  | [] => 0
  | .advance dt :: as => dt + Spec.elapsedT as
  | .iter _ :: as => Spec.elapsedT as

/-- C107 (partial), sessions of a publisher: unless the flush interval, added to a time reached, is no longer an instant, a session does what it does in the model
without that panic. Missing: `C107_refuted_huge_flush`. -/
theorem C107_session_partial (L : Lossy) (boundary : Nat) (input : List ReadAns) (period : Option Nat) (now : Nat) (t : Pub.Timed)
    (h : Pub.Timed.new boundary input period now = .ok t) (acts : List Pub.TAct)
    (hp : ∀ p, period = some p → now + Spec.elapsedT acts + p < Spec.noInstant) : t.runC L acts = t.run L acts := by
  have hnow : t.now = now := by
    unfold Pub.Timed.new Interval.new at h
    cases period with
    | none => cases h; rfl
    | some p =>
      by_cases hp0 : p = 0
      · simp only [if_pos hp0] at h; cases h
      · simp only [if_neg hp0] at h; cases h; rfl
  have key : ∀ (acts : List Pub.TAct) (t : Pub.Timed) (evs : List Pub.Ev), Pub.ClockInv L period t evs →
      (∀ p, period = some p → t.now + Spec.elapsedT acts + p < Spec.noInstant) → t.runC L acts = t.run L acts := by
    intro acts
    induction acts with
    | nil => intro t _ _ _; rfl
    | cons a as ih =>
      intro t evs hi hp
      cases a with
      | advance dt =>
        have hi' : Pub.ClockInv L period { t with now := t.now + dt } evs :=
          ⟨hi.inv, hi.period, fun iv hv => Nat.le_trans (hi.next iv hv) (by simp only; omega)⟩
        simp only [Pub.Timed.runC, Pub.Timed.run]
        refine ih _ evs hi' (fun p hpp => ?_)
        have := hp p hpp
        simp only [Spec.elapsedT] at this
        simp only
        omega
      | iter e =>
        simp only [Pub.Timed.runC, Pub.Timed.run]
        by_cases he : t.ended = true
        · rw [if_pos he, if_pos he]
          exact ih t evs hi hp
        · rw [if_neg he, if_neg he]
          have hfl : t.flushPanics = false := by
            cases hv : t.iv with
            | none => simp [Pub.Timed.flushPanics, hv]
            | some iv =>
              have hpe := hi.period
              rw [hv] at hpe
              have := hp iv.period (by rw [← hpe]; rfl)
              simp only [Spec.elapsedT] at this
              simp only [Pub.Timed.flushPanics, hv, Option.any_some, Interval.overflows, instant_limit, Bool.and_eq_false_iff, decide_eq_false_iff_not]
              right
              omega
          rw [if_neg (by simp [hfl])]
          cases hx : t.iter L e with
          | panic => rfl
          | ok r =>
            obtain ⟨t1, ev⟩ := r
            simp only [R.bind_ok]
            have hn : t1.now = t.now := (Pub.Timed.iter_ok hx).2.2.1
            rw [ih t1 _ (hi.iter hx) (fun p hpp => by rw [hn]; exact hp p hpp)]
  exact key acts t [] (Pub.ClockInv.new h) (fun p hpp => by rw [hnow]; exact hp p hpp)

/-- C107 (partial), publisher: unless the flush interval is zero its driver never panics, and the publisher does what it does in the model
without that panic. Missing: `C107_refuted_zero_flush`. -/
theorem C107_publisher_partial (L : Lossy) (h : Pub.Host A) (hp : h.period ≠ some 0) (hd : h.dead = false) (acts : List (Pub.SrvAct A)) :
    (h.run L acts).dead = false ∧ (h.run L acts).srv = h.srv.run L acts := by
  induction acts generalizing h with
  | nil => exact ⟨hd, rfl⟩
  | cons a as ih =>
    have h1 : (h.act L a).dead = false ∧ (h.act L a).srv = h.srv.act L a ∧ (h.act L a).period = h.period := by
      cases a with
      | driver e =>
        simp only [Pub.Host.act, hd, Bool.false_eq_true, if_false]
        cases hv : h.srv.drv with
        | none => exact ⟨hd, by simp only [Pub.Server.act, hv], rfl⟩
        | some d =>
          simp only [hp, false_and, if_false]
          exact ⟨trivial, trivial, trivial⟩
      | _ => exact ⟨hd, rfl, rfl⟩
    obtain ⟨k1, k2⟩ := ih (h.act L a) (by rw [h1.2.2]; exact hp) h1.1
    exact ⟨k1, by rw [show h.run L (a :: as) = (h.act L a).run L as from rfl, k2, h1.2.1]; rfl⟩

/-- What holds of a publisher with a zero flush interval. -/
structure Z (h : Pub.Host A) : Prop where
  period : h.period = some 0
  ses : h.srv.ses = []
  drv : ∀ d, h.srv.drv = some d → d.sessions = [] ∧ h.srv.sock.transport = none ∧ h.srv.sock.chan.isSome = true ∧ Pub.DInv d
  dead : h.dead = true → ∃ d, h.srv.drv = some d ∧ d.connTasks = [] ∧ d.authTasks = [] ∧ 0 < d.active

theorem Z.act {h : Pub.Host A} (z : Z h) (L : Lossy) (a : Pub.SrvAct A) :
    Z (h.act L a) ∧ (h.dead = true → (h.act L a).dead = true ∧ (h.act L a).srv.drv = h.srv.drv) := by
  have hbc : ∀ m, (h.srv.sock.broadcast m).2.transport = h.srv.sock.transport ∧ (h.srv.sock.broadcast m).2.chan.isSome = h.srv.sock.chan.isSome := by
    intro m
    unfold Pub.Socket.broadcast
    cases hc : h.srv.sock.chan with
    | none => exact ⟨rfl, by simp [hc]⟩
    | some b => exact ⟨rfl, rfl⟩
  have hrec : ∀ (m : Option PubMsg) (r : Except Pub.PubErr Unit × Pub.Socket A), r.2.transport = h.srv.sock.transport → r.2.chan.isSome = h.srv.sock.chan.isSome →
      Z { h with srv := h.srv.record m r } ∧ (h.srv.record m r).drv = h.srv.drv := by
    intro m r h1 h2
    obtain ⟨x, k⟩ := r
    cases x with
    | ok u => exact ⟨⟨z.period, z.ses, fun d hd => ⟨(z.drv d hd).1, h1.trans (z.drv d hd).2.1, h2.trans (z.drv d hd).2.2.1, (z.drv d hd).2.2.2⟩, z.dead⟩, rfl⟩
    | error u => exact ⟨⟨z.period, z.ses, fun d hd => ⟨(z.drv d hd).1, h1.trans (z.drv d hd).2.1, h2.trans (z.drv d hd).2.2.1, (z.drv d hd).2.2.2⟩, z.dead⟩, rfl⟩
  cases a with
  | bind bind addrs =>
    simp only [Pub.Host.act, Pub.Server.act]
    split
    · exact ⟨z, fun hd => ⟨hd, rfl⟩⟩
    · unfold Pub.Socket.tryBind
      by_cases hsz : h.srv.sock.bufferSize = 0 ∨ 2 ^ 63 ≤ h.srv.sock.bufferSize
      · rw [if_pos hsz]; exact ⟨z, fun hd => ⟨hd, rfl⟩⟩
      · rw [if_neg hsz]
        cases ht : h.srv.sock.transport with
        | none => exact ⟨z, fun hd => ⟨hd, rfl⟩⟩
        | some cur =>
          have hno : h.srv.drv = none := by
            cases hv : h.srv.drv with
            | none => rfl
            | some d => have := (z.drv d hv).2.1; rw [ht] at this; cases this
          have hal : ¬ h.dead = true := by
            intro hd
            obtain ⟨d, hd', -⟩ := z.dead hd
            rw [hno] at hd'; cases hd'
          simp only
          cases hb : Pub.bindLoop bind cur addrs with
          | none =>
            refine ⟨⟨z.period, z.ses, fun d hd => ?_, fun hd => absurd hd hal⟩, fun hd => absurd hd hal⟩
            rw [show _ = some d from hd] at hno; cases hno
          | some l =>
            refine ⟨⟨z.period, z.ses, fun d hd => ?_, fun hd => absurd hd hal⟩, fun hd => absurd hd hal⟩
            cases hd
            exact ⟨rfl, rfl, rfl, Pub.new_dinv _ _⟩
  | publish t p =>
    simp only [Pub.Host.act, Pub.Server.act]
    split
    · exact ⟨z, fun hd => ⟨hd, rfl⟩⟩
    · unfold Pub.Socket.publish
      cases publishPrepare h.srv.sock.minCompress h.srv.sock.comp t p with
      | none => exact ⟨(hrec _ _ rfl rfl).1, fun hd => ⟨hd, (hrec _ _ rfl rfl).2⟩⟩
      | some m => exact ⟨(hrec _ _ (hbc m).1 (hbc m).2).1, fun hd => ⟨hd, (hrec _ _ (hbc m).1 (hbc m).2).2⟩⟩
  | tryPublish t p =>
    simp only [Pub.Host.act, Pub.Server.act]
    split
    · exact ⟨z, fun hd => ⟨hd, rfl⟩⟩
    · unfold Pub.Socket.tryPublish
      cases tryPublishPrepare h.srv.sock.comp t p with
      | none => exact ⟨(hrec _ _ rfl rfl).1, fun hd => ⟨hd, (hrec _ _ rfl rfl).2⟩⟩
      | some m => exact ⟨(hrec _ _ (hbc m).1 (hbc m).2).1, fun hd => ⟨hd, (hrec _ _ (hbc m).1 (hbc m).2).2⟩⟩
  | session i e =>
    simp only [Pub.Host.act, Pub.Server.act, z.ses]
    exact ⟨z, fun hd => ⟨hd, rfl⟩⟩
  | drop =>
    simp only [Pub.Host.act, Pub.Server.act]
    split
    · exact ⟨z, fun hd => ⟨hd, rfl⟩⟩
    · refine ⟨⟨z.period, z.ses, fun d hd => ⟨(z.drv d hd).1, (z.drv d hd).2.1, ?_, (z.drv d hd).2.2.2⟩, z.dead⟩, fun hd => ⟨hd, rfl⟩⟩
      have := (z.drv d hd).2.2.1
      simpa using this
  | driver e =>
    simp only [Pub.Host.act]
    by_cases hd : h.dead = true
    · rw [if_pos hd]; exact ⟨z, fun hd => ⟨hd, rfl⟩⟩
    · rw [if_neg hd]
      cases hv : h.srv.drv with
      | none => exact ⟨z, fun hd' => absurd hd' hd⟩
      | some d =>
        obtain ⟨z1, z2, z3, z4⟩ := z.drv d hv
        have z5 := (Pub.iter_inv d e).1 z4
        obtain ⟨b, hb⟩ := Option.isSome_iff_exists.1 z3
        simp only
        split
        · rename_i hy
          have hpos : 0 < (d.iter e).active := by
            have h1 := z5.le
            have h2 := hy.2
            unfold Pub.Driver.count at h1
            omega
          refine ⟨⟨z.period, z.ses, fun d' hd' => ?_, fun _ => ⟨_, rfl, rfl, rfl, hpos⟩⟩, fun hd' => absurd hd' hd⟩
          cases hd'
          refine ⟨z1, z2, z3, ⟨?_, z5.max, ?_⟩⟩
          · simp only [Pub.Driver.count, z1, List.length_nil]; exact Nat.zero_le _
          · intro c rest hm
            simp only [z1] at hm
            cases hm
        · rename_i hn
          have hl : (d.iter e).sessions = [] := by
            have : ¬ d.sessions.length < (d.iter e).sessions.length := fun hx => hn ⟨z.period, hx⟩
            rw [z1] at this
            exact List.length_eq_zero_iff.1 (by simp only [List.length_nil] at this; omega)
          simp only [Pub.Server.act, hv, hb, hl]
          refine ⟨⟨z.period, by simp [z.ses], fun d' hd' => ?_, fun hd' => absurd hd' hd⟩, fun hd' => absurd hd' hd⟩
          cases hd'
          exact ⟨hl, z2, by simp only [hb]; rfl, z5⟩

/-- C107 (refuted as stated): a publisher with a zero flush interval never has a session, in no history; once a client has come so far that it would get
one, the driver is gone: no further client is accepted or authenticated, its place stays counted, and publishing
goes on being reported as successful. -/
theorem C107_refuted_zero_flush (L : Lossy) (max : Option Nat) (authn : Option (Bytes → Bool)) (boundary minCompress bufferSize : Nat) (comp : Option Compressor)
    (acts : List (Pub.SrvAct A)) (h : Pub.Host A) (hr : (Pub.Host.new max authn boundary minCompress bufferSize comp (some 0)).run L acts = h) :
    h.srv.ses = [] ∧
    (h.dead = true → ∃ d b, h.srv.drv = some d ∧ h.srv.sock.chan = some b ∧ d.connTasks = [] ∧ d.authTasks = [] ∧ 0 < d.active ∧
      (∀ m, (h.srv.sock.broadcast m).1 = .ok ()) ∧ ∀ as, (h.run L as).dead = true ∧ (h.run L as).srv.drv = some d) := by
  have inv : Z h := by
    subst hr
    have : ∀ (acts : List (Pub.SrvAct A)) (h : Pub.Host A), Z h → Z (h.run L acts) := by
      intro acts
      induction acts with
      | nil => intro h hz; exact hz
      | cons a as ih => intro h hz; exact ih _ (hz.act L a).1
    exact this acts _ ⟨rfl, rfl, (fun d hd => by cases hd), (fun hd => by cases hd)⟩
  refine ⟨inv.ses, fun hd => ?_⟩
  obtain ⟨d, k1, k2, k3, k5⟩ := inv.dead hd
  obtain ⟨-, -, k4, -⟩ := inv.drv d k1
  obtain ⟨b, hb⟩ := Option.isSome_iff_exists.1 k4
  refine ⟨d, b, k1, hb, k2, k3, k5, fun m => by simp only [Pub.Socket.broadcast, hb], ?_⟩
  intro as
  clear hr k2 k3 k5 hb k4
  induction as generalizing h with
  | nil => exact ⟨hd, k1⟩
  | cons a as ih =>
    obtain ⟨j1, j2⟩ := inv.act L a
    obtain ⟨j3, j4⟩ := j2 hd
    exact ih (h.act L a) j1 j3 (j4.trans k1)

/-- Such a history: the publisher is bound and a client connects. It counts as connected, and that is the end of the driver. -/
example (L : Lossy) : ((Pub.Host.new none none 8192 8192 1024 none (some 0) : Pub.Host Nat).run L
    [.bind some [1], .driver ⟨none, none, some ⟨0, some 5, ⟨[], [], [], []⟩⟩⟩, .driver ⟨none, some (0, true), none⟩]).dead = true := rfl

end MsgRs.Props
