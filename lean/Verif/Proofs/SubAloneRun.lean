import Verif.Proofs.SubAlone
import Verif.Proofs.SubStay
import Verif.Props.SubCalls
/-!
# The history of one publisher alone

A socket that does what `aloneActs` says stays in step with the original.
-/
namespace MsgRs.Sub
open MsgRs

variable {A : Type} [DecidableEq A] {L : Lossy} {D : Decompressors}

theorem drun_append (d : Driver A) (xs ys : List (Act A)) : d.run L D (xs ++ ys) = (d.run L D xs).bind fun e => e.run L D ys := by
  induction xs generalizing d with
  | nil => rfl
  | cons x xs ih =>
    simp only [List.cons_append]
    rw [Driver.run, Driver.run]
    cases d.act L D x with
    | panic => rfl
    | ok e => exact ih e

/-- A socket that has only heard of `a`, between two actions. -/
structure Lone (a : A) (e : Driver A) : Prop where
  cmdq : e.cmdq = []
  closed : e.closed = false
  tasks : ∀ b ∈ e.tasks, b = a
  addrs : ∀ b ∈ e.addrs, b = a
  start : e.started = false → e.pubs = [] ∧ e.tasks = []
  ingress : 0 < e.opts.ingress

/-- Nothing was refused for lack of room, and at most `n` messages wait. -/
structure Room (n : Nat) (e : Driver A) : Prop where
  inbox : e.inbox.length ≤ n
  fates : ∀ x ∈ e.fates, x.2.2 = .delivered ∨ x.2.2 = .undecodable

theorem pollPub_frame {d d' : Driver A} {x : A} {p : Bool} (h : d.pollPub D x = .ok (d', p)) :
    d'.cmdq = d.cmdq ∧ d'.closed = d.closed ∧ d'.started = d.started ∧ d'.addrs = d.addrs ∧ d'.opts = d.opts ∧ (∀ b ∈ d'.tasks, b ∈ d.tasks ∨ b = x) := by
  have base : ∀ b ∈ d.tasks, b ∈ d.tasks ∨ b = x := fun b hb => .inl hb
  unfold Driver.pollPub at h
  split at h
  · cases h; exact ⟨rfl, rfl, rfl, rfl, rfl, base⟩
  · split at h
    · cases h; exact ⟨rfl, rfl, rfl, rfl, rfl, base⟩
    · split at h
      · simp only at h
        split at h
        · cases h; exact ⟨rfl, rfl, rfl, rfl, rfl, base⟩
        · cases h
          unfold Driver.deliver
          split
          · exact ⟨rfl, rfl, rfl, rfl, rfl, base⟩
          · split <;> exact ⟨rfl, rfl, rfl, rfl, rfl, base⟩
      · cases h; rw [reset_eq]; exact ⟨rfl, rfl, rfl, rfl, rfl, base⟩
      · cases h; exact ⟨rfl, rfl, rfl, rfl, rfl, base⟩
  · rename_i b _
    cases hb : b.poll d.now with
    | panic => rw [hb] at h; cases h
    | ok y =>
      obtain ⟨o, b'⟩ := y
      rw [hb] at h
      simp only [R.bind_ok, R.pure_eq] at h
      cases o with
      | pending => cases h; exact ⟨rfl, rfl, rfl, rfl, rfl, base⟩
      | item dl =>
        cases h; unfold Driver.connect
        split
        · exact ⟨rfl, rfl, rfl, rfl, rfl, base⟩
        · exact ⟨rfl, rfl, rfl, rfl, rfl, fun b hb => (by simpa using hb)⟩
      | ended => cases h; exact ⟨rfl, rfl, rfl, rfl, rfl, base⟩

theorem pollPublishers_frame {a : A} : ∀ (order : List A) {d d' : Driver A} {p : Bool}, (∀ b ∈ order, b = a) → d.pollPublishers D order = .ok (d', p) →
    d'.cmdq = d.cmdq ∧ d'.closed = d.closed ∧ d'.started = d.started ∧ d'.addrs = d.addrs ∧ d'.opts = d.opts ∧ (∀ b ∈ d'.tasks, b ∈ d.tasks ∨ b = a)
  | [], d, d', p, _, h => by cases h; exact ⟨rfl, rfl, rfl, rfl, rfl, fun b hb => .inl hb⟩
  | x :: xs, d, d', p, ho, h => by
    rw [Driver.pollPublishers] at h
    cases h1 : d.pollPub D x with
    | panic => rw [h1] at h; cases h
    | ok y =>
      obtain ⟨d1, p1⟩ := y
      rw [h1] at h
      simp only [R.bind_ok] at h
      cases h2 : d1.pollPublishers D xs with
      | panic => rw [h2] at h; cases h
      | ok z =>
        obtain ⟨d2, p2⟩ := z
        rw [h2] at h
        cases h
        obtain ⟨k1, k2, k3, k4, k5, k6⟩ := pollPub_frame h1
        obtain ⟨m1, m2, m3, m4, m5, m6⟩ := pollPublishers_frame xs (fun b hb => ho b (.tail _ hb)) h2
        refine ⟨m1.trans k1, m2.trans k2, m3.trans k3, m4.trans k4, m5.trans k5, fun b hb => ?_⟩
        rcases m6 b hb with h | h
        · rcases k6 b h with h | h
          · exact .inl h
          · exact .inr (h.trans (ho x (.head _)))
        · exact .inr h

theorem pollPublishers_empty (e : Driver A) (hp : e.pubs = []) : ∀ order : List A, e.pollPublishers D order = .ok (e, false)
  | [] => rfl
  | x :: xs => by
    rw [Driver.pollPublishers]
    have : e.pollPub D x = .ok (e, false) := by
      unfold Driver.pollPub
      rw [hp]; rfl
    rw [this]
    simp only [R.bind_ok, pollPublishers_empty e hp xs]
    rfl

theorem Lone.polled {a : A} {e e1 : Driver A} {order : List A} {q : Bool} (h : Lone a e) (ho : ∀ b ∈ order, b = a) (hp : e.pollPublishers D order = .ok (e1, q)) : Lone a e1 := by
  obtain ⟨k1, k2, k3, k4, k5, k6⟩ := pollPublishers_frame order ho hp
  refine ⟨k1.trans h.cmdq, k2.trans h.closed, fun b hb => (k6 b hb).elim (h.tasks b) id, by rw [k4]; exact h.addrs, fun hs => ?_, by rw [k5]; exact h.ingress⟩
  rw [k3] at hs
  rw [pollPublishers_empty e (h.start hs).1] at hp
  cases hp
  exact h.start hs

theorem deliver_room {d : Driver A} (hc : d.closed = false) (hi : 0 < d.opts.ingress) (h : Room 0 d) (a : A) (u : Nat) (t : TopicMsg) (p : Bytes) :
    Room 1 (d.deliver a u t p) := by
  have h0 : d.inbox = [] := List.length_eq_zero_iff.1 (Nat.le_zero.1 h.inbox)
  unfold Driver.deliver
  rw [if_neg (by simp [hc]), if_pos (by simpa [h0] using hi)]
  refine ⟨by simp [h0], fun x hx => ?_⟩
  simp only [List.mem_append, List.mem_singleton] at hx
  rcases hx with hx | rfl
  · exact h.fates x hx
  · exact .inl rfl

theorem Room.weaken {d : Driver A} (h : Room 0 d) : Room 1 d := ⟨Nat.le_succ_of_le h.inbox, h.fates⟩

theorem pollPub_room {d d' : Driver A} {a : A} {p : Bool} (hc : d.closed = false) (hi : 0 < d.opts.ingress) (hr : Room 0 d) (h : d.pollPub D a = .ok (d', p)) : Room 1 d' := by
  unfold Driver.pollPub at h
  split at h
  · cases h; exact hr.weaken
  · split at h
    · cases h; exact hr.weaken
    · split at h
      · simp only at h
        split at h
        · cases h
          refine ⟨hr.weaken.inbox, fun x hx => ?_⟩
          simp only [List.mem_append, List.mem_singleton] at hx
          rcases hx with hx | rfl
          · exact hr.fates x hx
          · exact .inr rfl
        · cases h
          apply deliver_room
          · exact hc
          · exact hi
          · exact ⟨hr.inbox, hr.fates⟩
      · cases h; rw [reset_eq]; exact ⟨hr.weaken.inbox, hr.fates⟩
      · cases h; exact ⟨hr.weaken.inbox, hr.fates⟩
  · rename_i b _
    cases hb : b.poll d.now with
    | panic => rw [hb] at h; cases h
    | ok y =>
      obtain ⟨o, b'⟩ := y
      rw [hb] at h
      simp only [R.bind_ok, R.pure_eq] at h
      cases o with
      | pending => cases h; exact ⟨hr.weaken.inbox, hr.fates⟩
      | item dl => cases h; unfold Driver.connect; split <;> exact ⟨hr.weaken.inbox, hr.fates⟩
      | ended => cases h; exact ⟨hr.weaken.inbox, hr.fates⟩

theorem filter_eq_single {a : A} {order : List A} (hn : order.Nodup) : (order.filter fun b => decide (b = a)) = [] ∨ (order.filter fun b => decide (b = a)) = [a] := by
  have h1 : ∀ b ∈ order.filter fun b => decide (b = a), b = a := fun b hb => (by simpa using (List.mem_filter.1 hb).2)
  have h2 := hn.filter (fun b => decide (b = a))
  match hl : order.filter fun b => decide (b = a) with
  | [] => exact .inl rfl
  | [x] => rw [hl] at h1; exact .inr (by rw [h1 x (.head _)])
  | x :: y :: l =>
    rw [hl] at h1 h2
    have := h1 x (.head _)
    have := h1 y (.tail _ (.head _))
    subst_vars
    simp at h2

theorem pollPublishers_room {e e1 : Driver A} {a : A} {order : List A} {q : Bool} (hn : order.Nodup) (hc : e.closed = false) (hi : 0 < e.opts.ingress) (hr : Room 0 e)
    (h : e.pollPublishers D (order.filter fun b => decide (b = a)) = .ok (e1, q)) : Room 1 e1 := by
  rcases filter_eq_single hn with h0 | h0
  · rw [h0] at h; cases h; exact hr.weaken
  · rw [h0, Driver.pollPublishers] at h
    cases h1 : e.pollPub D a with
    | panic => rw [h1] at h; cases h
    | ok y =>
      obtain ⟨d1, p1⟩ := y
      rw [h1] at h
      simp only [R.bind_ok, Driver.pollPublishers] at h
      cases h
      exact pollPub_room hc hi hr h1

/-! ## The parts of an iteration -/

theorem Same.wake {a : A} {d e : Driver A} (h : Same a d e) (w : Bool) : Same a d { e with woken := w } :=
  ⟨h.now, h.opts, h.topics, h.entry, h.task, h.key, h.sess, h.taken⟩

theorem Lone.wake {a : A} {e : Driver A} (h : Lone a e) (w : Bool) : Lone a { e with woken := w } := ⟨h.cmdq, h.closed, h.tasks, h.addrs, h.start, h.ingress⟩

theorem Room.wake {n : Nat} {e : Driver A} (h : Room n e) (w : Bool) : Room n { e with woken := w } := ⟨h.inbox, h.fates⟩

theorem joinStep_inbox (d : Driver A) (e : Env A) : (d.joinStep e).1.inbox = d.inbox ∧ (d.joinStep e).1.fates = d.fates ∧ (d.joinStep e).1.cmdq = d.cmdq ∧
    (d.joinStep e).1.closed = d.closed ∧ (d.joinStep e).1.started = d.started ∧ (d.joinStep e).1.opts = d.opts := by
  unfold Driver.joinStep
  split
  · exact ⟨rfl, rfl, rfl, rfl, rfl, rfl⟩
  · split
    · exact ⟨rfl, rfl, rfl, rfl, rfl, rfl⟩
    · split
      · exact ⟨rfl, rfl, rfl, rfl, rfl, rfl⟩
      · exact ⟨rfl, rfl, rfl, rfl, rfl, rfl⟩
      · exact ⟨rfl, rfl, rfl, rfl, rfl, rfl⟩
      · unfold Driver.onConnection
        split <;> exact ⟨rfl, rfl, rfl, rfl, rfl, rfl⟩

theorem joinStep_lone {a : A} {e : Driver A} (h : Lone a e) (x : Env A) : Lone a (e.joinStep x).1 := by
  obtain ⟨-, -, k1, k2, k3, k4⟩ := joinStep_inbox e x
  refine ⟨k1.trans h.cmdq, k2.trans h.closed, ?_, ?_, fun hs => ?_, by rw [k4]; exact h.ingress⟩
  · unfold Driver.joinStep
    repeat' split
    · exact h.tasks
    · exact h.tasks
    · exact fun b hb => h.tasks b (List.mem_of_mem_eraseIdx hb)
    · exact h.tasks
    · exact fun b hb => h.tasks b (List.mem_of_mem_eraseIdx hb)
    · rw [(onConnection_same _ _ _ _ _).2.2.2.1]
      exact fun b hb => h.tasks b (List.mem_of_mem_eraseIdx hb)
  · unfold Driver.joinStep
    repeat' split
    all_goals try exact h.addrs
    rename_i i out _ _ b hb _ via input _
    unfold Driver.onConnection
    split
    · exact h.addrs
    · intro c hc
      simp only [List.mem_append, List.mem_singleton] at hc
      rcases hc with hc | rfl
      · exact h.addrs c hc
      · exact h.tasks _ (List.mem_of_getElem? hb)
  · rw [k3] at hs
    obtain ⟨h1, h2⟩ := h.start hs
    have : (e.joinStep x).1 = e := by
      unfold Driver.joinStep
      split
      · rfl
      · simp [h2]
    rw [this]
    exact ⟨h1, h2⟩

/-- An iteration without a command. -/
theorem iter_quiet {a : A} {e e1 : Driver A} {x : Env A} {q : Bool} (h : Lone a e) (ho : ∀ b ∈ x.order, b = a) (hp : e.pollPublishers D x.order = .ok (e1, q))
    (hq : q = true → x.join = none) :
    ∃ e', e.act L D (.iter x) = .ok e' ∧ Same a (e1.joinStep x).1 e' ∧ Lone a e' ∧ (Room 1 e1 → Room 1 e') := by
  have h1 : Lone a e1 := h.polled ho hp
  have h2 := joinStep_lone h1 x
  have hr : Room 1 e1 → Room 1 (e1.joinStep x).1 := fun hr => ⟨by rw [(joinStep_inbox e1 x).1]; exact hr.inbox, by rw [(joinStep_inbox e1 x).2.1]; exact hr.fates⟩
  cases hs : e.started with
  | false =>
    refine ⟨e, by simp [Driver.act, hs], ?_, h, ?_⟩
    · rw [pollPublishers_empty e (h.start hs).1] at hp
      cases hp
      have : (e.joinStep x).1 = e := by
        unfold Driver.joinStep
        split
        · rfl
        · simp [(h.start hs).2]
      rw [this]; exact .refl a e
    · rw [pollPublishers_empty e (h.start hs).1] at hp
      cases hp; exact id
  | true =>
    simp only [Driver.act, hs, if_true, Driver.iter, hp, R.bind_ok, h1.cmdq, R.pure_eq]
    cases q with
    | true =>
      have : e1.joinStep x = (e1, .pending) := by simp [Driver.joinStep, hq rfl]
      rw [this]
      exact ⟨_, rfl, (Same.refl a e1).wake _, h1.wake _, fun h => h.wake _⟩
    | false => exact ⟨_, rfl, (Same.refl a _).wake _, h2.wake _, fun h => (hr h).wake _⟩

theorem onCommand_tasks (d : Driver A) (c : Command A) : ∀ b ∈ (d.onCommand c).tasks, b ∈ d.tasks ∨ c = .connect b := by
  intro b hb
  cases c with
  | shutdown => exact .inl hb
  | subscribe t =>
    simp only [Driver.onCommand, Driver.subscribe] at hb
    split at hb
    · exact .inl hb
    · rw [(tell_same _ _ _).2.2.2.2.1] at hb; exact .inl hb
  | unsubscribe t =>
    simp only [Driver.onCommand, Driver.unsubscribe] at hb
    split at hb
    · rw [(tell_same _ _ _).2.2.2.2.1] at hb; exact .inl hb
    · exact .inl hb
  | connect x =>
    simp only [Driver.onCommand] at hb
    split at hb
    · exact .inl hb
    · rw [reset_eq] at hb
      unfold Driver.connect at hb
      split at hb
      · exact .inl hb
      · simp only [List.mem_append, List.mem_singleton] at hb
        exact hb.imp_right (fun (h : b = x) => by rw [h])
  | disconnect x =>
    simp only [Driver.onCommand] at hb
    split at hb
    · rw [hangUp_eq] at hb; exact .inl hb
    · exact .inl hb

/-- A call is made, and the next iteration takes its command. -/
theorem iter_command {a : A} {d e : Driver A} {d1 : Driver A} {order : List A} {c : Command A} (hd : DInv L D d) (he : DInv L D e) (hs : Same a d e) (h : Lone a e)
    (hp : d.pollPublishers D order = .ok (d1, false)) (hc : ∀ b, c = .connect b ∨ c = .disconnect b → b = a) (cq : List (Command A)) :
    ∃ e', Driver.act L D { e with cmdq := [c], started := true, woken := true } (.iter { order := order.filter fun b => decide (b = a) }) = .ok e' ∧
      Same a ({ d1 with cmdq := cq, processed := d1.processed ++ [c] }.onCommand c) e' ∧ Lone a e' ∧ (order.Nodup → Room 0 e → Room 1 e') := by
  have hec : DInv L D { e with cmdq := [c], started := true, woken := true } :=
    ⟨he.nodup, he.keys, he.tasks, he.tasksKeys, he.free, he.len, he.act, he.alive, he.sess, he.fate, he.fateLt, he.inbox, he.cap, he.via, he.uniq, he.bound⟩
  have hsc : Same a d { e with cmdq := [c], started := true, woken := true } := ⟨hs.now, hs.opts, hs.topics, hs.entry, hs.task, hs.key, hs.sess, hs.taken⟩
  obtain ⟨e1, q, k1, k2, k3⟩ := pollPublishers_same order hd hec hsc hp
  have hq : q = false := by cases q with
    | false => rfl
    | true => exact absurd (k2 rfl) (by simp)
  subst hq
  obtain ⟨m1, m2, m3, m4, m5, m6⟩ := pollPublishers_frame (a := a) (order.filter fun b => decide (b = a)) (fun b hb => (by simpa using (List.mem_filter.1 hb).2)) k1
  have hd1 : DInv L D d1 := DInv.steps (pollPublishers_steps order d d1 false hp) hd
  have he1 : DInv L D e1 := DInv.steps (pollPublishers_steps _ _ e1 false k1) hec
  simp only at m1
  refine ⟨_, by simp only [Driver.act, if_true, Driver.iter, k1, R.bind_ok, m1, R.pure_eq, Bool.false_eq_true, if_false]; rfl, ?_⟩
  have hep : DInv L D { e1 with cmdq := [], processed := e1.processed ++ [c] } :=
    ⟨he1.nodup, he1.keys, he1.tasks, he1.tasksKeys, he1.free, he1.len, he1.act, he1.alive, he1.sess, he1.fate, he1.fateLt, he1.inbox, he1.cap, he1.via, he1.uniq, he1.bound⟩
  have hdp : DInv L D { d1 with cmdq := cq, processed := d1.processed ++ [c] } :=
    ⟨hd1.nodup, hd1.keys, hd1.tasks, hd1.tasksKeys, hd1.free, hd1.len, hd1.act, hd1.alive, hd1.sess, hd1.fate, hd1.fateLt, hd1.inbox, hd1.cap, hd1.via, hd1.uniq, hd1.bound⟩
  have hsp : Same a { d1 with cmdq := cq, processed := d1.processed ++ [c] } { e1 with cmdq := [], processed := e1.processed ++ [c] } := ⟨k3.now, k3.opts, k3.topics, k3.entry, k3.task, k3.key, k3.sess, k3.taken⟩
  obtain ⟨n1, n2, n3, n4, n5, n6, n7, n8, n9⟩ := onCommand_same { e1 with cmdq := [], processed := e1.processed ++ [c] } c
  refine ⟨(hsp.command hdp hep hc).wake _, Lone.wake ⟨n2, n3.trans (m2.trans h.closed), fun b hb => ?_, ?_, ?_, ?_⟩ _, fun hn hr => Room.wake ⟨?_, ?_⟩ _⟩
  · rcases onCommand_tasks _ c b hb with h1 | h1
    · exact (m6 b h1).elim (h.tasks b) id
    · exact hc b (.inl h1)
  · rw [n6]; simp only; rw [m4]; exact h.addrs
  · rw [n9]; simp only; rw [m3]; intro hx; cases hx
  · rw [n7]; simp only; rw [m5]; exact h.ingress
  · rw [n4]
    exact (pollPublishers_room hn (e := { e with cmdq := [c], started := true, woken := true }) h.closed h.ingress ⟨hr.inbox, hr.fates⟩ k1).inbox
  · rw [n8]
    exact (pollPublishers_room hn (e := { e with cmdq := [c], started := true, woken := true }) h.closed h.ingress ⟨hr.inbox, hr.fates⟩ k1).fates

/-- Only topics that are not reserved get into the command queue. -/
def Clean (c : Command A) : Prop := ∀ t, c = .subscribe t ∨ c = .unsubscribe t → reserved t = false

theorem send_clean {d : Driver A} (h : ∀ c ∈ d.cmdq, Clean c) {c : Command A} (hc : Clean c) :
    (∀ x ∈ (d.ensureActive.trySend c).2.cmdq, Clean x) ∧ (∀ x ∈ (d.ensureActive.send c).2.cmdq, Clean x) := by
  have key : ∀ x ∈ d.cmdq ++ [c], Clean x := by
    intro x hx
    simp only [List.mem_append, List.mem_singleton] at hx
    rcases hx with hx | rfl
    · exact h x hx
    · exact hc
  unfold Driver.trySend Driver.send
  constructor <;> split
  · exact key
  · exact h
  · exact key
  · exact h

theorem call_clean {d : Driver A} (h : ∀ c ∈ d.cmdq, Clean c) (k : Call A) : ∀ c ∈ (d.call k).cmdq, Clean c := by
  have h1 : ∀ t, ¬ reserved t = true → Clean (.subscribe t : Command A) := by
    rintro t ht t' (h | h) <;> cases h
    simpa using ht
  have h2 : ∀ t, ¬ reserved t = true → Clean (.unsubscribe t : Command A) := by
    rintro t ht t' (h | h) <;> cases h
    simpa using ht
  have h3 : ∀ b : A, Clean (.connect b) ∧ Clean (.disconnect b) := fun b => ⟨(by rintro t (h | h) <;> cases h), (by rintro t (h | h) <;> cases h)⟩
  cases k with
  | subscribe t =>
    simp only [Driver.call, Driver.subscribeAsync]
    split
    · exact h
    · rename_i hr; exact (send_clean h (h1 t hr)).2
  | trySubscribe t =>
    simp only [Driver.call, Driver.trySubscribe]
    split
    · exact h
    · rename_i hr; exact (send_clean h (h1 t hr)).1
  | unsubscribe t =>
    simp only [Driver.call, Driver.unsubscribeAsync]
    split
    · exact h
    · rename_i hr; exact (send_clean h (h2 t hr)).2
  | tryUnsubscribe t =>
    simp only [Driver.call, Driver.tryUnsubscribe]
    split
    · exact h
    · rename_i hr; exact (send_clean h (h2 t hr)).1
  | connect b => exact (send_clean h (h3 b).1).2
  | tryConnect b => exact (send_clean h (h3 b).1).1
  | disconnect b => exact (send_clean h (h3 b).2).2
  | tryDisconnect b => exact (send_clean h (h3 b).2).1
  | recv =>
    simp only [Driver.call, Driver.recv]
    split <;> exact h

theorem act_clean {d d' : Driver A} {x : Act A} (h : ∀ c ∈ d.cmdq, Clean c) (ha : d.act L D x = .ok d') : ∀ c ∈ d'.cmdq, Clean c := by
  cases x with
  | advance dt => cases ha; exact h
  | session u e =>
    simp only [Driver.act] at ha
    split at ha <;> (cases ha; exact h)
  | call k =>
    simp only [Driver.act] at ha
    split at ha <;> cases ha
    · exact h
    · exact call_clean h k
  | dropSocket =>
    simp only [Driver.act] at ha
    split at ha <;> cases ha
    · exact h
    · unfold Driver.dropSocket Driver.trySend
      split
      · intro c hc
        simp only [List.mem_append, List.mem_singleton] at hc
        rcases hc with hc | rfl
        · exact h c hc
        · rintro t (h | h) <;> cases h
      · exact h
  | iter e =>
    simp only [Driver.act] at ha
    split at ha
    · unfold Driver.iter at ha
      cases hp : d.pollPublishers D e.order with
      | panic => rw [hp] at ha; cases ha
      | ok y =>
        obtain ⟨d1, p⟩ := y
        have hq := (MsgRs.Props.pollPublishers_log D e.order hp).1
        rw [hp] at ha
        simp only [R.bind_ok] at ha
        cases p with
        | true => cases ha; simp only; rw [hq]; exact h
        | false =>
          simp only [Bool.false_eq_true, if_false] at ha
          rw [hq] at ha
          cases hc : d.cmdq with
          | cons c q =>
            rw [hc] at ha
            cases ha
            simp only
            rw [(onCommand_same _ c).2.1]
            exact fun x hx => h x (by rw [hc]; exact .tail _ hx)
          | nil =>
            rw [hc] at ha
            cases ha
            simp only
            rw [(joinStep_inbox d1 e).2.2.1, hq]
            exact h
    · cases ha; exact h

/-- The iteration of the socket alone does to `a` what the original does. -/
theorem iter_alone {a : A} {d d' e : Driver A} {x : Env A} {o : Out} (hd : DInv L D d) (he : DInv L D e) (hs : Same a d e) (h : Lone a e) (hc : ∀ c ∈ d.cmdq, Clean c)
    (hi : d.iter D x = .ok (d', o)) :
    ∃ e', e.run L D (aloneIter D a d x) = .ok e' ∧ Same a d' e' ∧ Lone a e' ∧ (x.order.Nodup → Room 0 e → Room 1 e') := by
  unfold Driver.iter at hi
  unfold aloneIter
  cases hp : d.pollPublishers D x.order with
  | panic => rw [hp] at hi; cases hi
  | ok y =>
    obtain ⟨d1, p⟩ := y
    rw [hp] at hi
    simp only [R.bind_ok, R.pure_eq] at hi
    obtain ⟨e1, q, k1, k2, k3⟩ := pollPublishers_same x.order hd he hs hp
    have ho : ∀ b ∈ x.order.filter fun b => decide (b = a), b = a := fun b hb => (by simpa using (List.mem_filter.1 hb).2)
    have hd1 : DInv L D d1 := DInv.steps (pollPublishers_steps x.order d d1 p hp) hd
    have hq1 := (MsgRs.Props.pollPublishers_log D x.order hp).1
    have he1 : DInv L D e1 := DInv.steps (pollPublishers_steps _ e e1 q k1) he
    have h1 : Lone a e1 := h.polled ho k1
    have hroom : x.order.Nodup → Room 0 e → Room 1 e1 := fun hn hr => pollPublishers_room hn h.closed h.ingress hr k1
    have quiet : ∃ e', e.run L D [.iter { order := x.order.filter fun b => decide (b = a) }] = .ok e' ∧ Same a d1 e' ∧ Lone a e' ∧
        (x.order.Nodup → Room 0 e → Room 1 e') := by
      obtain ⟨e', m1, m2, m3, m4⟩ := iter_quiet (L := L) (x := { order := x.order.filter fun b => decide (b = a) }) h ho k1 (fun _ => rfl)
      exact ⟨e', by rw [Driver.run, m1]; rfl, k3.trans m2, m3, fun hn hr => m4 (hroom hn hr)⟩
    cases p with
    | true =>
      cases hi
      exact quiet
    | false =>
      simp only [Bool.false_eq_true, if_false] at hi ⊢
      have hq : q = false := by cases q with
        | false => rfl
        | true => exact absurd (k2 rfl) (by simp)
      subst hq
      cases hq : d1.cmdq with
      | cons c cq =>
        rw [hq] at hi
        simp only at hi ⊢
        cases hi
        have hcl : Clean c := hc c (by rw [← hq1, hq]; exact .head _)
        have hdp : DInv L D { d1 with cmdq := cq, processed := d1.processed ++ [c] } :=
          ⟨hd1.nodup, hd1.keys, hd1.tasks, hd1.tasksKeys, hd1.free, hd1.len, hd1.act, hd1.alive, hd1.sess, hd1.fate, hd1.fateLt, hd1.inbox, hd1.cap, hd1.via, hd1.uniq,
            hd1.bound⟩
        have hsp : Same a { d1 with cmdq := cq, processed := d1.processed ++ [c] } d1 := ⟨rfl, rfl, rfl, rfl, .rfl, .rfl, rfl, rfl⟩
        -- the command does not concern `a`
        have skip : Same a ({ d1 with cmdq := cq, processed := d1.processed ++ [c] }.onCommand c) d1 → aloneCall a c = [] →
            ∃ e', e.run L D (aloneCall a c ++ [.iter { order := x.order.filter fun b => decide (b = a) }]) = .ok e' ∧
              Same a ({ d1 with cmdq := cq, processed := d1.processed ++ [c] }.onCommand c) e' ∧ Lone a e' ∧ (x.order.Nodup → Room 0 e → Room 1 e') := by
          intro hsame hnil
          rw [hnil]
          obtain ⟨e', m1, m2, m3, m4⟩ := quiet
          exact ⟨e', m1, hsame.trans m2, m3, m4⟩
        -- it does
        have go : ∀ k : Call A, aloneCall a c = [.call k] → e.call k = { e with cmdq := [c], started := true, woken := true } →
            (∀ b, c = .connect b ∨ c = .disconnect b → b = a) →
            ∃ e', e.run L D (aloneCall a c ++ [.iter { order := x.order.filter fun b => decide (b = a) }]) = .ok e' ∧
              Same a ({ d1 with cmdq := cq, processed := d1.processed ++ [c] }.onCommand c) e' ∧ Lone a e' ∧ (x.order.Nodup → Room 0 e → Room 1 e') := by
          intro k hk hcall hab
          obtain ⟨e', m1, m2, m3, m4⟩ := iter_command hd he hs h hp hab cq
          refine ⟨e', ?_, m2, m3, m4⟩
          rw [hk, List.singleton_append, Driver.run]
          rw [show e.act L D (.call k) = .ok { e with cmdq := [c], started := true, woken := true } from by simp only [Driver.act, h.closed, Bool.false_eq_true, if_false, hcall], R.bind_ok]
          rw [Driver.run, m1]
          rfl
        have hcap : (0 : Nat) < cmdCap := by decide
        cases c with
        | shutdown => exact skip hsp rfl
        | subscribe t =>
          refine go (.trySubscribe t) rfl ?_ (by rintro b (h | h) <;> cases h)
          simp [Driver.call, Driver.trySubscribe, Driver.ensureActive, hcl t (.inl rfl), Driver.trySend, h.cmdq, hcap]
        | unsubscribe t =>
          refine go (.tryUnsubscribe t) rfl ?_ (by rintro b (h | h) <;> cases h)
          simp [Driver.call, Driver.tryUnsubscribe, Driver.ensureActive, hcl t (.inr rfl), Driver.trySend, h.cmdq, hcap]
        | connect b =>
          by_cases hb : b = a
          · subst hb
            refine go (.tryConnect b) (by simp [aloneCall]) ?_ (by rintro b (h | h) <;> cases h; rfl)
            simp [Driver.call, Driver.tryConnect, Driver.ensureActive, Driver.trySend, h.cmdq, hcap]
          · exact skip ((command_keep hb hdp (.inl rfl)).same.trans hsp) (by simp [aloneCall, hb])
        | disconnect b =>
          by_cases hb : b = a
          · subst hb
            refine go (.tryDisconnect b) (by simp [aloneCall]) ?_ (by rintro b (h | h) <;> cases h; rfl)
            simp [Driver.call, Driver.tryDisconnect, Driver.ensureActive, Driver.trySend, h.cmdq, hcap]
          · exact skip ((command_keep hb hdp (.inr rfl)).same.trans hsp) (by simp [aloneCall, hb])
      | nil =>
        rw [hq] at hi
        simp only at hi ⊢
        have hd' : d' = (d1.joinStep x).1 := by
          simp only [R.ok.injEq] at hi
          rw [hi]
        subst hd'
        obtain ⟨e', m1, m2, m3, m4⟩ := iter_quiet (L := L) (x := { order := x.order.filter fun b => decide (b = a), topicOrder := x.topicOrder, join := aloneJoin a d1.tasks x.join })
          h ho k1 (by simp)
        refine ⟨e', by rw [Driver.run, m1]; rfl, .trans ?_ m2, m3, fun hn hr => m4 (hroom hn hr)⟩
        rcases x with ⟨order, ts, j⟩
        match j with
        | none => simp only [aloneJoin, Driver.joinStep]; exact k3
        | some (i, out) =>
          simp only [aloneJoin]
          cases hi' : d1.tasks[i]? with
          | none =>
            simp only [reduceCtorEq, if_false]
            have : (d1.joinStep { order, topicOrder := ts, join := some (i, out) }).1 = d1 := by simp [Driver.joinStep, hi']
            rw [this]; exact k3
          | some b =>
            by_cases hb : b = a
            · subst hb
              rw [if_pos rfl]
              have hm : b ∈ e1.tasks := k3.task.1 (List.mem_of_getElem? hi')
              have hj : e1.tasks[0]? = some b := by
                cases ht : e1.tasks with
                | nil => rw [ht] at hm; cases hm
                | cons y ys => rw [h1.tasks y (by rw [ht]; exact .head _)]; rfl
              exact join_self k3 hd1 he1 hi' hj _ _ ts out
            · rw [if_neg (by simp [hb])]
              exact (join_other hb hd1 hi' order ts out).trans k3

/-- The state of the lone socket before each action. -/
structure InStep (L : Lossy) (D : Decompressors) (a : A) (d e : Driver A) : Prop where
  left : DInv L D d
  right : DInv L D e
  same : Same a d e
  lone : Lone a e
  clean : ∀ c ∈ d.cmdq, Clean c

theorem act_alone {a : A} {d d' e : Driver A} {x : Act A} (h : InStep L D a d e) (ha : d.act L D x = .ok d') :
    ∃ e', e.run L D (aloneAct D a d x) = .ok e' ∧ InStep L D a d' e' ∧ ((∀ v, x = .iter v → v.order.Nodup) → Room 0 e → Room 0 e') := by
  have hl : DInv L D d' := DInv.steps (act_steps d d' x ha) h.left
  have hcl := act_clean h.clean ha
  have fin : ∀ e', e.run L D (aloneAct D a d x) = .ok e' → Same a d' e' → Lone a e' → ((∀ v, x = .iter v → v.order.Nodup) → Room 0 e → Room 0 e') →
      ∃ e', e.run L D (aloneAct D a d x) = .ok e' ∧ InStep L D a d' e' ∧ ((∀ v, x = .iter v → v.order.Nodup) → Room 0 e → Room 0 e') :=
    fun e' h1 h2 h3 h4 => ⟨e', h1, ⟨hl, DInv.steps (run_steps _ e e' h1) h.right, h2, h3, hcl⟩, h4⟩
  have hs := h.same
  cases x with
  | advance dt =>
    cases ha
    exact fin { e with now := e.now + dt } rfl ⟨by simp only; rw [hs.now], hs.opts, hs.topics, hs.entry, hs.task, hs.key, hs.sess, hs.taken⟩
      ⟨h.lone.cmdq, h.lone.closed, h.lone.tasks, h.lone.addrs, h.lone.start, h.lone.ingress⟩ (fun _ hr => ⟨hr.inbox, hr.fates⟩)
  | call k =>
    refine fin e rfl ?_ h.lone (fun _ => id)
    refine Same.trans ?_ hs
    simp only [Driver.act] at ha
    split at ha <;> cases ha
    · exact .refl a d
    · have key : (d.call k).now = d.now ∧ (d.call k).opts = d.opts ∧ (d.call k).topics = d.topics ∧ (d.call k).pubs = d.pubs ∧ (d.call k).addrs = d.addrs ∧
          (d.call k).tasks = d.tasks ∧ (d.call k).keys = d.keys ∧ (d.call k).sessions = d.sessions ∧ (d.call k).fates = d.fates := by
        have hst : ∀ x : Driver A, (x = d.ensureActive ∨ ∃ c, x = (d.ensureActive.trySend c).2 ∨ x = (d.ensureActive.send c).2) →
            x.now = d.now ∧ x.opts = d.opts ∧ x.topics = d.topics ∧ x.pubs = d.pubs ∧ x.addrs = d.addrs ∧ x.tasks = d.tasks ∧ x.keys = d.keys ∧
              x.sessions = d.sessions ∧ x.fates = d.fates := by
          rintro x (rfl | ⟨c, rfl | rfl⟩)
          · exact ⟨rfl, rfl, rfl, rfl, rfl, rfl, rfl, rfl, rfl⟩
          · unfold Driver.trySend; split <;> exact ⟨rfl, rfl, rfl, rfl, rfl, rfl, rfl, rfl, rfl⟩
          · unfold Driver.send; split <;> exact ⟨rfl, rfl, rfl, rfl, rfl, rfl, rfl, rfl, rfl⟩
        cases k with
        | subscribe t => simp only [Driver.call, Driver.subscribeAsync]; split; exact hst _ (.inl rfl); exact hst _ (.inr ⟨_, .inr rfl⟩)
        | trySubscribe t => simp only [Driver.call, Driver.trySubscribe]; split; exact hst _ (.inl rfl); exact hst _ (.inr ⟨_, .inl rfl⟩)
        | unsubscribe t => simp only [Driver.call, Driver.unsubscribeAsync]; split; exact hst _ (.inl rfl); exact hst _ (.inr ⟨_, .inr rfl⟩)
        | tryUnsubscribe t => simp only [Driver.call, Driver.tryUnsubscribe]; split; exact hst _ (.inl rfl); exact hst _ (.inr ⟨_, .inl rfl⟩)
        | connect b => exact hst _ (.inr ⟨_, .inr rfl⟩)
        | tryConnect b => exact hst _ (.inr ⟨_, .inl rfl⟩)
        | disconnect b => exact hst _ (.inr ⟨_, .inr rfl⟩)
        | tryDisconnect b => exact hst _ (.inr ⟨_, .inl rfl⟩)
        | recv => simp only [Driver.call, Driver.recv]; split <;> exact ⟨rfl, rfl, rfl, rfl, rfl, rfl, rfl, rfl, rfl⟩
      obtain ⟨k1, k2, k3, k4, k5, k6, k7, k8, k9⟩ := key
      exact ⟨k1, k2, k3, by simp only [Driver.entry, k4, k5], by rw [k6], by rw [k7], by simp only [ownSessions, k5, k8], by simp only [ownTaken, k5, k9]⟩
  | dropSocket =>
    refine fin e rfl ?_ h.lone (fun _ => id)
    refine Same.trans ?_ hs
    simp only [Driver.act] at ha
    split at ha <;> cases ha
    · exact .refl a d
    · unfold Driver.dropSocket Driver.trySend
      split <;> exact ⟨rfl, rfl, rfl, rfl, .rfl, .rfl, rfl, rfl⟩
  | session u v =>
    simp only [Driver.act] at ha
    by_cases hu : d.addrs[u]? = some a
    · -- its number in the lone socket
      have hlt : u < d.sessions.length := by rw [← h.left.len]; exact (List.getElem?_eq_some_iff.1 hu).1
      have hsu : d.sessions[u]? = some d.sessions[u] := List.getElem?_eq_getElem hlt
      rw [hsu] at ha
      cases ha
      have hall : ∀ {l : List A} {ss : List Session}, l.length = ss.length → (∀ b ∈ l, b = a) → own a l ss = ss := by
        intro l
        induction l with
        | nil => intro ss hl _; cases ss with
          | nil => rfl
          | cons s ss => simp at hl
        | cons b l ih =>
          intro ss hl hb
          cases ss with
          | nil => simp at hl
          | cons s ss =>
            have := hb b (.head _); subst this
            rw [own_cons_self, ih (by simpa using hl) fun c hc => hb c (.tail _ hc)]
      have hown : ownSessions a e = e.sessions := hall h.right.len h.lone.addrs
      have hg := own_get h.left.len hu
      rw [← ownSessions_eq, hs.sess, hown, hsu] at hg
      have hr : rank a d.addrs u < e.addrs.length := by rw [h.right.len]; exact (List.getElem?_eq_some_iff.1 hg).1
      have hev : e.addrs[rank a d.addrs u]? = some a := by
        rw [List.getElem?_eq_getElem hr, h.lone.addrs _ (List.getElem_mem hr)]
      have hrr : rank a d.addrs u = rank a e.addrs (rank a d.addrs u) := by
        have : ∀ {l : List A} {n : Nat}, (∀ b ∈ l, b = a) → n ≤ l.length → rank a l n = n := by
          intro l n hb hn
          unfold rank
          rw [List.count_eq_length.2 (fun b hx => (hb b (List.mem_of_mem_take hx)).symm), List.length_take, Nat.min_eq_left hn]
        exact (this h.lone.addrs (Nat.le_of_lt hr)).symm
      have key := hs.set h.left.len h.right.len hu hev hrr ((d.sessions[u]).step L v)
      refine fin _ (by simp only [aloneAct, hu, if_true]; rw [Driver.run]; simp only [Driver.act, hg, R.bind_ok, Driver.run]; rfl) ?_ ?_ ?_
      · exact ⟨key.now, key.opts, key.topics, key.entry, key.task, key.key, key.sess, key.taken⟩
      · exact ⟨h.lone.cmdq, h.lone.closed, h.lone.tasks, h.lone.addrs, h.lone.start, h.lone.ingress⟩
      · exact fun _ hr => ⟨hr.inbox, hr.fates⟩
    · refine fin e (by simp [aloneAct, hu, Driver.run]) ?_ h.lone (fun _ => id)
      refine Same.trans ?_ hs
      split at ha
      · cases ha
        have k := (Keep.set (a := a) d hu ((by assumption : Session).step L v)).same
        exact ⟨k.now, k.opts, k.topics, k.entry, k.task, k.key, k.sess, k.taken⟩
      · cases ha; exact .refl a d
  | iter v =>
    simp only [Driver.act] at ha
    split at ha
    · rename_i hst
      cases hi : d.iter D v with
      | panic => rw [hi] at ha; cases ha
      | ok y =>
        obtain ⟨d1, o⟩ := y
        rw [hi] at ha
        cases ha
        obtain ⟨e1, m1, m2, m3, m4⟩ := iter_alone h.left h.right hs h.lone h.clean hi
        have hrun : ∀ e', e1.act L D (.call .recv) = .ok e' → e.run L D (aloneAct D a d (.iter v)) = .ok e' := by
          intro e' he'
          simp only [aloneAct, hst, if_true]
          rw [drun_append, m1]
          show e1.run L D [.call .recv] = .ok e'
          rw [Driver.run, he']; rfl
        simp only [Driver.act, m3.closed, Bool.false_eq_true, if_false, Driver.call, Driver.recv] at hrun
        cases hib : e1.inbox with
        | nil =>
          rw [hib] at hrun
          refine fin e1 (hrun _ rfl) ⟨m2.now, m2.opts, m2.topics, m2.entry, m2.task, m2.key, m2.sess, m2.taken⟩ m3 (fun hn hr => ⟨by simp [hib], (m4 (hn v rfl) hr).fates⟩)
        | cons m ms =>
          rw [hib] at hrun
          refine fin _ (hrun _ rfl) ⟨m2.now, m2.opts, m2.topics, m2.entry, m2.task, m2.key, m2.sess, m2.taken⟩
            ⟨m3.cmdq, rfl, m3.tasks, m3.addrs, m3.start, m3.ingress⟩ (fun hn hr => ?_)
          have k := m4 (hn v rfl) hr
          refine ⟨?_, k.fates⟩
          have := k.inbox
          rw [hib] at this
          simpa using this
    · rename_i hst
      cases ha
      exact fin e (by simp [aloneAct, hst, Driver.run]) hs h.lone (fun _ => id)

theorem run_alone {a : A} : ∀ (acts : List (Act A)) {d d' e : Driver A}, InStep L D a d e → d.run L D acts = .ok d' →
    ∃ e', e.run L D (aloneActs L D a d acts) = .ok e' ∧ InStep L D a d' e' ∧ ((∀ v, .iter v ∈ acts → v.order.Nodup) → Room 0 e → Room 0 e')
  | [], d, d', e, h, hr => by cases hr; exact ⟨e, rfl, h, fun _ => id⟩
  | x :: xs, d, d', e, h, hr => by
    rw [Driver.run] at hr
    cases hx : d.act L D x with
    | panic => rw [hx] at hr; cases hr
    | ok d1 =>
      rw [hx] at hr
      obtain ⟨e1, k1, k2, k3⟩ := act_alone h hx
      obtain ⟨e2, m1, m2, m3⟩ := run_alone xs k2 hr
      refine ⟨e2, ?_, m2, fun hn hr => m3 (fun v hv => hn v (.tail _ hv)) (k3 (fun v hv => hn v (hv ▸ .head _)) hr)⟩
      rw [aloneActs, hx, drun_append, k1]
      exact m1

end MsgRs.Sub
