import Verif.Props.Sub
import Verif.Props.SubRetry
import Verif.Proofs.SubStats
/-!
# C49, C54: what does hold when a session task ends and after the drop
-/
namespace MsgRs.Props
open MsgRs Sub Spec
variable {A : Type} [DecidableEq A] {L : Lossy} {D : Decompressors}

/-- Looking at one publisher leaves the entry of another as it is, and its session. -/
theorem pollPub_other {d d' : Driver A} {a x : A} {p : Bool} (hx : x ≠ a) (hp : d.pollPub D x = .ok (d', p)) :
    lookup a d'.pubs = lookup a d.pubs ∧ d'.opts = d.opts ∧
    ∀ u, lookup x d.pubs ≠ some (.active u) → d'.sessions[u]? = d.sessions[u]? := by
  unfold Driver.pollPub at hp
  cases hl : lookup x d.pubs with
  | none => rw [hl] at hp; cases hp; exact ⟨rfl, rfl, fun _ _ => rfl⟩
  | some st =>
    rw [hl] at hp
    cases st with
    | active v =>
      simp only at hp
      have hset : ∀ (s : Session) (u : Nat), some (PState.active v) ≠ some (.active u) → (d.sessions.set v s)[u]? = d.sessions[u]? := by
        intro s u hu
        exact List.getElem?_set_ne (fun h => hu (by rw [h]))
      cases hs : d.sessions[v]? with
      | none => rw [hs] at hp; cases hp; exact ⟨rfl, rfl, fun _ _ => rfl⟩
      | some s =>
        rw [hs] at hp
        simp only at hp
        split at hp
        · split at hp
          · cases hp; exact ⟨rfl, rfl, fun u hu => hset _ u hu⟩
          · cases hp
            refine ⟨?_, ?_, fun u hu => ?_⟩
            · rw [(deliver_same _ _ _ _ _).2.2.1]
            · unfold Driver.deliver; repeat' split
              all_goals rfl
            · rw [(deliver_same _ _ _ _ _).2.2.2.1]; exact hset _ u hu
        · cases hp
          rw [reset_eq]
          refine ⟨lookup_insert_ne (Ne.symm hx) _ _, rfl, fun u hu => ?_⟩
          simp only
          rw [hangUp_get, hl]
          simp only [if_neg hu, Option.map_id']
        · cases hp; exact ⟨rfl, rfl, fun u hu => hset _ u hu⟩
    | inactive b =>
      simp only at hp
      cases hb : b.poll d.now with
      | panic => rw [hb] at hp; cases hp
      | ok y =>
        obtain ⟨o, b'⟩ := y
        rw [hb] at hp
        simp only [R.bind_ok, R.pure_eq] at hp
        have hlu : lookup a (d.pubs.map fun y => if y.1 = x then (x, PState.inactive b') else y) = lookup a d.pubs := by
          rw [lookup_update, if_neg (Ne.symm hx)]
        cases o with
        | pending => cases hp; exact ⟨hlu, rfl, fun _ _ => rfl⟩
        | item _ =>
          cases hp
          unfold Driver.connect
          split <;> exact ⟨hlu, rfl, fun _ _ => rfl⟩
        | ended =>
          cases hp
          exact ⟨(lookup_erase_ne (Ne.symm hx) _).trans hlu, rfl, fun _ _ => rfl⟩

/-- The entry of a publisher that is not in the order survives a round. -/
theorem pollPublishers_other (order : List A) {d d' : Driver A} {a : A} {p : Bool} (ha : a ∉ order)
    (hp : d.pollPublishers D order = .ok (d', p)) : lookup a d'.pubs = lookup a d.pubs := by
  induction order generalizing d p with
  | nil => simp only [Driver.pollPublishers] at hp; cases hp; rfl
  | cons x xs ih =>
    simp only [Driver.pollPublishers] at hp
    cases h1 : d.pollPub D x with
    | panic => rw [h1] at hp; cases hp
    | ok y =>
      obtain ⟨d1, p1⟩ := y
      rw [h1] at hp
      simp only [R.bind_ok] at hp
      cases h2 : d1.pollPublishers D xs with
      | panic => rw [h2] at hp; cases hp
      | ok z =>
        obtain ⟨d2, p2⟩ := z
        rw [h2] at hp
        simp only [R.bind_ok, R.pure_eq] at hp
        cases hp
        have hne : x ≠ a := fun h => ha (by simp [h])
        rw [ih (fun h => ha (by simp [h])) h2, (pollPub_other hne h1).1]

theorem pollPublishers_lost (order : List A) (hn : order.Nodup) {d d' : Driver A} {a : A} {u : Nat} {s : Session} {p : Bool} (hi : DInv L D d)
    (hl : lookup a d.pubs = some (.active u)) (hs : d.sessions[u]? = some s) (ht : s.toDriver = []) (ho : s.over = true) (ha : a ∈ order)
    (hp : d.pollPublishers D order = .ok (d', p)) :
    p = true ∧ lookup a d'.pubs = some (.inactive (Backoff.new d.opts.initialBackoff 16)) := by
  induction order generalizing d p with
  | nil => cases ha
  | cons x xs ih =>
    simp only [Driver.pollPublishers] at hp
    cases h1 : d.pollPub D x with
    | panic => rw [h1] at hp; cases hp
    | ok y =>
      obtain ⟨d1, p1⟩ := y
      rw [h1] at hp
      simp only [R.bind_ok] at hp
      cases h2 : d1.pollPublishers D xs with
      | panic => rw [h2] at hp; cases hp
      | ok z =>
        obtain ⟨d2, p2⟩ := z
        rw [h2] at hp
        simp only [R.bind_ok, R.pure_eq] at hp
        cases hp
        by_cases hx : x = a
        · subst hx
          have : d1 = d.resetPublisher x ∧ p1 = true := by
            unfold Driver.pollPub at h1
            rw [hl] at h1
            simp only [hs, Session.driverRecv, ht, ho, if_true] at h1
            cases h1
            exact ⟨rfl, rfl⟩
          obtain ⟨rfl, rfl⟩ := this
          refine ⟨rfl, ?_⟩
          rw [pollPublishers_other xs (List.nodup_cons.1 hn).1 h2, reset_eq]
          exact lookup_insert_self _ _ _
        · obtain ⟨k1, k2, k3⟩ := pollPub_other hx h1
          have hne : lookup x d.pubs ≠ some (.active u) := by
            intro hxu
            have e1 := (hi.act x u hxu).1
            have e2 := (hi.act a u hl).1
            rw [e1] at e2
            exact hx (Option.some.inj e2)
          have := ih (List.nodup_cons.1 hn).2 (hi.steps (pollPub_steps (L := L) d d1 x p1 h1)) (k1.trans hl) ((k3 u hne).trans hs)
            ((List.mem_cons.1 ha).resolve_left (fun h => hx h.symm)) h2
          rw [k2] at this
          exact ⟨by rw [this.1, Bool.or_true], this.2⟩

/-- C49 (partial): when the task that serves a connection has ended and everything it handed over is taken, the driver's next
look at the endpoint gives the connection up and starts over: a new backoff, from which attempts are made as `C77_timer_set` and `C77_retried` say. Missing: the task does not
end when its connection does, and then no attempt is ever made (`C49_never_reconnects_refuted`). -/
theorem C49_task_end_recovers_partial (L : Lossy) (D : Decompressors) (d e : Driver A) (h : Reach L D d) (a : A) (u : Nat) (s : Session)
    (ha : d.Active a u) (hs : d.sessions[u]? = some s) (ho : s.over = true) (ht : s.toDriver = [])
    (env : Env A) (hn : env.order.Nodup) (hm : a ∈ env.order) (o : Out) (hp : d.iter D env = .ok (e, o)) :
    o = .again ∧ lookup a e.pubs = some (.inactive (Backoff.new d.opts.initialBackoff 16)) := by
  unfold Driver.iter at hp
  cases h1 : d.pollPublishers D env.order with
  | panic => rw [h1] at hp; cases hp
  | ok x =>
    obtain ⟨d1, p⟩ := x
    rw [h1] at hp
    simp only [R.bind_ok, R.pure_eq] at hp
    obtain ⟨k1, k2⟩ := pollPublishers_lost env.order hn h.inv ha hs ht ho hm h1
    subst k1
    simp only [if_true] at hp
    cases hp
    exact ⟨rfl, k2⟩

/-- A task that has ended: its topic name is too long for a frame. It is seen, given up, and 100 ms later an attempt is made. -/
example : after {} [.call (.connect 5), .iter ⟨[], [], none⟩, .iter ⟨[5], [], conn []⟩, .call (.subscribe (List.replicate 65530 'a')),
      .iter ⟨[5], [], none⟩, .session 0 {}, .session 0 {}]
      (fun d => decide (d.pubs = [(5, .active 0)]) && decide (d.sessions.map (fun s => (s.over, s.toDriver.length)) = [(true, 0)])) = true ∧
    after {} [.call (.connect 5), .iter ⟨[], [], none⟩, .iter ⟨[5], [], conn []⟩, .call (.subscribe (List.replicate 65530 'a')),
      .iter ⟨[5], [], none⟩, .session 0 {}, .session 0 {}, .iter ⟨[5], [], none⟩, .iter ⟨[5], [], none⟩, .advance 100000000, .iter ⟨[5], [], none⟩]
      (fun d => decide (d.tasks = [5])) = true := by decide +kernel

/-! ## C54 -/

theorem DStep.closed_inbox {d e : Driver A} (h : DStep L D d e) (hc : d.closed = true) :
    e.closed = true ∧ e.received = d.received ∧ e.inbox = d.inbox := by
  have hd : ∀ (d : Driver A) a u t p, d.closed = true → (d.deliver a u t p).closed = true ∧ (d.deliver a u t p).received = d.received ∧ (d.deliver a u t p).inbox = d.inbox := by
    intro d a u t p hc
    unfold Driver.deliver
    rw [if_pos hc]
    exact ⟨hc, rfl, rfl⟩
  cases h with
  | start hc' => rw [hc] at hc'; cases hc'
  | push c hc' => rw [hc] at hc'; cases hc'
  | recv m ms hc' => rw [hc] at hc'; cases hc'
  | drop hc' => rw [hc] at hc'; cases hc'
  | command c q hq =>
    obtain ⟨-, -, h3, h4, h5, -⟩ := onCommand_same { d with cmdq := q, processed := d.processed ++ [c] } c
    exact ⟨h3.trans hc, h5, h4⟩
  | take => exact hd _ _ _ _ _ hc
  | lost => rw [reset_eq]; exact ⟨hc, rfl, rfl⟩
  | retry => unfold Driver.connect; split <;> exact ⟨hc, rfl, rfl⟩
  | joinOk => unfold Driver.onConnection; split <;> exact ⟨hc, rfl, rfl⟩
  | _ => exact ⟨hc, rfl, rfl⟩

/-- C54 (partial): once the socket is dropped, whatever happens, no command is taken but those already given, the user gets nothing any more, and no endpoint is contacted (no attempt, no connection) but
those that were known to the driver or in a connect command at that time. Missing: the task does not end and keeps its connections (`C54_drop_keeps_connections_refuted`). -/
theorem C54_nothing_new_partial (L : Lossy) (D : Decompressors) (d e : Driver A) (h : Reach L D d) (hc : d.closed = true)
    (acts : List (Act A)) (hr : d.run L D acts = .ok e) :
    e.processed ++ e.cmdq = d.processed ++ d.cmdq ∧ e.received = d.received ∧ e.inbox = d.inbox ∧
    ∀ a, lookup a d.pubs = none → a ∉ d.keys → .connect a ∉ d.cmdq → a ∉ e.tasks ∧ lookup a e.pubs = none := by
  have hst := run_steps acts d e hr
  have hlog := (hst.log.2.2 hc).1
  have hin : e.closed = true ∧ e.received = d.received ∧ e.inbox = d.inbox := by
    refine hst.induct (P := fun e => e.closed = true ∧ e.received = d.received ∧ e.inbox = d.inbox) ?_ ⟨hc, rfl, rfl⟩
    intro x y hxy ⟨g1, g2, g3⟩
    obtain ⟨k1, k2, k3⟩ := DStep.closed_inbox hxy g1
    exact ⟨k1, k2.trans g2, k3.trans g3⟩
  refine ⟨hlog, hin.2.1, hin.2.2, fun a h1 h2 h3 => ?_⟩
  have := (unknown_steps h.inv hst ⟨h1, h2⟩ (by
    intro new hn
    rw [hlog] at hn
    have : new = d.cmdq := (List.append_cancel_left hn).symm
    subst this
    exact h3)).1
  exact ⟨fun hm => this.2 ((h.inv.steps hst).tasksKeys a hm), this.1⟩

/-- A dropped socket with a connection and an endpoint that cannot be reached: attempts to reach it go on, nothing else is contacted. -/
example : after {} ([.call (.connect 5), .iter ⟨[], [], none⟩, .iter ⟨[5], [], conn []⟩, .call (.connect 6), .iter ⟨[5, 6], [], none⟩,
      .iter ⟨[5, 6], [], some (0, .failed)⟩, .iter ⟨[5, 6], [], none⟩, .dropSocket, .advance 100000000, .iter ⟨[5, 6], [], none⟩])
      (fun d => decide (d.closed = true) && decide (d.tasks = [6]) && decide (lookup 7 d.pubs = none)) = true := by decide +kernel

end MsgRs.Props
