import Verif.Model.SubDriver
import Verif.Proofs.SubSessionInv
/-!
# The subscriber's driver in small steps, and its invariant
-/
namespace MsgRs.Sub
open MsgRs

variable {A : Type} [DecidableEq A] {β : Type}

/-! ## Maps -/

theorem lookup_erase_self (a : A) (l : List (A × β)) : lookup a (erase a l) = none := by
  unfold erase
  induction l with
  | nil => rfl
  | cons x l ih =>
    simp only [List.filter]
    split
    · rename_i h; simp only [decide_eq_true_eq] at h; simp only [lookup, if_neg h]; exact ih
    · exact ih

theorem lookup_erase_ne {a b : A} (h : b ≠ a) (l : List (A × β)) : lookup b (erase a l) = lookup b l := by
  unfold erase
  induction l with
  | nil => rfl
  | cons x l ih =>
    simp only [List.filter]
    split
    · simp only [lookup]; split
      · rfl
      · exact ih
    · rename_i hx; simp only [ne_eq, decide_eq_false_iff_not, Decidable.not_not] at hx
      simp only [lookup, hx, if_neg (Ne.symm h)]; exact ih

theorem lookup_append (a : A) (l l' : List (A × β)) :
    lookup a (l ++ l') = match lookup a l with
      | some v => some v
      | none => lookup a l' := by
  induction l with
  | nil => rfl
  | cons x l ih =>
    simp only [List.cons_append, lookup]
    split
    · rfl
    · exact ih

theorem lookup_insert_self (a : A) (v : β) (l : List (A × β)) : lookup a (insert a v l) = some v := by
  unfold insert
  rw [lookup_append, lookup_erase_self]
  simp [lookup]

theorem lookup_insert_ne {a b : A} (h : b ≠ a) (v : β) (l : List (A × β)) :
    lookup b (insert a v l) = lookup b l := by
  unfold insert
  rw [lookup_append, lookup_erase_ne h]
  cases lookup b l with
  | none => simp [lookup, Ne.symm h]
  | some w => rfl

theorem lookup_update (a b : A) (v : β) (l : List (A × β)) :
    lookup b (l.map fun x => if x.1 = a then (a, v) else x) =
      if b = a then (lookup a l).map (fun _ => v) else lookup b l := by
  induction l with
  | nil => simp [lookup]
  | cons x l ih =>
    obtain ⟨k, w⟩ := x
    simp only [List.map_cons]
    by_cases hx : k = a
    · subst hx
      simp only [if_true, lookup, ih]
      by_cases hb : b = k
      · subst hb; simp
      · simp [hb, Ne.symm hb]
    · simp only [hx, if_false, lookup, ih]
      by_cases hb : b = a
      · subst hb; simp [hx]
      · simp [hb]

theorem keys_update (a : A) (v : β) (l : List (A × β)) :
    (l.map fun x => if x.1 = a then (a, v) else x).map (·.1) = l.map (·.1) := by
  induction l with
  | nil => rfl
  | cons x l ih =>
    simp only [List.map_cons, ih]
    split
    · rename_i h; rw [h]
    · rfl

theorem nodup_erase {a : A} {l : List (A × β)} (h : (l.map (·.1)).Nodup) : ((erase a l).map (·.1)).Nodup := by
  unfold erase
  exact h.sublist (List.Sublist.map _ List.filter_sublist)

theorem not_mem_erase (a : A) (l : List (A × β)) : a ∉ (erase a l).map (·.1) := by
  unfold erase
  simp only [List.mem_map, List.mem_filter, decide_eq_true_eq, not_exists, not_and]
  rintro x ⟨-, hx⟩ rfl
  exact hx rfl

theorem nodup_insert {a : A} {v : β} {l : List (A × β)} (h : (l.map (·.1)).Nodup) :
    ((insert a v l).map (·.1)).Nodup := by
  unfold insert
  rw [List.map_append, List.nodup_append]
  refine ⟨nodup_erase h, by simp, ?_⟩
  intro x hx y hy
  simp at hy
  subst hy
  intro hxy
  subst hxy
  exact not_mem_erase _ _ hx

theorem lookup_of_mem {a : A} {v : β} {l : List (A × β)} (h : (l.map (·.1)).Nodup) (hm : (a, v) ∈ l) :
    lookup a l = some v := by
  induction l with
  | nil => cases hm
  | cons x l ih =>
    simp only [List.map_cons, List.nodup_cons] at h
    rcases List.mem_cons.1 hm with rfl | hm
    · simp [lookup]
    · simp only [lookup]
      rw [if_neg]
      · exact ih h.2 hm
      · intro hx
        exact h.1 (List.mem_map.2 ⟨_, hm, hx.symm⟩)

theorem mem_of_lookup {a : A} {v : β} {l : List (A × β)} (h : lookup a l = some v) : (a, v) ∈ l := by
  induction l with
  | nil => cases h
  | cons x l ih =>
    simp only [lookup] at h
    split at h
    · rename_i hx; cases h; subst hx; exact List.mem_cons_self
    · exact List.mem_cons_of_mem _ (ih h)

/-! ## Small steps -/

/-- Small steps of a subscriber socket: of its driver, its sessions, its user. -/
inductive DStep (L : Lossy) (D : Decompressors) : Driver A → Driver A → Prop where
  | time (d : Driver A) (dt : Nat) : DStep L D d { d with now := d.now + dt }
  | wake (d : Driver A) (w : Bool) : DStep L D d { d with woken := w }
  | start (d : Driver A) : d.closed = false → DStep L D d { d with started := true }
  | push (d : Driver A) (c : Command A) : d.closed = false → d.cmdq.length < cmdCap →
      DStep L D d { d with cmdq := d.cmdq ++ [c], woken := true }
  | recv (d : Driver A) (m : InMsg A) (ms : List (InMsg A)) : d.closed = false → d.inbox = m :: ms →
      DStep L D d { d with inbox := ms, received := d.received ++ [m] }
  | drop (d : Driver A) : d.closed = false → DStep L D d { d with closed := true, inbox := [], woken := true }
  | session (d : Driver A) (u : Nat) (s s' : Session) : d.sessions[u]? = some s → SStep L s s' →
      DStep L D d { d with sessions := d.sessions.set u s' }
  | command (d : Driver A) (c : Command A) (q : List (Command A)) : d.cmdq = c :: q →
      DStep L D d ({ d with cmdq := q, processed := d.processed ++ [c] }.onCommand c)
  | take (d : Driver A) (a : A) (u : Nat) (s : Session) (t : TopicMsg) (ms : List TopicMsg) (payload : Bytes) :
      lookup a d.pubs = some (.active u) → d.sessions[u]? = some s → s.toDriver = t :: ms →
      tryDecompress D t.ctype t.payload = some payload →
      DStep L D d ({ d with sessions := d.sessions.set u { s with toDriver := ms } }.deliver a u t payload)
  | skip (d : Driver A) (a : A) (u : Nat) (s : Session) (t : TopicMsg) (ms : List TopicMsg) :
      lookup a d.pubs = some (.active u) → d.sessions[u]? = some s → s.toDriver = t :: ms →
      tryDecompress D t.ctype t.payload = none →
      DStep L D d { d with
        sessions := d.sessions.set u { s with toDriver := ms }
        fates := d.fates ++ [(u, t, .undecodable)] }
  | lost (d : Driver A) (a : A) (u : Nat) (s : Session) :
      lookup a d.pubs = some (.active u) → d.sessions[u]? = some s → s.toDriver = [] → s.over = true →
      DStep L D d (d.resetPublisher a)
  | arm (d : Driver A) (a : A) (u : Nat) (s : Session) :
      lookup a d.pubs = some (.active u) → d.sessions[u]? = some s → s.toDriver = [] → s.over = false →
      DStep L D d { d with sessions := d.sessions.set u { s with armed := true } }
  | backoff (d : Driver A) (a : A) (b b' : Backoff) (o : BOut) : lookup a d.pubs = some (.inactive b) →
      b.poll d.now = .ok (o, b') →
      DStep L D d { d with pubs := d.pubs.map fun x => if x.1 = a then (a, .inactive b') else x }
  | retry (d : Driver A) (a : A) (b : Backoff) : lookup a d.pubs = some (.inactive b) → DStep L D d (d.connect a)
  | terminate (d : Driver A) (a : A) (b : Backoff) : lookup a d.pubs = some (.inactive b) →
      DStep L D d { d with pubs := erase a d.pubs }
  | joinPanic (d : Driver A) (i : Nat) (a : A) : d.tasks[i]? = some a →
      DStep L D d { d with tasks := d.tasks.eraseIdx i }
  | joinFail (d : Driver A) (i : Nat) (a : A) : d.tasks[i]? = some a →
      DStep L D d { d with tasks := d.tasks.eraseIdx i, keys := d.keys.filter (· ≠ a) }
  | joinOk (d : Driver A) (i : Nat) (a : A) (order : List Str) (out : TaskOut) (via : HsEnv) (input : List ReadAns) :
      d.tasks[i]? = some a → taskResult d.opts.token out = .ok (some (some (via, input))) →
      DStep L D d ({ d with tasks := d.tasks.eraseIdx i, keys := d.keys.filter (· ≠ a) }.onConnection order a via input)

inductive DSteps (L : Lossy) (D : Decompressors) : Driver A → Driver A → Prop where
  | refl (d : Driver A) : DSteps L D d d
  | step {d e f : Driver A} : DSteps L D d e → DStep L D e f → DSteps L D d f

variable {L : Lossy} {D : Decompressors}

theorem DStep.steps {d e : Driver A} (h : DStep L D d e) : DSteps L D d e := .step (.refl d) h

theorem DSteps.trans {d e f : Driver A} (h : DSteps L D d e) (h' : DSteps L D e f) : DSteps L D d f := by
  induction h' with
  | refl => exact h
  | step _ hs ih => exact .step ih hs

theorem DSteps.induct {P : Driver A → Prop} (hp : ∀ d e, DStep L D d e → P d → P e) {d e : Driver A}
    (h : DSteps L D d e) (h0 : P d) : P e := by
  induction h with
  | refl => exact h0
  | step _ hs ih => exact hp _ _ hs ih

theorem session_steps (d : Driver A) (u : Nat) (s s' : Session) (hu : d.sessions[u]? = some s) (h : SSteps L s s') :
    DSteps L D d { d with sessions := d.sessions.set u s' } := by
  induction h with
  | refl =>
    have : d.sessions.set u s = d.sessions := by
      apply List.ext_getElem?
      intro i
      rw [List.getElem?_set]
      split
      · rename_i h; subst h
        have := (List.getElem?_eq_some_iff.1 hu).1
        rw [if_pos this, hu]
      · rfl
    rw [this]
    exact .refl d
  | @step t v _ hs ih =>
    refine ih.step ?_
    have := DStep.session (L := L) (D := D) { d with sessions := d.sessions.set u t } u t v
      (by simp [(List.getElem?_eq_some_iff.1 hu).1]) hs
    simpa using this

theorem pollPub_steps (d d' : Driver A) (a : A) (p : Bool) (h : d.pollPub D a = .ok (d', p)) : DSteps L D d d' := by
  unfold Driver.pollPub at h
  cases hl : lookup a d.pubs with
  | none => rw [hl] at h; cases h; exact .refl _
  | some st =>
    rw [hl] at h
    cases st with
    | active u =>
      simp only at h
      cases hu : d.sessions[u]? with
      | none => rw [hu] at h; cases h; exact .refl _
      | some s =>
        rw [hu] at h
        simp only [Session.driverRecv] at h
        cases ht : s.toDriver with
        | cons t ms =>
          simp only [ht] at h
          cases hd : tryDecompress D t.ctype t.payload with
          | none => simp only [hd] at h; cases h; exact (DStep.skip d a u s t ms hl hu ht hd).steps
          | some payload => simp only [hd] at h; cases h; exact (DStep.take d a u s t ms payload hl hu ht hd).steps
        | nil =>
          simp only [ht] at h
          cases ho : s.over with
          | true => simp only [ho, if_true] at h; cases h; exact (DStep.lost d a u s hl hu ht ho).steps
          | false =>
            simp only [ho, Bool.false_eq_true, if_false] at h; cases h
            simpa only [ht, ho] using (DStep.arm (L := L) (D := D) d a u s hl hu ht ho).steps
    | inactive b =>
      simp only at h
      cases hp : b.poll d.now with
      | panic => rw [hp] at h; cases h
      | ok x =>
        obtain ⟨o, b'⟩ := x
        rw [hp] at h
        simp only [R.bind_ok, R.pure_eq] at h
        have h1 := (DStep.backoff (L := L) (D := D) d a b b' o hl hp).steps
        have h2 : lookup a (d.pubs.map fun x => if x.1 = a then (a, PState.inactive b') else x) = some (.inactive b') := by
          rw [lookup_update]; simp [hl]
        cases o with
        | pending => cases h; exact h1
        | item x => cases h; exact h1.step (DStep.retry _ a b' h2)
        | ended => cases h; exact h1.step (DStep.terminate _ a b' h2)

theorem pollPublishers_steps (order : List A) (d d' : Driver A) (p : Bool)
    (h : d.pollPublishers D order = .ok (d', p)) : DSteps L D d d' := by
  induction order generalizing d p with
  | nil => simp only [Driver.pollPublishers] at h; cases h; exact .refl _
  | cons a as ih =>
    simp only [Driver.pollPublishers] at h
    cases h1 : d.pollPub D a with
    | panic => rw [h1] at h; cases h
    | ok x =>
      obtain ⟨d1, p1⟩ := x
      rw [h1] at h
      simp only [R.bind_ok] at h
      cases h2 : d1.pollPublishers D as with
      | panic => rw [h2] at h; cases h
      | ok y =>
        obtain ⟨d2, p2⟩ := y
        rw [h2] at h
        simp only [R.bind_ok, R.pure_eq] at h
        cases h
        exact (pollPub_steps d d1 a p1 h1).trans (ih d1 p2 h2)

theorem joinStep_steps (d : Driver A) (e : Env A) : DSteps L D d (d.joinStep e).1 := by
  unfold Driver.joinStep
  cases hj : e.join with
  | none => exact .refl d
  | some x =>
    obtain ⟨i, out⟩ := x
    simp only
    cases ht : d.tasks[i]? with
    | none => exact .refl d
    | some a =>
      simp only
      cases hr : taskResult d.opts.token out with
      | panic => exact (DStep.joinPanic d i a ht).steps
      | ok r =>
        rcases r with _ | (_ | ⟨via, input⟩)
        · exact .refl d
        · exact (DStep.joinFail d i a ht).steps
        · exact (DStep.joinOk d i a e.topicOrder out via input ht hr).steps

theorem diter_steps (d d' : Driver A) (e : Env A) (o : Out) (h : d.iter D e = .ok (d', o)) : DSteps L D d d' := by
  unfold Driver.iter at h
  cases h1 : d.pollPublishers D e.order with
  | panic => rw [h1] at h; cases h
  | ok x =>
    obtain ⟨d1, p⟩ := x
    rw [h1] at h
    simp only [R.bind_ok, R.pure_eq] at h
    have h2 := pollPublishers_steps (L := L) e.order d d1 p h1
    cases p with
    | true => simp only [if_true] at h; cases h; exact h2
    | false =>
      simp only [Bool.false_eq_true, if_false] at h
      cases hq : d1.cmdq with
      | cons c q => simp only [hq] at h; cases h; exact h2.step (.command d1 c q hq)
      | nil =>
        simp only [hq] at h
        have h3 := joinStep_steps (L := L) (D := D) d1 e
        generalize d1.joinStep e = w at *
        cases h
        exact h2.trans h3

theorem call_steps (d : Driver A) (c : Call A) (hc : d.closed = false) : DSteps L D d (d.call c) := by
  have h1 : DSteps L D d d.ensureActive := (DStep.start d hc).steps
  have hsend : ∀ x, DSteps L D d (d.ensureActive.send x).2 := by
    intro x
    unfold Driver.send
    split
    · rename_i h; exact h1.step (.push _ x hc h)
    · exact h1
  have htry : ∀ x, DSteps L D d (d.ensureActive.trySend x).2 := by
    intro x
    unfold Driver.trySend
    split
    · rename_i h; exact h1.step (.push _ x hc h)
    · exact h1
  cases c with
  | subscribe t => simp only [Driver.call, Driver.subscribeAsync]; split <;> first | exact h1 | exact hsend _
  | trySubscribe t => simp only [Driver.call, Driver.trySubscribe]; split <;> first | exact h1 | exact htry _
  | unsubscribe t => simp only [Driver.call, Driver.unsubscribeAsync]; split <;> first | exact h1 | exact hsend _
  | tryUnsubscribe t => simp only [Driver.call, Driver.tryUnsubscribe]; split <;> first | exact h1 | exact htry _
  | connect a => exact hsend _
  | tryConnect a => exact htry _
  | disconnect a => exact hsend _
  | tryDisconnect a => exact htry _
  | recv =>
    simp only [Driver.call, Driver.recv]
    cases hi : d.inbox with
    | nil => simpa using DSteps.refl d
    | cons m ms => exact (DStep.recv d m ms hc hi).steps

theorem act_steps (d d' : Driver A) (x : Act A) (h : d.act L D x = .ok d') : DSteps L D d d' := by
  cases x with
  | iter e =>
    simp only [Driver.act] at h
    split at h
    · cases h1 : d.iter D e with
      | panic => rw [h1] at h; cases h
      | ok y =>
        obtain ⟨d1, o⟩ := y
        rw [h1] at h
        simp only [R.bind_ok, R.pure_eq] at h
        cases h
        exact (diter_steps d d1 e o h1).step (.wake d1 _)
    · cases h; exact .refl _
  | session u e =>
    simp only [Driver.act] at h
    cases hu : d.sessions[u]? with
    | none => rw [hu] at h; cases h; exact .refl _
    | some s =>
      rw [hu] at h
      simp only at h
      cases h
      exact (session_steps d u s _ hu (step_steps s e)).step (.wake _ _)
  | advance dt => simp only [Driver.act] at h; cases h; exact (DStep.time d dt).steps
  | call c =>
    simp only [Driver.act] at h
    cases hc : d.closed with
    | true => simp only [hc, if_true] at h; cases h; exact .refl _
    | false => simp only [hc, Bool.false_eq_true, if_false] at h; cases h; exact call_steps d c hc
  | dropSocket =>
    simp only [Driver.act] at h
    cases hc : d.closed with
    | true => simp only [hc, if_true] at h; cases h; exact .refl _
    | false =>
      simp only [hc, Bool.false_eq_true, if_false] at h; cases h
      unfold Driver.dropSocket Driver.trySend
      split
      · rename_i hlt
        exact (DStep.push d .shutdown hc hlt).steps.step (DStep.drop _ hc)
      · exact (DStep.drop d hc).steps

theorem run_steps (acts : List (Act A)) (d d' : Driver A) (h : d.run L D acts = .ok d') : DSteps L D d d' := by
  induction acts generalizing d with
  | nil => simp only [Driver.run] at h; cases h; exact .refl _
  | cons a as ih =>
    simp only [Driver.run] at h
    cases h1 : d.act L D a with
    | panic => rw [h1] at h; cases h
    | ok d1 =>
      rw [h1] at h
      exact (act_steps d d1 a h1).trans (ih d1 h)

end MsgRs.Sub
