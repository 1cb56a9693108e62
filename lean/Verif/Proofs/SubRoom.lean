import Verif.Proofs.SubDeliver
import Verif.Proofs.SubStats
/-!
# A subscriber loses messages only for lack of room
-/
namespace MsgRs.Sub
open MsgRs

variable {A : Type} [DecidableEq A] {L : Lossy} {D : Decompressors}

/-- No message of session `u` was lost. -/
structure NoLoss (u : Nat) (d : Driver A) : Prop where
  fates : ∀ x ∈ d.fates, x.1 = u → x.2.2 ≠ .full ∧ x.2.2 ≠ .gone
  drops : ∀ s : Session, d.sessions[u]? = some s → s.drops = 0

/-- The driver did nothing to the sessions that loses messages read by them (`sk`: sessions are kept, `nw`: new ones are fresh). -/
structure SK (d e : Driver A) : Prop where
  sk : ∀ (v : Nat) (s : Session), d.sessions[v]? = some s →
    ∃ s' : Session, e.sessions[v]? = some s' ∧ (s'.alive = true → s.alive = true) ∧ s'.drops = s.drops
  nw : ∀ (v : Nat) (s' : Session), d.sessions[v]? = none → e.sessions[v]? = some s' → s'.drops = 0
  rc : e.received = d.received

theorem SK.of_eq {d e : Driver A} (h : e.sessions = d.sessions) (hr : e.received = d.received) : SK d e :=
  ⟨fun v s hs => ⟨s, by rw [h]; exact hs, id, rfl⟩, fun v s' h1 h2 => (by rw [h, h1] at h2; cases h2), hr⟩

theorem SK.refl (d : Driver A) : SK d d := .of_eq rfl rfl

theorem SK.trans {d e f : Driver A} (h : SK d e) (h' : SK e f) : SK d f where
  sk := by
    intro v s hs
    obtain ⟨s1, h1, h2, h3⟩ := h.sk v s hs
    obtain ⟨s2, g1, g2, g3⟩ := h'.sk v s1 h1
    exact ⟨s2, g1, fun x => h2 (g2 x), g3.trans h3⟩
  nw := by
    intro v s' hn hs
    cases he : e.sessions[v]? with
    | none => exact h'.nw v s' he hs
    | some s1 =>
      obtain ⟨s2, g1, -, g3⟩ := h'.sk v s1 he
      rw [hs] at g1; cases g1
      rw [g3]; exact h.nw v s1 hn he
  rc := h'.rc.trans h.rc

theorem SK.base {d d' e : Driver A} (h : SK d' e) (h1 : d'.sessions = d.sessions) (h2 : d'.received = d.received) : SK d e :=
  (SK.of_eq h1 h2).trans h

theorem SK.set {d e : Driver A} {u : Nat} {s s' : Session} (hu : d.sessions[u]? = some s) (ha : s'.alive = true → s.alive = true)
    (hd : s'.drops = s.drops) (he : e.sessions = d.sessions.set u s') (hr : e.received = d.received) : SK d e where
  sk := by
    intro v t ht
    rw [he]
    by_cases h : v = u
    · subst h; rw [hu] at ht; cases ht
      exact ⟨s', by simp [(List.getElem?_eq_some_iff.1 hu).1], ha, hd⟩
    · exact ⟨t, by simp [Ne.symm h, ht], id, rfl⟩
  nw := by
    intro v t hn ht
    rw [he] at ht
    rcases get_set hu ht with ⟨rfl, rfl⟩ | ⟨_, h⟩
    · rw [hu] at hn; cases hn
    · rw [hn] at h; cases h
  rc := hr

theorem SK.hangUp (d e : Driver A) (a : A) (he : e.sessions = (d.hangUp a).sessions) (hr : e.received = d.received) : SK d e where
  sk := by
    intro v s hs
    rw [he, hangUp_get, hs]
    refine ⟨_, rfl, ?_, ?_⟩
    · split
      · intro h; cases h
      · exact id
    · split <;> rfl
  nw := by
    intro v s' hn hs
    rw [he, hangUp_get, hn] at hs
    cases hs
  rc := hr

theorem SK.reset (d : Driver A) (a : A) : SK d (d.resetPublisher a) :=
  .hangUp d _ a (by rw [reset_eq]) (by rw [reset_eq])

theorem offer_drops (s : Session) (c : Cmd) : (s.offer c).2.drops = s.drops ∧ (s.offer c).2.alive = s.alive := by
  unfold Session.offer
  repeat' split
  all_goals exact ⟨rfl, rfl⟩

theorem SK.tell (c : Cmd) (l : List (A × PState)) (d0 d : Driver A) (h : SK d0 d) : SK d0 (d.tell c l) :=
  tell_induct c (P := SK d0)
    (fun _ _ s h hu => h.trans (.set hu (by rw [(offer_drops s c).2]; exact id) (offer_drops s c).1 rfl rfl))
    (fun d a h => h.trans (.reset d a)) l d h

theorem SK.connect (d : Driver A) (a : A) : SK d (d.connect a) := by
  unfold Driver.connect
  split
  · exact .refl d
  · exact .of_eq rfl rfl

theorem SK.command (d : Driver A) (c : Command A) : SK d (d.onCommand c) := by
  cases c with
  | subscribe t =>
    show SK d (d.subscribe t)
    unfold Driver.subscribe
    split
    · exact .refl d
    · exact .tell _ _ _ _ (.of_eq rfl rfl)
  | unsubscribe t =>
    show SK d (d.unsubscribe t)
    unfold Driver.unsubscribe
    split
    · exact .tell _ _ _ _ (.of_eq rfl rfl)
    · exact .refl d
  | connect a =>
    simp only [Driver.onCommand]
    split
    · exact .refl d
    · exact (SK.connect d a).trans (.reset _ a)
  | disconnect a =>
    simp only [Driver.onCommand]
    split
    · exact .hangUp d _ a rfl (by rw [hangUp_eq])
    · exact .refl d
  | shutdown => exact .refl d

theorem offerAll_drops (ts : List Str) (s : Session) : (offerAll s ts).drops = s.drops := by
  induction ts generalizing s with
  | nil => rfl
  | cons t ts ih => rw [offerAll, ih, (offer_drops s _).1]

theorem SK.onConnection (d : Driver A) (order : List Str) (a : A) (via : HsEnv) (input : List ReadAns) :
    SK d (d.onConnection order a via input) := by
  unfold Driver.onConnection
  split
  · exact .refl d
  · refine ⟨?_, ?_, rfl⟩
    · intro v s hs
      have hlt := (List.getElem?_eq_some_iff.1 hs).1
      exact ⟨s, by simp only; rw [List.getElem?_append_left hlt]; exact hs, id, rfl⟩
    · intro v s' hn hs
      have hge := List.getElem?_eq_none_iff.1 hn
      simp only at hs
      rw [List.getElem?_append_right hge] at hs
      have := List.mem_of_getElem? hs
      rw [List.mem_singleton] at this
      rw [this, offerAll_drops]
      rfl

theorem SK.pollPub {d d' : Driver A} {a : A} {p : Bool} (h : d.pollPub D a = .ok (d', p)) : SK d d' := by
  unfold Driver.pollPub at h
  cases hl : lookup a d.pubs with
  | none => rw [hl] at h; cases h; exact .refl _
  | some st =>
    rw [hl] at h
    cases st with
    | active u =>
      simp only at h
      cases hu : d.sessions[u]? with
      | none => rw [hu] at h; cases h; exact .refl _
      | some s =>
        rw [hu] at h
        simp only [Session.driverRecv] at h
        cases ht : s.toDriver with
        | cons t ms =>
          simp only [ht] at h
          cases hd : tryDecompress D t.ctype t.payload with
          | none => simp only [hd] at h; cases h; exact .set (s' := { s with toDriver := ms }) hu id rfl rfl rfl
          | some payload =>
            simp only [hd] at h; cases h
            refine .set (s' := { s with toDriver := ms }) hu id rfl (deliver_same _ a u t payload).2.2.2.1 ?_
            unfold Driver.deliver
            repeat' split
            all_goals rfl
        | nil =>
          simp only [ht] at h
          cases ho : s.over with
          | true => simp only [ho, if_true] at h; cases h; exact .reset d a
          | false =>
            simp only [ho, Bool.false_eq_true, if_false] at h; cases h
            refine .set (s' := _) hu ?_ ?_ rfl rfl
            · exact id
            · rfl
    | inactive b =>
      simp only at h
      cases hp : b.poll d.now with
      | panic => rw [hp] at h; cases h
      | ok x =>
        obtain ⟨o, b'⟩ := x
        rw [hp] at h
        simp only [R.bind_ok, R.pure_eq] at h
        cases o with
        | pending => cases h; exact .of_eq rfl rfl
        | item x => cases h; exact (SK.connect _ a).base rfl rfl
        | ended => cases h; exact .of_eq rfl rfl

theorem SK.pollPublishers (order : List A) {d d' : Driver A} {p : Bool} (h : d.pollPublishers D order = .ok (d', p)) : SK d d' := by
  induction order generalizing d p with
  | nil => simp only [Driver.pollPublishers] at h; cases h; exact .refl _
  | cons a as ih =>
    simp only [Driver.pollPublishers] at h
    cases h1 : d.pollPub D a with
    | panic => rw [h1] at h; cases h
    | ok x =>
      obtain ⟨d1, p1⟩ := x
      rw [h1] at h
      simp only [R.bind_ok] at h
      cases h2 : d1.pollPublishers D as with
      | panic => rw [h2] at h; cases h
      | ok y =>
        obtain ⟨d2, p2⟩ := y
        rw [h2] at h
        simp only [R.bind_ok, R.pure_eq] at h
        cases h
        exact (SK.pollPub h1).trans (ih h2)

theorem SK.joinStep (d : Driver A) (e : Env A) : SK d (d.joinStep e).1 := by
  unfold Driver.joinStep
  repeat' split
  all_goals first | exact .refl d | exact .of_eq rfl rfl | exact (SK.onConnection _ _ _ _ _).base rfl rfl

theorem SK.iter {d d' : Driver A} {e : Env A} {o : Out} (h : d.iter D e = .ok (d', o)) : SK d d' := by
  unfold Driver.iter at h
  cases h1 : d.pollPublishers D e.order with
  | panic => rw [h1] at h; cases h
  | ok x =>
    obtain ⟨d1, p⟩ := x
    rw [h1] at h
    simp only [R.bind_ok, R.pure_eq] at h
    have h2 := SK.pollPublishers _ h1
    cases p with
    | true => simp only [if_true] at h; cases h; exact h2
    | false =>
      simp only [Bool.false_eq_true, if_false] at h
      cases hq : d1.cmdq with
      | cons c q =>
        simp only [hq] at h; cases h
        exact h2.trans (SK.trans (SK.of_eq (e := { d1 with cmdq := q, processed := d1.processed ++ [c] }) rfl rfl) (.command _ c))
      | nil =>
        simp only [hq] at h
        have h3 := SK.joinStep d1 e
        generalize d1.joinStep e = w at *
        cases h
        exact h2.trans h3

/-- A message taken by the driver is lost only when the ingress buffer is full. -/
theorem full_or {u : Nat} {d e : Driver A} (h : DSteps L D d e) (hc : e.closed = false)
    (hn : ∀ x ∈ d.fates, x.1 = u → x.2.2 ≠ .full ∧ x.2.2 ≠ .gone) :
    (∀ x ∈ e.fates, x.1 = u → x.2.2 ≠ .full ∧ x.2.2 ≠ .gone) ∨
    ∃ f, DSteps L D d f ∧ DSteps L D f e ∧ f.opts.ingress ≤ f.inbox.length := by
  induction h with
  | refl => exact .inl hn
  | @step e f h1 hs ih =>
    have hce : e.closed = false := by
      cases hx : e.closed with
      | false => rfl
      | true => exact absurd (hs.log.2.2 hx).2 (by rw [hc]; decide)
    rcases ih hce with ih | ⟨g, g1, g2, g3⟩
    · by_cases hfull : e.opts.ingress ≤ e.inbox.length
      · exact .inr ⟨e, h1, hs.steps, hfull⟩
      · left
        cases hs with
        | command c q hq => rw [(onCommand_same _ c).2.2.2.2.2.2.2.1]; exact ih
        | take a v s t ms payload hl hu ht hd =>
          unfold Driver.deliver
          simp only [hce, Bool.false_eq_true, if_false]
          rw [if_pos (by omega)]
          intro x hx hxu
          rcases List.mem_append.1 hx with h | h
          · exact ih x h hxu
          · simp at h; subst h; exact ⟨by simp, by simp⟩
        | skip a v s t ms hl hu ht hd =>
          intro x hx hxu
          rcases List.mem_append.1 hx with h | h
          · exact ih x h hxu
          · simp at h; subst h; exact ⟨by simp, by simp⟩
        | lost a v s hl hu ht ho => rw [reset_eq]; exact ih
        | retry a b hl => unfold Driver.connect; split <;> exact ih
        | joinOk i a order out via input ht hr =>
          rw [(onConnection_same _ order a via input).2.2.2.2.2.2.2.1]; exact ih
        | _ => exact ih
    · exact .inr ⟨g, g1, g2.step hs, g3⟩

/-- A session loses a message only when its channel is full. -/
theorem drops_or {s t : Session} (h : SSteps L s t) :
    s.toDriver <+: t.toDriver ∧ t.alive = s.alive ∧ (s.alive = true → t.drops = s.drops ∨ toDriverCap ≤ t.toDriver.length) := by
  induction h with
  | refl => exact ⟨List.prefix_rfl, rfl, fun _ => .inl rfl⟩
  | @step t v _ hs ih =>
    obtain ⟨h1, h2, h3⟩ := ih
    cases hs with
    | readItem m rd input now ho hp =>
      simp only [Session.onIncoming]
      split
      · refine ⟨h1.trans (List.prefix_append _ _), h2, fun ha => ?_⟩
        rcases h3 ha with h | h
        · exact .inl h
        · exact .inr (by simp only [List.length_append]; omega)
      · rename_i hx
        refine ⟨h1, h2, fun ha => .inr ?_⟩
        have hta : t.alive = true := h2.trans ha
        simp only [hta, true_and] at hx
        simp only
        omega
    | _ => exact ⟨h1, h2, h3⟩

theorem call_keeps (d : Driver A) (c : Call A) : (d.call c).sessions = d.sessions ∧ (d.call c).fates = d.fates := by
  have hb : ∀ y : Command A, ((d.ensureActive.send y).2.sessions = d.sessions ∧ (d.ensureActive.send y).2.fates = d.fates) ∧
      (d.ensureActive.trySend y).2.sessions = d.sessions ∧ (d.ensureActive.trySend y).2.fates = d.fates := by
    intro y
    unfold Driver.send Driver.trySend
    split <;> exact ⟨⟨rfl, rfl⟩, rfl, rfl⟩
  cases c with
  | subscribe t => simp only [Driver.call, Driver.subscribeAsync]; split; exact ⟨rfl, rfl⟩; exact (hb _).1
  | trySubscribe t => simp only [Driver.call, Driver.trySubscribe]; split; exact ⟨rfl, rfl⟩; exact (hb _).2
  | unsubscribe t => simp only [Driver.call, Driver.unsubscribeAsync]; split; exact ⟨rfl, rfl⟩; exact (hb _).1
  | tryUnsubscribe t => simp only [Driver.call, Driver.tryUnsubscribe]; split; exact ⟨rfl, rfl⟩; exact (hb _).2
  | connect a => exact (hb _).1
  | tryConnect a => exact (hb _).2
  | disconnect a => exact (hb _).1
  | tryDisconnect a => exact (hb _).2
  | recv => simp only [Driver.call, Driver.recv]; split <;> exact ⟨rfl, rfl⟩

/-- One action loses nothing of session `u` if afterwards the session is wanted, its channel is not full and the ingress
buffer is not. -/
theorem NoLoss.act {u : Nat} {d e : Driver A} {x : Act A} (h : d.act L D x = .ok e) (hn : NoLoss u d) (hc : e.closed = false)
    (hal : ∀ s : Session, e.sessions[u]? = some s → s.alive = true ∧ s.toDriver.length < toDriverCap)
    (hroom : e.inbox.length < e.opts.ingress) : NoLoss u e := by
  have hst := act_steps d e x h
  have hsame : e.sessions = d.sessions → e.fates = d.fates → NoLoss u e := fun h1 h2 =>
    ⟨by rw [h2]; exact hn.fates, by rw [h1]; exact hn.drops⟩
  cases x with
  | advance dt => simp only [Driver.act] at h; cases h; exact hsame rfl rfl
  | dropSocket =>
    simp only [Driver.act] at h
    split at h
    · cases h; exact hn
    · cases h; cases hc
  | call c =>
    simp only [Driver.act] at h
    split at h
    · cases h; exact hn
    · cases h
      exact hsame (call_keeps d c).1 (call_keeps d c).2
  | session v env =>
    simp only [Driver.act] at h
    cases hv : d.sessions[v]? with
    | none => rw [hv] at h; cases h; exact hn
    | some s =>
      rw [hv] at h
      simp only at h
      cases h
      refine ⟨hn.fates, ?_⟩
      intro t ht
      rcases get_set hv ht with ⟨rfl, rfl⟩ | ⟨_, h⟩
      · obtain ⟨-, h2, h3⟩ := drops_or (step_steps (L := L) s env)
        obtain ⟨g1, g2⟩ := hal _ ht
        rcases h3 (h2.symm.trans g1) with h | h
        · rw [h]; exact hn.drops s hv
        · omega
      · exact hn.drops t h
  | iter env =>
    simp only [Driver.act] at h
    split at h
    · cases h1 : d.iter D env with
      | panic => rw [h1] at h; cases h
      | ok y =>
        obtain ⟨d1, o⟩ := y
        rw [h1] at h
        simp only [R.bind_ok, R.pure_eq] at h
        cases h
        have hk := SK.iter h1
        constructor
        · rcases full_or hst hc hn.fates with g | ⟨f, f1, f2, f3⟩
          · exact g
          · exfalso
            obtain ⟨-, a2, -, -, -⟩ := f1.grow
            obtain ⟨-, b2, b3, -, b5⟩ := f2.grow
            have hr : d1.received = d.received := hk.rc
            have hlen1 := a2.length_le
            have hlen2 := b2.length_le
            have hlen3 := (b3 hc).length_le
            simp only [List.length_append] at hlen3
            simp only [hr] at hlen2 hlen3
            simp only at hroom b5
            rw [b5] at hroom
            omega
        · intro s' hs'
          simp only at hs'
          cases hd : d.sessions[u]? with
          | none => exact hk.nw u s' hd hs'
          | some s =>
            obtain ⟨s2, g1, -, g3⟩ := hk.sk u s hd
            rw [hs'] at g1; cases g1
            rw [g3]; exact hn.drops s hd
    · cases h; exact hn

/-- A session that the driver still listens to was listened to before. -/
theorem alive_before {d e : Driver A} {x : Act A} (h : d.act L D x = .ok e) {u : Nat} {s : Session} (hs : d.sessions[u]? = some s) :
    ∃ t : Session, e.sessions[u]? = some t ∧ (t.alive = true → s.alive = true) := by
  cases x with
  | iter env =>
    simp only [Driver.act] at h
    split at h
    · cases h1 : d.iter D env with
      | panic => rw [h1] at h; cases h
      | ok y =>
        obtain ⟨d1, o⟩ := y
        rw [h1] at h
        simp only [R.bind_ok, R.pure_eq] at h
        cases h
        obtain ⟨t, h1, h2, -⟩ := (SK.iter h1).sk u s hs
        exact ⟨t, h1, h2⟩
    · cases h; exact ⟨s, hs, id⟩
  | session v env =>
    simp only [Driver.act] at h
    cases hv : d.sessions[v]? with
    | none => rw [hv] at h; cases h; exact ⟨s, hs, id⟩
    | some r =>
      rw [hv] at h
      simp only at h
      cases h
      by_cases huv : u = v
      · subst huv; rw [hv] at hs; cases hs
        exact ⟨s.step L env, by simp [(List.getElem?_eq_some_iff.1 hv).1], fun h => (drops_or (step_steps (L := L) s env)).2.1.symm.trans h⟩
      · exact ⟨s, by simp [Ne.symm huv, hs], id⟩
  | advance dt => simp only [Driver.act] at h; cases h; exact ⟨s, hs, id⟩
  | dropSocket =>
    simp only [Driver.act] at h
    split at h
    · cases h; exact ⟨s, hs, id⟩
    · cases h
      refine ⟨s, ?_, id⟩
      unfold Driver.dropSocket Driver.trySend
      split <;> exact hs
  | call c =>
    simp only [Driver.act] at h
    split at h
    · cases h; exact ⟨s, hs, id⟩
    · cases h
      refine ⟨s, ?_, id⟩
      rw [(call_keeps d c).1]; exact hs

theorem alive_before_run (acts : List (Act A)) {d e : Driver A} (h : d.run L D acts = .ok e) {u : Nat} {s : Session} (hs : d.sessions[u]? = some s) :
    ∃ t : Session, e.sessions[u]? = some t ∧ (t.alive = true → s.alive = true) := by
  induction acts generalizing d s with
  | nil => simp only [Driver.run] at h; cases h; exact ⟨s, hs, id⟩
  | cons a as ih =>
    simp only [Driver.run] at h
    cases h1 : d.act L D a with
    | panic => rw [h1] at h; cases h
    | ok d1 =>
      rw [h1] at h
      obtain ⟨t, g1, g2⟩ := alive_before h1 hs
      obtain ⟨r, k1, k2⟩ := ih h g1
      exact ⟨r, k1, fun x => g2 (k2 x)⟩

/-- A history in which there was always room loses nothing of session `u`. -/
theorem NoLoss.run {u : Nat} (acts : List (Act A)) {d e : Driver A} (h : d.run L D acts = .ok e) (hn : NoLoss u d) (hc : e.closed = false)
    (hal : ∀ s : Session, e.sessions[u]? = some s → s.alive = true)
    (hroom : ∀ pre suf f, acts = pre ++ suf → d.run L D pre = .ok f → f.inbox.length < f.opts.ingress ∧
      ∀ s : Session, f.sessions[u]? = some s → s.toDriver.length < toDriverCap) : NoLoss u e := by
  induction acts generalizing d with
  | nil => simp only [Driver.run] at h; cases h; exact hn
  | cons a as ih =>
    simp only [Driver.run] at h
    cases h1 : d.act L D a with
    | panic => rw [h1] at h; cases h
    | ok d1 =>
      rw [h1] at h
      simp only [R.bind_ok] at h
      have hroom1 := hroom [a] as d1 rfl (by simp only [Driver.run, h1, R.bind_ok])
      have hc1 : d1.closed = false := by
        cases hx : d1.closed with
        | false => rfl
        | true => exact absurd ((run_steps as d1 e h).grow.2.2.2.1 hx) (by rw [hc]; decide)
      refine ih h (hn.act h1 hc1 ?_ hroom1.1) ?_
      · intro s hs
        obtain ⟨t, g1, g2⟩ := alive_before_run as h hs
        exact ⟨g2 (hal t g1), hroom1.2 s hs⟩
      · intro pre suf f hp hf
        refine hroom (a :: pre) suf f (by rw [hp]; rfl) ?_
        simp only [Driver.run, h1, R.bind_ok]; exact hf

theorem sendLoop_keeps (ms : List PubSub.Message) (s : Session) (p : Bool) (as : List (List WriteAns)) :
    (s.sendLoop p ms as).1.toDriver = s.toDriver ∧ (s.sendLoop p ms as).1.got = s.got := by
  induction ms generalizing s p as with
  | nil => exact ⟨rfl, rfl⟩
  | cons m ms ih =>
    unfold Session.sendLoop
    rcases s.wr.ready (as.headD []) with ⟨o, wr⟩
    cases o with
    | pending => exact ⟨rfl, rfl⟩
    | err => exact ih { s with wr, lost := s.lost ++ [m] } true as.tail
    | ok => exact ih { s with wr := wr.send (PubSub.encode m), flush := true, sent := s.sent ++ [m] } true as.tail

theorem cmdStep_keeps (s : Session) (e : SEnv) : (s.cmdStep e).1.toDriver = s.toDriver ∧ (s.cmdStep e).1.got = s.got := by
  unfold Session.cmdStep
  repeat' split
  all_goals exact ⟨rfl, rfl⟩

theorem iter_queue {s t : Session} {e : SEnv} {q : SOut} (h : s.iter L e = .ok (t, q)) :
    (t.got = s.got ∧ t.toDriver = s.toDriver) ∨
    ∃ m, q = .again ∧ t.got = s.got ++ [m] ∧ t.over = s.over ∧ t.toDriver =
      if s.alive = true ∧ s.toDriver.length < toDriverCap then s.toDriver ++ [TopicMsg.ofWire L m] else s.toDriver := by
  have hf : (s.flushStep e).got = s.got ∧ (s.flushStep e).toDriver = s.toDriver ∧ (s.flushStep e).alive = s.alive ∧
      (s.flushStep e).over = s.over := by
    unfold Session.flushStep
    repeat' split
    all_goals exact ⟨rfl, rfl, rfl, rfl⟩
  unfold Session.iter at h
  generalize s.flushStep e = s1 at hf h
  obtain ⟨f1, f2, f3, f4⟩ := hf
  rw [← f1, ← f2, ← f3, ← f4]
  cases hp : s1.rd.pollNext PubSub.codec s1.input with
  | panic => simp only [hp] at h; cases h
  | ok x =>
    obtain ⟨o, rd, input⟩ := x
    simp only [hp, R.bind_ok, R.pure_eq] at h
    have send : ∀ r : R (Session × SOut), r = (if (Session.sendLoop { s1 with rd, input, polls := s1.polls + 1 } false s1.egress e.sendAns).2 = true
        then R.ok ((Session.sendLoop { s1 with rd, input, polls := s1.polls + 1 } false s1.egress e.sendAns).1, SOut.again)
        else R.ok ((Session.sendLoop { s1 with rd, input, polls := s1.polls + 1 } false s1.egress e.sendAns).1.cmdStep e)) →
        r = .ok (t, q) → t.got = s1.got ∧ t.toDriver = s1.toDriver := by
      intro r hr ht
      rw [hr] at ht
      clear hr
      have hk := sendLoop_keeps s1.egress { s1 with rd, input, polls := s1.polls + 1 } false e.sendAns
      generalize Session.sendLoop { s1 with rd, input, polls := s1.polls + 1 } false s1.egress e.sendAns = w at *
      split at ht
      · cases ht; exact ⟨hk.2, hk.1⟩
      · have h1 := cmdStep_keeps w.1 e
        generalize w.1.cmdStep e = v at *
        cases ht
        exact ⟨h1.2.trans hk.2, h1.1.trans hk.1⟩
    cases o with
    | item m =>
      right
      simp only at h
      cases h
      refine ⟨m, rfl, ?_⟩
      simp only [Session.onIncoming]
      split <;> exact ⟨rfl, rfl, rfl⟩
    | err x => simp only at h; cases h; exact .inl ⟨rfl, rfl⟩
    | pending => exact .inl (send _ rfl h)
    | ended => exact .inl (send _ rfl h)

/-- One iteration of a session's loop reads at most one message; it is queued for the driver if there is room (and somebody
to take it), otherwise it is the one that is lost. -/
theorem step_queue (s : Session) (e : SEnv) :
    ((s.step L e).got = s.got ∧ (s.step L e).toDriver = s.toDriver) ∨
    ∃ m, (s.step L e).got = s.got ++ [m] ∧ (s.step L e).over = s.over ∧ (s.step L e).toDriver =
      if s.alive = true ∧ s.toDriver.length < toDriverCap then s.toDriver ++ [TopicMsg.ofWire L m] else s.toDriver := by
  unfold Session.step
  split
  · exact .inl ⟨rfl, rfl⟩
  · cases hi : s.iter L e with
    | panic => exact .inl ⟨rfl, rfl⟩
    | ok x =>
      obtain ⟨t, q⟩ := x
      rcases iter_queue hi with h | ⟨m, rfl, h1, h2, h3⟩
      · cases q <;> exact .inl h
      · exact .inr ⟨m, h1, h2, h3⟩

end MsgRs.Sub
