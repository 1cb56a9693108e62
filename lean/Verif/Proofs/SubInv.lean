import Verif.Proofs.SubDriver
import Verif.Spec.Sub
/-!
# The invariant of the subscriber socket
-/
namespace MsgRs.Sub
open MsgRs

variable {A : Type} [DecidableEq A] {L : Lossy} {D : Decompressors}

/-- Invariant. -/
structure DInv (L : Lossy) (D : Decompressors) (d : Driver A) : Prop where
  nodup : (d.pubs.map (·.1)).Nodup
  keys : d.keys.Nodup
  tasks : d.tasks.Nodup
  tasksKeys : ∀ a ∈ d.tasks, a ∈ d.keys
  free : ∀ a u, lookup a d.pubs = some (.active u) → a ∉ d.keys
  len : d.addrs.length = d.sessions.length
  act : ∀ a u, lookup a d.pubs = some (.active u) → d.addrs[u]? = some a ∧ ∃ s, d.sessions[u]? = some s ∧ s.alive = true
  alive : ∀ (u : Nat) (s : Session), d.sessions[u]? = some s → s.alive = true → ∃ a, lookup a d.pubs = some (.active u)
  sess : ∀ (u : Nat) (s : Session), d.sessions[u]? = some s → SInv L s
  fate : ∀ (u : Nat) (s : Session), d.sessions[u]? = some s → s.fwd = takenFrom d.fates u ++ s.toDriver
  fateLt : ∀ x ∈ d.fates, x.1 < d.sessions.length
  inbox : ∃ rest, d.fates.filterMap (inMsgOf D d.addrs) = d.received ++ d.inbox ++ rest ∧ (d.closed = false → rest = [])
  cap : d.inbox.length ≤ d.opts.ingress
  via : ∀ (u : Nat) (s : Session), d.sessions[u]? = some s → ∃ out, taskResult d.opts.token out = .ok (some (some (s.via, s.input0)))
  uniq : d.topics.Nodup
  bound : ∀ (u : Nat) (s : Session), d.sessions[u]? = some s → s.wr.boundary = d.opts.readBuffer

theorem DInv.init {opts : Options} {now : Nat} {d : Driver A} (h : Driver.new opts now = .ok d) : DInv L D d := by
  unfold Driver.new at h
  split at h
  · cases h
  · cases h
    exact {
      nodup := List.nodup_nil
      keys := List.nodup_nil
      tasks := List.nodup_nil
      tasksKeys := by intro a h; cases h
      free := by intro a u h; cases h
      len := rfl
      act := by intro a u h; cases h
      alive := by intro u s h; simp at h
      sess := by intro u s h; simp at h
      fate := by intro u s h; simp at h
      fateLt := by intro x h; cases h
      inbox := ⟨[], rfl, fun _ => rfl⟩
      cap := Nat.zero_le _
      via := by intro u s h; simp at h
      uniq := List.nodup_nil
      bound := by intro u s h; simp at h }

/-- A change of one session that the driver's invariant does not notice. -/
structure SUpd (L : Lossy) (s s' : Session) : Prop where
  inv : SInv L s → SInv L s'
  alive : s'.alive = s.alive
  fwd : ∃ x, s'.fwd = s.fwd ++ x ∧ s'.toDriver = s.toDriver ++ x
  via : s'.via = s.via
  input0 : s'.input0 = s.input0
  bound : s'.wr.boundary = s.wr.boundary

theorem get_set {ss : List Session} {u i : Nat} {s s' t : Session} (hu : ss[u]? = some s) (h : (ss.set u s')[i]? = some t) :
    (i = u ∧ t = s') ∨ (i ≠ u ∧ ss[i]? = some t) := by
  rw [List.getElem?_set] at h
  split at h
  · rename_i hx; subst hx
    rw [if_pos (List.getElem?_eq_some_iff.1 hu).1] at h
    cases h; exact .inl ⟨rfl, rfl⟩
  · rename_i hx; exact .inr ⟨Ne.symm hx, h⟩

theorem DInv.set {d : Driver A} (hi : DInv L D d) {u : Nat} {s s' : Session} (hu : d.sessions[u]? = some s)
    (hs : SUpd L s s') : DInv L D { d with sessions := d.sessions.set u s' } where
  nodup := hi.nodup
  keys := hi.keys
  tasks := hi.tasks
  tasksKeys := hi.tasksKeys
  free := hi.free
  len := by simp [hi.len]
  act := by
    intro a v hv
    obtain ⟨h1, t, h2, h3⟩ := hi.act a v hv
    refine ⟨h1, ?_⟩
    by_cases h : v = u
    · subst h
      rw [hu] at h2; cases h2
      exact ⟨s', by simp [(List.getElem?_eq_some_iff.1 hu).1], by rw [hs.alive]; exact h3⟩
    · exact ⟨t, by simp [Ne.symm h, h2], h3⟩
  alive := by
    intro i t ht ha
    rcases get_set hu ht with ⟨rfl, rfl⟩ | ⟨_, h⟩
    · exact hi.alive _ s hu (by rw [← hs.alive]; exact ha)
    · exact hi.alive _ t h ha
  sess := by
    intro i t ht
    rcases get_set hu ht with ⟨rfl, rfl⟩ | ⟨_, h⟩
    · exact hs.inv (hi.sess _ s hu)
    · exact hi.sess _ t h
  fate := by
    intro i t ht
    rcases get_set hu ht with ⟨rfl, rfl⟩ | ⟨_, h⟩
    · obtain ⟨x, h1, h2⟩ := hs.fwd
      rw [h1, h2, hi.fate _ s hu, List.append_assoc]
    · exact hi.fate _ t h
  fateLt := by simpa using hi.fateLt
  inbox := hi.inbox
  cap := hi.cap
  via := by
    intro i t ht
    rcases get_set hu ht with ⟨rfl, rfl⟩ | ⟨_, h⟩
    · rw [hs.via, hs.input0]; exact hi.via _ s hu
    · exact hi.via _ t h
  uniq := hi.uniq
  bound := by
    intro i t ht
    rcases get_set hu ht with ⟨rfl, rfl⟩ | ⟨_, h⟩
    · rw [hs.bound]; exact hi.bound _ s hu
    · exact hi.bound _ t h

theorem SUpd.step {s s' : Session} (h : SStep L s s') : SUpd L s s' := by
  refine ⟨SInv.step s s' h, ?_, ?_, ?_, ?_, ?_⟩
  all_goals cases h
  all_goals try (simp only [Session.onIncoming]; split)
  all_goals first | rfl | assumption | exact ⟨[], (List.append_nil _).symm, (List.append_nil _).symm⟩ | exact ⟨_, rfl, rfl⟩

theorem SUpd.offer (s : Session) (c : Cmd) : SUpd L s (s.offer c).2 := by
  refine ⟨fun h => h.offer c, ?_, ?_, ?_, ?_, ?_⟩
  all_goals simp only [Session.offer]
  all_goals repeat' split
  all_goals first | rfl | exact ⟨[], by simp⟩

theorem hangUp_eq (d : Driver A) (a : A) : d.hangUp a = { d with sessions := (d.hangUp a).sessions } := by
  unfold Driver.hangUp
  repeat' split
  all_goals rfl

theorem hangUp_get (d : Driver A) (a : A) (i : Nat) :
    (d.hangUp a).sessions[i]? = (d.sessions[i]?).map fun s =>
      if lookup a d.pubs = some (.active i) then { s with alive := false, armed := false } else s := by
  unfold Driver.hangUp
  split
  · rename_i u hl
    rw [hl]
    split
    · rename_i s hs
      simp only [List.getElem?_set]
      split
      · rename_i h; subst h
        rw [if_pos (List.getElem?_eq_some_iff.1 hs).1, hs]
        simp
      · rename_i h
        have : ¬ (some (PState.active u) = some (.active i)) := by simp [h]
        simp [this]
    · rename_i hn
      by_cases h : u = i
      · subst h; simp [hn]
      · have : ¬ (some (PState.active u) = some (.active i)) := by simp [h]
        simp [this]
  · rename_i hl
    have : ¬ (lookup a d.pubs = some (.active i)) := hl i
    simp [this]

theorem hangUp_len (d : Driver A) (a : A) : (d.hangUp a).sessions.length = d.sessions.length := by
  unfold Driver.hangUp
  repeat' split
  all_goals simp

/-- Everything but the map of publishers survives hanging up. -/
theorem DInv.hang {d : Driver A} (hi : DInv L D d) (a : A) (pubs : List (A × PState))
    (hn : (pubs.map (·.1)).Nodup) (ha : ∀ u, lookup a pubs ≠ some (.active u))
    (hb : ∀ b, b ≠ a → lookup b pubs = lookup b d.pubs) :
    DInv L D { d with sessions := (d.hangUp a).sessions, pubs } where
  nodup := hn
  keys := hi.keys
  tasks := hi.tasks
  tasksKeys := hi.tasksKeys
  free := by
    intro b u h
    by_cases hab : b = a
    · subst hab; exact absurd h (ha u)
    · simp only [hb b hab] at h
      exact hi.free b u h
  len := by rw [hangUp_len]; exact hi.len
  act := by
    intro b u h
    by_cases hab : b = a
    · subst hab; exact absurd h (ha u)
    · simp only [hb b hab] at h
      obtain ⟨h1, s, h2, h3⟩ := hi.act b u h
      refine ⟨h1, s, ?_, h3⟩
      simp only [hangUp_get, h2, Option.map_some]
      rw [if_neg]
      intro h4
      obtain ⟨h5, -⟩ := hi.act a u h4
      rw [h1] at h5
      cases h5
      exact hab rfl
  alive := by
    intro u s hs hal
    simp only [hangUp_get] at hs
    cases ho : d.sessions[u]? with
    | none => rw [ho] at hs; cases hs
    | some s0 =>
      rw [ho] at hs
      simp only [Option.map_some] at hs
      split at hs
      · cases hs; cases hal
      · rename_i hne
        cases hs
        obtain ⟨b, h1⟩ := hi.alive u _ ho hal
        by_cases hab : b = a
        · subst hab; exact absurd h1 hne
        · exact ⟨b, by simp only [hb b hab]; exact h1⟩
  sess := by
    intro u s hs
    simp only [hangUp_get] at hs
    cases ho : d.sessions[u]? with
    | none => rw [ho] at hs; cases hs
    | some s0 =>
      rw [ho] at hs
      simp only [Option.map_some] at hs
      split at hs
      · cases hs; exact (hi.sess u _ ho).hangUp
      · cases hs; exact hi.sess u _ ho
  fate := by
    intro u s hs
    simp only [hangUp_get] at hs
    cases ho : d.sessions[u]? with
    | none => rw [ho] at hs; cases hs
    | some s0 =>
      rw [ho] at hs
      simp only [Option.map_some] at hs
      split at hs
      · cases hs; exact hi.fate u s0 ho
      · cases hs; exact hi.fate u _ ho
  fateLt := by simpa only [hangUp_len] using hi.fateLt
  inbox := hi.inbox
  cap := hi.cap
  via := by
    intro u s hs
    simp only [hangUp_get] at hs
    cases ho : d.sessions[u]? with
    | none => rw [ho] at hs; cases hs
    | some s0 =>
      rw [ho] at hs
      simp only [Option.map_some] at hs
      split at hs
      · cases hs; exact hi.via u s0 ho
      · cases hs; exact hi.via u _ ho
  uniq := hi.uniq
  bound := by
    intro u s hs
    simp only [hangUp_get] at hs
    cases ho : d.sessions[u]? with
    | none => rw [ho] at hs; cases hs
    | some s0 =>
      rw [ho] at hs
      simp only [Option.map_some] at hs
      split at hs
      · cases hs; exact hi.bound u s0 ho
      · cases hs; exact hi.bound u _ ho

theorem reset_eq (d : Driver A) (a : A) : d.resetPublisher a =
    { d with sessions := (d.hangUp a).sessions, pubs := insert a (.inactive (Backoff.new d.opts.initialBackoff 16)) d.pubs } := by
  unfold Driver.resetPublisher
  rw [hangUp_eq]

theorem DInv.reset {d : Driver A} (hi : DInv L D d) (a : A) : DInv L D (d.resetPublisher a) := by
  rw [reset_eq]
  exact hi.hang a _ (nodup_insert hi.nodup) (by intro u h; rw [lookup_insert_self] at h; cases h)
    (fun b hb => lookup_insert_ne hb _ _)

theorem tell_induct {P : Driver A → Prop} (c : Cmd)
    (hoffer : ∀ (d : Driver A) (u : Nat) (s : Session), P d → d.sessions[u]? = some s → P { d with sessions := d.sessions.set u (s.offer c).2 })
    (hreset : ∀ (d : Driver A) a, P d → P (d.resetPublisher a)) (l : List (A × PState)) (d : Driver A) (h : P d) :
    P (d.tell c l) := by
  induction l generalizing d with
  | nil => exact h
  | cons x l ih =>
    obtain ⟨a, st⟩ := x
    cases st with
    | inactive b => exact ih d h
    | active u =>
      unfold Driver.tell
      cases hu : d.sessions[u]? with
      | none => exact ih d h
      | some s =>
        have h1 := hoffer d u s h hu
        simp only
        rcases ho : s.offer c with ⟨r, s'⟩
        rw [ho] at h1
        cases r with
        | closed => exact ih _ (hreset _ a h1)
        | ok => exact ih _ h1
        | full => exact ih _ h1

theorem DInv.tell {d : Driver A} (hi : DInv L D d) (c : Cmd) (l : List (A × PState)) : DInv L D (d.tell c l) :=
  tell_induct c (fun _ _ s h hu => h.set hu (SUpd.offer s c)) (fun _ a h => h.reset a) l d hi

theorem DInv.connect {d : Driver A} (hi : DInv L D d) (a : A) (ha : ∀ u, lookup a d.pubs ≠ some (.active u)) :
    DInv L D (d.connect a) := by
  unfold Driver.connect
  split
  · exact hi
  · rename_i hk
    exact { hi with
      keys := by
        rw [List.nodup_append]
        exact ⟨hi.keys, by simp, by rintro x hx y hy rfl; simp at hy; subst hy; exact hk hx⟩
      tasks := by
        rw [List.nodup_append]
        exact ⟨hi.tasks, by simp, by rintro x hx y hy rfl; simp at hy; subst hy; exact hk (hi.tasksKeys _ hx)⟩
      tasksKeys := by
        intro x hx
        rcases List.mem_append.1 hx with h | h
        · exact List.mem_append_left _ (hi.tasksKeys x h)
        · exact List.mem_append_right _ h
      free := by
        intro b u h hm
        rcases List.mem_append.1 hm with h1 | h1
        · exact hi.free b u h h1
        · simp at h1; subst h1; exact ha u h }

theorem DInv.command {d : Driver A} (hi : DInv L D d) (c : Command A) : DInv L D (d.onCommand c) := by
  cases c with
  | shutdown => exact hi
  | subscribe t =>
    simp only [Driver.onCommand, Driver.subscribe]
    split
    · exact hi
    · rename_i hn
      refine DInv.tell (d := { d with topics := d.topics ++ [t] }) { hi with uniq := ?_ } _ _
      rw [List.nodup_append]
      exact ⟨hi.uniq, by simp, by rintro x hx y hy rfl; simp at hy; subst hy; exact hn hx⟩
  | unsubscribe t =>
    simp only [Driver.onCommand, Driver.unsubscribe]
    split
    · refine DInv.tell (d := { d with topics := d.topics.filter (· ≠ t) }) { hi with uniq := ?_ } _ _
      exact hi.uniq.sublist List.filter_sublist
    · exact hi
  | connect a =>
    simp only [Driver.onCommand]
    split
    · exact hi
    · rename_i h
      refine (hi.connect a ?_).reset a
      intro u hu
      rw [hu] at h
      exact h rfl
  | disconnect a =>
    simp only [Driver.onCommand]
    split
    · have := hi.hang a (erase a d.pubs) (nodup_erase hi.nodup) (by intro u h; rw [lookup_erase_self] at h; cases h)
        (fun b hb => lookup_erase_ne hb _)
      rw [hangUp_eq]
      exact { this with }
    · exact hi

theorem nodup_eraseIdx {l : List A} (h : l.Nodup) (i : Nat) : (l.eraseIdx i).Nodup :=
  h.sublist (List.eraseIdx_sublist l i)

theorem not_mem_eraseIdx {l : List A} (h : l.Nodup) {i : Nat} {a : A} (hi : l[i]? = some a) : a ∉ l.eraseIdx i := by
  induction l generalizing i with
  | nil => cases hi
  | cons x l ih =>
    rw [List.nodup_cons] at h
    cases i with
    | zero => simp at hi; subst hi; simpa using h.1
    | succ i =>
      simp only [List.getElem?_cons_succ] at hi
      simp only [List.eraseIdx_cons_succ, List.mem_cons, not_or]
      refine ⟨?_, ih h.2 hi⟩
      rintro rfl
      exact h.1 (List.mem_of_getElem? hi)

theorem DInv.joined {d : Driver A} (hi : DInv L D d) {i : Nat} {a : A} (ht : d.tasks[i]? = some a) :
    DInv L D { d with tasks := d.tasks.eraseIdx i, keys := d.keys.filter (· ≠ a) } :=
  { hi with
    keys := hi.keys.sublist List.filter_sublist
    tasks := nodup_eraseIdx hi.tasks i
    tasksKeys := by
      intro x hx
      simp only [List.mem_filter, decide_eq_true_eq]
      refine ⟨hi.tasksKeys x (List.mem_of_mem_eraseIdx hx), ?_⟩
      rintro rfl
      exact not_mem_eraseIdx hi.tasks ht hx
    free := by
      intro b u h hm
      exact hi.free b u h (List.mem_filter.1 hm).1 }

theorem offerAll_new {s : Session} (hi : SInv L s) (ts : List Str) :
    SInv L (offerAll s ts) ∧ (offerAll s ts).alive = s.alive ∧ (offerAll s ts).fwd = s.fwd ∧
      (offerAll s ts).toDriver = s.toDriver ∧ (offerAll s ts).via = s.via ∧ (offerAll s ts).input0 = s.input0 ∧
      (offerAll s ts).wr.boundary = s.wr.boundary := by
  induction ts generalizing s with
  | nil => exact ⟨hi, rfl, rfl, rfl, rfl, rfl, rfl⟩
  | cons t ts ih =>
    obtain ⟨h1, h2, h3, h4, h5, h6, h7⟩ := ih (hi.offer (.subscribe t))
    have : (s.offer (.subscribe t)).2.alive = s.alive ∧ (s.offer (.subscribe t)).2.fwd = s.fwd ∧
      (s.offer (.subscribe t)).2.toDriver = s.toDriver ∧ (s.offer (.subscribe t)).2.via = s.via ∧
      (s.offer (.subscribe t)).2.input0 = s.input0 ∧ (s.offer (.subscribe t)).2.wr.boundary = s.wr.boundary := by
      unfold Session.offer
      repeat' split
      all_goals exact ⟨rfl, rfl, rfl, rfl, rfl, rfl⟩
    obtain ⟨g1, g2, g3, g4, g5, g6⟩ := this
    exact ⟨h1, h2.trans g1, h3.trans g2, h4.trans g3, h5.trans g4, h6.trans g5, h7.trans g6⟩

theorem takenFrom_fresh {fates : List (Nat × TopicMsg × Fate)} {n : Nat} (h : ∀ x ∈ fates, x.1 < n) :
    takenFrom fates n = [] := by
  unfold takenFrom
  rw [List.map_eq_nil_iff, List.filter_eq_nil_iff]
  intro x hx
  have := h x hx
  simp; omega

theorem inMsgOf_append (addrs : List A) (a : A) (fates : List (Nat × TopicMsg × Fate))
    (h : ∀ x ∈ fates, x.1 < addrs.length) :
    fates.filterMap (inMsgOf D (addrs ++ [a])) = fates.filterMap (inMsgOf D addrs) := by
  induction fates with
  | nil => rfl
  | cons x l ih =>
    have hx : inMsgOf D (addrs ++ [a]) x = inMsgOf D addrs x := by
      obtain ⟨u, t, f⟩ := x
      have hu := h _ List.mem_cons_self
      simp only at hu
      cases f <;> simp only [inMsgOf]
      rw [List.getElem?_append_left hu]
    simp only [List.filterMap_cons, hx]
    rw [ih (fun x hx => h x (List.mem_cons_of_mem _ hx))]

theorem DInv.onConnection {d : Driver A} (hi : DInv L D d) (order : List Str) (a : A) (via : HsEnv)
    (input : List ReadAns) (hk : a ∉ d.keys)
    (hv : ∃ out, taskResult d.opts.token out = .ok (some (some (via, input)))) :
    DInv L D (d.onConnection order a via input) := by
  unfold Driver.onConnection
  split
  · exact hi
  · rename_i hna
    have hna : ∀ u, lookup a d.pubs ≠ some (.active u) := by
      intro u h; exact hna u h
    generalize (if order.isPerm d.topics then order else d.topics) = ts
    simp only
    obtain ⟨h1, h2, h3, h4, h5, h6, h7⟩ := offerAll_new (SInv.new L d.opts.readBuffer via input) ts
    have h7 : (offerAll (Session.new d.opts.readBuffer via input) ts).wr.boundary = d.opts.readBuffer := h7
    generalize offerAll (Session.new d.opts.readBuffer via input) ts = s0 at *
    have hget : ∀ {u s}, (d.sessions ++ [s0])[u]? = some s → (u < d.sessions.length ∧ d.sessions[u]? = some s) ∨ (u = d.sessions.length ∧ s = s0) := by
      intro u s h
      rw [List.getElem?_append] at h
      split at h
      · rename_i hlt; exact .inl ⟨hlt, h⟩
      · rename_i hge
        right
        rw [List.getElem?_singleton] at h
        split at h
        · cases h; exact ⟨by omega, rfl⟩
        · cases h
    exact {
      nodup := nodup_insert hi.nodup
      keys := hi.keys
      tasks := hi.tasks
      tasksKeys := hi.tasksKeys
      free := by
        intro b u h
        by_cases hb : b = a
        · subst hb; exact hk
        · rw [lookup_insert_ne hb] at h; exact hi.free b u h
      len := by simp [hi.len]
      act := by
        intro b u h
        by_cases hb : b = a
        · subst hb
          rw [lookup_insert_self] at h
          cases h
          exact ⟨by simp [← hi.len], s0, by simp, h2⟩
        · rw [lookup_insert_ne hb] at h
          obtain ⟨g1, s, g2, g3⟩ := hi.act b u h
          have hlt := (List.getElem?_eq_some_iff.1 g2).1
          exact ⟨by rw [List.getElem?_append_left (by rw [hi.len]; exact hlt)]; exact g1, s,
            by rw [List.getElem?_append_left hlt]; exact g2, g3⟩
      alive := by
        intro u s hs hal
        rcases hget hs with ⟨hlt, hs⟩ | ⟨rfl, rfl⟩
        · obtain ⟨b, hb⟩ := hi.alive u s hs hal
          have : b ≠ a := by rintro rfl; exact hna u hb
          exact ⟨b, by rw [lookup_insert_ne this]; exact hb⟩
        · exact ⟨a, lookup_insert_self _ _ _⟩
      sess := by
        intro u s hs
        rcases hget hs with ⟨hlt, hs⟩ | ⟨rfl, rfl⟩
        · exact hi.sess u s hs
        · exact h1
      fate := by
        intro u s hs
        rcases hget hs with ⟨hlt, hs⟩ | ⟨rfl, rfl⟩
        · exact hi.fate u s hs
        · rw [takenFrom_fresh hi.fateLt, h3, h4]; rfl
      fateLt := by
        intro x hx
        have := hi.fateLt x hx
        simp; omega
      inbox := by
        rw [inMsgOf_append _ _ _ (by rw [hi.len]; exact hi.fateLt)]
        exact hi.inbox
      cap := hi.cap
      via := by
        intro u s hs
        rcases hget hs with ⟨hlt, hs⟩ | ⟨rfl, rfl⟩
        · exact hi.via u s hs
        · rw [h5, h6]; exact hv
      uniq := hi.uniq
      bound := by
        intro u s hs
        rcases hget hs with ⟨hlt, hs⟩ | ⟨rfl, rfl⟩
        · exact hi.bound u s hs
        · exact h7 }

theorem takenFrom_append (fates : List (Nat × TopicMsg × Fate)) (u : Nat) (x : Nat × TopicMsg × Fate) :
    takenFrom (fates ++ [x]) u = takenFrom fates u ++ (if x.1 = u then [x.2.1] else []) := by
  unfold takenFrom
  simp only [List.filter_append, List.map_append]
  congr 1
  by_cases h : x.1 = u <;> simp [h]

/-- Taking a message from a session and recording its fate. -/
theorem DInv.took {d : Driver A} (hi : DInv L D d) {u : Nat} {s : Session} {t : TopicMsg} {ms : List TopicMsg}
    (f : Fate) (inbox : List (InMsg A)) (hu : d.sessions[u]? = some s) (ht : s.toDriver = t :: ms)
    (hin : ∃ rest, d.fates.filterMap (inMsgOf D d.addrs) ++ (inMsgOf D d.addrs (u, t, f)).toList =
      d.received ++ inbox ++ rest ∧ (d.closed = false → rest = []))
    (hcap : inbox.length ≤ d.opts.ingress) :
    DInv L D { d with sessions := d.sessions.set u { s with toDriver := ms }, inbox, fates := d.fates ++ [(u, t, f)] } where
  nodup := hi.nodup
  keys := hi.keys
  tasks := hi.tasks
  tasksKeys := hi.tasksKeys
  free := hi.free
  len := by simp [hi.len]
  act := by
    intro a v hv
    obtain ⟨h1, s1, h2, h3⟩ := hi.act a v hv
    refine ⟨h1, ?_⟩
    by_cases h : v = u
    · subst h
      rw [hu] at h2; cases h2
      exact ⟨{ s with toDriver := ms }, by simp [(List.getElem?_eq_some_iff.1 hu).1], h3⟩
    · exact ⟨s1, by simp [Ne.symm h, h2], h3⟩
  alive := by
    intro i s1 h1 ha
    rcases get_set hu h1 with ⟨rfl, rfl⟩ | ⟨_, h⟩
    · exact hi.alive _ s hu ha
    · exact hi.alive _ _ h ha
  sess := by
    intro i s1 h1
    rcases get_set hu h1 with ⟨rfl, rfl⟩ | ⟨_, h⟩
    · have := (hi.sess _ s hu).recv
      simp only [Session.driverRecv, ht] at this
      exact this
    · exact hi.sess _ _ h
  fate := by
    intro i s1 h1
    rw [takenFrom_append]
    rcases get_set hu h1 with ⟨rfl, rfl⟩ | ⟨hne, h⟩
    · have := hi.fate _ s hu
      rw [ht] at this
      simp [this]
    · simp [Ne.symm hne, hi.fate _ _ h]
  fateLt := by
    intro x hx
    simp only [List.length_set]
    rcases List.mem_append.1 hx with h | h
    · exact hi.fateLt x h
    · simp at h; subst h; exact (List.getElem?_eq_some_iff.1 hu).1
  inbox := by
    obtain ⟨rest, h1, h2⟩ := hin
    refine ⟨rest, ?_, h2⟩
    rw [← h1, List.filterMap_append]
    congr 1
  cap := hcap
  via := by
    intro i s1 h1
    rcases get_set hu h1 with ⟨rfl, rfl⟩ | ⟨_, h⟩
    · exact hi.via _ s hu
    · exact hi.via _ _ h
  uniq := hi.uniq
  bound := by
    intro i s1 h1
    rcases get_set hu h1 with ⟨rfl, rfl⟩ | ⟨_, h⟩
    · exact hi.bound _ s hu
    · exact hi.bound _ _ h

theorem DInv.step (d e : Driver A) (h : DStep L D d e) (hi : DInv L D d) : DInv L D e := by
  cases h with
  | time dt => exact { hi with }
  | wake w => exact { hi with }
  | start h => exact { hi with }
  | push c hc hl => exact { hi with }
  | recv m ms hc hm =>
    obtain ⟨rest, h1, h2⟩ := hi.inbox
    exact { hi with
      inbox := ⟨rest, by rw [h1, hm]; simp, h2⟩
      cap := by have := hi.cap; rw [hm] at this; simp at this ⊢; omega }
  | drop hc =>
    obtain ⟨rest, h1, h2⟩ := hi.inbox
    exact { hi with
      inbox := ⟨d.inbox ++ rest, by rw [h1]; simp, by intro h; cases h⟩
      cap := Nat.zero_le _ }
  | session u s s' hu hs => exact hi.set hu (SUpd.step hs)
  | command c q hq => exact DInv.command (d := { d with cmdq := q, processed := d.processed ++ [c] }) { hi with } c
  | take a u s t ms payload hl hu ht hd =>
    obtain ⟨rest, h1, h2⟩ := hi.inbox
    obtain ⟨ha, -⟩ := hi.act a u hl
    unfold Driver.deliver
    simp only
    split
    · refine DInv.took hi .gone d.inbox hu ht ⟨rest, ?_, h2⟩ hi.cap
      rw [h1]; simp [inMsgOf]
    · rename_i hc
      have hc : d.closed = false := by simpa using hc
      split
      · rename_i hlt
        refine DInv.took hi .delivered (d.inbox ++ [⟨a, t.topic, payload, u⟩]) hu ht ⟨rest, ?_, h2⟩ ?_
        · rw [h1, h2 hc]; simp [inMsgOf, ha, hd]
        · simp; omega
      · refine DInv.took hi .full d.inbox hu ht ⟨rest, ?_, h2⟩ hi.cap
        rw [h1]; simp [inMsgOf]
  | skip a u s t ms hl hu ht hd =>
    obtain ⟨rest, h1, h2⟩ := hi.inbox
    refine DInv.took hi .undecodable d.inbox hu ht ⟨rest, ?_, h2⟩ hi.cap
    rw [h1]; simp [inMsgOf]
  | lost a u s hl hu ht ho => exact hi.reset a
  | arm a u s hl hu ht ho =>
    exact hi.set hu ⟨fun h => { h with }, rfl, ⟨[], by simp⟩, rfl, rfl, rfl⟩
  | backoff a b b' o hl hp =>
    have key : ∀ x u, lookup x (d.pubs.map fun x => if x.1 = a then (a, PState.inactive b') else x) = some (.active u) ↔
        lookup x d.pubs = some (.active u) := by
      intro x u
      rw [lookup_update]
      by_cases hx : x = a
      · subst hx; simp [hl]
      · simp [hx]
    exact { hi with
      nodup := by rw [keys_update]; exact hi.nodup
      free := fun x u h => hi.free x u ((key x u).1 h)
      act := fun x u h => hi.act x u ((key x u).1 h)
      alive := fun u s h1 h2 => by obtain ⟨x, hx⟩ := hi.alive u s h1 h2; exact ⟨x, (key x u).2 hx⟩ }
  | retry a b hl => exact hi.connect a (by rw [hl]; simp)
  | terminate a b hl =>
    have key : ∀ x u, lookup x (erase a d.pubs) = some (.active u) ↔ lookup x d.pubs = some (.active u) := by
      intro x u
      by_cases hx : x = a
      · subst hx; rw [lookup_erase_self, hl]; simp
      · rw [lookup_erase_ne hx]
    exact { hi with
      nodup := nodup_erase hi.nodup
      free := fun x u h => hi.free x u ((key x u).1 h)
      act := fun x u h => hi.act x u ((key x u).1 h)
      alive := fun u s h1 h2 => by obtain ⟨x, hx⟩ := hi.alive u s h1 h2; exact ⟨x, (key x u).2 hx⟩ }
  | joinPanic i a ht =>
    exact { hi with
      tasks := nodup_eraseIdx hi.tasks i
      tasksKeys := fun x hx => hi.tasksKeys x (List.mem_of_mem_eraseIdx hx) }
  | joinFail i a ht => exact hi.joined ht
  | joinOk i a order out via input ht hr =>
    exact (hi.joined ht).onConnection order a via input (by simp) ⟨out, hr⟩

theorem DInv.steps {d e : Driver A} (h : DSteps L D d e) (hi : DInv L D d) : DInv L D e := h.induct DInv.step hi

theorem Reach.inv {d : Driver A} (h : Reach L D d) : DInv L D d := by
  obtain ⟨opts, now, d0, acts, h0, h1⟩ := h
  exact (DInv.init h0).steps (run_steps acts d0 d h1)

end MsgRs.Sub
