import Verif.Proofs.SubInv
import Verif.Proofs.Backoff
import Verif.Proofs.Returns
/-!
# The subscriber's driver: no panics, and every poll returns
-/
namespace MsgRs.Sub
open MsgRs
variable {A : Type} [DecidableEq A] {L : Lossy} {D : Decompressors}

/-! ## Backoffs -/

/-- All backoffs are as created, and none has ended. -/
def BInv (d : Driver A) : Prop := ∀ a b, lookup a d.pubs = some (.inactive b) → b.Ok d.opts.initialBackoff 16

theorem hangUp_same (d : Driver A) (a : A) : (d.hangUp a).pubs = d.pubs ∧ (d.hangUp a).opts = d.opts ∧
    (d.hangUp a).cmdq = d.cmdq ∧ (d.hangUp a).now = d.now := by
  rw [hangUp_eq]; exact ⟨rfl, rfl, rfl, rfl⟩

theorem binv_reset {d : Driver A} (h : BInv d) (a : A) : BInv (d.resetPublisher a) := by
  obtain ⟨h1, h2, -, -⟩ := hangUp_same d a
  intro x b hx
  unfold Driver.resetPublisher at hx ⊢
  simp only [h1, h2] at hx ⊢
  by_cases hxa : x = a
  · subst hxa
    rw [lookup_insert_self] at hx
    cases hx
    exact ⟨rfl, by simp [Backoff.new], .inl rfl⟩
  · rw [lookup_insert_ne hxa] at hx
    exact h x b hx

theorem binv_tell {d : Driver A} (h : BInv d) (c : Cmd) (l : List (A × PState)) : BInv (d.tell c l) := by
  induction l generalizing d with
  | nil => exact h
  | cons x l ih =>
    obtain ⟨a, p⟩ := x
    cases p with
    | inactive b => exact ih h
    | active u =>
      unfold Driver.tell
      cases d.sessions[u]? with
      | none => exact ih h
      | some s =>
        simp only
        split
        · rename_i s' _
          exact ih (binv_reset (d := { d with sessions := d.sessions.set u s' }) h a)
        · rename_i s' _ _
          exact ih (d := { d with sessions := d.sessions.set u s' }) h

theorem binv_command {d : Driver A} (h : BInv d) (c : Command A) : BInv (d.onCommand c) := by
  cases c with
  | subscribe t =>
    simp only [Driver.onCommand, Driver.subscribe]
    split
    · exact h
    · exact binv_tell (d := { d with topics := d.topics ++ [t] }) h _ _
  | unsubscribe t =>
    simp only [Driver.onCommand, Driver.unsubscribe]
    split
    · exact binv_tell (d := { d with topics := d.topics.filter (· ≠ t) }) h _ _
    · exact h
  | connect a =>
    simp only [Driver.onCommand]
    split
    · exact h
    · refine binv_reset ?_ a
      unfold Driver.connect
      split <;> exact h
  | disconnect a =>
    simp only [Driver.onCommand]
    split
    · intro x b hx
      obtain ⟨h1, h2, -, -⟩ := hangUp_same d a
      simp only [h1, h2] at hx ⊢
      by_cases hxa : x = a
      · subst hxa; rw [lookup_erase_self] at hx; cases hx
      · rw [lookup_erase_ne hxa] at hx; exact h x b hx
    · exact h
  | shutdown => exact h

/-- One publisher: no panic, and nothing is lost. -/
theorem pollPub_binv {d : Driver A} (h : BInv d) (hb : d.opts.initialBackoff * 2 ^ 16 ≤ Duration.max) (a : A) :
    ∃ d' p, d.pollPub D a = .ok (d', p) ∧ BInv d' ∧ d'.opts = d.opts ∧ d'.cmdq = d.cmdq := by
  unfold Driver.pollPub
  cases hl : lookup a d.pubs with
  | none => exact ⟨_, _, rfl, h, rfl, rfl⟩
  | some st =>
    cases st with
    | active u =>
      simp only
      cases d.sessions[u]? with
      | none => exact ⟨_, _, rfl, h, rfl, rfl⟩
      | some s =>
        simp only
        rcases s.driverRecv with ⟨x, s'⟩
        rcases x with _ | (_ | t)
        · exact ⟨_, _, rfl, h, rfl, rfl⟩
        · obtain ⟨h1, h2, h3, -⟩ := hangUp_same d a
          exact ⟨_, _, rfl, binv_reset h a, h2, h3⟩
        · simp only
          split
          · exact ⟨_, _, rfl, h, rfl, rfl⟩
          · refine ⟨_, _, rfl, ?_, ?_, ?_⟩ <;> unfold Driver.deliver <;> (split; · first | exact h | rfl) <;>
              (split <;> first | exact h | rfl)
    | inactive b =>
      simp only
      have hk := h a b hl
      have hcount : d.opts.initialBackoff * 2 ^ (b.count + 1) ≤ Duration.max := by
        refine Nat.le_trans (Nat.mul_le_mul_left _ (Nat.pow_le_pow_right (by omega) ?_)) hb
        rcases hk.more with h0 | h0 <;> omega
      obtain ⟨o, b', hp, hok⟩ := Backoff.poll_ok (now := d.now) hk hcount
      rw [hp]
      simp only [R.bind_ok, R.pure_eq]
      have hup : o ≠ .ended → BInv { d with pubs := d.pubs.map fun x => if x.1 = a then (a, .inactive b') else x } := by
        intro ho x bx hx
        simp only at hx ⊢
        rw [lookup_update] at hx
        split at hx
        · rw [hl] at hx
          cases hx
          exact hok ho
        · exact h x bx hx
      cases o with
      | pending => exact ⟨_, _, rfl, hup (by simp), rfl, rfl⟩
      | item dl =>
        refine ⟨_, _, rfl, ?_, ?_, ?_⟩ <;> unfold Driver.connect <;> simp only <;> split <;>
          first | exact hup (by simp) | rfl
      | ended =>
        refine ⟨_, _, rfl, ?_, rfl, rfl⟩
        intro x bx hx
        simp only at hx ⊢
        by_cases hxa : x = a
        · subst hxa; rw [lookup_erase_self] at hx; cases hx
        · rw [lookup_erase_ne hxa, lookup_update] at hx
          rw [if_neg hxa] at hx
          exact h x bx hx

theorem pollPublishers_binv (order : List A) {d : Driver A} (h : BInv d)
    (hb : d.opts.initialBackoff * 2 ^ 16 ≤ Duration.max) :
    ∃ d' p, d.pollPublishers D order = .ok (d', p) ∧ BInv d' ∧ d'.opts = d.opts ∧ d'.cmdq = d.cmdq := by
  induction order generalizing d with
  | nil => exact ⟨_, _, rfl, h, rfl, rfl⟩
  | cons a as ih =>
    obtain ⟨d1, p, h1, h2, h3, h4⟩ := pollPub_binv (D := D) h hb a
    obtain ⟨d2, q, h5, h6, h7, h8⟩ := ih h2 (by rw [h3]; exact hb)
    refine ⟨d2, p || q, ?_, h6, h7.trans h3, h8.trans h4⟩
    unfold Driver.pollPublishers
    rw [h1]
    simp only [R.bind_ok]
    rw [h5]
    rfl

theorem command_opts (d : Driver A) (c : Command A) : (d.onCommand c).opts = d.opts ∧ (d.onCommand c).cmdq = d.cmdq := by
  have hreset : ∀ (d : Driver A) a, (d.resetPublisher a).opts = d.opts ∧ (d.resetPublisher a).cmdq = d.cmdq := by
    intro d a
    obtain ⟨-, h2, h3, -⟩ := hangUp_same d a
    exact ⟨h2, h3⟩
  have htell : ∀ l (d : Driver A) c, (d.tell c l).opts = d.opts ∧ (d.tell c l).cmdq = d.cmdq := by
    intro l
    induction l with
    | nil => intro d c; exact ⟨rfl, rfl⟩
    | cons x l ih =>
      intro d c
      obtain ⟨a, p⟩ := x
      cases p with
      | inactive b => exact ih d c
      | active u =>
        unfold Driver.tell
        cases d.sessions[u]? with
        | none => exact ih d c
        | some s =>
          simp only
          split
          · rename_i s' _
            obtain ⟨h1, h2⟩ := ih ({ d with sessions := d.sessions.set u s' }.resetPublisher a) c
            obtain ⟨h3, h4⟩ := hreset { d with sessions := d.sessions.set u s' } a
            exact ⟨h1.trans h3, h2.trans h4⟩
          · rename_i s' _ _
            exact ih { d with sessions := d.sessions.set u s' } c
  cases c with
  | subscribe t =>
    simp only [Driver.onCommand, Driver.subscribe]
    split
    · exact ⟨rfl, rfl⟩
    · exact htell _ _ _
  | unsubscribe t =>
    simp only [Driver.onCommand, Driver.unsubscribe]
    split
    · exact htell _ _ _
    · exact ⟨rfl, rfl⟩
  | connect a =>
    simp only [Driver.onCommand]
    split
    · exact ⟨rfl, rfl⟩
    · obtain ⟨h1, h2⟩ := hreset (d.connect a) a
      have : (d.connect a).opts = d.opts ∧ (d.connect a).cmdq = d.cmdq := by
        unfold Driver.connect; split <;> exact ⟨rfl, rfl⟩
      exact ⟨h1.trans this.1, h2.trans this.2⟩
  | disconnect a =>
    simp only [Driver.onCommand]
    split
    · obtain ⟨-, h2, h3, -⟩ := hangUp_same d a
      exact ⟨h2, h3⟩
    · exact ⟨rfl, rfl⟩
  | shutdown => exact ⟨rfl, rfl⟩

theorem onConnection_binv {d : Driver A} (h : BInv d) (order : List Str) (a : A) (via : HsEnv) (input : List ReadAns) :
    BInv (d.onConnection order a via input) ∧ (d.onConnection order a via input).opts = d.opts ∧
    (d.onConnection order a via input).cmdq = d.cmdq := by
  unfold Driver.onConnection
  split
  · exact ⟨h, rfl, rfl⟩
  · refine ⟨?_, rfl, rfl⟩
    intro x b hx
    simp only at hx ⊢
    by_cases hxa : x = a
    · subst hxa; rw [lookup_insert_self] at hx; cases hx
    · rw [lookup_insert_ne hxa] at hx; exact h x b hx

theorem joinStep_binv {d : Driver A} (h : BInv d) (e : Env A) :
    BInv (d.joinStep e).1 ∧ (d.joinStep e).1.opts = d.opts ∧ (d.joinStep e).1.cmdq = d.cmdq := by
  unfold Driver.joinStep
  split
  · exact ⟨h, rfl, rfl⟩
  · split
    · exact ⟨h, rfl, rfl⟩
    · split
      · exact ⟨h, rfl, rfl⟩
      · exact ⟨h, rfl, rfl⟩
      · exact ⟨h, rfl, rfl⟩
      · rename_i i out a _ via input _
        exact onConnection_binv (d := { d with tasks := d.tasks.eraseIdx _, keys := d.keys.filter (· ≠ _) }) h _ _ _ _

theorem iter_binv {d : Driver A} (h : BInv d) (hb : d.opts.initialBackoff * 2 ^ 16 ≤ Duration.max) (e : Env A) :
    ∃ d' o, d.iter D e = .ok (d', o) ∧ BInv d' ∧ d'.opts = d.opts := by
  obtain ⟨d1, p, h1, h2, h3, h4⟩ := pollPublishers_binv (D := D) e.order h hb
  unfold Driver.iter
  rw [h1]
  simp only [R.bind_ok, R.pure_eq]
  cases p with
  | true => exact ⟨_, _, rfl, h2, h3⟩
  | false =>
    simp only [Bool.false_eq_true, if_false]
    cases hq : d1.cmdq with
    | cons c q =>
      exact ⟨_, _, rfl, binv_command (d := { d1 with cmdq := q, processed := d1.processed ++ [c] }) h2 c,
        (command_opts { d1 with cmdq := q, processed := d1.processed ++ [c] } c).1.trans h3⟩
    | nil =>
      obtain ⟨k1, k2, -⟩ := joinStep_binv h2 e
      exact ⟨_, _, rfl, k1, k2.trans h3⟩

theorem call_binv (d : Driver A) (c : Call A) : (d.call c).pubs = d.pubs ∧ (d.call c).opts = d.opts := by
  have hs : ∀ (d : Driver A) c, (d.trySend c).2.pubs = d.pubs ∧ (d.trySend c).2.opts = d.opts := by
    intro d c; unfold Driver.trySend; split <;> exact ⟨rfl, rfl⟩
  have ha : ∀ (d : Driver A) c, (d.send c).2.pubs = d.pubs ∧ (d.send c).2.opts = d.opts := by
    intro d c; unfold Driver.send; split <;> exact ⟨rfl, rfl⟩
  cases c with
  | recv => simp only [Driver.call, Driver.recv]; split <;> exact ⟨rfl, rfl⟩
  | subscribe t =>
    simp only [Driver.call, Driver.subscribeAsync]; split
    · exact ⟨rfl, rfl⟩
    exact ha d.ensureActive _
  | trySubscribe t =>
    simp only [Driver.call, Driver.trySubscribe]; split
    · exact ⟨rfl, rfl⟩
    exact hs d.ensureActive _
  | unsubscribe t =>
    simp only [Driver.call, Driver.unsubscribeAsync]; split
    · exact ⟨rfl, rfl⟩
    exact ha d.ensureActive _
  | tryUnsubscribe t =>
    simp only [Driver.call, Driver.tryUnsubscribe]; split
    · exact ⟨rfl, rfl⟩
    exact hs d.ensureActive _
  | connect a => exact ha d.ensureActive _
  | tryConnect a => exact hs d.ensureActive _
  | disconnect a => exact ha d.ensureActive _
  | tryDisconnect a => exact hs d.ensureActive _

theorem act_binv {d : Driver A} (h : BInv d) (hb : d.opts.initialBackoff * 2 ^ 16 ≤ Duration.max) (x : Act A) :
    ∃ d', d.act L D x = .ok d' ∧ BInv d' ∧ d'.opts = d.opts := by
  cases x with
  | iter e =>
    simp only [Driver.act]
    split
    · obtain ⟨d1, o, h1, h2, h3⟩ := iter_binv (D := D) h hb e
      rw [h1]
      exact ⟨_, rfl, h2, h3⟩
    · exact ⟨_, rfl, h, rfl⟩
  | session u e =>
    simp only [Driver.act]
    cases d.sessions[u]? with
    | none => exact ⟨_, rfl, h, rfl⟩
    | some s => exact ⟨_, rfl, h, rfl⟩
  | advance dt => exact ⟨_, rfl, h, rfl⟩
  | call c =>
    simp only [Driver.act]
    split
    · exact ⟨_, rfl, h, rfl⟩
    · obtain ⟨h1, h2⟩ := call_binv d c
      refine ⟨_, rfl, ?_, h2⟩
      intro a b hl
      rw [h1] at hl; rw [h2]; exact h a b hl
  | dropSocket =>
    simp only [Driver.act]
    split
    · exact ⟨_, rfl, h, rfl⟩
    · have hs : (d.dropSocket).pubs = d.pubs ∧ (d.dropSocket).opts = d.opts := by
        unfold Driver.dropSocket Driver.trySend; split <;> exact ⟨rfl, rfl⟩
      refine ⟨_, rfl, ?_, hs.2⟩
      intro a b hl
      rw [hs.1] at hl; rw [hs.2]; exact h a b hl

theorem run_binv (acts : List (Act A)) {d : Driver A} (h : BInv d)
    (hb : d.opts.initialBackoff * 2 ^ 16 ≤ Duration.max) :
    ∃ d', d.run L D acts = .ok d' ∧ BInv d' ∧ d'.opts = d.opts := by
  induction acts generalizing d with
  | nil => exact ⟨_, rfl, h, rfl⟩
  | cons x acts ih =>
    obtain ⟨d1, h1, h2, h3⟩ := act_binv (L := L) (D := D) h hb x
    obtain ⟨d2, h4, h5, h6⟩ := ih h2 (by rw [h3]; exact hb)
    refine ⟨d2, ?_, h5, h6.trans h3⟩
    unfold Driver.run
    rw [h1]
    exact h4

/-! ## Work left -/

/-- What a map entry may still cause. -/
def pubWork (ss : List Session) : A × PState → Nat
  | (_, .inactive b) => 3 * (b.max - b.count)
  | (_, .active u) =>
    match ss[u]? with
    | some s => if s.over then 49 else 0
    | none => 0

/-- What the driver may still do, commands apart. -/
def Driver.work (d : Driver A) : Nat :=
  (d.pubs.map (pubWork d.sessions)).sum + 2 * d.tasks.length + (d.sessions.map fun s => s.toDriver.length).sum

theorem sum_set' {α : Type} (f : α → Nat) (l : List α) (k : Nat) {a b : α} (h : l[k]? = some a) :
    ((l.set k b).map f).sum + f a = (l.map f).sum + f b := by
  induction l generalizing k with
  | nil => simp at h
  | cons x l ih =>
    cases k with
    | zero => simp at h; subst h; simp; omega
    | succ k => have := ih k (by simpa using h); simp only [List.set_cons_succ, List.map_cons, List.sum_cons]; omega

theorem pubWork_set (ss : List Session) (u : Nat) {s s' : Session} (hu : ss[u]? = some s) (ho : s'.over = s.over) (l : List (A × PState)) :
    (l.map (pubWork (ss.set u s'))).sum = (l.map (pubWork ss)).sum := by
  congr 1
  refine List.map_congr_left fun x _ => ?_
  obtain ⟨a, p⟩ := x
  cases p with
  | inactive b => rfl
  | active v =>
    simp only [pubWork]
    by_cases hv : u = v
    · subst hv
      have : u < ss.length := by
        rcases Nat.lt_or_ge u ss.length with h | h
        · exact h
        · rw [List.getElem?_eq_none h] at hu; cases hu
      rw [List.getElem?_set_self this, hu]
      simp only [ho]
    · rw [List.getElem?_set_ne hv]

theorem erase_sum (f : A × PState → Nat) (a : A) (l : List (A × PState)) (hn : (l.map (·.1)).Nodup) :
    ((erase a l).map f).sum + (match lookup a l with | some v => f (a, v) | none => 0) = (l.map f).sum := by
  induction l with
  | nil => rfl
  | cons x l ih =>
    obtain ⟨b, v⟩ := x
    simp only [List.map_cons, List.nodup_cons] at hn
    have := ih hn.2
    unfold erase at *
    unfold lookup
    by_cases hb : b = a
    · subst hb
      have he : l.filter (fun x => decide (x.1 ≠ b)) = l := by
        rw [List.filter_eq_self]
        intro y hy
        have : y.1 ≠ b := fun h => hn.1 (h ▸ List.mem_map_of_mem hy)
        simpa using this
      rw [List.filter_cons_of_neg (by simp), he]
      simp
      omega
    · rw [List.filter_cons_of_pos (by simpa using hb), if_neg hb]
      simp only [List.map_cons, List.sum_cons]
      omega

theorem update_sum (f : A × PState → Nat) (a : A) (w : PState) (l : List (A × PState)) (hn : (l.map (·.1)).Nodup) :
    ((l.map fun x => if x.1 = a then (a, w) else x).map f).sum + (match lookup a l with | some v => f (a, v) | none => f (a, w)) =
      (l.map f).sum + f (a, w) := by
  induction l with
  | nil => rfl
  | cons x l ih =>
    obtain ⟨b, v⟩ := x
    simp only [List.map_cons, List.nodup_cons] at hn
    have := ih hn.2
    unfold lookup
    by_cases hb : b = a
    · subst hb
      have he : (l.map fun x => if x.1 = b then (b, w) else x) = l := by
        conv => rhs; rw [← List.map_id l]
        refine List.map_congr_left fun y hy => ?_
        have : y.1 ≠ b := fun h => hn.1 (h ▸ List.mem_map_of_mem hy)
        simp [this]
      simp only [List.map_cons, if_true, he, List.sum_cons]
      omega
    · simp only [List.map_cons, if_neg hb, List.sum_cons]
      omega

theorem hangUp_work (d : Driver A) (a : A) (l : List (A × PState)) :
    (l.map (pubWork (d.hangUp a).sessions)).sum = (l.map (pubWork d.sessions)).sum ∧
    ((d.hangUp a).sessions.map fun s => s.toDriver.length).sum = (d.sessions.map fun s => s.toDriver.length).sum ∧
    (d.hangUp a).tasks = d.tasks := by
  unfold Driver.hangUp
  split
  · rename_i u _
    cases hs : d.sessions[u]? with
    | none => exact ⟨rfl, rfl, rfl⟩
    | some s =>
      refine ⟨pubWork_set _ _ (s' := { s with alive := false, armed := false }) hs rfl l, ?_, rfl⟩
      have := sum_set' (fun s : Session => s.toDriver.length) d.sessions u (b := { s with alive := false, armed := false }) hs
      simp only at this ⊢
      omega
  · exact ⟨rfl, rfl, rfl⟩

theorem poll_count {b b' : Backoff} {now : Nat} {o : BOut} (h : b.poll now = .ok (o, b')) :
    b'.max = b.max ∧ b.count ≤ b'.count ∧ (∀ x, o = .item x → b.count < b'.count ∧ b'.count < b'.max) := by
  rw [Backoff.poll_eq] at h
  unfold Backoff.fire at h
  split at h
  · split at h
    · cases h
    · simp only at h
      split at h
      · cases h; exact ⟨rfl, by simp, by simp⟩
      · cases h
        refine ⟨rfl, by simp, fun x _ => ⟨by simp, ?_⟩⟩
        simp only at *
        omega
  · cases h; exact ⟨rfl, by simp, by simp⟩

theorem pollPub_work {d d' : Driver A} {p : Bool} (hn : (d.pubs.map (·.1)).Nodup) (a : A)
    (h : d.pollPub D a = .ok (d', p)) : d'.work + (if p then 1 else 0) ≤ d.work := by
  unfold Driver.pollPub at h
  cases hl : lookup a d.pubs with
  | none => rw [hl] at h; cases h; simp
  | some st =>
    rw [hl] at h
    cases st with
    | active u =>
      simp only at h
      cases hs : d.sessions[u]? with
      | none => rw [hs] at h; cases h; simp
      | some s =>
        rw [hs] at h
        simp only at h
        unfold Session.driverRecv at h
        cases htd : s.toDriver with
        | cons t ms =>
          rw [htd] at h
          simp only at h
          have h1 := pubWork_set d.sessions u (s' := { s with toDriver := ms }) hs rfl d.pubs
          have h2 := sum_set' (fun s : Session => s.toDriver.length) d.sessions u (b := { s with toDriver := ms }) hs
          simp only [htd, List.length_cons] at h2
          split at h
          · cases h
            simp only [Driver.work, h1, Bool.false_eq_true, if_false]
            omega
          · cases h
            have : ∀ e : Driver A, e.pubs = d.pubs → e.tasks = d.tasks → e.sessions = d.sessions.set u { s with toDriver := ms } →
                e.work + 1 ≤ d.work := by
              intro e e1 e2 e3
              simp only [Driver.work, e1, e2, e3, h1]
              omega
            simp only [if_true]
            unfold Driver.deliver
            split
            · exact this _ rfl rfl rfl
            · split <;> exact this _ rfl rfl rfl
        | nil =>
          rw [htd] at h
          simp only at h
          cases hov : s.over with
          | true =>
            rw [hov] at h
            simp only [if_true] at h
            cases h
            obtain ⟨k1, k2, k3⟩ := hangUp_work d a (erase a d.pubs)
            have k4 := erase_sum (pubWork d.sessions) a d.pubs hn
            rw [hl] at k4
            simp only [pubWork, hs, hov, if_true] at k4
            obtain ⟨j1, j2, -, -⟩ := hangUp_same d a
            simp only [Driver.work, Driver.resetPublisher, insert, j1, List.map_append, List.sum_append, k1, k2, k3, List.map_cons,
              List.map_nil, List.sum_cons, List.sum_nil, if_true]
            simp only [pubWork, Backoff.new]
            omega
          | false =>
            rw [hov] at h
            simp only [Bool.false_eq_true, if_false] at h
            have key : ∀ s' : Session, s'.over = s.over → s'.toDriver.length = s.toDriver.length →
                ({ d with sessions := d.sessions.set u s' } : Driver A).work = d.work := by
              intro s' k1 k2
              have h1 := pubWork_set d.sessions u (s' := s') hs k1 d.pubs
              have h2 := sum_set' (fun s : Session => s.toDriver.length) d.sessions u (b := s') hs
              simp only [Driver.work, h1]
              omega
            simp only [R.ok.injEq, Prod.mk.injEq] at h
            obtain ⟨rfl, rfl⟩ := h
            rw [key _ (by simp only [hov]) (by simp only [htd])]
            simp
    | inactive b =>
      simp only at h
      cases hp : b.poll d.now with
      | panic => rw [hp] at h; cases h
      | ok r =>
        obtain ⟨o, b'⟩ := r
        rw [hp] at h
        simp only [R.bind_ok, R.pure_eq] at h
        obtain ⟨c1, c2, c3⟩ := poll_count hp
        have hu := update_sum (pubWork d.sessions) a (.inactive b') d.pubs hn
        rw [hl] at hu
        simp only [pubWork] at hu
        cases o with
        | pending =>
          cases h
          simp only [Driver.work]
          simp only [Bool.false_eq_true, if_false]
          rw [c1] at hu
          have : b.max - b'.count ≤ b.max - b.count := by omega
          omega
        | item x =>
          cases h
          obtain ⟨c4, c5⟩ := c3 x rfl
          unfold Driver.connect
          simp only
          split
          · simp only [Driver.work, if_true]; omega
          · simp only [Driver.work, if_true, List.length_append, List.length_cons, List.length_nil]; omega
        | ended =>
          cases h
          have hn' : ((d.pubs.map fun x => if x.1 = a then (a, .inactive b') else x).map (·.1)).Nodup := by
            rw [keys_update]; exact hn
          have he := erase_sum (pubWork d.sessions) a _ hn'
          simp only [Driver.work, Bool.false_eq_true, if_false]
          rw [lookup_update, if_pos rfl, hl] at he
          simp only [Option.map_some, pubWork] at he
          rw [c1] at hu he
          omega

theorem pollPublishers_work (order : List A) {d d' : Driver A} {p : Bool} (hi : DInv L D d)
    (h : d.pollPublishers D order = .ok (d', p)) : d'.work + (if p then 1 else 0) ≤ d.work := by
  induction order generalizing d d' p with
  | nil => cases h; simp
  | cons a as ih =>
    unfold Driver.pollPublishers at h
    cases h1 : d.pollPub D a with
    | panic => rw [h1] at h; cases h
    | ok r =>
      obtain ⟨d1, q⟩ := r
      rw [h1] at h
      simp only [R.bind_ok] at h
      cases h2 : d1.pollPublishers D as with
      | panic => rw [h2] at h; cases h
      | ok r =>
        obtain ⟨d2, q'⟩ := r
        rw [h2] at h
        cases h
        have w1 := pollPub_work hi.nodup a h1
        have w2 := ih (hi.steps (pollPub_steps d d1 a q h1)) h2
        cases q <;> cases q' <;> simp at w1 w2 ⊢ <;> omega

theorem joinStep_work {d d' : Driver A} {e : Env A} (hi : DInv L D d) (h : d.joinStep e = (d', .again)) : d'.work < d.work := by
  unfold Driver.joinStep at h
  split at h
  · cases h
  · rename_i i out _
    cases ht : d.tasks[i]? with
    | none => rw [ht] at h; cases h
    | some a =>
      rw [ht] at h
      simp only at h
      have hlen : (d.tasks.eraseIdx i).length + 1 = d.tasks.length := by
        have : i < d.tasks.length := by
          rcases Nat.lt_or_ge i d.tasks.length with h | h
          · exact h
          · rw [List.getElem?_eq_none h] at ht; cases ht
        rw [List.length_eraseIdx_of_lt this]
        omega
      split at h
      · cases h
      · cases h
      · cases h; simp only [Driver.work]; omega
      · rename_i via input _
        cases h
        unfold Driver.onConnection
        split
        · simp only [Driver.work]; omega
        · have hnew : ∀ ts (s : Session), (offerAll s ts).toDriver = s.toDriver ∧ (offerAll s ts).over = s.over := by
            intro ts
            induction ts with
            | nil => intro s; exact ⟨rfl, rfl⟩
            | cons t ts ih =>
              intro s
              unfold offerAll
              obtain ⟨h1, h2⟩ := ih (s.offer (.subscribe t)).2
              have : (s.offer (.subscribe t)).2.toDriver = s.toDriver ∧ (s.offer (.subscribe t)).2.over = s.over := by
                unfold Session.offer
                split
                · exact ⟨rfl, rfl⟩
                · split <;> exact ⟨rfl, rfl⟩
              exact ⟨h1.trans this.1, h2.trans this.2⟩
          simp only [Driver.work, insert, List.map_append, List.sum_append, List.map_cons, List.map_nil, List.sum_cons,
            List.sum_nil, (hnew _ _).1]
          have hold : ∀ l : List (A × PState), (∀ x ∈ l, x ∈ d.pubs) → ∀ x,
              (l.map (pubWork (d.sessions ++ [x]))).sum = (l.map (pubWork d.sessions)).sum := by
            intro l hl x
            congr 1
            refine List.map_congr_left fun y hy => ?_
            obtain ⟨b, p⟩ := y
            cases p with
            | inactive _ => rfl
            | active v =>
              have hlk := lookup_of_mem hi.nodup (hl _ hy)
              obtain ⟨-, s, hs, -⟩ := hi.act b v hlk
              have hv : v < d.sessions.length := by
                rcases Nat.lt_or_ge v d.sessions.length with h | h
                · exact h
                · rw [List.getElem?_eq_none h] at hs; cases hs
              simp only [pubWork]
              rw [List.getElem?_append_left hv]
          rw [hold (erase a d.pubs) (fun x hx => (List.mem_filter.mp hx).1)]
          have he := erase_sum (pubWork d.sessions) a d.pubs hi.nodup
          have hz : ∀ s : Session, s.over = false → pubWork (d.sessions ++ [s]) (a, PState.active d.sessions.length) = 0 := by
            intro s hs
            simp [pubWork, hs]
          rw [hz _ (by rw [(hnew _ _).2]; rfl)]
          simp only [Session.new, List.length_nil]
          omega

/-- An iteration that goes on looping uses up a command or some work. -/
theorem iter_work {d d' : Driver A} {e : Env A} (hi : DInv L D d) (hb : BInv d)
    (hx : d.opts.initialBackoff * 2 ^ 16 ≤ Duration.max) (h : d.iter D e = .ok (d', .again)) :
    d'.cmdq.length < d.cmdq.length ∨ d'.cmdq.length = d.cmdq.length ∧ d'.work < d.work := by
  obtain ⟨d1, p, h1, h2, h3, h4⟩ := pollPublishers_binv (D := D) e.order hb hx
  have w := pollPublishers_work e.order hi h1
  unfold Driver.iter at h
  rw [h1] at h
  simp only [R.bind_ok, R.pure_eq] at h
  cases p with
  | true =>
    cases h
    simp only [if_true] at w
    exact .inr ⟨by rw [h4], by omega⟩
  | false =>
    simp only [Bool.false_eq_true, if_false] at h w
    cases hq : d1.cmdq with
    | cons c q =>
      rw [hq] at h
      simp only [R.ok.injEq, Prod.mk.injEq, and_true] at h
      subst h
      left
      rw [(command_opts _ c).2, ← h4, hq]
      simp
    | nil =>
      rw [hq] at h
      simp only [R.ok.injEq] at h
      right
      have hd1 : DInv L D d1 := hi.steps (pollPublishers_steps e.order d d1 _ h1)
      have := joinStep_work hd1 h
      have hc := (joinStep_binv h2 e).2.2
      rw [h] at hc
      exact ⟨by rw [hc, h4], by omega⟩

end MsgRs.Sub
