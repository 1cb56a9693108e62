import Verif.Model.SubStats
import Verif.Proofs.SubInv
import Verif.Proofs.SubTopics
/-!
# The map of statistics of the subscriber's driver
-/
namespace MsgRs.Sub
open MsgRs

variable {A : Type} [DecidableEq A] {L : Lossy} {D : Decompressors}

/-- `u` is the last session at `a`. -/
def Driver.IsLast (d : Driver A) (a : A) (u : Nat) : Prop :=
  d.addrs[u]? = some a ∧ ∀ v, u < v → d.addrs[v]? ≠ some a

structure StatInv (d : Driver A) : Prop where
  last : ∀ a u, lookup a d.stats = some u → d.IsLast a u
  act : ∀ a u, lookup a d.pubs = some (.active u) → lookup a d.stats = some u

theorem StatInv.same {d e : Driver A} (hi : StatInv d) (h1 : e.stats = d.stats) (h2 : e.addrs = d.addrs)
    (h3 : ∀ a u, lookup a e.pubs = some (.active u) → lookup a d.pubs = some (.active u)) : StatInv e where
  last := by intro a u h; rw [h1] at h; unfold Driver.IsLast; rw [h2]; exact hi.last a u h
  act := by intro a u h; rw [h1]; exact hi.act a u (h3 a u h)

theorem hangUp_pubs (d : Driver A) (a : A) :
    (d.hangUp a).pubs = d.pubs ∧ (d.hangUp a).stats = d.stats ∧ (d.hangUp a).addrs = d.addrs := by
  rw [hangUp_eq]; exact ⟨rfl, rfl, rfl⟩

theorem StatInv.reset {d : Driver A} (hi : StatInv d) (a : A) : StatInv (d.resetPublisher a) := by
  rw [reset_eq]
  refine hi.same rfl rfl ?_
  intro b u h
  by_cases hb : b = a
  · subst hb; simp only [lookup_insert_self] at h; cases h
  · simpa only [lookup_insert_ne hb] using h

theorem StatInv.tell {d : Driver A} (hi : StatInv d) (c : Cmd) (l : List (A × PState)) : StatInv (d.tell c l) :=
  tell_induct c (fun _ _ _ h _ => h.same rfl rfl fun _ _ h => h) (fun _ a h => h.reset a) l d hi

theorem connect_same (d : Driver A) (a : A) :
    (d.connect a).stats = d.stats ∧ (d.connect a).addrs = d.addrs ∧ (d.connect a).pubs = d.pubs ∧
    (d.connect a).sessions = d.sessions := by
  unfold Driver.connect; split <;> exact ⟨rfl, rfl, rfl, rfl⟩

theorem deliver_same (d : Driver A) (a : A) (u : Nat) (t : TopicMsg) (p : Bytes) :
    (d.deliver a u t p).stats = d.stats ∧ (d.deliver a u t p).addrs = d.addrs ∧ (d.deliver a u t p).pubs = d.pubs ∧
    (d.deliver a u t p).sessions = d.sessions ∧ (d.deliver a u t p).processed = d.processed := by
  unfold Driver.deliver; repeat' split
  all_goals exact ⟨rfl, rfl, rfl, rfl, rfl⟩

theorem StatInv.command {d : Driver A} (hi : StatInv d) (c : Command A) : StatInv (d.onCommand c) := by
  cases c with
  | subscribe t =>
    show StatInv (d.subscribe t)
    unfold Driver.subscribe; split
    · exact hi
    · exact StatInv.tell (d := { d with topics := d.topics ++ [t] }) (hi.same rfl rfl fun _ _ h => h) _ _
  | unsubscribe t =>
    show StatInv (d.unsubscribe t)
    unfold Driver.unsubscribe; split
    · exact StatInv.tell (d := { d with topics := d.topics.filter (· ≠ t) }) (hi.same rfl rfl fun _ _ h => h) _ _
    · exact hi
  | connect a =>
    show StatInv (if _ then _ else _)
    split
    · exact hi
    · obtain ⟨h1, h2, h3, -⟩ := connect_same d a
      exact (hi.same h1 h2 fun _ _ h => by rwa [h3] at h).reset a
  | disconnect a =>
    show StatInv (if _ then _ else _)
    split
    · obtain ⟨h1, h2, h3⟩ := hangUp_pubs d a
      constructor
      · intro b u h
        simp only [h2] at h
        by_cases hb : b = a
        · subst hb; rw [lookup_erase_self] at h; cases h
        · rw [lookup_erase_ne hb] at h
          show (d.hangUp a).addrs[u]? = _ ∧ ∀ v, u < v → (d.hangUp a).addrs[v]? ≠ _
          rw [h3]; exact hi.last b u h
      · intro b u h
        simp only [h1] at h
        by_cases hb : b = a
        · subst hb; rw [lookup_erase_self] at h; cases h
        · rw [lookup_erase_ne hb] at h
          show lookup b (erase a (d.hangUp a).stats) = _
          rw [h2, lookup_erase_ne hb]; exact hi.act b u h
    · exact hi
  | shutdown => exact hi

theorem StatInv.onConnection {d : Driver A} (hi : StatInv d) (hl : d.addrs.length = d.sessions.length) (order : List Str)
    (a : A) (via : HsEnv) (input : List ReadAns) : StatInv (d.onConnection order a via input) := by
  unfold Driver.onConnection
  split
  · exact hi
  · constructor
    · intro b u h
      simp only at h
      show (d.addrs ++ [a])[u]? = some b ∧ ∀ v, u < v → (d.addrs ++ [a])[v]? ≠ some b
      by_cases hb : b = a
      · subst hb
        rw [lookup_insert_self] at h; cases h
        rw [← hl]
        refine ⟨by simp, ?_⟩
        intro v hv
        rw [List.getElem?_eq_none (by simp; omega)]; simp
      · rw [lookup_insert_ne hb] at h
        obtain ⟨h1, h2⟩ := hi.last b u h
        have hu : u < d.addrs.length := (List.getElem?_eq_some_iff.1 h1).1
        refine ⟨by rw [List.getElem?_append_left hu]; exact h1, ?_⟩
        intro v hv
        by_cases hv' : v < d.addrs.length
        · rw [List.getElem?_append_left hv']; exact h2 v hv
        · rw [List.getElem?_append_right (by omega)]
          intro hc
          have := List.mem_of_getElem? hc
          simp at this
          exact hb this
    · intro b u h
      simp only at h
      show lookup b (insert a d.sessions.length d.stats) = some u
      by_cases hb : b = a
      · subst hb
        rw [lookup_insert_self] at h ⊢; cases h; rfl
      · rw [lookup_insert_ne hb] at h ⊢
        exact hi.act b u h

theorem StatInv.step (d e : Driver A) (h : DStep L D d e) (hd : DInv L D d) (hi : StatInv d) : StatInv e := by
  cases h with
  | time dt => exact hi.same rfl rfl fun _ _ h => h
  | wake w => exact hi.same rfl rfl fun _ _ h => h
  | start h => exact hi.same rfl rfl fun _ _ h => h
  | push c hc hl => exact hi.same rfl rfl fun _ _ h => h
  | recv m ms hc hm => exact hi.same rfl rfl fun _ _ h => h
  | drop hc => exact hi.same rfl rfl fun _ _ h => h
  | session u s s' hu hs => exact hi.same rfl rfl fun _ _ h => h
  | command c q hq =>
    exact StatInv.command (d := { d with cmdq := q, processed := d.processed ++ [c] }) (hi.same rfl rfl fun _ _ h => h) c
  | take a u s t ms payload hl hu ht hd =>
    obtain ⟨h1, h2, h3, -⟩ := deliver_same { d with sessions := d.sessions.set u { s with toDriver := ms } } a u t payload
    exact hi.same h1 h2 fun _ _ h => by rwa [h3] at h
  | skip a u s t ms hl hu ht hd => exact hi.same rfl rfl fun _ _ h => h
  | lost a u s hl hu ht ho => exact hi.reset a
  | arm a u s hl hu ht ho => exact hi.same rfl rfl fun _ _ h => h
  | backoff a b b' o hl hp =>
    refine hi.same rfl rfl ?_
    intro x u h
    simp only [lookup_update] at h
    by_cases hx : x = a
    · subst hx; simp [hl] at h
    · simpa [hx] using h
  | retry a b hl =>
    obtain ⟨h1, h2, h3, -⟩ := connect_same d a
    exact hi.same h1 h2 fun _ _ h => by rwa [h3] at h
  | terminate a b hl =>
    refine hi.same rfl rfl ?_
    intro x u h
    by_cases hx : x = a
    · subst hx; simp only [lookup_erase_self] at h; cases h
    · simpa only [lookup_erase_ne hx] using h
  | joinPanic i a ht => exact hi.same rfl rfl fun _ _ h => h
  | joinFail i a ht => exact hi.same rfl rfl fun _ _ h => h
  | joinOk i a order out via input ht hr =>
    exact StatInv.onConnection (d := { d with tasks := d.tasks.eraseIdx i, keys := d.keys.filter (· ≠ a) })
      (hi.same rfl rfl fun _ _ h => h) hd.len order a via input

theorem Reach.statInv {d : Driver A} (h : Reach L D d) : StatInv d := by
  obtain ⟨opts, now, d0, acts, h0, h1⟩ := h
  have hs := run_steps (L := L) (D := D) acts d0 d h1
  refine (hs.induct (P := fun d => DInv L D d ∧ StatInv d) (fun d e h hi => ⟨DInv.step d e h hi.1, hi.2.step d e h hi.1⟩)
    ⟨DInv.init h0, ?_⟩).2
  unfold Driver.new at h0
  split at h0
  · cases h0
  · cases h0
    constructor <;> (intro a u h; cases h)

/-- A step keeps an entry, unless it handles a `disconnect`. -/
theorem stats_keep (d e : Driver A) (h : DStep L D d e) (a : A) (hs : (lookup a d.stats).isSome = true)
    (hn : ∀ rest, e.processed = d.processed ++ rest → Command.disconnect a ∉ rest) :
    (lookup a e.stats).isSome = true := by
  cases h with
  | time dt => exact hs
  | wake w => exact hs
  | start h => exact hs
  | push c hc hl => exact hs
  | recv m ms hc hm => exact hs
  | drop hc => exact hs
  | session u s s' hu hs' => exact hs
  | command c q hq =>
    cases c with
    | subscribe t =>
      show (lookup a (Driver.subscribe _ t).stats).isSome = true
      unfold Driver.subscribe; split
      · exact hs
      · rw [(tell_same _ _ _).2.2.2.2.2.2.2.2.2.2.2.2]; exact hs
    | unsubscribe t =>
      show (lookup a (Driver.unsubscribe _ t).stats).isSome = true
      unfold Driver.unsubscribe; split
      · rw [(tell_same _ _ _).2.2.2.2.2.2.2.2.2.2.2.2]; exact hs
      · exact hs
    | connect b =>
      simp only [Driver.onCommand]
      split
      · exact hs
      · rw [reset_eq]; simp only [(connect_same _ b).1]; exact hs
    | disconnect b =>
      have hb : a ≠ b := by
        rintro rfl
        refine hn [.disconnect a] ?_ (by simp)
        simp only [Driver.onCommand]
        split
        · rw [hangUp_eq]
        · rfl
      simp only [Driver.onCommand]
      split
      · simp only [(hangUp_pubs _ b).2.1, lookup_erase_ne hb]; exact hs
      · exact hs
    | shutdown => exact hs
  | take b u s t ms payload hl hu ht hd => rw [(deliver_same _ _ _ _ _).1]; exact hs
  | skip a u s t ms hl hu ht hd => exact hs
  | lost b u s hl hu ht ho => rw [reset_eq]; exact hs
  | arm a u s hl hu ht ho => exact hs
  | backoff a b b' o hl hp => exact hs
  | retry b _ hl => rw [(connect_same d b).1]; exact hs
  | terminate a b hl => exact hs
  | joinPanic i a ht => exact hs
  | joinFail i a ht => exact hs
  | joinOk i b order out via input ht hr =>
    unfold Driver.onConnection
    split
    · exact hs
    · simp only
      by_cases hb : a = b
      · subst hb; rw [lookup_insert_self]; rfl
      · rw [lookup_insert_ne hb]; exact hs

/-- The handled commands only grow. -/
theorem processed_grow {d e : Driver A} (h : DSteps L D d e) : ∃ rest, e.processed = d.processed ++ rest := by
  refine h.induct (P := fun e => ∃ rest, e.processed = d.processed ++ rest) ?_ ⟨[], by simp⟩
  intro e f h ⟨rest, hr⟩
  suffices ∃ r, f.processed = e.processed ++ r by
    obtain ⟨r, h⟩ := this
    exact ⟨rest ++ r, by rw [h, hr, List.append_assoc]⟩
  cases h with
  | command c q hq =>
    refine ⟨[c], ?_⟩
    cases c with
    | subscribe t =>
      show (Driver.subscribe _ t).processed = _
      unfold Driver.subscribe; split
      · rfl
      · rw [(tell_same _ _ _).2.1]
    | unsubscribe t =>
      show (Driver.unsubscribe _ t).processed = _
      unfold Driver.unsubscribe; split
      · rw [(tell_same _ _ _).2.1]
      · rfl
    | connect b =>
      simp only [Driver.onCommand]
      split
      · rfl
      · rw [reset_eq]; simp only [Driver.connect]; split <;> rfl
    | disconnect b =>
      simp only [Driver.onCommand]
      split
      · rw [hangUp_eq]
      · rfl
    | shutdown => rfl
  | take b u s t ms payload hl hu ht hd => exact ⟨[], by rw [(deliver_same _ _ _ _ _).2.2.2.2]; simp⟩
  | lost b u s hl hu ht ho => exact ⟨[], by rw [reset_eq]; simp⟩
  | retry b _ hl => exact ⟨[], by simp only [Driver.connect]; split <;> simp⟩
  | joinOk i b order out via input ht hr =>
    refine ⟨[], ?_⟩
    unfold Driver.onConnection
    split <;> simp
  | _ => exact ⟨[], by simp⟩

theorem stats_keeps {d e : Driver A} (h : DSteps L D d e) (a : A) (hs : (lookup a d.stats).isSome = true)
    (rest : List (Command A)) (hr : e.processed = d.processed ++ rest) (hn : Command.disconnect a ∉ rest) :
    (lookup a e.stats).isSome = true := by
  induction h generalizing rest with
  | refl => exact hs
  | @step e f h1 h2 ih =>
    obtain ⟨r1, g1⟩ := processed_grow h1
    obtain ⟨r2, g2⟩ := processed_grow h2.steps
    have : rest = r1 ++ r2 := by
      rw [g2, g1, List.append_assoc] at hr
      exact (List.append_cancel_left hr).symm
    subst this
    refine stats_keep e f h2 a (ih r1 g1 fun h => hn (by simp [h])) ?_
    intro r hr' hmem
    have : r = r2 := by rw [g2] at hr'; exact (List.append_cancel_left hr').symm
    subst this
    exact hn (by simp [hmem])

end MsgRs.Sub
