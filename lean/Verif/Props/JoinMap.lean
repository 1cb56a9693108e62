import Verif.Model.JoinMap
/-!
# C66 — keyed tasks

The statements are about the events of a history: `started k`, `refused k` (what `spawn k` did), `joined j` (what
`poll_join_next` returned). `runs k es`: starts minus ends of tasks for `k` that returned; `ends es`: tasks that ended.
-/
namespace MsgRs.Spec
open MsgRs JoinMap

/-- Did the task for this key start, by this event? -/
def isStart [DecidableEq K] (k : K) : Ev K V → Bool
  | .started k' => decide (k' = k)
  | _ => false

/-- Did the task for this key return a value, by this event? -/
def isReturn [DecidableEq K] (k : K) : Ev K V → Bool
  | .joined (.ok k' _) => decide (k' = k)
  | _ => false

/-- Did some task panic, by this event? -/
def isPanic : Ev K V → Bool
  | .joined .err => true
  | _ => false

/-- Did some task end, by this event? -/
def isEnd : Ev K V → Bool
  | .joined (.ok _ _) => true
  | .joined .err => true
  | _ => false

/-- Did some task start, by this event? -/
def isSomeStart : Ev K V → Bool
  | .started _ => true
  | _ => false

end MsgRs.Spec

namespace MsgRs.Props
open MsgRs JoinMap Spec

section
variable {K V : Type} [DecidableEq K]

/-- What holds after any history with events `es`. -/
structure JInv (m : JMap K) (es : List (Ev K V)) : Prop where
  nodup : (m.tasks.map Prod.fst).Nodup
  sub : ∀ k ∈ m.tasks.map Prod.fst, k ∈ m.keys
  count : ∀ k, es.countP (isStart k) = es.countP (isReturn k) + if k ∈ m.keys then 1 else 0
  len : es.countP isSomeStart = es.countP isEnd + m.tasks.length
  exact : es.countP isPanic = 0 → ∀ k ∈ m.keys, k ∈ m.tasks.map Prod.fst

theorem nodup_eraseIdx (l : List K) (hn : l.Nodup) {i : Nat} {k : K} (h : l[i]? = some k) :
    l.eraseIdx i = l.erase k := by
  induction l generalizing i with
  | nil => rfl
  | cons x l ih =>
    rw [List.nodup_cons] at hn
    cases i with
    | zero => simp at h; subst h; simp
    | succ i =>
      rw [List.getElem?_cons_succ] at h
      have hx : x ≠ k := fun e => hn.1 (e ▸ List.mem_of_getElem? h)
      rw [List.eraseIdx_cons_succ, ih hn.2 h, List.erase_cons_tail (by simpa using hx)]

theorem map_eraseIdx' {α β : Type} (f : α → β) (l : List α) (i : Nat) : (l.eraseIdx i).map f = (l.map f).eraseIdx i := by
  induction l generalizing i with
  | nil => rfl
  | cons x l ih =>
    cases i with
    | zero => rfl
    | succ i => simp [ih]

theorem jinv_call {m : JMap K} {es : List (Ev K V)} (h : JInv m es) (c : Call K V) :
    JInv (m.call c).2 (es ++ [(m.call c).1]) := by
  obtain ⟨hn, hs, hc, hl, he⟩ := h
  cases c with
  | spawn k =>
    by_cases hk : k ∈ m.keys
    · have e : m.spawn k = m := if_pos hk
      have e1 : m.call (V := V) (.spawn k) = (.refused k, m) := by simp [JMap.call, e]
      rw [e1]
      refine ⟨hn, hs, fun k' => ?_, ?_, fun hp => he ?_⟩
      · rw [List.countP_append, List.countP_append]; exact hc k'
      · rw [List.countP_append, List.countP_append]; exact hl
      · rw [List.countP_append] at hp; omega
    · have e : m.spawn k = { keys := m.keys ++ [k], tasks := m.tasks ++ [(k, m.started)], started := m.started + 1 } :=
        if_neg hk
      have e1 : m.call (V := V) (.spawn k) = (.started k,
          { keys := m.keys ++ [k], tasks := m.tasks ++ [(k, m.started)], started := m.started + 1 }) := by
        simp [JMap.call, e]
      rw [e1]
      refine ⟨?_, ?_, fun k' => ?_, ?_, fun hp => ?_⟩
      · simp only [List.map_append, List.map_cons, List.map_nil]
        rw [List.nodup_append]
        refine ⟨hn, by simp, ?_⟩
        intro a ha b hb hab
        rw [List.mem_singleton] at hb
        subst hb; subst hab
        exact hk (hs _ ha)
      · intro k' hk'
        simp only [List.map_append, List.map_cons, List.map_nil, List.mem_append] at hk'
        rw [List.mem_append]
        exact hk'.imp (hs k') id
      · rw [List.countP_append, List.countP_append, hc k']
        by_cases hkk : k' = k
        · subst hkk; simp [isStart, isReturn, hk]
        · have : ¬ k = k' := fun h => hkk h.symm
          simp [isStart, isReturn, hkk, this]
      · rw [List.countP_append, List.countP_append, hl]
        simp [isSomeStart, isEnd]; omega
      · rw [List.countP_append] at hp
        intro k' hk'
        rw [List.mem_append] at hk'
        simp only [List.map_append, List.map_cons, List.map_nil, List.mem_append]
        exact hk'.imp (he (by omega) k') id
  | join d =>
    have noop : ∀ j : Join K V, m.pollJoinNext d = (j, m) → (j = .pending ∨ j = .empty) →
        JInv (m.call (.join d)).2 (es ++ [(m.call (.join d)).1]) := by
      intro j hj hj'
      have e1 : m.call (.join d) = (.joined j, m) := by simp [JMap.call, hj]
      rw [e1]
      have q1 : ∀ k, isStart k (Ev.joined j) = false := fun k => rfl
      have q2 : ∀ k, isReturn k (Ev.joined j) = false := fun k => by rcases hj' with rfl | rfl <;> rfl
      have q3 : isSomeStart (Ev.joined j) = false := rfl
      have q4 : isEnd (Ev.joined j) = false := by rcases hj' with rfl | rfl <;> rfl
      refine ⟨hn, hs, fun k' => ?_, ?_, fun hp => he ?_⟩
      · rw [List.countP_append, List.countP_append]; simp [q1, q2]; exact hc k'
      · rw [List.countP_append, List.countP_append]; simp [q3, q4]; exact hl
      · rw [List.countP_append] at hp; omega
    by_cases ht : m.tasks = []
    · exact noop .empty (if_pos ht) (.inr rfl)
    · cases d with
      | none => exact noop .pending (if_neg ht) (.inl rfl)
      | some ie =>
        obtain ⟨i, e⟩ := ie
        cases hi : m.tasks[i]? with
        | none => exact noop .pending (by unfold JMap.pollJoinNext; rw [if_neg ht]; simp [hi]) (.inl rfl)
        | some kn =>
          obtain ⟨k, n⟩ := kn
          obtain ⟨hlt, hge⟩ := List.getElem?_eq_some_iff.1 hi
          have hkm : k ∈ m.tasks.map Prod.fst := List.mem_map.2 ⟨(k, n), hge ▸ List.getElem_mem hlt, rfl⟩
          have herase : (m.tasks.eraseIdx i).map Prod.fst = (m.tasks.map Prod.fst).erase k := by
            have h2 : (m.tasks.map Prod.fst)[i]'(by simpa using hlt) = k := by simp [hge]
            rw [map_eraseIdx']
            exact nodup_eraseIdx _ hn (List.getElem?_eq_some_iff.2 ⟨by simpa using hlt, h2⟩)
          have hmem : ∀ k', k' ∈ (m.tasks.eraseIdx i).map Prod.fst ↔ k' ≠ k ∧ k' ∈ m.tasks.map Prod.fst := by
            intro k'; rw [herase]; exact hn.mem_erase_iff
          have hnd : ((m.tasks.eraseIdx i).map Prod.fst).Nodup := by rw [herase]; exact hn.erase k
          have hlen : (m.tasks.eraseIdx i).length + 1 = m.tasks.length := by
            rw [List.length_eraseIdx, if_pos hlt]; omega
          cases e with
          | value v =>
            have e1 : m.call (.join (some (i, .value v))) = (.joined (.ok k v),
                { m with tasks := m.tasks.eraseIdx i, keys := m.keys.filter (· ≠ k) }) := by
              simp [JMap.call, JMap.pollJoinNext, ht, hi]
            rw [e1]
            refine ⟨hnd, ?_, fun k' => ?_, ?_, fun hp k' hk' => ?_⟩
            · intro k' hk'
              obtain ⟨h1, h2⟩ := (hmem k').1 hk'
              simp [h1, hs k' h2]
            · rw [List.countP_append, List.countP_append, hc k']
              by_cases hkk : k' = k
              · subst hkk; simp [isStart, isReturn, hs k' hkm]
              · have : ¬ k = k' := fun h => hkk h.symm
                simp [isStart, isReturn, hkk, this]
            · rw [List.countP_append, List.countP_append, hl]
              simp [isSomeStart, isEnd]; omega
            · rw [List.countP_append] at hp
              simp only [List.mem_filter, ne_eq, decide_eq_true_eq] at hk'
              exact (hmem k').2 ⟨by simpa using hk'.2, he (by omega) k' hk'.1⟩
          | panicked =>
            have e1 : m.call (V := V) (.join (some (i, .panicked))) = (.joined .err,
                { m with tasks := m.tasks.eraseIdx i }) := by
              simp [JMap.call, JMap.pollJoinNext, ht, hi]
            rw [e1]
            refine ⟨hnd, fun k' hk' => hs k' ((hmem k').1 hk').2, fun k' => ?_, ?_, fun hp => ?_⟩
            · rw [List.countP_append, List.countP_append, hc k']
              simp [isStart, isReturn]
            · rw [List.countP_append, List.countP_append, hl]
              simp [isSomeStart, isEnd]; omega
            · rw [List.countP_append] at hp
              simp [isPanic] at hp

theorem jinv_hist (cs : List (Call K V)) (m : JMap K) (es : List (Ev K V)) (h : JInv m es) :
    JInv (m.hist cs).2 (es ++ (m.hist cs).1) := by
  induction cs generalizing m es with
  | nil => simpa [JMap.hist] using h
  | cons c cs ih =>
    have := ih _ _ (jinv_call h c)
    simp only [JMap.hist]
    rwa [List.append_assoc] at this

theorem jinv_new (cs : List (Call K V)) : JInv (({} : JMap K).hist cs).2 (({} : JMap K).hist cs).1 := by
  have := jinv_hist cs ({} : JMap K) [] ⟨by simp, by simp, by simp, by simp, by simp⟩
  simpa using this

/-- C66: after any history, per key: it was started as often as its tasks returned, plus one if the key is present; so
at most one task that has not returned exists per key; `len` is the number of tasks that did not end. -/
theorem C66_counts (cs : List (Call K V)) :
    let r := ({} : JMap K).hist cs
    (∀ k, r.1.countP (isStart k) = r.1.countP (isReturn k) + if r.2.containsKey k then 1 else 0) ∧
    r.1.countP isSomeStart = r.1.countP isEnd + r.2.len := by
  intro r
  have h := jinv_new cs
  refine ⟨fun k => ?_, h.len⟩
  have := h.count k
  unfold JMap.containsKey
  simp only [decide_eq_true_eq]
  exact this

/-- C66: the next `spawn` for a key starts a task exactly if the key is not present, and then it is. -/
theorem C66_spawn (m : JMap K) (k : K) :
    ((m.call (V := V) (.spawn k)).1 = .started k ↔ m.containsKey k = false) ∧
    ((m.call (V := V) (.spawn k)).1 = .refused k ↔ m.containsKey k = true) ∧
    (m.call (V := V) (.spawn k)).2.containsKey k = true := by
  by_cases hk : k ∈ m.keys
  · have e : m.spawn k = m := if_pos hk
    simp [JMap.call, e, JMap.containsKey, hk]
  · have e : m.spawn k = { keys := m.keys ++ [k], tasks := m.tasks ++ [(k, m.started)], started := m.started + 1 } :=
      if_neg hk
    simp [JMap.call, e, JMap.containsKey, hk]

/-- C66 without panics (partial): a key is present exactly while its task runs, and there is at most one task per key.
Missing: tasks that panic, for which this is false (`C66_panic_blocks_refuted`). -/
theorem C66_running_partial (cs : List (Call K V)) (hp : (({} : JMap K).hist cs).1.countP isPanic = 0) :
    let m := (({} : JMap K).hist cs).2
    (∀ k, m.containsKey k = true ↔ k ∈ m.tasks.map Prod.fst) ∧ (m.tasks.map Prod.fst).Nodup := by
  intro m
  have h := jinv_new cs
  refine ⟨fun k => ?_, h.nodup⟩
  unfold JMap.containsKey
  rw [decide_eq_true_eq]
  exact ⟨h.exact hp k, h.sub k⟩

/-- C66 is false with panics: if a task panics while its key is present, no task for that key is started ever again,
whatever is called, though none is running. -/
theorem C66_panic_blocks_refuted (m : JMap K) (k : K) (hk : m.containsKey k = true)
    (hno : k ∉ m.tasks.map Prod.fst) (cs : List (Call K V)) :
    (m.hist cs).1.countP (isStart k) = 0 ∧ (m.hist cs).2.containsKey k = true ∧
      k ∉ (m.hist cs).2.tasks.map Prod.fst := by
  induction cs generalizing m with
  | nil => exact ⟨rfl, hk, hno⟩
  | cons c cs ih =>
    have key : isStart k (m.call c).1 = false ∧ (m.call c).2.containsKey k = true ∧
        k ∉ (m.call c).2.tasks.map Prod.fst := by
      unfold JMap.containsKey at hk ⊢
      rw [decide_eq_true_eq] at hk
      cases c with
      | spawn k' =>
        by_cases hk' : k' ∈ m.keys
        · have e : m.spawn k' = m := if_pos hk'
          have e1 : m.call (V := V) (.spawn k') = (.refused k', m) := by simp [JMap.call, e]
          rw [e1]; exact ⟨rfl, by simpa using hk, hno⟩
        · have hne : ¬ k' = k := fun h => hk' (h ▸ hk)
          have e : m.spawn k' = { keys := m.keys ++ [k'], tasks := m.tasks ++ [(k', m.started)], started := m.started + 1 } :=
            if_neg hk'
          have e1 : m.call (V := V) (.spawn k') = (.started k',
              { keys := m.keys ++ [k'], tasks := m.tasks ++ [(k', m.started)], started := m.started + 1 }) := by
            simp [JMap.call, e]
          rw [e1]
          refine ⟨by simp [isStart, hne], by simp [hk], ?_⟩
          simp only [List.map_append, List.map_cons, List.map_nil, List.mem_append, List.mem_singleton]
          rintro (h | h)
          · exact hno h
          · exact hne h.symm
      | join d =>
        refine ⟨rfl, ?_⟩
        rw [decide_eq_true_eq]
        show k ∈ (m.pollJoinNext d).2.keys ∧ k ∉ (m.pollJoinNext d).2.tasks.map Prod.fst
        unfold JMap.pollJoinNext
        by_cases ht : m.tasks = []
        · rw [if_pos ht]; exact ⟨hk, hno⟩
        · rw [if_neg ht]
          rcases d with _ | ⟨i, e⟩
          · exact ⟨hk, hno⟩
          · simp only
            rcases hi : m.tasks[i]? with _ | ⟨k', n⟩
            · exact ⟨hk, hno⟩
            · have hkm : k' ∈ m.tasks.map Prod.fst :=
                List.mem_map.2 ⟨(k', n), List.mem_of_getElem? hi, rfl⟩
              have hne : k ≠ k' := fun h => hno (h ▸ hkm)
              have hsub : k ∉ (m.tasks.eraseIdx i).map Prod.fst := fun h =>
                hno ((List.map_subset _ (List.eraseIdx_subset)) h)
              cases e
              · exact ⟨by simp [hk, hne], hsub⟩
              · exact ⟨hk, hsub⟩
    obtain ⟨h1, h2, h3⟩ := key
    obtain ⟨i1, i2, i3⟩ := ih _ h2 h3
    simp only [JMap.hist]
    exact ⟨by rw [List.countP_cons, h1, i1]; rfl, i2, i3⟩

/-- A case: a task for 7 panics, one for 8 returns; 8 can be started again, 7 cannot; so the hypotheses of
`C66_panic_blocks_refuted` hold of a reachable state. -/
example :
    let r := ({} : JMap Nat).hist (V := Unit)
      [.spawn 7, .spawn 8, .spawn 7, .join (some (0, .panicked)), .join (some (0, .value ())), .spawn 8, .spawn 7]
    r.2.containsKey 7 = true ∧ r.2.tasks.map Prod.fst = [8] ∧ r.1.countP (isStart 8) = 2 ∧
      r.1.countP (isStart 7) = 1 := by decide

end
end MsgRs.Props
