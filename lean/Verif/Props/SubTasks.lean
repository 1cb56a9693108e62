import Verif.Props.Sub
import Verif.Model.JoinMap
/-!
# The subscriber's connection attempts are tasks of a `JoinMap`
-/
namespace MsgRs.Props
open MsgRs Sub
variable {A : Type} [DecidableEq A]

/-- The task set holds the connection attempts of the driver, in the same order, under the same keys. -/
def TasksOf (m : JoinMap.JMap A) (d : Driver A) : Prop := m.keys = d.keys ∧ m.tasks.map (·.1) = d.tasks

/-- How a connection attempt ended, if it did: it returned a connection or a failure, or it panicked. -/
def endOf (token : Option Bytes) (out : TaskOut) : Option (JoinMap.End (Option (HsEnv × List ReadAns))) :=
  match taskResult token out with
  | .panic => some .panicked
  | .ok none => none
  | .ok (some r) => some (.value r)

/-- What the task set is told by the runtime: the task at this position has ended. -/
def doneOf (token : Option Bytes) (j : Option (Nat × TaskOut)) : Option (Nat × JoinMap.End (Option (HsEnv × List ReadAns))) :=
  match j with
  | none => none
  | some (i, out) => (endOf token out).map fun r => (i, r)

theorem eraseIdx_fst (l : List (A × Nat)) (i : Nat) : (l.eraseIdx i).map (·.1) = (l.map (·.1)).eraseIdx i := by
  induction l generalizing i with
  | nil => rfl
  | cons x l ih => cases i <;> simp [ih]

theorem onConnection_tasks (d : Driver A) (order : List Str) (a : A) (via : HsEnv) (input : List ReadAns) :
    (d.onConnection order a via input).keys = d.keys ∧ (d.onConnection order a via input).tasks = d.tasks := by
  unfold Driver.onConnection
  split
  · exact ⟨rfl, rfl⟩
  · exact ⟨rfl, rfl⟩

/-- C66, used by the subscriber: its connection attempts are the tasks of a keyed task set; `connect` is `spawn`; when it looks for finished attempts it does what
`poll_join_next` says: it goes on exactly if an attempt returned (and then its key is free), while one that panicked is forgotten without freeing its key. -/
theorem C66_subscriber_tasks (m : JoinMap.JMap A) (d : Driver A) (h : TasksOf m d) :
    (∀ a, TasksOf (m.spawn a) (d.connect a)) ∧
    (∀ e : Env A, TasksOf (m.pollJoinNext (doneOf d.opts.token e.join)).2 (d.joinStep e).1 ∧
      ((d.joinStep e).2 = .again ↔ ∃ a r, (m.pollJoinNext (doneOf d.opts.token e.join)).1 = .ok a r)) := by
  obtain ⟨h1, h2⟩ := h
  refine ⟨fun a => ?_, fun e => ?_⟩
  · unfold JoinMap.JMap.spawn Driver.connect
    rw [h1]
    split
    · exact ⟨h1, h2⟩
    · exact ⟨rfl, by simp [h2]⟩
  · unfold Driver.joinStep JoinMap.JMap.pollJoinNext doneOf
    cases hj : e.join with
    | none =>
      simp only
      split
      · exact ⟨⟨h1, h2⟩, by simp⟩
      · exact ⟨⟨h1, h2⟩, by simp⟩
    | some x =>
      obtain ⟨i, out⟩ := x
      simp only
      by_cases he : m.tasks = []
      · rw [if_pos he]
        have : d.tasks = [] := by rw [← h2, he]; rfl
        simp only [this, List.getElem?_nil]
        exact ⟨⟨h1, h2⟩, by simp⟩
      rw [if_neg he]
      have hget : d.tasks[i]? = (m.tasks[i]?).map (·.1) := by rw [← h2, List.getElem?_map]
      have her : (m.tasks.eraseIdx i).map (·.1) = d.tasks.eraseIdx i := by rw [← h2, eraseIdx_fst]
      unfold endOf
      cases hm : m.tasks[i]? with
      | none =>
        rw [hget, hm]
        simp only [Option.map_none]
        cases taskResult d.opts.token out with
        | panic => simp only [Option.map_some, hm]; exact ⟨⟨h1, h2⟩, by simp⟩
        | ok o => cases o <;> (simp only [Option.map_some, Option.map_none, hm]; exact ⟨⟨h1, h2⟩, by simp⟩)
      | some y =>
        obtain ⟨a, n⟩ := y
        rw [hget, hm]
        simp only [Option.map_some]
        cases ht : taskResult d.opts.token out with
        | panic => simp only [Option.map_some, hm]; exact ⟨⟨h1, her⟩, by simp⟩
        | ok o =>
          cases o with
          | none => simp only [Option.map_none]; exact ⟨⟨h1, h2⟩, by simp⟩
          | some r =>
            simp only [Option.map_some, hm]
            cases r with
            | none => exact ⟨⟨by simp [h1], her⟩, by simp⟩
            | some c =>
              obtain ⟨via, input⟩ := c
              obtain ⟨g1, g2⟩ := onConnection_tasks
                { d with tasks := d.tasks.eraseIdx i, keys := d.keys.filter (· ≠ a) } e.topicOrder a via input
              exact ⟨⟨by rw [g1]; simp [h1], by rw [g2]; exact her⟩, by simp⟩


theorem jhist_snoc {V : Type} (cs : List (JoinMap.Call A V)) (c : JoinMap.Call A V) (m : JoinMap.JMap A) :
    (m.hist (cs ++ [c])).2 = ((m.hist cs).2.call c).2 := by
  induction cs generalizing m with
  | nil => rfl
  | cons x cs ih => exact ih _

theorem hangUp_tasks (d : Driver A) (a : A) : (d.hangUp a).keys = d.keys ∧ (d.hangUp a).tasks = d.tasks := by
  unfold Driver.hangUp
  split
  · split <;> exact ⟨rfl, rfl⟩
  · exact ⟨rfl, rfl⟩

theorem reset_tasks (d : Driver A) (a : A) : (d.resetPublisher a).keys = d.keys ∧ (d.resetPublisher a).tasks = d.tasks := hangUp_tasks d a

theorem told_tasks (c : Cmd) (l : List (A × PState)) (d : Driver A) : (d.tell c l).keys = d.keys ∧ (d.tell c l).tasks = d.tasks :=
  tell_induct (P := fun e => e.keys = d.keys ∧ e.tasks = d.tasks) c (fun _ _ _ h _ => h)
    (fun e a h => ⟨(reset_tasks e a).1.trans h.1, (reset_tasks e a).2.trans h.2⟩) l d ⟨rfl, rfl⟩

/-- A history of a task set that has the attempts the subscriber has. -/
def HasTasks (d : Driver A) : Prop := ∃ cs : List (JoinMap.Call A (Option (HsEnv × List ReadAns))), TasksOf (({} : JoinMap.JMap A).hist cs).2 d

theorem HasTasks.same {d e : Driver A} (h : HasTasks d) (h1 : e.keys = d.keys) (h2 : e.tasks = d.tasks) : HasTasks e := by
  obtain ⟨cs, g1, g2⟩ := h
  exact ⟨cs, g1.trans h1.symm, g2.trans h2.symm⟩

theorem HasTasks.connect {d : Driver A} (h : HasTasks d) (a : A) : HasTasks (d.connect a) := by
  obtain ⟨cs, g⟩ := h
  refine ⟨cs ++ [.spawn a], ?_⟩
  rw [jhist_snoc]
  exact (C66_subscriber_tasks _ d g).1 a

theorem HasTasks.join {d : Driver A} (h : HasTasks d) (i : Nat) (a : A) (hi : d.tasks[i]? = some a) :
    HasTasks { d with tasks := d.tasks.eraseIdx i } ∧ HasTasks { d with tasks := d.tasks.eraseIdx i, keys := d.keys.filter (· ≠ a) } := by
  obtain ⟨cs, g1, g2⟩ := h
  have hget : ((({} : JoinMap.JMap A).hist cs).2.tasks[i]?).map (·.1) = some a := by rw [← List.getElem?_map, g2]; exact hi
  have her : ((({} : JoinMap.JMap A).hist cs).2.tasks.eraseIdx i).map (·.1) = d.tasks.eraseIdx i := by rw [eraseIdx_fst, g2]
  cases hm : (({} : JoinMap.JMap A).hist cs).2.tasks[i]? with
  | none => rw [hm] at hget; cases hget
  | some y =>
    obtain ⟨b, n⟩ := y
    rw [hm] at hget
    cases hget
    have hne : (({} : JoinMap.JMap A).hist cs).2.tasks ≠ [] := by intro hc; rw [hc] at hm; cases hm
    constructor
    · refine ⟨cs ++ [.join (some (i, .panicked))], ?_⟩
      rw [jhist_snoc]
      simp only [JoinMap.JMap.call, JoinMap.JMap.pollJoinNext, if_neg hne, hm]
      exact ⟨g1, her⟩
    · refine ⟨cs ++ [.join (some (i, .value none))], ?_⟩
      rw [jhist_snoc]
      simp only [JoinMap.JMap.call, JoinMap.JMap.pollJoinNext, if_neg hne, hm]
      exact ⟨by rw [g1], her⟩

theorem HasTasks.step {L : Lossy} {D : Decompressors} {d e : Driver A} (hs : DStep L D d e) (h : HasTasks d) : HasTasks e := by
  cases hs with
  | time dt => exact h
  | wake w => exact h
  | start _ => exact h
  | push c _ _ => exact h
  | recv m ms _ _ => exact h
  | drop _ => exact h
  | session u s s' _ _ => exact h
  | command c q _ =>
    have h' : HasTasks { d with cmdq := q, processed := d.processed ++ [c] } := h
    cases c with
    | shutdown => exact h'
    | subscribe t =>
      show HasTasks (Driver.subscribe _ t)
      unfold Driver.subscribe
      split
      · exact h'
      · exact h'.same (told_tasks _ _ _).1 (told_tasks _ _ _).2
    | unsubscribe t =>
      show HasTasks (Driver.unsubscribe _ t)
      unfold Driver.unsubscribe
      split
      · exact h'.same (told_tasks _ _ _).1 (told_tasks _ _ _).2
      · exact h'
    | connect a =>
      simp only [Driver.onCommand]
      split
      · exact h'
      · exact (h'.connect a).same (reset_tasks _ a).1 (reset_tasks _ a).2
    | disconnect a =>
      simp only [Driver.onCommand]
      split
      · exact h'.same (hangUp_tasks _ a).1 (hangUp_tasks _ a).2
      · exact h'
  | take a u s t ms payload _ _ _ _ =>
    have hd : ∀ x : Driver A, (x.deliver a u t payload).keys = x.keys ∧ (x.deliver a u t payload).tasks = x.tasks := by
      intro x
      unfold Driver.deliver
      split
      · exact ⟨rfl, rfl⟩
      · split <;> exact ⟨rfl, rfl⟩
    exact h.same (hd _).1 (hd _).2
  | skip a u s t ms _ _ _ _ => exact h
  | lost a u s _ _ _ _ => exact h.same (reset_tasks _ a).1 (reset_tasks _ a).2
  | arm a u s _ _ _ _ => exact h
  | backoff a b b' o _ _ => exact h
  | retry a b _ => exact h.connect a
  | terminate a b _ => exact h
  | joinPanic i a hi => exact (h.join i a hi).1
  | joinFail i a hi => exact (h.join i a hi).2
  | joinOk i a order out via input hi _ => exact (h.join i a hi).2.same (onConnection_tasks _ _ _ _ _).1 (onConnection_tasks _ _ _ _ _).2

/-- C66, used by the subscriber, for every history: its connection attempts are those of a keyed task set after some history of calls. So what C66 says of
the task set holds of them, including the key left behind by an attempt that panicked. -/
theorem C66_subscriber_history (L : Lossy) (D : Decompressors) (d : Driver A) (h : Reach L D d) : HasTasks d := by
  obtain ⟨opts, now, d0, acts, h0, h1⟩ := h
  refine DSteps.induct (P := HasTasks) (fun d e hs => HasTasks.step hs) (run_steps acts d0 d h1) ?_
  unfold Driver.new at h0
  split at h0
  · cases h0
  · cases h0
    exact ⟨[], rfl, rfl⟩

/-- Two attempts in progress; the first one fails: the driver goes on and its key is free; had it panicked, the driver would sleep and the key would stay. -/
example : let d : Driver Nat := (({ opts := {} } : Driver Nat).connect 5).connect 6
    let e (o : TaskOut) : Env Nat := { order := [], join := some (0, o) }
    d.tasks = [5, 6] ∧ ((d.joinStep (e .failed)).2, (d.joinStep (e .failed)).1.keys) = (.again, [6]) ∧
    ((d.joinStep (e .panicked)).2, (d.joinStep (e .panicked)).1.keys) = (.pending, [5, 6]) := by
  refine ⟨rfl, rfl, rfl⟩

end MsgRs.Props
