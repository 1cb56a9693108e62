import Verif.Model.Bytes
/-!
# msg-common/src/task.rs — `JoinMap`, keyed tasks

Tokio's `JoinSet` is a list of running tasks; which task ends next, and how, is the environment's choice. A task is
named by its key and a serial number; its future returns its key (as the futures msg-socket spawns do,
sub/driver.rs:228-290; the type would allow another key).
-/
namespace MsgRs.JoinMap
open MsgRs

/-- `JoinMap<K, V>`, task.rs:11-15. `started` (ghost): the number of tasks spawned so far. -/
structure JMap (K : Type) where
  keys : List K := []
  tasks : List (K × Nat) := []
  started : Nat := 0
  deriving Repr

/-- How a task ends: its future returned a value, or it panicked (or was aborted). -/
inductive End (V : Type) where
  | value (v : V)
  | panicked
  deriving Repr

/-- What `poll_join_next` returns. -/
inductive Join (K V : Type) where
  | pending
  | ok (key : K) (v : V)
  | err
  | empty
  deriving Repr, DecidableEq

/-- `len`, task.rs:24-26 -/
def JMap.len (m : JMap K) : Nat := m.tasks.length

/-- `spawn`, task.rs:41-49: ignored if the key is present. -/
def JMap.spawn [DecidableEq K] (m : JMap K) (k : K) : JMap K :=
  if k ∈ m.keys then m
  else { keys := m.keys ++ [k], tasks := m.tasks ++ [(k, m.started)], started := m.started + 1 }

/-- `contains_key`, task.rs:52-54 -/
def JMap.containsKey [DecidableEq K] (m : JMap K) (k : K) : Bool := decide (k ∈ m.keys)

/-- `poll_join_next`, task.rs:93-105; `done`: the position of a task that ended, and how, if the `JoinSet` has one to
report. -/
def JMap.pollJoinNext [DecidableEq K] (m : JMap K) (done : Option (Nat × End V)) : Join K V × JMap K :=
  if m.tasks = [] then (.empty, m)
  else match done with
    | none => (.pending, m)
    | some (i, e) =>
      match m.tasks[i]? with
      | none => (.pending, m)
      | some (k, _) =>
        match e with
        | .value v => (.ok k v, { m with tasks := m.tasks.eraseIdx i, keys := m.keys.filter (· ≠ k) })
        | .panicked => (.err, { m with tasks := m.tasks.eraseIdx i })

/-- The calls. -/
inductive Call (K V : Type) where
  | spawn (k : K)
  | join (done : Option (Nat × End V))

/-- What a call did: a task was started or not; a task ended. -/
inductive Ev (K V : Type) where
  | started (k : K)
  | refused (k : K)
  | joined (j : Join K V)
  deriving Repr

/-- One call. -/
def JMap.call [DecidableEq K] (m : JMap K) : Call K V → Ev K V × JMap K
  | .spawn k => (if (m.spawn k).started = m.started then .refused k else .started k, m.spawn k)
  | .join d => let (j, m) := m.pollJoinNext d; (.joined j, m)

/-- A history of calls. -/
def JMap.hist [DecidableEq K] (m : JMap K) : List (Call K V) → List (Ev K V) × JMap K
  | [] => ([], m)
  | c :: cs =>
    let (e, m) := m.call c
    let (es, m) := m.hist cs
    (e :: es, m)

end MsgRs.JoinMap
