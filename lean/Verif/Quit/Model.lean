/-!
# Shutdown (C109)

`util::task` (`crates/util/src/task.rs`) starts tasks under a tracker and cancels them through one
token.  `node_main` (`crates/pathfinder/src/bin/pathfinder/main.rs:509-578`) waits for a signal or
the end of a critical task, closes the tracker, waits for it up to a grace period, stores the
in-memory index and returns; `main` (`main.rs:45-58`) then drops the runtime.

The model is a transition system.  Simplified: time is counted in ticks; the work of a task is
opaque; the pool of the peer-to-peer feature is left out.  Trusted: tokio drops a future only while
it is waiting, drops blocking work only if it has not begun, and a runtime that is dropped waits for
everything else.
-/

namespace Verif.Quit

/-- How a task was started. -/
inductive Kind
  /-- `util::task::spawn` (`task.rs:26-45`): tracked, dropped once the token is cancelled -/
  | task
  /-- `util::task::spawn_with_cancel` (`task.rs:47-61`): tracked, handles the token itself -/
  | coop
  /-- `util::task::spawn_blocking` (`task.rs:63-83`): tracked -/
  | blocking
  /-- `tokio::spawn`, such as a connection of the RPC server -/
  | rawTask
  /-- `tokio::task::spawn_blocking` (`crates/pathfinder/src/state/sync/repair.rs:43,84`) -/
  | rawBlocking
deriving DecidableEq, Repr

/-- Whether the tracker counts the task. -/
def Kind.tracked : Kind → Bool
  | .task => true
  | .coop => true
  | .blocking => true
  | .rawTask => false
  | .rawBlocking => false

/-- Whether it is a closure on the blocking pool. -/
def Kind.isBlocking : Kind → Bool
  | .blocking => true
  | .rawBlocking => true
  | _ => false

/-- A task that has not ended. -/
structure Task where
  name : Nat
  kind : Kind
  /-- it is in the middle of work that cannot be interrupted: between two waiting points of a
  future, or in a closure that has begun on the blocking pool -/
  busy : Bool
deriving DecidableEq, Repr

/-- Where `node_main` and `main` are. -/
inductive Phase
  /-- in `tokio::select!` over signals and critical tasks (`main.rs:512-528`) -/
  | running
  /-- in `timeout(shutdown_grace_period, tracker::wait())` (`main.rs:533-542`) -/
  | waiting
  /-- in `store_in_memory_state` (`main.rs:559-571`) -/
  | storing
  /-- dropping the runtime (`main.rs:48-56`) -/
  | dropping
  /-- the process has ended -/
  | exited
deriving DecidableEq, Repr

/-- How a critical task ended. -/
inductive Outcome
  | ok
  | error
  | panicked
  | cancelled
deriving DecidableEq, Repr

/-- The process. -/
structure Sys where
  phase : Phase
  tasks : List Task
  /-- `shutdown_grace_period` -/
  grace : Nat
  clock : Nat
  /-- when the shutdown began -/
  since : Nat
  /-- the result to return: `true` is `Ok` -/
  result : Bool
  /-- the grace period ran out -/
  expired : Bool
  /-- the tasks that ended by themselves, newest first (not read by the program) -/
  done : List Task
  /-- the tasks that were dropped, newest first (not read by the program) -/
  cut : List Task
deriving DecidableEq, Repr

/-- A node that has just become ready. -/
def start (grace : Nat) (tasks : List Task) : Sys :=
  ⟨.running, tasks, grace, 0, 0, true, false, [], []⟩

/-- What can happen. -/
inductive Act
  /-- `node_main` starts a task -/
  | spawnMain (name : Nat) (k : Kind)
  /-- a task starts a task -/
  | spawn (parent : Task) (name : Nat) (k : Kind)
  /-- a task begins work -/
  | enter (t : Task)
  /-- a future reaches a waiting point -/
  | await (t : Task)
  /-- a task ends by itself -/
  | finish (t : Task)
  /-- `select!` in `spawn` sees the cancelled token -/
  | cancel (t : Task)
  | tick
  | signal
  | critical (o : Outcome)
  /-- `tracker::wait` returns -/
  | waited
  /-- the timeout fires -/
  | expire
  /-- the index was stored, or storing it failed -/
  | stored (ok : Bool)
  /-- the runtime drops a task -/
  | drop (t : Task)
  | exit
deriving DecidableEq, Repr

/-- `handle_critical_task_result` (`main.rs:1173-1197`). -/
def criticalResult : Outcome → Bool
  | .ok => true
  | .error => false
  | .panicked => false
  | .cancelled => false

/-- `tracker::close` (`task.rs:112-123`) and the start of the wait (`main.rs:530-535`). -/
def close (s : Sys) (result : Bool) : Sys :=
  { s with phase := .waiting, since := s.clock, result := result }

/-- The tracker is empty (`task.rs:125-131`); it is closed in this phase. -/
def trackerEmpty (s : Sys) : Bool := ! s.tasks.any fun t => t.kind.tracked

/-- One step; `none` if it cannot happen. -/
def step (s : Sys) : Act → Option Sys
  | .spawnMain n k =>
    if s.phase = .running then some { s with tasks := ⟨n, k, false⟩ :: s.tasks } else none
  | .spawn p n k =>
    if p ∈ s.tasks ∧ p.busy = true ∧ s.phase ≠ .dropping then
      some { s with tasks := ⟨n, k, false⟩ :: s.tasks } else none
  | .enter t =>
    if t ∈ s.tasks ∧ t.busy = false ∧ s.phase ≠ .dropping then
      some { s with tasks := { t with busy := true } :: s.tasks.erase t } else none
  | .await t =>
    if t ∈ s.tasks ∧ t.busy = true ∧ t.kind.isBlocking = false then
      some { s with tasks := { t with busy := false } :: s.tasks.erase t } else none
  | .finish t =>
    if t ∈ s.tasks ∧ t.busy = true then
      some { s with tasks := s.tasks.erase t, done := t :: s.done } else none
  | .cancel t =>
    if t ∈ s.tasks ∧ t.kind = .task ∧ t.busy = false ∧ s.phase ≠ .running then
      some { s with tasks := s.tasks.erase t, cut := t :: s.cut } else none
  | .tick =>
    if s.phase = .exited then none
    else if s.phase = .waiting ∧ s.since + s.grace ≤ s.clock then none
    else some { s with clock := s.clock + 1 }
  | .signal => if s.phase = .running then some (close s true) else none
  | .critical o => if s.phase = .running then some (close s (criticalResult o)) else none
  | .waited =>
    if s.phase = .waiting ∧ trackerEmpty s = true then some { s with phase := .storing } else none
  | .expire =>
    if s.phase = .waiting ∧ s.since + s.grace ≤ s.clock then
      some { s with phase := .storing, expired := true } else none
  | .stored ok =>
    if s.phase = .storing then
      some { s with phase := .dropping, result := s.result && ok } else none
  | .drop t =>
    if t ∈ s.tasks ∧ s.phase = .dropping ∧ t.busy = false then
      some { s with tasks := s.tasks.erase t, cut := t :: s.cut } else none
  | .exit =>
    if s.phase = .dropping ∧ s.tasks = [] then some { s with phase := .exited } else none

/-- Steps in order. -/
def run : Sys → List Act → Option Sys
  | s, [] => some s
  | s, a :: as => (step s a).bind fun s' => run s' as

end Verif.Quit
