import Verif.Quit.Model

/-! # What a shutdown should do (C109) -/

namespace Verif.Quit

/-- The states that a node can be in, from its start with some tasks that have not begun. -/
def Reach (grace : Nat) (s : Sys) : Prop :=
  ∃ tasks acts, (∀ t ∈ tasks, t.busy = false) ∧ run (start grace tasks) acts = some s

/-- The end of a run was caused by something that ought to give a failing exit status: a critical
task that failed, panicked or was aborted, or an index that could not be stored. -/
def Failed (acts : List Act) : Prop :=
  Act.critical .error ∈ acts ∨ Act.critical .panicked ∈ acts ∨ Act.critical .cancelled ∈ acts ∨
    Act.stored false ∈ acts

/-- Started through `tokio` and not through `util::task`. -/
def Raw (k : Kind) : Prop := k = .rawTask ∨ k = .rawBlocking

/-- No task started through `tokio` starts one through `util::task`. -/
def NoLate (acts : List Act) : Prop := ∀ p n k, Act.spawn p n k ∈ acts → Raw p.kind → Raw k

/-- The shutdown is over as far as the tracker is concerned. -/
def After (s : Sys) : Prop := s.phase = .storing ∨ s.phase = .dropping ∨ s.phase = .exited

/-- Steps of tasks that end and of `main`, without new tasks and without time passing. -/
def Act.ending : Act → Prop
  | .await _ => True
  | .finish _ => True
  | .drop _ => True
  | .cancel _ => True
  | .waited => True
  | .expire => True
  | .stored _ => True
  | .exit => True
  | .enter _ => True
  | _ => False

end Verif.Quit
