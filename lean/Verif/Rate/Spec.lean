import Verif.Rate.Model

/-
The words in which the claims about the bandwidth limit are put.
-/

namespace Verif.Rate.Spec

/-- How many bytes went through from the time `a` to the time `b`, both included. -/
def moved (log : List (Nat × Nat)) (a b : Nat) : Nat :=
  ((log.filter (fun e => decide (a ≤ e.1 ∧ e.1 ≤ b))).map Prod.snd).sum

/-- In every stretch of time no more went through than `max` bytes for each second of it,
`max` bytes that were saved up, and one.  (Times are in nanoseconds.) -/
def WithinLimit (max : Nat) (log : List (Nat × Nat)) : Prop :=
  ∀ a b, a ≤ b → moved log a b * 1000000000 ≤ max * (b - a) + 1000000000 * (max + 1)

/-- The bytes that arrived in a run. -/
def arrived : List Act → List UInt8
  | [] => []
  | .arrive bs :: as => bs ++ arrived as
  | _ :: as => arrived as

/-- Nothing in the run but the connection itself wakes the task. -/
def NoOtherWake (acts : List Act) : Prop := Act.wake ∉ acts

end Verif.Rate.Spec
