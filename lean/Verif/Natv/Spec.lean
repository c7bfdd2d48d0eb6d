import Verif.Natv.Model

/-! # What the cache of native classes should do (C110) -/

namespace Verif.Natv

/-- The states that the cache can be in. -/
def Reach (compile : Nat → Outcome) (cap : Nat) (s : Sys) : Prop :=
  ∃ acts, run compile (start cap) acts = some s

/-- The class was asked for with this definition. -/
def Asked (s : Sys) (h d : Nat) : Prop := ∃ o, (h, d, o) ∈ s.asked

/-- Every class is always asked for with the same definition: `defn` gives it. -/
def Proper (defn : Nat → Nat) (acts : List Act) : Prop := ∀ h d, Act.get h d ∈ acts → d = defn h

/-- The number of requests of a class in a run. -/
def asks (acts : List Act) : List Nat :=
  acts.filterMap fun a => match a with | .get h _ => some h | _ => none

/-- The classes whose compilation was begun, in order. -/
def begun (compile : Nat → Outcome) : Sys → List Act → List Nat
  | _, [] => []
  | s, a :: as => match step compile s a with
    | none => []
    | some s' => (match a, s'.thread with
      | .take, .working h _ => [h]
      | _, _ => []) ++ begun compile s' as

end Verif.Natv
