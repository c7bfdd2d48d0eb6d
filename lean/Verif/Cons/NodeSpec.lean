import Verif.Cons.Node
/-!
# Runs of the consensus task

A run remembers on the side the heights for which an engine has written a decision, and the highest committed block.
-/
namespace Verif.Cons

variable {V A S : Type}

/-- The height is settled: decided here, or its block is committed. -/
def Done (decided : List Nat) (committed : Option Nat) (h : Nat) : Prop := h ∈ decided ∨ ∃ c, committed = some c ∧ h ≤ c

/-- Runs in any order of events. `okMsg` and `okEvent` restrict the heights of messages and of decision events. An engine decides
its own height, and hands out a decision only after it wrote it. Restarts happen at any time, with readable logs. -/
inductive Reach (depth : Nat) (okMsg okEvent : Task V A S → List Nat → Option Nat → Nat → Prop) :
    Task V A S → List Nat → Option Nat → Prop
  | boot (c) : Reach depth okMsg okEvent (Task.boot depth c []) [] c
  | commit {t d c} (n : Nat) : Reach depth okMsg okEvent t d c → (∀ c', c = some c' → c' ≤ n) → Reach depth okMsg okEvent t d (some n)
  | message {t d c} (h : Nat) : Reach depth okMsg okEvent t d c → okMsg t d c h → Reach depth okMsg okEvent (t.message h) d c
  | write {t d c} (h : Nat) (e : Entry V A S) : Reach depth okMsg okEvent t d c → t.node.isActive h = true →
      (∀ dh v, e = .decision dh v → dh = h) →
      Reach depth okMsg okEvent { t with node := t.node.write h e } (if e.isDecision then h :: d else d) c
  | poll {t d c} (hs : List Nat) : Reach depth okMsg okEvent t d c → (∀ h ∈ hs, h ∈ d ∧ t.node.isActive h = true) →
      Reach depth okMsg okEvent { t with node := t.node.poll depth hs } d c
  | event {t d c} (h : Nat) : Reach depth okMsg okEvent t d c → h ∈ d → okEvent t d c h → Reach depth okMsg okEvent (t.decided h) d c
  | restart {t d c} : Reach depth okMsg okEvent t d c → Reach depth okMsg okEvent (Task.boot depth c t.node.disk) d c

/-- No restriction. -/
def anyHeight : Task V A S → List Nat → Option Nat → Nat → Prop := fun _ _ _ _ => True

/-- Peers send messages only for heights whose predecessors are settled. -/
def inOrder : Task V A S → List Nat → Option Nat → Nat → Prop := fun _ d c h => ∀ k, k < h → Done d c k

/-- A decision below the next height comes only when the next height is settled. -/
def notLate : Task V A S → List Nat → Option Nat → Nat → Prop := fun t d c h => t.next ≤ h ∨ Done d c t.next

end Verif.Cons
