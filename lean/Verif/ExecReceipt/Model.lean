import Verif.TraceOut.Model

/-!
# Receipts of transactions that were executed (C116)

`crates/executor/src/types.rs`: `to_receipt_and_events` (1012-1091), `collect_events_and_messages` (1093-1125),
`collect_items` (1127-1149), `TransactionExecutionInfo` (374-413) and `ExecutionResources` for a receipt (664-717).
A validator makes the receipts of a block that it executes with them (`crates/executor/src/concurrent_block.rs:178`).

Simplified: the fee and the index of the transaction, which are passed on, are left out; felts are naturals, and
conversions of counters to 64 bits, which do not fail on machines with 64 bits, are left out.
-/

namespace Verif.ExecReceipt

open Verif.GwTrace (Text XResources XEvent XMsg XCall XTree Revertible)
open Verif.TraceOut (Body Total)

/-- An event of a receipt. -/
structure Event where
  sender : Nat
  keys : List Nat
  data : List Nat
deriving DecidableEq, Repr

/-- A message of a receipt (`L2ToL1Message`). -/
structure Message where
  sender : Nat
  to : Nat
  payload : List Nat
deriving DecidableEq, Repr

/-- A `BTreeMap` from numbers to queues, in the order of its keys. -/
abbrev Queues (α : Type) := List (Int × List α)

/-- `entry(order).or_default().push_back(item)` (1099-1101, 1109-1112). -/
def push {α : Type} : Queues α → Int × α → Queues α
  | [], x => [(x.1, [x.2])]
  | (k, l) :: m, x =>
    if x.1 < k then (x.1, [x.2]) :: (k, l) :: m
    else if x.1 = k then (k, l ++ [x.2]) :: m
    else (k, l) :: push m x

/-- The first of each queue, in the order of the keys (1136-1138). -/
def heads {α : Type} (m : Queues α) : List α := m.filterMap fun e => e.2.head?

/-- What is left after a round: queues that became empty are removed (1138-1142). -/
def tails {α : Type} : Queues α → Queues α
  | [] => []
  | (_, []) :: m => tails m
  | (_, [_]) :: m => tails m
  | (k, _ :: b :: l) :: m => (k, b :: l) :: tails m

/-- A number that gets smaller in every round. -/
def size {α : Type} (m : Queues α) : Nat := (m.map fun e => e.2.length + 1).sum

theorem size_tails {α : Type} (m : Queues α) : size (tails m) ≤ size m := by
  fun_induction tails m <;> simp_all [size] <;> omega

theorem size_tails_lt {α : Type} (m : Queues α) (h : m ≠ []) : size (tails m) < size m := by
  cases m with
  | nil => exact absurd rfl h
  | cons e m =>
    have := size_tails m
    obtain ⟨k, l⟩ := e
    rcases l with _ | ⟨a, _ | ⟨b, l⟩⟩ <;> simp_all [tails, size] <;> omega

/-- `collect_items` (1130-1149): rounds until nothing is left. -/
def collectItems {α : Type} (m : Queues α) : List α :=
  if h : m = [] then []
  else heads m ++ collectItems (tails m)
termination_by size m
decreasing_by exact size_tails_lt m h

mutual
/-- The events of a call and then of its calls (1098-1107, 1122-1124). -/
def treeEvents : XTree → List (Int × Event)
  | .node c calls => c.events.map (fun e => (e.order, ⟨c.contract, e.keys, e.data⟩)) ++ treesEvents calls

def treesEvents : List XTree → List (Int × Event)
  | [] => []
  | t :: l => treeEvents t ++ treesEvents l
end

mutual
/-- The messages of a call and then of its calls (1108-1124). -/
def treeMessages : XTree → List (Int × Message)
  | .node c calls => c.messages.map (fun m => ((m.order : Int), ⟨m.sender, m.to, m.payload⟩)) ++ treesMessages calls

def treesMessages : List XTree → List (Int × Message)
  | [] => []
  | t :: l => treeMessages t ++ treesMessages l
end

/-- The call of a part that can be reverted (1059-1060, 1068-1070). -/
def ofRevertible : Revertible → Option XTree
  | .invocation t => t
  | .reverted _ => none

/-- The parts in the order in which they are walked (1038-1075). -/
def parts : Body → List XTree
  | .declare fee validate => validate.toList ++ fee.toList
  | .deployAccount constructor fee validate => validate.toList ++ constructor.toList ++ fee.toList
  | .invoke execute fee validate => validate.toList ++ (ofRevertible execute).toList ++ fee.toList
  | .l1Handler function => (ofRevertible function).toList

/-- The events of a receipt (1031-1078). -/
def events (b : Body) : List Event := collectItems (((parts b).flatMap treeEvents).foldl push [])

/-- The messages of a receipt (1031-1077). -/
def messages (b : Body) : List Message := collectItems (((parts b).flatMap treeMessages).foldl push [])

/-- `execution_status` (382-398): the reason of a revert. -/
def status : Body → Option Text
  | .declare _ _ => none
  | .deployAccount _ _ _ => none
  | .invoke (.invocation _) _ _ => none
  | .invoke (.reverted r) _ _ => some r
  | .l1Handler (.invocation _) => none
  | .l1Handler (.reverted r) => some r

/-- `ExecutionResources` of a receipt, without the builtins that are always zero here (668, 704-706). -/
structure Resources where
  steps : Nat
  holes : Nat
  pedersen : Nat
  rangeCheck : Nat
  ecdsa : Nat
  bitwise : Nat
  ecOp : Nat
  keccak : Nat
  poseidon : Nat
  segmentArena : Nat
  daL1Gas : Nat
  daL1DataGas : Nat
  l1Gas : Nat
  l1DataGas : Nat
  l2Gas : Nat
deriving DecidableEq, Repr

/-- `TryFrom<&ExecutionResources>` (664-717). -/
def resources (t : Total) : Resources where
  steps := t.computation.steps
  holes := t.computation.holes
  pedersen := t.computation.poseidon
  rangeCheck := t.computation.rangeCheck
  ecdsa := t.computation.ecdsa
  bitwise := t.computation.bitwise
  ecOp := t.computation.ecOp
  keccak := t.computation.keccak
  poseidon := t.computation.poseidon
  segmentArena := t.computation.segmentArena
  daL1Gas := t.daL1Gas
  daL1DataGas := t.daL1DataGas
  l1Gas := t.l1Gas
  l1DataGas := t.l1DataGas
  l2Gas := t.l2Gas

end Verif.ExecReceipt
