import Verif.GwTrace.Model

/-!
# Traces of the gateway: specification

A call in a tree of calls is named by its path: the position of the call in each list of calls on the way.
-/

namespace Verif.GwTrace

/-- The calls that a call made. -/
def Tree.calls : Tree → List Tree
  | .node _ l => l

/-- The call at the top of what is shown. -/
def XTree.call : XTree → XCall
  | .node c _ => c

/-- The calls that are shown for a call. -/
def XTree.calls : XTree → List XTree
  | .node _ l => l

/-- The call at a path. -/
def Tree.at (t : Tree) : List Nat → Option Call
  | [] => some t.call
  | i :: p => t.calls[i]?.bind fun u => u.at p

/-- The call that is shown at a path. -/
def XTree.at (t : XTree) : List Nat → Option XCall
  | [] => some t.call
  | i :: p => t.calls[i]?.bind fun u => u.at p

/-- Types of calls with the same name. -/
inductive SameCallType : Option CallType → Option XCallType → Prop
  | none : SameCallType none none
  | call : SameCallType (some .call) (some .call)
  | delegate : SameCallType (some .delegate) (some .delegate)

/-- Types of entry points with the same name. -/
inductive SameEntryType : Option EntryType → Option XEntryType → Prop
  | none : SameEntryType none none
  | external : SameEntryType (some .external) (some .external)
  | constructor : SameEntryType (some .constructor) (some .constructor)
  | l1Handler : SameEntryType (some .l1Handler) (some .l1Handler)

/-- The same resources. -/
def SameResources (r : Resources) (x : XResources) : Prop :=
  x.steps = r.steps ∧ x.holes = r.holes ∧ x.rangeCheck = r.rangeCheck ∧ x.pedersen = r.pedersen ∧
  x.poseidon = r.poseidon ∧ x.ecOp = r.ecOp ∧ x.ecdsa = r.ecdsa ∧ x.bitwise = r.bitwise ∧
  x.keccak = r.keccak ∧ x.segmentArena = r.segmentArena

/-- What is shown for a call is what the gateway says, apart from the gas of layer 2. -/
def Shows (c : Call) (x : XCall) : Prop :=
  x.calldata = c.calldata ∧ x.contract = c.contract ∧ x.selector = c.selector ∧
  SameCallType c.callType x.callType ∧ x.caller = c.caller ∧ x.classHash = c.classHash ∧
  SameEntryType c.entryType x.entryType ∧
  (∀ i : Nat, (x.events[i]?).map (fun e => (e.order, e.data, e.keys)) =
    (c.events[i]?).map (fun e => (e.order, e.data, e.keys))) ∧
  (∀ i : Nat, (x.messages[i]?).map (fun m => (m.order, m.payload, m.to, m.sender)) =
    (c.messages[i]?).map (fun m => (m.order, m.payload, m.to, c.contract))) ∧
  x.result = c.result ∧ SameResources c.resources x.resources ∧ x.reverted = c.failed ∧
  (∀ g, c.resources.totalGas = some g → x.l1Gas = g.l1) ∧
  (c.resources.totalGas = none → x.l1Gas = 0)

/-- What is shown for a part of a transaction: nothing if there is nothing, otherwise a tree with the same
paths in which every call is shown. -/
def ShowsPart (o : Option Tree) (x : Option XTree) : Prop :=
  (o = none ∧ x = none) ∨ ∃ t u, o = some t ∧ x = some u ∧
    ∀ p, (t.at p = none ∧ u.at p = none) ∨ ∃ c d, t.at p = some c ∧ u.at p = some d ∧ Shows c d

/-- The gas of layer 2 of a call: `gas_consumed` where the gateway has it, otherwise what is in the resources. -/
def Call.l2 (c : Call) : Nat :=
  match c.gasConsumed, c.resources.totalGas with
  | some g, _ => g
  | none, some ⟨_, _, some g⟩ => g
  | none, _ => 0

/-- A sum over the parts that are there. -/
def Trace.sum (t : Trace) (f : Call → Nat) : Nat :=
  (([t.validate, t.function, t.feeTransfer].filterMap id).map fun u => f u.call).sum

/-- The parts of a trace that is shown, by their names in the documents. -/
def XTrace.validate : XTrace → Option XTree
  | .declare _ v _ => v
  | .deployAccount _ _ v _ => v
  | .invoke _ _ v _ => v
  | .l1Handler _ _ => none

def XTrace.feeTransfer : XTrace → Option XTree
  | .declare f _ _ => f
  | .deployAccount _ f _ _ => f
  | .invoke _ f _ _ => f
  | .l1Handler _ _ => none

/-- The call of the constructor, of `__execute__` or of the handler, if it is shown. -/
def XTrace.main : XTrace → Option XTree
  | .declare _ _ _ => none
  | .deployAccount c _ _ _ => c
  | .invoke (.invocation t) _ _ _ => t
  | .invoke (.reverted _) _ _ _ => none
  | .l1Handler (.invocation t) _ => t
  | .l1Handler (.reverted _) _ => none

/-- The reason of a revert, if one is shown. -/
def XTrace.reason : XTrace → Option Text
  | .invoke (.reverted r) _ _ _ => some r
  | .l1Handler (.reverted r) _ => some r
  | _ => none

def XTrace.total : XTrace → XTotal
  | .declare _ _ t => t
  | .deployAccount _ _ _ t => t
  | .invoke _ _ _ t => t
  | .l1Handler _ t => t

/-- The documented types of traces. -/
inductive TraceType
  | declare | deployAccount | invoke | l1Handler
deriving DecidableEq

def XTrace.type : XTrace → TraceType
  | .declare _ _ _ => .declare
  | .deployAccount _ _ _ _ => .deployAccount
  | .invoke _ _ _ _ => .invoke
  | .l1Handler _ _ => .l1Handler

/-- The type of trace for a transaction; transactions that deploy a contract without an account have the one of
those that deploy accounts. -/
def Kind.traceType : Kind → TraceType
  | .declareV0 => .declare | .declareV1 => .declare | .declareV2 => .declare | .declareV3 => .declare
  | .deployAccountV1 => .deployAccount | .deployAccountV3 => .deployAccount
  | .deployV0 => .deployAccount | .deployV1 => .deployAccount
  | .invokeV0 => .invoke | .invokeV1 => .invoke | .invokeV3 => .invoke
  | .l1Handler => .l1Handler

end Verif.GwTrace
