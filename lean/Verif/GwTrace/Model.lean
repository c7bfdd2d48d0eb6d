/-!
# Traces that are taken from the gateway (C114)

For blocks that cannot be run again the methods that trace transactions ask the gateway and translate its
answer: `crates/rpc/src/method/trace_block_transactions.rs` (230-655) and the same translation in
`crates/rpc/src/method/trace_transaction.rs` (238-244).

Simplified: felts are naturals, texts are lists of characters.  Numbers are naturals: sums that do not fit
into 64 or 128 bits, with which the program panics, are left out.  The flag `cairo_native` and signatures,
which are not shown, are left out.
-/

namespace Verif.GwTrace

/-- Text. -/
abbrev Text := List Char

/-- `CallType` of both (`crates/gateway-types/src/trace.rs:26-32`). -/
inductive CallType
  | call | delegate
deriving DecidableEq, Repr

/-- `CallType` of the executor. -/
inductive XCallType
  | call | delegate
deriving DecidableEq, Repr

/-- `EntryPointType` (`trace.rs:74-82`). -/
inductive EntryType
  | constructor | external | l1Handler
deriving DecidableEq, Repr

/-- `EntryPointType` of the executor. -/
inductive XEntryType
  | constructor | external | l1Handler
deriving DecidableEq, Repr

/-- `Gas` (`crates/gateway-types/src/reply.rs:359-367`). -/
structure Gas where
  l1 : Nat
  l1Data : Nat
  l2 : Option Nat
deriving DecidableEq, Repr

/-- `Gas::default`. -/
def Gas.default : Gas := ⟨0, 0, none⟩

/-- `ExecutionResources` (`reply.rs:320-329`) with its `BuiltinCounters`, without those that are not
shown. -/
structure Resources where
  steps : Nat
  holes : Nat
  rangeCheck : Nat
  pedersen : Nat
  poseidon : Nat
  ecOp : Nat
  ecdsa : Nat
  bitwise : Nat
  keccak : Nat
  segmentArena : Nat
  totalGas : Option Gas
deriving DecidableEq, Repr

/-- `ExecutionResources::default`. -/
def Resources.default : Resources := ⟨0, 0, 0, 0, 0, 0, 0, 0, 0, 0, none⟩

/-- `Event` (`trace.rs:34-40`); the order is signed. -/
structure Event where
  order : Int
  data : List Nat
  keys : List Nat
deriving DecidableEq, Repr

/-- `MsgToL1` (`trace.rs:84-90`). -/
structure Msg where
  order : Nat
  payload : List Nat
  to : Nat
deriving DecidableEq, Repr

/-- `FunctionInvocation` (`trace.rs:42-72`) without its calls. -/
structure Call where
  calldata : List Nat
  contract : Nat
  selector : Option Nat
  callType : Option CallType
  caller : Nat
  classHash : Option Nat
  entryType : Option EntryType
  events : List Event
  messages : List Msg
  result : List Nat
  resources : Resources
  failed : Bool
  gasConsumed : Option Nat
deriving DecidableEq, Repr

/-- `FunctionInvocation` with its calls. -/
inductive Tree
  | node (c : Call) (calls : List Tree)

/-- `TransactionTrace` (`trace.rs:7-18`). -/
structure Trace where
  revert : Option Text
  validate : Option Tree
  function : Option Tree
  feeTransfer : Option Tree
  hash : Option Nat

/-- `ComputationResources` (`crates/executor/src/types.rs:720-731`). -/
structure XResources where
  steps : Nat
  holes : Nat
  rangeCheck : Nat
  pedersen : Nat
  poseidon : Nat
  ecOp : Nat
  ecdsa : Nat
  bitwise : Nat
  keccak : Nat
  segmentArena : Nat
deriving DecidableEq, Repr

/-- `Event` of the executor. -/
structure XEvent where
  order : Int
  data : List Nat
  keys : List Nat
deriving DecidableEq, Repr

/-- `MsgToL1` (`types.rs:541-546`). -/
structure XMsg where
  order : Nat
  payload : List Nat
  to : Nat
  sender : Nat
deriving DecidableEq, Repr

/-- `FunctionInvocation` (`types.rs:523-538`) without its calls; `l1Gas` and `l2Gas` are
`InnerCallExecutionResources` (`types.rs:549-552`). -/
structure XCall where
  calldata : List Nat
  contract : Nat
  selector : Option Nat
  callType : Option XCallType
  caller : Nat
  classHash : Option Nat
  entryType : Option XEntryType
  events : List XEvent
  messages : List XMsg
  result : List Nat
  resources : XResources
  l1Gas : Nat
  l2Gas : Nat
  reverted : Bool
deriving DecidableEq, Repr

/-- `FunctionInvocation` with its calls. -/
inductive XTree
  | node (c : XCall) (calls : List XTree)

/-- `ExecutionResources` of the executor; `data_availability` is always zero here (428-429). -/
structure XTotal where
  resources : XResources
  l1Gas : Nat
  l1DataGas : Nat
  l2Gas : Nat
deriving DecidableEq, Repr

/-- `RevertibleFunctionInvocation`. -/
inductive Revertible
  | invocation (t : Option XTree)
  | reverted (reason : Text)

/-- `TransactionTrace` of the executor. -/
inductive XTrace
  | declare (feeTransfer validate : Option XTree) (total : XTotal)
  | deployAccount (constructor feeTransfer validate : Option XTree) (total : XTotal)
  | invoke (execute : Revertible) (feeTransfer validate : Option XTree) (total : XTotal)
  | l1Handler (function : Revertible) (total : XTotal)

/-- The variants of a transaction. -/
inductive Kind
  | declareV0 | declareV1 | declareV2 | declareV3
  | deployAccountV1 | deployAccountV3 | deployV0 | deployV1
  | invokeV0 | invokeV1 | invokeV3
  | l1Handler
deriving DecidableEq, Repr

/-- A transaction of the block. -/
structure Tx where
  hash : Nat
  kind : Kind
deriving DecidableEq, Repr

/-- 551-558. -/
def mapCallType : CallType → XCallType
  | .call => .call
  | .delegate => .delegate

/-- 566-578. -/
def mapEntryType : EntryType → XEntryType
  | .external => .external
  | .constructor => .constructor
  | .l1Handler => .l1Handler

/-- `map_gateway_computation_resources` (608-655). -/
def mapResources (r : Resources) : XResources where
  steps := r.steps
  holes := r.holes
  rangeCheck := r.rangeCheck
  pedersen := r.pedersen
  poseidon := r.poseidon
  ecOp := r.ecOp
  ecdsa := r.ecdsa
  bitwise := r.bitwise
  keccak := r.keccak
  segmentArena := r.segmentArena

/-- `map_gateway_function_invocation` (540-606) without the calls. -/
def mapCall (c : Call) : XCall where
  calldata := c.calldata
  contract := c.contract
  selector := c.selector
  callType := c.callType.map mapCallType
  caller := c.caller
  classHash := c.classHash
  entryType := c.entryType.map mapEntryType
  events := c.events.map fun e => ⟨e.order, e.data, e.keys⟩
  messages := c.messages.map fun m => ⟨m.order, m.payload, m.to, c.contract⟩
  result := c.result
  resources := mapResources c.resources
  l1Gas := (c.resources.totalGas.getD .default).l1
  l2Gas := (c.resources.totalGas.getD .default).l2.getD 0
  reverted := c.failed

mutual

/-- `map_gateway_function_invocation` (540-606). -/
def mapTree : Tree → XTree
  | .node c calls => .node (mapCall c) (mapTrees calls)

/-- The calls (560-564). -/
def mapTrees : List Tree → List XTree
  | [] => []
  | t :: ts => mapTree t :: mapTrees ts

end

/-- The call at the top. -/
def Tree.call : Tree → Call
  | .node c _ => c

/-- Resources and gas of a part, zero if it is not there (264-278). -/
def part (o : Option Tree) : Resources × Option Nat :=
  match o with
  | some t => (t.call.resources, t.call.gasConsumed)
  | none => (.default, none)

/-- The gas of layer 2 of a part (404-424). -/
def partL2 (p : Resources × Option Nat) : Nat :=
  match p.2 with
  | some g => g
  | none => (p.1.totalGas.getD .default).l2.getD 0

/-- 264-433. -/
def totalOf (t : Trace) : XTotal :=
  let v := part t.validate
  let f := part t.function
  let e := part t.feeTransfer
  { resources :=
      { steps := v.1.steps + f.1.steps + e.1.steps
        holes := v.1.holes + f.1.holes + e.1.holes
        rangeCheck := v.1.rangeCheck + f.1.rangeCheck + e.1.rangeCheck
        pedersen := v.1.pedersen + f.1.pedersen + e.1.pedersen
        poseidon := v.1.poseidon + f.1.poseidon + e.1.poseidon
        ecOp := v.1.ecOp + f.1.ecOp + e.1.ecOp
        ecdsa := v.1.ecdsa + f.1.ecdsa + e.1.ecdsa
        bitwise := v.1.bitwise + f.1.bitwise + e.1.bitwise
        keccak := v.1.keccak + f.1.keccak + e.1.keccak
        segmentArena := v.1.segmentArena + f.1.segmentArena + e.1.segmentArena }
    l1Gas := (v.1.totalGas.getD .default).l1 + (f.1.totalGas.getD .default).l1 +
      (e.1.totalGas.getD .default).l1
    l1DataGas := (v.1.totalGas.getD .default).l1Data + (f.1.totalGas.getD .default).l1Data +
      (e.1.totalGas.getD .default).l1Data
    l2Gas := partL2 v + partL2 f + partL2 e }

/-- 490-501, 519-530. -/
def revertible (t : Trace) : Revertible :=
  match t.revert with
  | some r => .reverted r
  | none => .invocation (t.function.map mapTree)

/-- `map_gateway_trace` (260-538). -/
def mapTrace (k : Kind) (t : Trace) : XTrace :=
  match k with
  | .declareV0 | .declareV1 | .declareV2 | .declareV3 =>
    .declare (t.feeTransfer.map mapTree) (t.validate.map mapTree) (totalOf t)
  | .deployAccountV1 | .deployAccountV3 | .deployV0 | .deployV1 =>
    .deployAccount (t.function.map mapTree) (t.feeTransfer.map mapTree) (t.validate.map mapTree) (totalOf t)
  | .invokeV0 | .invokeV1 | .invokeV3 =>
    .invoke (revertible t) (t.feeTransfer.map mapTree) (t.validate.map mapTree) (totalOf t)
  | .l1Handler => .l1Handler (revertible t) (totalOf t)

/-- The traces of a block (236-242): traces and transactions are put together by their position. -/
def mapBlock (traces : List Trace) (txs : List Tx) : List (Nat × XTrace) :=
  (traces.zip txs).map fun p => (p.2.hash, mapTrace p.2.kind p.1)

end Verif.GwTrace
