import Verif.GwTrace.Model

/-!
# How traces are written (C115)

`crates/rpc/src/dto/simulation.rs` (55-631, 743-759) with `SerializeStruct` (`crates/rpc/src/dto.rs:143-207`)
and the answer of `traceBlockTransactions` (`crates/rpc/src/method/trace_block_transactions.rs:657-770`).

Simplified: a value of JSON that writes a felt is `felt`, the texts of felts are left out.  An object is a list
of fields, the newest first, so that a field that is written again replaces the old one; the order in which
fields are printed is left out.  Maps and sets are lists in the order in which they are walked.
-/

namespace Verif.TraceOut

open Verif.GwTrace (Text XCallType XEntryType XResources XEvent XMsg XCall XTree Revertible)

/-- `RpcVersion` (`crates/rpc/src/lib.rs:46-55`). -/
inductive Version
  | v06 | v07 | v08 | v09 | v10 | pathfinder01
deriving DecidableEq, Repr

/-- The derived order of `RpcVersion`. -/
def Version.rank : Version → Nat
  | .v06 => 0
  | .v07 => 1
  | .v08 => 2
  | .v09 => 3
  | .v10 => 4
  | .pathfinder01 => 5

/-- JSON. -/
inductive J
  | bool (b : Bool)
  | num (n : Int)
  | felt (n : Nat)
  | str (s : Text)
  | arr (l : List J)
  | obj (fields : List (String × J))

/-- The fields of an object that is being written. -/
abbrev Fields := List (String × J)

/-- The value of a field. -/
def lookup (k : String) : Fields → Option J
  | [] => none
  | (k', v) :: r => if k' = k then some v else lookup k r

/-- `serialize_field` (`dto.rs:144-152`). -/
def put (f : Fields) (k : String) (v : J) : Fields := (k, v) :: f

/-- `serialize_optional` (`dto.rs:165-175`). -/
def putOpt (f : Fields) (k : String) : Option J → Fields
  | some v => put f k v
  | none => f

/-- `flatten` (`dto.rs:192-202`). -/
def flatten (f : Fields) : J → Fields
  | .obj g => g ++ f
  | _ => f

/-- Felts as an array. -/
def felts (l : List Nat) : J := .arr (l.map .felt)

/-- `Event` (258-269). -/
def writeEvent (e : XEvent) : J :=
  let f := put [] "order" (.num e.order)
  let f := put f "data" (felts e.data)
  let f := put f "keys" (felts e.keys)
  .obj f

/-- `MsgToL1` (271-283). -/
def writeMsg (m : XMsg) : J :=
  let f := put [] "order" (.num m.order)
  let f := put f "payload" (felts m.payload)
  let f := put f "to_address" (.felt m.to)
  let f := put f "from_address" (.felt m.sender)
  .obj f

/-- A counter that is left out if it is zero (294-341). -/
def putCount (f : Fields) (k : String) (n : Nat) : Fields :=
  if n ≠ 0 then put f k (.num n) else f

/-- `ComputationResources` (287-344). -/
def writeComputation (r : XResources) : J :=
  let f := put [] "steps" (.num r.steps)
  let f := putCount f "memory_holes" r.holes
  let f := putCount f "range_check_builtin_applications" r.rangeCheck
  let f := putCount f "pedersen_builtin_applications" r.pedersen
  let f := putCount f "poseidon_builtin_applications" r.poseidon
  let f := putCount f "ec_op_builtin_applications" r.ecOp
  let f := putCount f "ecdsa_builtin_applications" r.ecdsa
  let f := putCount f "bitwise_builtin_applications" r.bitwise
  let f := putCount f "keccak_builtin_applications" r.keccak
  let f := putCount f "segment_arena_builtin" r.segmentArena
  .obj f

/-- `InnerCallExecutionResources` (348-358). -/
def writeInner (l1 l2 : Nat) : J :=
  let f := put [] "l1_gas" (.num l1)
  let f := put f "l2_gas" (.num l2)
  .obj f

/-- 212-215. -/
def callTypeName : XCallType → Text
  | .call => "CALL".toList
  | .delegate => "DELEGATE".toList

/-- 230-234. -/
def entryTypeName : XEntryType → Text
  | .constructor => "CONSTRUCTOR".toList
  | .external => "EXTERNAL".toList
  | .l1Handler => "L1_HANDLER".toList

/-- `FunctionInvocation` (204-256), given what is written for its calls. -/
def writeCall (v : Version) (c : XCall) (calls : List J) : J :=
  let f := putOpt [] "call_type" (c.callType.map fun t => .str (callTypeName t))
  let f := put f "caller_address" (.felt c.caller)
  let f := put f "calls" (.arr calls)
  let f := putOpt f "class_hash" (c.classHash.map .felt)
  let f := putOpt f "entry_point_type" (c.entryType.map fun t => .str (entryTypeName t))
  let f := put f "events" (.arr (c.events.map writeEvent))
  let f := put f "contract_address" (.felt c.contract)
  let f := putOpt f "entry_point_selector" (c.selector.map .felt)
  let f := put f "calldata" (felts c.calldata)
  let f := put f "messages" (.arr (c.messages.map writeMsg))
  let f := put f "result" (felts c.result)
  if v.rank ≥ Version.v08.rank then
    let f := put f "execution_resources" (writeInner c.l1Gas c.l2Gas)
    .obj (put f "is_reverted" (.bool c.reverted))
  else
    .obj (put f "execution_resources" (writeComputation c.resources))

mutual
/-- `FunctionInvocation` (204-256). -/
def writeTree (v : Version) : XTree → J
  | .node c calls => writeCall v c (writeTrees v calls)

/-- The calls (218-222). -/
def writeTrees (v : Version) : List XTree → List J
  | [] => []
  | t :: l => writeTree v t :: writeTrees v l
end

/-- `DUMMY_REVERTED_FUNCTION_INVOCATION` (18-47). -/
def dummy : XTree :=
  .node ⟨[], 0, some 0, some .call, 0, some 0, some .l1Handler, [], [], [],
    ⟨0, 0, 0, 0, 0, 0, 0, 0, 0, 0⟩, 0, 0, true⟩ []

/-- `RevertibleFunctionInvocation` (611-631). -/
def writeRevertible (v : Version) : Revertible → J
  | .invocation (some t) => writeTree v t
  | .invocation none => .obj []
  | .reverted reason => .obj (put [] "revert_reason" (.str reason))

/-- `ExecutionResources` (`crates/executor/src/types.rs:656-662`). -/
structure Total where
  computation : XResources
  daL1Gas : Nat
  daL1DataGas : Nat
  l1Gas : Nat
  l1DataGas : Nat
  l2Gas : Nat
deriving DecidableEq, Repr

/-- `ExecutionResources` (581-609). -/
def writeTotal (v : Version) (t : Total) : J :=
  if v.rank ≥ Version.v08.rank then
    let f := put [] "l1_gas" (.num t.l1Gas)
    let f := put f "l1_data_gas" (.num t.l1DataGas)
    .obj (put f "l2_gas" (.num t.l2Gas))
  else
    let f := flatten [] (writeComputation t.computation)
    let d := put [] "l1_gas" (.num t.daL1Gas)
    let d := put d "l1_data_gas" (.num t.daL1DataGas)
    .obj (put f "data_availability" (.obj d))

/-- `StateDiff` (`types.rs:615-653`). -/
structure Diff where
  storage : List (Nat × List (Nat × Nat))
  deployed : List (Nat × Nat)
  deprecated : List Nat
  declared : List (Nat × Nat)
  nonces : List (Nat × Nat)
  replaced : List (Nat × Nat)
  migrated : List (Nat × Nat)
deriving DecidableEq, Repr

/-- Two felts as an object (360-375, 439-497). -/
def writePair (a b : String) (p : Nat × Nat) : J :=
  .obj (put (put [] a (.felt p.1)) b (.felt p.2))

/-- `StateDiff` (377-497). -/
def writeDiff (v : Version) (d : Diff) : J :=
  let f := put [] "storage_diffs" (.arr (d.storage.map fun s =>
    .obj (put (put [] "address" (.felt s.1)) "storage_entries" (.arr (s.2.map (writePair "key" "value"))))))
  let f := put f "deprecated_declared_classes" (felts d.deprecated)
  let f := put f "declared_classes" (.arr (d.declared.map (writePair "class_hash" "compiled_class_hash")))
  let f := if v.rank ≥ Version.v10.rank then
      put f "migrated_compiled_classes" (.arr (d.migrated.map (writePair "class_hash" "compiled_class_hash")))
    else f
  let f := put f "deployed_contracts" (.arr (d.deployed.map (writePair "address" "class_hash")))
  let f := put f "replaced_classes" (.arr (d.replaced.map (writePair "contract_address" "class_hash")))
  let f := put f "nonces" (.arr (d.nonces.map (writePair "contract_address" "nonce")))
  .obj f

/-- `TransactionTrace` of the executor (`types.rs:415-508`) without the resources and the difference, which all
of them have. -/
inductive Body
  | declare (feeTransfer validate : Option XTree)
  | deployAccount (constructor feeTransfer validate : Option XTree)
  | invoke (execute : Revertible) (feeTransfer validate : Option XTree)
  | l1Handler (function : Revertible)

structure Trace where
  body : Body
  total : Total
  diff : Diff

/-- What is written last for every trace (72-80, 104-112, 128-136, 157-165). -/
def putRest (v : Version) (withDiff : Bool) (t : Trace) (f : Fields) : J :=
  let f := if withDiff then put f "state_diff" (writeDiff v t.diff) else f
  .obj (if v.rank > Version.v06.rank then put f "execution_resources" (writeTotal v t.total) else f)

/-- The optional calls (64-71, 96-103, 120-127). -/
def putParts (v : Version) (f : Fields) (feeTransfer validate : Option XTree) : Fields :=
  putOpt (putOpt f "fee_transfer_invocation" (feeTransfer.map (writeTree v)))
    "validate_invocation" (validate.map (writeTree v))

/-- `TransactionTrace` (55-170); `none` is the error "Missing constructor_invocation in trace" (90-94). -/
def writeTrace (v : Version) (withDiff : Bool) (t : Trace) : Option J :=
  match t.body with
  | .declare fee validate =>
    let f := put [] "type" (.str "DECLARE".toList)
    some (putRest v withDiff t (putParts v f fee validate))
  | .deployAccount constructor fee validate =>
    let f := put [] "type" (.str "DEPLOY_ACCOUNT".toList)
    match constructor with
    | none => none
    | some c =>
      let f := put f "constructor_invocation" (writeTree v c)
      some (putRest v withDiff t (putParts v f fee validate))
  | .invoke execute fee validate =>
    let f := put [] "type" (.str "INVOKE".toList)
    let f := put f "execute_invocation" (writeRevertible v execute)
    some (putRest v withDiff t (putParts v f fee validate))
  | .l1Handler function =>
    let f := put [] "type" (.str "L1_HANDLER".toList)
    let f := if v.rank < Version.v09.rank then
        match function with
        | .invocation (some t) => put f "function_invocation" (writeTree v t)
        | _ => put f "function_invocation" (writeTree v dummy)
      else put f "function_invocation" (writeRevertible v function)
    some (putRest v withDiff t f)

/-- `Trace` of a block (`trace_block_transactions.rs:744-770`). -/
def writeOfBlock (v : Version) (withDiff : Bool) (x : Nat × Trace) : Option J :=
  (writeTrace v withDiff x.2).map fun j =>
    .obj (put (put [] "transaction_hash" (.felt x.1)) "trace_root" j)

/-- One after the other, with the first error (`dto.rs:126-140`). -/
def writeAll {α : Type} (w : α → Option J) : List α → Option (List J)
  | [] => some []
  | a :: l =>
    match w a with
    | none => none
    | some j =>
      match writeAll w l with
      | none => none
      | some js => some (j :: js)

/-- `serialize_as_array` (`trace_block_transactions.rs:662-678`). -/
def writeBlock (v : Version) (withDiff : Bool) (l : List (Nat × Trace)) : Option J :=
  (writeAll (writeOfBlock v withDiff) l).map .arr

/-- `StateMaps` (`types.rs:555-561`); compiled class hashes are not shown. -/
structure Maps where
  nonces : List (Nat × Nat)
  classHashes : List (Nat × Nat)
  storage : List ((Nat × Nat) × Nat)
  declared : List (Nat × Bool)
deriving DecidableEq, Repr

/-- `InitialReads` (177-202, 499-579). -/
def writeReads (m : Maps) : J :=
  let f := put [] "storage" (.arr (m.storage.map fun s =>
    .obj (put (put (put [] "contract_address" (.felt s.1.1)) "key" (.felt s.1.2)) "value" (.felt s.2))))
  let f := put f "nonces" (.arr (m.nonces.map (writePair "contract_address" "nonce")))
  let f := put f "class_hashes" (.arr (m.classHashes.map (writePair "contract_address" "class_hash")))
  let f := put f "declared_contracts" (.arr (m.declared.map fun d =>
    .obj (put (put [] "class_hash" (.felt d.1)) "is_declared" (.bool d.2))))
  .obj f

/-- `serialize_as_object` (`trace_block_transactions.rs:680-703`): without initial reads an empty object is
written. -/
def writeBlockWithReads (v : Version) (withDiff : Bool) (l : List (Nat × Trace)) (m : Option Maps) : Option J :=
  (writeAll (writeOfBlock v withDiff) l).map fun js =>
    let f := put [] "traces" (.arr js)
    match m with
    | some m => .obj (put f "initial_reads" (writeReads m))
    | none => .obj (put f "initial_reads" (.obj []))

end Verif.TraceOut
