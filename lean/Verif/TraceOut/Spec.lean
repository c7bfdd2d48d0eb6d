import Verif.TraceOut.Model
import Verif.GwTrace.Spec

/-!
# How traces are written: specification

What a client reads, by the names of the fields in `specs/rpc/v06` to `specs/rpc/v10`
(`starknet_trace_api_openrpc.json`).
-/

namespace Verif.TraceOut

open Verif.GwTrace (Text XCallType XEntryType XResources XEvent XMsg XCall XTree Revertible)

/-- A field of a value. -/
def J.get (j : J) (k : String) : Option J :=
  match j with
  | .obj f => lookup k f
  | _ => none

/-- What a field is: the value that is there, if one is there, has the property. -/
abbrev Field := Option J → Prop

/-- An object with these fields and no others. -/
def Reads (j : J) (l : List (String × Field)) : Prop :=
  (∃ f, j = .obj f) ∧ (∀ e ∈ l, e.2 (j.get e.1)) ∧ ∀ k, k ∉ l.map (·.1) → j.get k = none

/-- This value. -/
def one (v : J) : Field := fun x => x = some v

/-- No value. -/
def absent : Field := fun x => x = none

/-- A value if there is something to show. -/
def part {α : Type} (P : α → J → Prop) (o : Option α) : Field := fun x =>
  (o = none ∧ x = none) ∨ ∃ a j, o = some a ∧ x = some j ∧ P a j

/-- An array with one element for each of a list, in the same order. -/
def each {α : Type} (P : α → J → Prop) (l : List α) : Field := fun x =>
  ∃ js, x = some (.arr js) ∧ js.length = l.length ∧
    ∀ (i : Nat) a j, l[i]? = some a → js[i]? = some j → P a j

/-- A felt. -/
def isFelt (n : Nat) (j : J) : Prop := j = .felt n

/-- A number that is not shown if it is zero. -/
def count (n : Nat) : Field := fun x => (n = 0 ∧ x = none) ∨ (n ≠ 0 ∧ x = some (.num n))

def EventShown (e : XEvent) (j : J) : Prop :=
  Reads j [("order", one (.num e.order)), ("keys", each isFelt e.keys), ("data", each isFelt e.data)]

def MsgShown (m : XMsg) (j : J) : Prop :=
  Reads j [("order", one (.num m.order)), ("from_address", one (.felt m.sender)),
    ("to_address", one (.felt m.to)), ("payload", each isFelt m.payload)]

/-- The fields of COMPUTATION_RESOURCES. -/
def computationFields (r : XResources) : List (String × Field) :=
  [("steps", one (.num r.steps)), ("memory_holes", count r.holes),
   ("range_check_builtin_applications", count r.rangeCheck),
   ("pedersen_builtin_applications", count r.pedersen),
   ("poseidon_builtin_applications", count r.poseidon),
   ("ec_op_builtin_applications", count r.ecOp),
   ("ecdsa_builtin_applications", count r.ecdsa),
   ("bitwise_builtin_applications", count r.bitwise),
   ("keccak_builtin_applications", count r.keccak),
   ("segment_arena_builtin", count r.segmentArena)]

/-- A value that is there and has a property. -/
def is (P : J → Prop) : Field := fun x => ∃ j, x = some j ∧ P j

/-- The resources of a call: gas from 0.8 on, steps and builtins before. -/
def CallResourcesShown (v : Version) (c : XCall) (j : J) : Prop :=
  match v with
  | .v06 | .v07 => Reads j (computationFields c.resources)
  | .v08 | .v09 | .v10 | .pathfinder01 =>
    Reads j [("l1_gas", one (.num c.l1Gas)), ("l2_gas", one (.num c.l2Gas))]

/-- `is_reverted` is there from 0.8 on. -/
def RevertedShown (v : Version) (c : XCall) : Field :=
  match v with
  | .v06 | .v07 => absent
  | .v08 | .v09 | .v10 | .pathfinder01 => one (.bool c.reverted)

def callTypeShown (t : XCallType) (j : J) : Prop :=
  (t = .call ∧ j = .str "CALL".toList) ∨ (t = .delegate ∧ j = .str "DELEGATE".toList)

def entryTypeShown (t : XEntryType) (j : J) : Prop :=
  (t = .external ∧ j = .str "EXTERNAL".toList) ∨ (t = .l1Handler ∧ j = .str "L1_HANDLER".toList) ∨
  (t = .constructor ∧ j = .str "CONSTRUCTOR".toList)

/-- A call without what is in `calls`. -/
def CallShown (v : Version) (c : XCall) (j : J) : Prop :=
  Reads j [
    ("contract_address", one (.felt c.contract)),
    ("entry_point_selector", part isFelt c.selector),
    ("calldata", each isFelt c.calldata),
    ("caller_address", one (.felt c.caller)),
    ("class_hash", part isFelt c.classHash),
    ("entry_point_type", part entryTypeShown c.entryType),
    ("call_type", part callTypeShown c.callType),
    ("result", each isFelt c.result),
    ("calls", is fun x => ∃ l, x = .arr l),
    ("events", each EventShown c.events),
    ("messages", each MsgShown c.messages),
    ("execution_resources", is (CallResourcesShown v c)),
    ("is_reverted", RevertedShown v c)]

/-- What is found by following a path through the fields `calls`. -/
def J.at (j : J) : List Nat → Option J
  | [] => some j
  | i :: p =>
    match j.get "calls" with
    | some (.arr l) => l[i]?.bind fun k => k.at p
    | _ => none

/-- A tree of calls: the same paths, and at every path the call. -/
def TreeShown (v : Version) (t : XTree) (j : J) : Prop :=
  ∀ p, (t.at p = none ∧ j.at p = none) ∨ ∃ c k, t.at p = some c ∧ j.at p = some k ∧ CallShown v c k

/-- A call that can be reverted: the call or the reason, or an empty object if there is neither. -/
def RevertibleShown (v : Version) (r : Revertible) (j : J) : Prop :=
  (∃ t, r = .invocation (some t) ∧ TreeShown v t j) ∨
  (∃ s, r = .reverted s ∧ Reads j [("revert_reason", one (.str s))]) ∨
  (r = .invocation none ∧ Reads j [])

/-- The resources of a transaction: gas from 0.8 on, steps, builtins and data availability before. -/
def TotalShown (v : Version) (t : Total) (j : J) : Prop :=
  match v with
  | .v06 | .v07 =>
    Reads j (("data_availability", is fun d =>
      Reads d [("l1_gas", one (.num t.daL1Gas)), ("l1_data_gas", one (.num t.daL1DataGas))]) ::
      computationFields t.computation)
  | .v08 | .v09 | .v10 | .pathfinder01 =>
    Reads j [("l1_gas", one (.num t.l1Gas)), ("l1_data_gas", one (.num t.l1DataGas)),
      ("l2_gas", one (.num t.l2Gas))]

/-- Two felts under two names. -/
def PairShown (a b : String) (p : Nat × Nat) (j : J) : Prop :=
  Reads j [(a, one (.felt p.1)), (b, one (.felt p.2))]

def DiffShown (v : Version) (d : Diff) (j : J) : Prop :=
  Reads j [
    ("storage_diffs", each (fun s k => Reads k [("address", one (.felt s.1)),
      ("storage_entries", each (PairShown "key" "value") s.2)]) d.storage),
    ("deprecated_declared_classes", each isFelt d.deprecated),
    ("declared_classes", each (PairShown "class_hash" "compiled_class_hash") d.declared),
    ("migrated_compiled_classes", match v with
      | .v06 | .v07 | .v08 | .v09 => absent
      | .v10 | .pathfinder01 => each (PairShown "class_hash" "compiled_class_hash") d.migrated),
    ("deployed_contracts", each (PairShown "address" "class_hash") d.deployed),
    ("replaced_classes", each (PairShown "contract_address" "class_hash") d.replaced),
    ("nonces", each (PairShown "contract_address" "nonce") d.nonces)]

/-- The fields that all traces have: the difference if it was asked for, and the resources from 0.7 on. -/
def restFields (v : Version) (withDiff : Bool) (t : Trace) : List (String × Field) :=
  [("state_diff", match withDiff with
    | true => is (DiffShown v t.diff)
    | false => absent),
   ("execution_resources", match v with
    | .v06 => absent
    | _ => is (TotalShown v t.total))]

/-- The fields of the calls around a transaction. -/
def partFields (v : Version) (feeTransfer validate : Option XTree) : List (String × Field) :=
  [("fee_transfer_invocation", part (TreeShown v) feeTransfer),
   ("validate_invocation", part (TreeShown v) validate)]

/-- The call of an L1 handler.  Before 0.9 the documents allow no revert: nothing is said about the call of a
handler that was reverted. -/
def HandlerShown (v : Version) (r : Revertible) (j : J) : Prop :=
  match v with
  | .v06 | .v07 | .v08 => ∀ c, r = .invocation (some c) → TreeShown v c j
  | .v09 | .v10 | .pathfinder01 => RevertibleShown v r j

/-- A trace. -/
def TraceShown (v : Version) (withDiff : Bool) (t : Trace) (j : J) : Prop :=
  match t.body with
  | .declare fee validate =>
    Reads j (("type", one (.str "DECLARE".toList)) :: partFields v fee validate ++ restFields v withDiff t)
  | .deployAccount constructor fee validate =>
    Reads j (("type", one (.str "DEPLOY_ACCOUNT".toList)) ::
      ("constructor_invocation", is fun k => ∃ c, constructor = some c ∧ TreeShown v c k) ::
      partFields v fee validate ++ restFields v withDiff t)
  | .invoke execute fee validate =>
    Reads j (("type", one (.str "INVOKE".toList)) ::
      ("execute_invocation", is (RevertibleShown v execute)) ::
      partFields v fee validate ++ restFields v withDiff t)
  | .l1Handler function =>
    Reads j (("type", one (.str "L1_HANDLER".toList)) ::
      ("function_invocation", is (HandlerShown v function)) ::
      restFields v withDiff t)

/-- A trace of a block with the hash of its transaction. -/
def OfBlockShown (v : Version) (withDiff : Bool) (x : Nat × Trace) (j : J) : Prop :=
  Reads j [("transaction_hash", one (.felt x.1)), ("trace_root", is (TraceShown v withDiff x.2))]

def ReadsShown (m : Maps) (j : J) : Prop :=
  Reads j [
    ("storage", each (fun (s : (Nat × Nat) × Nat) k => Reads k [("contract_address", one (.felt s.1.1)),
      ("key", one (.felt s.1.2)), ("value", one (.felt s.2))]) m.storage),
    ("nonces", each (PairShown "contract_address" "nonce") m.nonces),
    ("class_hashes", each (PairShown "contract_address" "class_hash") m.classHashes),
    ("declared_contracts", each (fun (d : Nat × Bool) k => Reads k [("class_hash", one (.felt d.1)),
      ("is_declared", one (.bool d.2))]) m.declared)]

/-- A trace that has all that its type needs. -/
def Complete (t : Trace) : Prop := ∀ fee validate, t.body ≠ .deployAccount none fee validate

/-! The documents: what a call must have. -/

/-- A field that the documents require. -/
def Required (j : J) (k : String) (P : J → Prop) : Prop := ∃ x, j.get k = some x ∧ P x

def aFelt (j : J) : Prop := ∃ n, j = .felt n
def arrayOf (P : J → Prop) (j : J) : Prop := ∃ l, j = .arr l ∧ ∀ x ∈ l, P x
def aNumber (j : J) : Prop := ∃ n, j = .num n

/-- From 0.9 on the numbers of events are not negative. -/
def anOrder (v : Version) (j : J) : Prop :=
  ∃ n, j = .num n ∧ (v = .v09 ∨ v = .v10 → 0 ≤ n)

/-- ORDERED_EVENT. -/
def EventDoc (v : Version) (j : J) : Prop :=
  (∀ x, j.get "order" = some x → anOrder v x) ∧
  Required j "keys" (arrayOf aFelt) ∧ Required j "data" (arrayOf aFelt)

/-- ORDERED_MESSAGE. -/
def MsgDoc (v : Version) (j : J) : Prop :=
  (∀ x, j.get "order" = some x → anOrder v x) ∧
  Required j "from_address" aFelt ∧ Required j "to_address" aFelt ∧ Required j "payload" (arrayOf aFelt)

/-- COMPUTATION_RESOURCES: steps are required, and nothing is zero. -/
def ComputationDoc (j : J) : Prop :=
  Required j "steps" (fun x => ∃ n, x = .num n ∧ n ≠ 0) ∧
  ∀ k x, k ∈ ["memory_holes", "range_check_builtin_applications", "pedersen_builtin_applications",
      "poseidon_builtin_applications", "ec_op_builtin_applications", "ecdsa_builtin_applications",
      "bitwise_builtin_applications", "keccak_builtin_applications", "segment_arena_builtin"] →
    j.get k = some x → ∃ n, x = .num n ∧ n ≠ 0

/-- FUNCTION_INVOCATION, apart from what is in `calls`. -/
def CallDoc (v : Version) (j : J) : Prop :=
  Required j "contract_address" aFelt ∧ Required j "entry_point_selector" aFelt ∧
  Required j "calldata" (arrayOf aFelt) ∧ Required j "caller_address" aFelt ∧ Required j "class_hash" aFelt ∧
  Required j "entry_point_type"
    (fun x => x ∈ [.str "EXTERNAL".toList, .str "L1_HANDLER".toList, .str "CONSTRUCTOR".toList]) ∧
  Required j "call_type"
    (fun x => x ∈ [.str "LIBRARY_CALL".toList, .str "CALL".toList, .str "DELEGATE".toList]) ∧
  Required j "result" (arrayOf aFelt) ∧ Required j "calls" (fun x => ∃ l, x = .arr l) ∧
  Required j "events" (arrayOf (EventDoc v)) ∧ Required j "messages" (arrayOf (MsgDoc v)) ∧
  Required j "execution_resources" (fun x =>
    match v with
    | .v06 | .v07 => ComputationDoc x
    | _ => Required x "l1_gas" aNumber ∧ Required x "l2_gas" aNumber) ∧
  (v ≠ .v06 → v ≠ .v07 → Required j "is_reverted" (fun x => ∃ b, x = .bool b))

/-- FUNCTION_INVOCATION. -/
def TreeDoc (v : Version) (j : J) : Prop := ∀ p k, j.at p = some k → CallDoc v k

/-- REVERTIBLE_FUNCTION_INVOCATION, and what stands for it before 0.9 (0.6 does not require the reason). -/
def RevertibleDoc (v : Version) (j : J) : Prop :=
  TreeDoc v j ∨ Required j "revert_reason" (fun x => ∃ s, x = .str s) ∨
  (v = .v06 ∧ ∃ f, j = .obj f)

/-- A call that has all that the documents require. -/
def Full (v : Version) (c : XCall) : Prop :=
  c.selector.isSome ∧ c.classHash.isSome ∧ c.entryType.isSome ∧ c.callType.isSome ∧
  (v = .v06 ∨ v = .v07 → c.resources.steps ≠ 0) ∧ ∀ e ∈ c.events, 0 ≤ e.order

end Verif.TraceOut
