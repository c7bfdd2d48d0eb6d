import Verif.Shown.Hex
import Verif.Block.TxModel
import Verif.Diff.Model
/-!
# What the JSON-RPC API shows

Model of `crates/rpc/src/dto/{transaction,receipt,event,block,state_update}.rs`: the JSON of transactions, receipts, headers and state updates
for each version of the API.
-/
namespace Verif.Shown
open Verif.Block (F P Txn Bound V3 Msg Event Header Hashes)
open Verif.Diff (SU CUpd ClassUpd)

/-- `RpcVersion` (rpc/src/lib.rs:47-55). -/
inductive Ver
  | v06 | v07 | v08 | v09 | v10 | pathfinder
  deriving DecidableEq, Repr

/-- The derived order: that of the variants. -/
def Ver.rank : Ver → Nat
  | .v06 => 0 | .v07 => 1 | .v08 => 2 | .v09 => 3 | .v10 => 4 | .pathfinder => 5

/-- `serializer.version >= …`. -/
def Ver.ge (v w : Ver) : Bool := w.rank ≤ v.rank

/-- JSON, as far as it is produced here. -/
inductive J
  | str (s : List Char)
  | num (n : Nat)
  | arr (l : List J)
  | obj (l : List (String × J))

/-- `Map::insert` of serde_json: a value with the same key is replaced. -/
def ins (m : List (String × J)) (f : String × J) : List (String × J) := m.filter (fun g => g.1 ≠ f.1) ++ [f]

/-- `serialize_struct`, `serialize_field` for each field and `end` (dto.rs:115-120, 137-145, 204-206). -/
def mk (l : List (String × J)) : J := .obj (l.foldl ins [])

/-- The fields that `flatten` inserts (dto.rs:192-202). -/
def flat : J → List (String × J)
  | .obj l => l
  | _ => []

/-- A string literal. -/
def text (s : String) : J := .str s.toList

/-- `serialize` of `Felt` and the types that wrap one (dto/primitives.rs:390-395, 474-…): 32 bytes. -/
def hexF (x : F) : J := .str (hexStripped (beBytes 32 x.val))

/-- `U64Hex` (dto/primitives.rs:310-314). -/
def hex64 (n : Nat) : J := .str (hexStripped (beBytes 8 n))

/-- `U128Hex` (dto/primitives.rs:330-334). -/
def hex128 (n : Nat) : J := .str (hexStripped (beBytes 16 n))

/-- `H256Hex` (dto/primitives.rs:352-356). -/
def hex256 (n : Nat) : J := .str (hexStripped (beBytes 32 n))

/-- `serialize_iter` of values (dto.rs:122-136). -/
def list {α : Type} (f : α → J) (l : List α) : J := .arr (l.map f)

/-! ## Transactions -/

/-- `ResourceBound` (dto/transaction.rs:258-268, dto/primitives.rs:701-715). -/
def showBound (b : Bound) : J :=
  mk [("max_amount", .str (hexSerde (beBytes 8 b.amount))), ("max_price_per_unit", .str (hexSerde (beBytes 16 b.price)))]

/-- `ResourceBounds` (dto/transaction.rs:221-236). -/
def showBounds (v : Ver) (x : V3) : J :=
  mk ([("l1_gas", showBound x.l1Gas), ("l2_gas", showBound x.l2Gas)] ++
    if v.ge .v08 then [("l1_data_gas", showBound (x.l1DataGas.getD ⟨0, 0⟩))] else [])

/-- `DataAvailabilityMode` (dto/transaction.rs:285-296). -/
def showMode (l2 : Bool) : J := text (if l2 then "L2" else "L1")

/-- `SerializeForVersion for (&Transaction, bool)` (dto/transaction.rs:39-208). -/
def showTx (v : Ver) (proofFacts : Bool) : Txn → J
  | .declareV0 t => mk [("type", text "DECLARE"), ("sender_address", hexF t.sender), ("max_fee", hexF t.maxFee), ("version", text "0x0"),
      ("signature", list hexF t.signature), ("class_hash", hexF t.classHash)]
  | .declareV1 t => mk [("type", text "DECLARE"), ("sender_address", hexF t.sender), ("max_fee", hexF t.maxFee), ("version", text "0x1"),
      ("signature", list hexF t.signature), ("nonce", hexF t.nonce), ("class_hash", hexF t.classHash)]
  | .declareV2 t => mk [("type", text "DECLARE"), ("sender_address", hexF t.sender), ("compiled_class_hash", hexF t.casm),
      ("max_fee", hexF t.maxFee), ("version", text "0x2"), ("signature", list hexF t.signature), ("nonce", hexF t.nonce),
      ("class_hash", hexF t.classHash)]
  | .declareV3 t => mk [("type", text "DECLARE"), ("sender_address", hexF t.sender), ("compiled_class_hash", hexF t.casm),
      ("version", text "0x3"), ("signature", list hexF t.signature), ("nonce", hexF t.nonce), ("class_hash", hexF t.classHash),
      ("resource_bounds", showBounds v t.v3), ("tip", hex64 t.v3.tip), ("paymaster_data", list hexF t.v3.paymaster),
      ("account_deployment_data", list hexF t.accountDeployment), ("nonce_data_availability_mode", showMode t.v3.nonceL2),
      ("fee_data_availability_mode", showMode t.v3.feeL2)]
  | .deployV0 t => mk [("version", text "0x0"), ("type", text "DEPLOY"), ("contract_address_salt", hexF t.salt),
      ("constructor_calldata", list hexF t.calldata), ("class_hash", hexF t.classHash)]
  | .deployV1 t => mk [("version", text "0x1"), ("type", text "DEPLOY"), ("contract_address_salt", hexF t.salt),
      ("constructor_calldata", list hexF t.calldata), ("class_hash", hexF t.classHash)]
  | .deployAccountV1 t => mk [("type", text "DEPLOY_ACCOUNT"), ("max_fee", hexF t.maxFee), ("version", text "0x1"),
      ("signature", list hexF t.signature), ("nonce", hexF t.nonce), ("contract_address_salt", hexF t.salt),
      ("constructor_calldata", list hexF t.calldata), ("class_hash", hexF t.classHash)]
  | .deployAccountV3 t => mk [("type", text "DEPLOY_ACCOUNT"), ("version", text "0x3"), ("signature", list hexF t.signature),
      ("nonce", hexF t.nonce), ("contract_address_salt", hexF t.salt), ("constructor_calldata", list hexF t.calldata),
      ("class_hash", hexF t.classHash), ("resource_bounds", showBounds v t.v3), ("tip", hex64 t.v3.tip),
      ("paymaster_data", list hexF t.v3.paymaster), ("nonce_data_availability_mode", showMode t.v3.nonceL2),
      ("fee_data_availability_mode", showMode t.v3.feeL2)]
  | .invokeV0 t => mk [("type", text "INVOKE"), ("max_fee", hexF t.maxFee), ("version", text "0x0"), ("signature", list hexF t.signature),
      ("contract_address", hexF t.sender), ("entry_point_selector", hexF t.selector), ("calldata", list hexF t.calldata)]
  | .invokeV1 t => mk [("type", text "INVOKE"), ("sender_address", hexF t.sender), ("calldata", list hexF t.calldata),
      ("max_fee", hexF t.maxFee), ("version", text "0x1"), ("signature", list hexF t.signature), ("nonce", hexF t.nonce)]
  | .invokeV3 t => mk ([("type", text "INVOKE"), ("sender_address", hexF t.sender), ("calldata", list hexF t.calldata),
      ("version", text "0x3"), ("signature", list hexF t.signature), ("nonce", hexF t.nonce), ("resource_bounds", showBounds v t.v3),
      ("tip", hex64 t.v3.tip), ("paymaster_data", list hexF t.v3.paymaster), ("account_deployment_data", list hexF t.accountDeployment),
      ("nonce_data_availability_mode", showMode t.v3.nonceL2), ("fee_data_availability_mode", showMode t.v3.feeL2)] ++
      if proofFacts && v.ge .v10 then [("proof_facts", list hexF t.proofFacts)] else [])
  | .l1Handler t => mk [("version", text "0x0"), ("type", text "L1_HANDLER"), ("nonce", hexF t.nonce), ("contract_address", hexF t.address),
      ("entry_point_selector", hexF t.selector), ("calldata", list hexF t.calldata)]

/-- `TransactionWithHash` (dto/transaction.rs:210-217). -/
def showTxHash (v : Ver) (proofFacts : Bool) (hash : F) (t : Txn) : J :=
  mk ([("transaction_hash", hexF hash)] ++ flat (showTx v proofFacts t))

/-! ## Receipts -/

/-- `BuiltinCounters` (common/src/receipt.rs:61-74). -/
structure Builtins where
  output : Nat
  pedersen : Nat
  rangeCheck : Nat
  ecdsa : Nat
  bitwise : Nat
  ecOp : Nat
  keccak : Nat
  poseidon : Nat
  segmentArena : Nat
  addMod : Nat
  mulMod : Nat
  rangeCheck96 : Nat
  deriving DecidableEq, Repr

/-- `ExecutionResources` (common/src/receipt.rs:41-58). -/
structure Resources where
  builtins : Builtins
  steps : Nat
  memoryHoles : Nat
  daL1Gas : Nat
  daL1DataGas : Nat
  l1Gas : Nat
  l1DataGas : Nat
  l2Gas : Nat
  deriving DecidableEq, Repr

/-- `Receipt` (common/src/receipt.rs:7-14). The status is the revert reason, if any. -/
structure Rcpt where
  fee : F
  resources : Resources
  messages : List Msg
  reverted : Option (List Char)
  deriving DecidableEq, Repr

/-- `TxnFinalityStatus` (dto/receipt.rs:43-48). -/
inductive Finality
  | candidate | preConfirmed | acceptedOnL2 | acceptedOnL1
  deriving DecidableEq, Repr

/-- Its text (dto/receipt.rs:128-138). -/
def Finality.text : Finality → String
  | .candidate => "CANDIDATE"
  | .preConfirmed => "PRE_CONFIRMED"
  | .acceptedOnL2 => "ACCEPTED_ON_L2"
  | .acceptedOnL1 => "ACCEPTED_ON_L1"

/-- `TransactionVariant::version` (common/src/transaction.rs:30-45). -/
def versionOf : Txn → Nat
  | .declareV0 _ | .deployV0 _ | .invokeV0 _ | .l1Handler _ => 0
  | .declareV1 _ | .deployV1 _ | .deployAccountV1 _ | .invokeV1 _ => 1
  | .declareV2 _ => 2
  | .declareV3 _ | .deployAccountV3 _ | .invokeV3 _ => 3

/-- `PriceUnit` (dto/receipt.rs:421-431). -/
def unitText : Nat → String
  | 0 | 1 | 2 => "WEI"
  | _ => "FRI"

/-- `FeePayment` (dto/receipt.rs:363-373). -/
def showFee (fee : F) (version : Nat) : J := mk [("amount", hexF fee), ("unit", text (unitText version))]

/-- `MsgToL1` (dto/receipt.rs:375-385). -/
def showMsg (m : Msg) : J := mk [("from_address", hexF m.src), ("to_address", hexF m.dst), ("payload", list hexF m.payload)]

/-- `EventContext` (dto/event.rs:33-42). -/
def showEventContext (e : Event) : J := mk [("keys", list hexF e.keys), ("data", list hexF e.data)]

/-- `Event` (dto/event.rs:18-31). -/
def showEvent (e : Event) : J := mk ([("from_address", hexF e.src)] ++ flat (showEventContext e))

/-- `serialize_optional` of `NonZeroU64::new` (dto.rs:157-168). -/
def nonZero (k : String) (n : Nat) : List (String × J) := if n = 0 then [] else [(k, .num n)]

/-- `ComputationResources` (dto/receipt.rs:433-467). -/
def showComputation (r : Resources) : J :=
  mk ([("steps", J.num r.steps)] ++ nonZero "memory_holes" r.memoryHoles ++
    nonZero "range_check_builtin_applications" r.builtins.rangeCheck ++ nonZero "pedersen_builtin_applications" r.builtins.pedersen ++
    nonZero "poseidon_builtin_applications" r.builtins.poseidon ++ nonZero "ec_op_builtin_applications" r.builtins.ecOp ++
    nonZero "ecdsa_builtin_applications" r.builtins.ecdsa ++ nonZero "bitwise_builtin_applications" r.builtins.bitwise ++
    nonZero "keccak_builtin_applications" r.builtins.keccak ++ nonZero "segment_arena_builtin" r.builtins.segmentArena)

/-- `ExecutionResources` (dto/receipt.rs:387-419). -/
def showResources (v : Ver) (r : Resources) : J :=
  mk (if v.ge .v08 then [("l1_gas", J.num r.l1Gas), ("l1_data_gas", J.num r.l1DataGas), ("l2_gas", J.num r.l2Gas)]
    else flat (showComputation r) ++
      if v = .v06 then [] else [("data_availability", mk [("l1_gas", J.num r.daL1Gas), ("l1_data_gas", J.num r.daL1DataGas)])])

/-- `TxnExecutionStatusWithRevertReason` (dto/receipt.rs:104-126). -/
def showStatus : Option (List Char) → J
  | none => mk [("execution_status", text "SUCCEEDED")]
  | some r => mk [("execution_status", text "REVERTED"), ("revert_reason", .str r)]

/-- `CommonReceiptProperties` (dto/receipt.rs:326-361). -/
def showCommon (v : Ver) (hash : F) (t : Txn) (r : Rcpt) (es : List Event) (f : Finality) : J :=
  mk ([("transaction_hash", hexF hash), ("actual_fee", showFee r.fee (versionOf t)), ("finality_status", text f.text),
    ("messages_sent", list showMsg r.messages), ("events", list showEvent es), ("execution_resources", showResources v r.resources)] ++
    flat (showStatus r.reverted))

/-- 32 bytes of a field element. -/
def word (x : F) : List UInt8 := (beBytes 32 x.val).map UInt8.ofNat

/-- What `calculate_message_hash` hashes (common/src/transaction.rs:592-621). -/
def messageBytes (src address nonce selector : F) (payload : List F) : List UInt8 :=
  word src ++ word address ++ word nonce ++ word selector ++ List.replicate 24 0 ++ (beBytes 8 payload.length).map UInt8.ofNat ++
    payload.flatMap word

/-- `calculate_message_hash` (common/src/transaction.rs:592-624). -/
def messageHash (h : Hashes) (t : Verif.Block.L1Handler) : Nat :=
  match t.calldata with
  | [] => 0
  | src :: payload => h.keccak (messageBytes src t.address t.nonce t.selector payload)

/-- `TxnReceipt` (dto/receipt.rs:186-324). -/
def showReceipt (h : Hashes) (v : Ver) (hash : F) (t : Txn) (r : Rcpt) (es : List Event) (f : Finality) : J :=
  let c := flat (showCommon v hash t r es f)
  match t with
  | .declareV0 _ | .declareV1 _ | .declareV2 _ | .declareV3 _ => mk ([("type", text "DECLARE")] ++ c)
  | .deployV0 d | .deployV1 d => mk (c ++ [("type", text "DEPLOY"), ("contract_address", hexF d.address)])
  | .deployAccountV1 d => mk (c ++ [("type", text "DEPLOY_ACCOUNT"), ("contract_address", hexF d.address)])
  | .deployAccountV3 d => mk (c ++ [("type", text "DEPLOY_ACCOUNT"), ("contract_address", hexF d.address)])
  | .invokeV0 _ | .invokeV1 _ | .invokeV3 _ => mk ([("type", text "INVOKE")] ++ c)
  | .l1Handler l => mk (c ++ [("type", text "L1_HANDLER"), ("message_hash", hex256 (messageHash h l))])

/-- `TxnReceiptWithBlockInfo` (dto/receipt.rs:155-184). -/
def showReceiptAt (h : Hashes) (v : Ver) (blockHash : Option F) (blockNumber : Nat) (hash : F) (t : Txn) (r : Rcpt) (es : List Event)
    (f : Finality) : J :=
  mk (flat (showReceipt h v hash t r es f) ++ (match blockHash with
      | none => []
      | some b => [("block_hash", hexF b)]) ++
    if v.ge .v09 || (!v.ge .v09 && blockHash.isSome) then [("block_number", J.num blockNumber)] else [])

/-! ## Blocks -/

/-- `ResourcePrice` (dto/block.rs:255-272). -/
def showPrice (wei fri : Nat) : J := mk [("price_in_wei", hex128 wei), ("price_in_fri", hex128 fri)]

/-- `BlockHeader` (dto/block.rs:43-113). -/
def showHeader (v : Ver) (b : Header) : J :=
  mk ([("block_hash", hexF b.hash), ("parent_hash", hexF b.parent), ("block_number", J.num b.number), ("new_root", hexF b.stateCommitment),
      ("timestamp", .num b.timestamp), ("sequencer_address", hexF b.sequencer), ("l1_gas_price", showPrice b.ethL1Gas b.strkL1Gas),
      ("starknet_version", .str b.version.show)] ++
    (if v.ge .v07 then [("l1_data_gas_price", showPrice b.ethL1DataGas b.strkL1DataGas),
      ("l1_da_mode", text (if b.blob then "BLOB" else "CALLDATA"))] else []) ++
    (if v.ge .v08 then [("l2_gas_price", showPrice b.ethL2Gas b.strkL2Gas)] else []) ++
    if v.ge .v10 then
      (if Verif.Block.before b.version Verif.Block.v0132 then [("event_commitment", hexF 0), ("transaction_commitment", hexF 0)]
        else [("event_commitment", hexF b.eventCommitment), ("transaction_commitment", hexF b.transactionCommitment)]) ++
      [("receipt_commitment", hexF b.receiptCommitment), ("state_diff_commitment", hexF b.stateDiffCommitment),
        ("event_count", .num b.eventCount), ("transaction_count", .num b.transactionCount), ("state_diff_length", .num b.stateDiffLength)]
    else [])

/-- The body of a block: the hash, the transaction, the receipt and the events of each. -/
abbrev Body := List (F × Txn × Rcpt × List Event)

/-- `Output::Full` of `starknet_getBlockWithTxs` (method/get_block_with_txs.rs:172-200). -/
def showBlockTxs (v : Ver) (proofFacts l1 : Bool) (b : Header) (body : Body) : J :=
  mk (flat (showHeader v b) ++ [("transactions", list (fun x => showTxHash v proofFacts x.1 x.2.1) body),
    ("status", text (if l1 then "ACCEPTED_ON_L1" else "ACCEPTED_ON_L2"))])

/-- `TransactionWithReceipt` (method/get_block_with_receipts.rs:207-246). -/
def showTxReceipt (h : Hashes) (v : Ver) (proofFacts : Bool) (f : Finality) (x : F × Txn × Rcpt × List Event) : J :=
  mk [("transaction", if v = .v07 then showTxHash v proofFacts x.1 x.2.1 else showTx v proofFacts x.2.1),
    ("receipt", showReceipt h v x.1 x.2.1 x.2.2.1 x.2.2.2 f)]

/-- `Output::Full` of `starknet_getBlockWithReceipts` (method/get_block_with_receipts.rs:142-180). -/
def showBlockReceipts (h : Hashes) (v : Ver) (proofFacts l1 : Bool) (b : Header) (body : Body) : J :=
  mk ([("status", text (if l1 then "ACCEPTED_ON_L1" else "ACCEPTED_ON_L2"))] ++ flat (showHeader v b) ++
    [("transactions", list (showTxReceipt h v proofFacts (if l1 then .acceptedOnL1 else .acceptedOnL2)) body)])

/-! ## State updates -/

/-- A field element of the state. Simplification: a number, as in `Verif.Diff`. -/
def hexN (n : Nat) : J := .str (hexStripped (beBytes 32 n))

/-- `ContractStorageDiffItem` (dto/state_update.rs:249-284). -/
def showStorage (x : Nat × List (Nat × Nat)) : J :=
  mk [("address", hexN x.1), ("storage_entries", list (fun e => mk [("key", hexN e.1), ("value", hexN e.2)]) x.2)]

/-- `deployed_class` (common/src/state_update.rs:106-111). -/
def deployedClass (u : CUpd) : Option Nat :=
  match u.cls with
  | some (.deploy c) => some c
  | _ => none

/-- `replaced_class` (common/src/state_update.rs:99-104). -/
def replacedClass (u : CUpd) : Option Nat :=
  match u.cls with
  | some (.replace c) => some c
  | _ => none

/-- A pair of field elements as an object. -/
def showPair (k k' : String) (x : Nat × Nat) : J := mk [(k, hexN x.1), (k', hexN x.2)]

/-- `StateDiff` (dto/state_update.rs:77-247). The maps are lists in the order in which they are gone through. -/
def showDiff (v : Ver) (u : SU) : J :=
  mk ([("storage_diffs", list showStorage
        ((u.contracts.filterMap fun x => if x.2.storage.isEmpty then none else some (x.1, x.2.storage)) ++
          u.system.filterMap fun x => if x.2.isEmpty then none else some x)),
      ("deprecated_declared_classes", list hexN u.cairo),
      ("declared_classes", list (showPair "class_hash" "compiled_class_hash") u.sierra),
      ("deployed_contracts", list (showPair "address" "class_hash")
        (u.contracts.filterMap fun x => (deployedClass x.2).map fun c => (x.1, c))),
      ("replaced_classes", list (showPair "contract_address" "class_hash")
        (u.contracts.filterMap fun x => (replacedClass x.2).map fun c => (x.1, c)))] ++
    (if v.ge .v10 then [("migrated_compiled_classes", list (showPair "class_hash" "compiled_class_hash") u.migrated)] else []) ++
    [("nonces", list (showPair "contract_address" "nonce") (u.contracts.filterMap fun x => x.2.nonce.map fun n => (x.1, n)))])

/-- `StateUpdate` (dto/state_update.rs:50-61). -/
def showUpdate (v : Ver) (blockHash old new : F) (u : SU) : J :=
  mk [("block_hash", hexF blockHash), ("old_root", hexF old), ("new_root", hexF new), ("state_diff", showDiff v u)]

end Verif.Shown
