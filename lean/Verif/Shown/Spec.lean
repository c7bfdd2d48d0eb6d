import Verif.Shown.Model
/-!
# How a client reads the answers of the API

The client knows JSON, the names of the fields from the published specification of the API, and hexadecimal numbers. It does not know how the
answers are made. What a version of the API has no field for is read as empty.
-/
namespace Verif.Shown.Spec
open Verif.Shown (J Ver Rcpt Resources Finality)
open Verif.Block (F P Txn Bound V3 Msg Event Header Hashes)
open Verif.Diff (SU CUpd ClassUpd)

/-! ## Numbers -/

/-- A hexadecimal digit, of either case. -/
def digit (c : Char) : Option Nat :=
  ["0123456789abcdef".toList, "0123456789ABCDEF".toList].findSome? fun l => l.idxOf? c

/-- All of a list, or nothing. -/
def all {α β : Type} (f : α → Option β) : List α → Option (List β)
  | [] => some []
  | x :: xs => (f x).bind fun v => (all f xs).map (v :: ·)

/-- The number that digits stand for, the most significant first. -/
def value (base : Nat) : List Nat → Nat
  | [] => 0
  | d :: ds => d * base ^ ds.length + value base ds

/-- A hexadecimal number: `0x` and at least one digit. -/
def number : List Char → Option Nat
  | '0' :: 'x' :: d :: ds => (all digit (d :: ds)).map (value 16)
  | _ => none

/-- What is taken for the digits of a text: what follows `0x`, or all of it. -/
def digitsOf : List Char → List Char
  | '0' :: 'x' :: r => r
  | s => s

/-- The one way to write a number that the specification allows: no leading zeros, small letters. -/
def Canonical (s : List Char) : Prop :=
  s = ['0', 'x', '0'] ∨ ∃ d ds, s = '0' :: 'x' :: d :: ds ∧ d ≠ '0' ∧ ∀ c ∈ d :: ds, c ∈ "0123456789abcdef".toList

/-! ## Objects -/

/-- The values of a key. -/
def values (k : String) : J → List J
  | .obj l => l.filterMap fun p => if p.1 = k then some p.2 else none
  | _ => []

/-- The value of a key that is there once. -/
def get (k : String) (j : J) : Option J :=
  match values k j with
  | [v] => some v
  | _ => none

/-- The value of a key that need not be there: the outer `none` is an error. -/
def opt {α : Type} (k : String) (f : J → Option α) (j : J) : Option (Option α) :=
  match values k j with
  | [] => some none
  | [v] => (f v).map some
  | _ => none

def hex : J → Option Nat
  | .str s => number s
  | _ => none

def num : J → Option Nat
  | .num n => some n
  | _ => none

def str : J → Option (List Char)
  | .str s => some s
  | _ => none

def elem (j : J) : Option F := (hex j).bind fun n => if h : n < P then some ⟨n, h⟩ else none

def list {α : Type} (f : J → Option α) : J → Option (List α)
  | .arr l => all f l
  | _ => none

/-- A word out of a given list of words. -/
def word {α : Type} (ws : List (String × α)) (j : J) : Option α :=
  (str j).bind fun s => (ws.find? fun w => w.1.toList = s).map (·.2)

/-! ## Transactions -/

def bound (j : J) : Option Bound := do
  return ⟨← (get "max_amount" j).bind hex, ← (get "max_price_per_unit" j).bind hex⟩

def mode : J → Option Bool := word [("L1", false), ("L2", true)]

/-- The fields of a transaction of version 3. -/
def v3 (j : J) : Option V3 := do
  let b ← get "resource_bounds" j
  return ⟨← (get "nonce_data_availability_mode" j).bind mode, ← (get "fee_data_availability_mode" j).bind mode,
    ← (get "l1_gas" b).bind bound, ← (get "l2_gas" b).bind bound, ← opt "l1_data_gas" bound b,
    ← (get "tip" j).bind hex, ← (get "paymaster_data" j).bind (list elem)⟩

/-! The transactions by type and version. The address of a new contract is not shown: it is read as zero and computed afterwards. -/

def declareV0 (j : J) : Option Txn := do
  return .declareV0 ⟨← (get "class_hash" j).bind elem, ← (get "max_fee" j).bind elem, 0, ← (get "signature" j).bind (list elem),
    ← (get "sender_address" j).bind elem⟩

def declareV1 (j : J) : Option Txn := do
  return .declareV1 ⟨← (get "class_hash" j).bind elem, ← (get "max_fee" j).bind elem, ← (get "nonce" j).bind elem,
    ← (get "signature" j).bind (list elem), ← (get "sender_address" j).bind elem⟩

def declareV2 (j : J) : Option Txn := do
  return .declareV2 ⟨← (get "class_hash" j).bind elem, ← (get "max_fee" j).bind elem, ← (get "nonce" j).bind elem,
    ← (get "signature" j).bind (list elem), ← (get "sender_address" j).bind elem,
    ← (get "compiled_class_hash" j).bind elem⟩

def declareV3 (j : J) : Option Txn := do
  return .declareV3 ⟨← (get "class_hash" j).bind elem, ← (get "nonce" j).bind elem, ← v3 j,
    ← (get "signature" j).bind (list elem), ← (get "account_deployment_data" j).bind (list elem),
    ← (get "sender_address" j).bind elem, ← (get "compiled_class_hash" j).bind elem⟩

def deployV0 (j : J) : Option Txn := do
  return .deployV0 ⟨← (get "class_hash" j).bind elem, 0, ← (get "contract_address_salt" j).bind elem,
    ← (get "constructor_calldata" j).bind (list elem)⟩

def deployV1 (j : J) : Option Txn := do
  return .deployV1 ⟨← (get "class_hash" j).bind elem, 0, ← (get "contract_address_salt" j).bind elem,
    ← (get "constructor_calldata" j).bind (list elem)⟩

def deployAccountV1 (j : J) : Option Txn := do
  return .deployAccountV1 ⟨0, ← (get "max_fee" j).bind elem, ← (get "signature" j).bind (list elem), ← (get "nonce" j).bind elem,
    ← (get "contract_address_salt" j).bind elem, ← (get "constructor_calldata" j).bind (list elem),
    ← (get "class_hash" j).bind elem⟩

def deployAccountV3 (j : J) : Option Txn := do
  return .deployAccountV3 ⟨0, ← (get "signature" j).bind (list elem), ← (get "nonce" j).bind elem, ← v3 j,
    ← (get "contract_address_salt" j).bind elem, ← (get "constructor_calldata" j).bind (list elem),
    ← (get "class_hash" j).bind elem⟩

def invokeV0 (j : J) : Option Txn := do
  return .invokeV0 ⟨← (get "calldata" j).bind (list elem), ← (get "contract_address" j).bind elem,
    ← (get "entry_point_selector" j).bind elem, none, ← (get "max_fee" j).bind elem,
    ← (get "signature" j).bind (list elem)⟩

def invokeV1 (j : J) : Option Txn := do
  return .invokeV1 ⟨← (get "calldata" j).bind (list elem), ← (get "sender_address" j).bind elem, ← (get "max_fee" j).bind elem,
    ← (get "signature" j).bind (list elem), ← (get "nonce" j).bind elem⟩

def invokeV3 (j : J) : Option Txn := do
  return .invokeV3 ⟨← (get "signature" j).bind (list elem), ← (get "nonce" j).bind elem, ← v3 j,
    ← (get "account_deployment_data" j).bind (list elem), ← (get "calldata" j).bind (list elem),
    ← (get "sender_address" j).bind elem, (← opt "proof_facts" (list elem) j).getD []⟩

def l1Handler (j : J) : Option Txn := do
  return .l1Handler ⟨← (get "contract_address" j).bind elem, ← (get "entry_point_selector" j).bind elem,
    ← (get "nonce" j).bind elem, ← (get "calldata" j).bind (list elem)⟩

/-- The readers by type and version. -/
def readers : List (String × Nat × (J → Option Txn)) :=
  [("DECLARE", 0, declareV0),
   ("DECLARE", 1, declareV1),
   ("DECLARE", 2, declareV2),
   ("DECLARE", 3, declareV3),
   ("DEPLOY", 0, deployV0),
   ("DEPLOY", 1, deployV1),
   ("DEPLOY_ACCOUNT", 1, deployAccountV1),
   ("DEPLOY_ACCOUNT", 3, deployAccountV3),
   ("INVOKE", 0, invokeV0),
   ("INVOKE", 1, invokeV1),
   ("INVOKE", 3, invokeV3),
   ("L1_HANDLER", 0, l1Handler)]

/-- A transaction. -/
def tx (j : J) : Option Txn := do
  let kind ← (get "type" j).bind str
  let ver ← (get "version" j).bind hex
  let r ← readers.find? fun r => r.1.toList = kind ∧ r.2.1 = ver
  r.2.2 j

/-- A transaction with the address that follows from it. -/
def fullTx (h : Hashes) (j : J) : Option Txn := (tx j).map (·.withAddress h)

/-- A transaction without what no answer has and no hash covers: the nonce of the first declare transactions and the entry point type of the
first invoke transactions. -/
def shownPart : Txn → Txn
  | .declareV0 t => .declareV0 { t with nonce := 0 }
  | .invokeV0 t => .invokeV0 { t with entryType := none }
  | t => t

/-- The fields of version 3, if a transaction has them. -/
def v3Of : Txn → Option V3
  | .declareV3 t => some t.v3
  | .deployAccountV3 t => some t.v3
  | .invokeV3 t => some t.v3
  | _ => none

def proofFactsOf : Txn → List F
  | .invokeV3 t => t.proofFacts
  | _ => []

/-- The same transaction with another bound for data gas. -/
def withDataGas (d : Option Bound) : Txn → Txn
  | .declareV3 t => .declareV3 { t with v3 := { t.v3 with l1DataGas := d } }
  | .deployAccountV3 t => .deployAccountV3 { t with v3 := { t.v3 with l1DataGas := d } }
  | .invokeV3 t => .invokeV3 { t with v3 := { t.v3 with l1DataGas := d } }
  | t => t

/-! ## Receipts -/

inductive Kind
  | declare | deploy | deployAccount | invoke | l1Handler
  deriving DecidableEq, Repr

def kindOf : Txn → Kind
  | .declareV0 _ | .declareV1 _ | .declareV2 _ | .declareV3 _ => .declare
  | .deployV0 _ | .deployV1 _ => .deploy
  | .deployAccountV1 _ | .deployAccountV3 _ => .deployAccount
  | .invokeV0 _ | .invokeV1 _ | .invokeV3 _ => .invoke
  | .l1Handler _ => .l1Handler

def kind : J → Option Kind :=
  word [("DECLARE", .declare), ("DEPLOY", .deploy), ("DEPLOY_ACCOUNT", .deployAccount), ("INVOKE", .invoke), ("L1_HANDLER", .l1Handler)]

/-- The currencies of fees. -/
inductive Money
  | wei | fri
  deriving DecidableEq, Repr

def money : J → Option Money := word [("WEI", .wei), ("FRI", .fri)]

def finality : J → Option Finality :=
  word [("CANDIDATE", .candidate), ("PRE_CONFIRMED", .preConfirmed), ("ACCEPTED_ON_L2", .acceptedOnL2), ("ACCEPTED_ON_L1", .acceptedOnL1)]

def msg (j : J) : Option Msg := do
  return ⟨← (get "from_address" j).bind elem, ← (get "to_address" j).bind elem, ← (get "payload" j).bind (list elem)⟩

def event (j : J) : Option Event := do
  return ⟨← (get "from_address" j).bind elem, ← (get "keys" j).bind (list elem), ← (get "data" j).bind (list elem)⟩

/-- Whether reverted. -/
def outcome : J → Option Bool := word [("SUCCEEDED", false), ("REVERTED", true)]

/-- The status: the reason of a revert, if reverted. -/
def status (j : J) : Option (Option (List Char)) := do
  if ← (get "execution_status" j).bind outcome then return some (← (get "revert_reason" j).bind str)
  else return none

/-- The gas of a transaction, since 0.8. -/
structure GasUsed where
  l1 : Nat
  l1Data : Nat
  l2 : Nat
  deriving DecidableEq, Repr

def gasUsed (j : J) : Option GasUsed := do
  return ⟨← (get "l1_gas" j).bind num, ← (get "l1_data_gas" j).bind num, ← (get "l2_gas" j).bind num⟩

/-- The resources before 0.8. A counter that is not there is zero. -/
structure Counters where
  steps : Nat
  memoryHoles : Nat
  rangeCheck : Nat
  pedersen : Nat
  poseidon : Nat
  ecOp : Nat
  ecdsa : Nat
  bitwise : Nat
  keccak : Nat
  segmentArena : Nat
  da : Option (Nat × Nat)
  deriving DecidableEq, Repr

def da (j : J) : Option (Nat × Nat) := do return (← (get "l1_gas" j).bind num, ← (get "l1_data_gas" j).bind num)

def counters (j : J) : Option Counters := do
  let c := fun k => (opt k num j).map (·.getD 0)
  return ⟨← (get "steps" j).bind num, ← c "memory_holes", ← c "range_check_builtin_applications", ← c "pedersen_builtin_applications",
    ← c "poseidon_builtin_applications", ← c "ec_op_builtin_applications", ← c "ecdsa_builtin_applications",
    ← c "bitwise_builtin_applications", ← c "keccak_builtin_applications", ← c "segment_arena_builtin", ← opt "data_availability" da j⟩

/-- A receipt as a client sees it. -/
structure Seen where
  kind : Kind
  hash : F
  fee : F
  unit : Money
  finality : Finality
  messages : List Msg
  events : List Event
  reverted : Option (List Char)
  address : Option F
  messageHash : Option Nat
  deriving DecidableEq, Repr

def receipt (j : J) : Option Seen := do
  let fee ← get "actual_fee" j
  return ⟨← (get "type" j).bind kind, ← (get "transaction_hash" j).bind elem, ← (get "amount" fee).bind elem, ← (get "unit" fee).bind money,
    ← (get "finality_status" j).bind finality, ← (get "messages_sent" j).bind (list msg), ← (get "events" j).bind (list event), ← status j,
    ← opt "contract_address" elem j, ← opt "message_hash" hex j⟩

/-- The address of the contract that a transaction deploys. -/
def addressOf : Txn → Option F
  | .deployV0 t | .deployV1 t => some t.address
  | .deployAccountV1 t => some t.address
  | .deployAccountV3 t => some t.address
  | _ => none

/-- The message from L1 that a transaction handles: sender, receiver, nonce, selector and payload. Its first argument is the sender. -/
def messageOf : Txn → Option (F × F × F × F × List F)
  | .l1Handler t => t.calldata.head?.map fun src => (src, t.address, t.nonce, t.selector, t.calldata.drop 1)
  | _ => none

/-- A number as 32 bytes, the most significant first. -/
def bytes32 (n : Nat) : List UInt8 := (List.range 32).map fun i => UInt8.ofNat (n / 256 ^ (31 - i) % 256)

/-- The hash of a message, as the contract on Ethereum computes it: Keccak of the concatenation of 32 byte words. -/
def messageHash (h : Hashes) (m : F × F × F × F × List F) : Nat :=
  h.keccak (([m.1.val, m.2.1.val, m.2.2.1.val, m.2.2.2.1.val, m.2.2.2.2.length] ++ m.2.2.2.2.map (·.val)).flatMap bytes32)

/-! ## Headers -/

def price (j : J) : Option (Nat × Nat) := do
  return (← (get "price_in_wei" j).bind hex, ← (get "price_in_fri" j).bind hex)

/-- A header, since 0.10. -/
def header (j : J) : Option Header := do
  let l1 ← (get "l1_gas_price" j).bind price
  let data ← (get "l1_data_gas_price" j).bind price
  let l2 ← (get "l2_gas_price" j).bind price
  return ⟨← (get "block_hash" j).bind elem, ← (get "parent_hash" j).bind elem, ← (get "block_number" j).bind num,
    ← (get "timestamp" j).bind num, l1.1, l1.2, data.1, data.2, l2.1, l2.2, ← (get "sequencer_address" j).bind elem,
    ← ((get "starknet_version" j).bind str).bind Verif.Common.Version.read,
    ← (get "event_commitment" j).bind elem, ← (get "new_root" j).bind elem, ← (get "transaction_commitment" j).bind elem,
    ← (get "transaction_count" j).bind num, ← (get "event_count" j).bind num,
    ← (get "l1_da_mode" j).bind (word [("BLOB", true), ("CALLDATA", false)]),
    ← (get "receipt_commitment" j).bind elem, ← (get "state_diff_commitment" j).bind elem, ← (get "state_diff_length" j).bind num⟩

/-- A block with transactions: the hash and the transaction at each index, and whether it is accepted on L1. -/
def blockTxs (j : J) : Option (List (F × Txn) × Finality) := do
  return (← (get "transactions" j).bind (list fun x => do return (← (get "transaction_hash" x).bind elem, ← tx x)),
    ← (get "status" j).bind finality)

/-- A block with receipts. -/
def blockReceipts (j : J) : Option (List (Txn × Seen) × Finality) := do
  return (← (get "transactions" j).bind (list fun x => do return (← (get "transaction" x).bind tx, ← (get "receipt" x).bind receipt)),
    ← (get "status" j).bind finality)

/-! ## State updates -/

/-- One thing that a block changes. -/
inductive Change
  | storage (address key value : Nat)
  | deploy (address cls : Nat)
  | replace (address cls : Nat)
  | nonce (address value : Nat)
  | declareOld (cls : Nat)
  | declare (cls compiled : Nat)
  | migrate (cls compiled : Nat)
  deriving DecidableEq, Repr

def pair (k k' : String) (j : J) : Option (Nat × Nat) := do return (← (get k j).bind hex, ← (get k' j).bind hex)

def storageOf (j : J) : Option (List Change) := do
  let a ← (get "address" j).bind hex
  let es ← (get "storage_entries" j).bind (list (pair "key" "value"))
  return es.map fun e => .storage a e.1 e.2

/-- The changes of a state diff, in the order in which they are listed. -/
def changes (j : J) : Option (List Change) := do
  let st ← (get "storage_diffs" j).bind (list storageOf)
  let old ← (get "deprecated_declared_classes" j).bind (list hex)
  let decl ← (get "declared_classes" j).bind (list (pair "class_hash" "compiled_class_hash"))
  let depl ← (get "deployed_contracts" j).bind (list (pair "address" "class_hash"))
  let repl ← (get "replaced_classes" j).bind (list (pair "contract_address" "class_hash"))
  let migr ← opt "migrated_compiled_classes" (list (pair "class_hash" "compiled_class_hash")) j
  let nonces ← (get "nonces" j).bind (list (pair "contract_address" "nonce"))
  return st.flatten ++ old.map .declareOld ++ decl.map (fun x => .declare x.1 x.2) ++ depl.map (fun x => .deploy x.1 x.2) ++
    repl.map (fun x => .replace x.1 x.2) ++ (migr.getD []).map (fun x => .migrate x.1 x.2) ++ nonces.map (fun x => .nonce x.1 x.2)

/-- What a state update changes. -/
def Changes (u : SU) : Change → Prop
  | .storage a k v => (∃ c, (a, c) ∈ u.contracts ∧ (k, v) ∈ c.storage) ∨ ∃ s, (a, s) ∈ u.system ∧ (k, v) ∈ s
  | .deploy a c => ∃ x, (a, x) ∈ u.contracts ∧ x.cls = some (.deploy c)
  | .replace a c => ∃ x, (a, x) ∈ u.contracts ∧ x.cls = some (.replace c)
  | .nonce a n => ∃ x, (a, x) ∈ u.contracts ∧ x.nonce = some n
  | .declareOld c => c ∈ u.cairo
  | .declare c h => (c, h) ∈ u.sierra
  | .migrate c h => (c, h) ∈ u.migrated

/-- All values are field elements. -/
structure InRange (u : SU) : Prop where
  storage : ∀ a c, (a, c) ∈ u.contracts → a < P ∧ (∀ k v, (k, v) ∈ c.storage → k < P ∧ v < P) ∧ (∀ n ∈ c.nonce, n < P) ∧
    (∀ x ∈ c.cls, x.hash < P)
  system : ∀ a s, (a, s) ∈ u.system → a < P ∧ ∀ k v, (k, v) ∈ s → k < P ∧ v < P
  cairo : ∀ c ∈ u.cairo, c < P
  sierra : ∀ c h, (c, h) ∈ u.sierra → c < P ∧ h < P
  migrated : ∀ c h, (c, h) ∈ u.migrated → c < P ∧ h < P

/-- The maps have each key once, and no contract is both an ordinary and a system contract. -/
structure Maps (u : SU) : Prop where
  contracts : (u.contracts.map (·.1)).Nodup
  system : (u.system.map (·.1)).Nodup
  apart : ∀ a ∈ u.contracts.map (·.1), a ∉ u.system.map (·.1)
  storage : ∀ a c, (a, c) ∈ u.contracts → (c.storage.map (·.1)).Nodup
  sysStorage : ∀ a s, (a, s) ∈ u.system → (s.map (·.1)).Nodup
  cairo : u.cairo.Nodup
  sierra : (u.sierra.map (·.1)).Nodup
  migrated : (u.migrated.map (·.1)).Nodup

end Verif.Shown.Spec
