import Verif.Feed.Model
/-!
# The gateway's documents

What the feeder gateway sends for a transaction and for a receipt, field by field, and which values can be stored. Nothing here uses the
functions of the model that read or write.
-/
namespace Verif.Feed
open Verif.Block (F P Txn Bound V3 Msg Event InvokeV0)
open Verif.Shown (Builtins Resources)

/-- A number in hexadecimal. -/
abbrev hx (x : F) : J := .hex x.val
/-- A list of numbers in hexadecimal. -/
abbrev hxs (l : List F) : J := .arr (l.map fun x => .hex x.val)
/-- A list of numbers in decimal. -/
abbrev dcs (l : List F) : J := .arr (l.map fun x => .dec x.val)
/-- A mode of data availability: 0 for L1, 1 for L2. -/
abbrev md (l2 : Bool) : J := if l2 then .num 1 else .num 0
/-- A bound on a resource. -/
abbrev bd (b : Bound) : J := .obj [("max_price_per_unit", .hex b.price), ("max_amount", .hex b.amount)]
/-- The bounds on all resources; a bound on L1 data gas may be missing. -/
abbrev bds (x : V3) : J := .obj [("L1_GAS", bd x.l1Gas), ("L1_DATA_GAS", match x.l1DataGas with
  | none => .null
  | some b => bd b), ("L2_GAS", bd x.l2Gas)]

/-- The fields of all transactions of version 3. -/
def v3Document (x : V3) : List (String × J) :=
  [("nonce_data_availability_mode", md x.nonceL2), ("fee_data_availability_mode", md x.feeL2), ("resource_bounds", bds x), ("tip", .hex x.tip),
    ("paymaster_data", hxs x.paymaster)]

/-- The document of a transaction with a hash: every field with its value. -/
def document (h : F) : Txn → List (String × J)
  | .declareV0 t => [("type", .str "DECLARE"), ("version", .hex 0), ("transaction_hash", hx h), ("class_hash", hx t.classHash),
      ("sender_address", hx t.sender), ("nonce", hx t.nonce), ("max_fee", hx t.maxFee), ("signature", dcs t.signature)]
  | .declareV1 t => [("type", .str "DECLARE"), ("version", .hex 1), ("transaction_hash", hx h), ("class_hash", hx t.classHash),
      ("sender_address", hx t.sender), ("nonce", hx t.nonce), ("max_fee", hx t.maxFee), ("signature", dcs t.signature)]
  | .declareV2 t => [("type", .str "DECLARE"), ("version", .hex 2), ("transaction_hash", hx h), ("class_hash", hx t.classHash),
      ("compiled_class_hash", hx t.casm), ("sender_address", hx t.sender), ("nonce", hx t.nonce), ("max_fee", hx t.maxFee),
      ("signature", dcs t.signature)]
  | .declareV3 t => [("type", .str "DECLARE"), ("version", .hex 3), ("transaction_hash", hx h), ("class_hash", hx t.classHash),
      ("compiled_class_hash", hx t.casm), ("sender_address", hx t.sender), ("nonce", hx t.nonce), ("signature", dcs t.signature),
      ("account_deployment_data", hxs t.accountDeployment)] ++ v3Document t.v3
  | .deployV0 t => [("type", .str "DEPLOY"), ("version", .hex 0), ("transaction_hash", hx h), ("class_hash", hx t.classHash),
      ("contract_address", hx t.address), ("contract_address_salt", hx t.salt), ("constructor_calldata", dcs t.calldata)]
  | .deployV1 t => [("type", .str "DEPLOY"), ("version", .hex 1), ("transaction_hash", hx h), ("class_hash", hx t.classHash),
      ("contract_address", hx t.address), ("contract_address_salt", hx t.salt), ("constructor_calldata", dcs t.calldata)]
  | .deployAccountV1 t => [("type", .str "DEPLOY_ACCOUNT"), ("version", .hex 1), ("transaction_hash", hx h), ("class_hash", hx t.classHash),
      ("contract_address", hx t.address), ("contract_address_salt", hx t.salt), ("constructor_calldata", dcs t.calldata), ("nonce", hx t.nonce),
      ("max_fee", hx t.maxFee), ("signature", dcs t.signature)]
  | .deployAccountV3 t => [("type", .str "DEPLOY_ACCOUNT"), ("version", .hex 3), ("transaction_hash", hx h), ("class_hash", hx t.classHash),
      ("sender_address", hx t.address), ("contract_address_salt", hx t.salt), ("constructor_calldata", dcs t.calldata), ("nonce", hx t.nonce),
      ("signature", dcs t.signature)] ++ v3Document t.v3
  | .invokeV0 t => [("type", .str "INVOKE_FUNCTION"), ("version", .hex 0), ("transaction_hash", hx h), ("sender_address", hx t.sender),
      ("entry_point_selector", hx t.selector), ("calldata", dcs t.calldata), ("max_fee", hx t.maxFee), ("signature", dcs t.signature)]
  | .invokeV1 t => [("type", .str "INVOKE_FUNCTION"), ("version", .hex 1), ("transaction_hash", hx h), ("sender_address", hx t.sender),
      ("nonce", hx t.nonce), ("calldata", dcs t.calldata), ("max_fee", hx t.maxFee), ("signature", dcs t.signature)]
  | .invokeV3 t => [("type", .str "INVOKE_FUNCTION"), ("version", .hex 3), ("transaction_hash", hx h), ("sender_address", hx t.sender),
      ("nonce", hx t.nonce), ("calldata", dcs t.calldata), ("signature", dcs t.signature), ("account_deployment_data", hxs t.accountDeployment),
      ("proof_facts", hxs t.proofFacts)] ++ v3Document t.v3
  | .l1Handler t => [("type", .str "L1_HANDLER"), ("version", .hex 0), ("transaction_hash", hx h), ("contract_address", hx t.address),
      ("entry_point_selector", hx t.selector), ("nonce", hx t.nonce), ("calldata", hxs t.calldata)]

/-- What may be left out, because that means the same. -/
def mayOmit : Txn → List String
  | .declareV0 t => ["version"] ++ if t.signature = [] then ["signature"] else []
  | .declareV1 t => if t.signature = [] then ["signature"] else []
  | .declareV2 t => if t.signature = [] then ["signature"] else []
  | .declareV3 t => if t.signature = [] then ["signature"] else []
  | .deployV0 _ => ["version"]
  | .invokeV0 _ => ["version"]
  | .invokeV3 t => if t.proofFacts = [] then ["proof_facts"] else []
  | .l1Handler t => if t.nonce = 0 then ["nonce"] else []
  | _ => []

/-- The name of a field today: the sender of old invoke transactions used to be called `contract_address`. -/
def nameNow (t : Txn) (k : String) : String :=
  match t with
  | .invokeV0 _ => if k = "contract_address" then "sender_address" else k
  | _ => k

/-- The value of a field in an object; the last one if there are several, and `null` if there is none. -/
def valueOf (l : List (String × J)) (k : String) : J := (l.reverse.lookup k).getD .null

/-- The first value says what the second one says: they are the same, a number is in hexadecimal instead of decimal, or the same holds for all elements
or for all fields (an object may have more of them). -/
inductive Says : J → J → Prop
  | same (j : J) : Says j j
  | hex (n : Nat) : Says (.hex n) (.dec n)
  | arr (l m : List J) (hl : l.length = m.length) (h : ∀ p ∈ l.zip m, Says p.1 p.2) : Says (.arr l) (.arr m)
  | obj (l m : List (String × J)) (h : ∀ p ∈ m, Says (valueOf l p.1) p.2) : Says (.obj l) (.obj m)

/-- The value of a field says what the document says. The program does not look at the version of L1 handlers, which is 0: any number passes. -/
def Stated (t : Txn) (k : String) (v w : J) : Prop :=
  match t with
  | .l1Handler _ => Says v w ∨ (k = "version" ∧ ∃ x : F, v = .hex x.val)
  | _ => Says v w

/-- An object says that it is this transaction with this hash: it has each field of the document once, unless it may be left out, and no others. -/
structure Sent (l : List (String × J)) (h : F) (t : Txn) : Prop where
  once : (l.map fun q => nameNow t q.1).Nodup
  only : ∀ q ∈ l, nameNow t q.1 ∈ (document h t).map (·.1)
  there : ∀ p ∈ document h t, (∃ q ∈ l, nameNow t q.1 = p.1 ∧ Stated t p.1 q.2 p.2) ∨ ((∀ q ∈ l, nameNow t q.1 ≠ p.1) ∧ p.1 ∈ mayOmit t)

/-- A class hash or an address that the program can hold. -/
abbrev Short (x : F) : Prop := x.val < 2 ^ 251
/-- A bound that the program can hold: `u64` and `u128`. -/
abbrev Bound.Fits (b : Bound) : Prop := b.amount < 2 ^ 64 ∧ b.price < 2 ^ 128
/-- The fields of version 3 that the program can hold. -/
abbrev V3Fits (x : V3) : Prop := Bound.Fits x.l1Gas ∧ Bound.Fits x.l2Gas ∧ (∀ b, x.l1DataGas = some b → Bound.Fits b) ∧ x.tip < 2 ^ 64

/-- A transaction that the program can hold, without an entry point type (which the gateway's documents do not have). -/
def Fits : Txn → Prop
  | .declareV0 t => Short t.classHash ∧ Short t.sender
  | .declareV1 t => Short t.classHash ∧ Short t.sender
  | .declareV2 t => Short t.classHash ∧ Short t.sender ∧ Short t.casm
  | .declareV3 t => Short t.classHash ∧ Short t.sender ∧ Short t.casm ∧ V3Fits t.v3
  | .deployV0 t => Short t.address ∧ Short t.classHash
  | .deployV1 t => Short t.address ∧ Short t.classHash
  | .deployAccountV1 t => Short t.address ∧ Short t.classHash
  | .deployAccountV3 t => Short t.address ∧ Short t.classHash ∧ V3Fits t.v3
  | .invokeV0 t => Short t.sender ∧ t.entryType = none
  | .invokeV1 t => Short t.sender
  | .invokeV3 t => Short t.sender ∧ V3Fits t.v3
  | .l1Handler t => Short t.address

/-- The type of a document. -/
def HasType (l : List (String × J)) (s : String) : Prop := ("type", J.str s) ∈ l

/-- A document with another version. -/
def withVersion (v : J) (l : List (String × J)) : List (String × J) := l.map fun q => if q.1 = "version" then (q.1, v) else q

/-! ## Receipts -/

/-- The counters of the builtins. -/
def builtinsDocument (b : Builtins) : J :=
  .obj [("output_builtin", .num b.output), ("pedersen_builtin", .num b.pedersen), ("range_check_builtin", .num b.rangeCheck),
    ("ecdsa_builtin", .num b.ecdsa), ("bitwise_builtin", .num b.bitwise), ("ec_op_builtin", .num b.ecOp), ("keccak_builtin", .num b.keccak),
    ("poseidon_builtin", .num b.poseidon), ("segment_arena_builtin", .num b.segmentArena), ("add_mod_builtin", .num b.addMod),
    ("mul_mod_builtin", .num b.mulMod), ("range_check96_builtin", .num b.rangeCheck96)]

/-- Amounts of gas; that of L2 gas may be `null`. -/
def gasDocument (l1 l1Data : Nat) (l2 : Option Nat) : J :=
  .obj [("l1_gas", .num l1), ("l1_data_gas", .num l1Data), ("l2_gas", match l2 with
    | none => .null
    | some n => .num n)]

/-- Resources, with this L2 gas in `total_gas_consumed`; the L2 gas in `data_availability` means nothing. -/
def resourcesDocument (l2 da : Option Nat) (r : Resources) : J :=
  .obj [("n_steps", .num r.steps), ("n_memory_holes", .num r.memoryHoles), ("builtin_instance_counter", builtinsDocument r.builtins),
    ("data_availability", gasDocument r.daL1Gas r.daL1DataGas da), ("total_gas_consumed", gasDocument r.l1Gas r.l1DataGas l2)]

/-- An event. -/
def eventDocument (e : Event) : J := .obj [("from_address", hx e.src), ("keys", dcs e.keys), ("data", dcs e.data)]

/-- A message to L1. -/
def messageDocument (m : Msg) : J := .obj [("from_address", hx m.src), ("to_address", hx m.dst), ("payload", dcs m.payload)]

/-- The document of a receipt and its events. -/
def receiptDocument (l2 da : Option Nat) (r : Rcpt) (es : List Event) : List (String × J) :=
  [("transaction_hash", hx r.hash), ("transaction_index", .num r.index), ("actual_fee", hx r.fee),
    ("execution_status", .str (if r.reverted = none then "SUCCEEDED" else "REVERTED")), ("revert_error", match r.reverted with
      | none => .null
      | some s => .str s),
    ("execution_resources", resourcesDocument l2 da r.resources), ("l2_to_l1_messages", .arr (r.messages.map messageDocument)),
    ("l1_to_l2_consumed_message", .null), ("events", .arr (es.map eventDocument))]

/-- A message from L1 that a transaction consumed, with a nonce or (before there were any) without. -/
structure Consumed where
  src : Nat
  payload : List F
  selector : F
  dst : F
  nonce : Option F

/-- Its document. -/
def consumedDocument (m : Consumed) : J :=
  .obj ([("from_address", .hex m.src), ("to_address", hx m.dst), ("selector", hx m.selector), ("payload", dcs m.payload)] ++ (match m.nonce with
    | none => []
    | some n => [("nonce", hx n)]))

/-- The document of a receipt of the first years: no gas among the resources, a reason only if there is one to give, and a consumed message. -/
def oldReceiptDocument (m : Consumed) (reverted : Bool) (reason : Option String) (r : Rcpt) (es : List Event) : List (String × J) :=
  [("transaction_hash", hx r.hash), ("transaction_index", .num r.index), ("actual_fee", hx r.fee),
    ("execution_status", .str (if reverted then "REVERTED" else "SUCCEEDED")),
    ("execution_resources", .obj [("n_steps", .num r.resources.steps), ("n_memory_holes", .num r.resources.memoryHoles),
      ("builtin_instance_counter", builtinsDocument r.resources.builtins)]),
    ("l2_to_l1_messages", .arr (r.messages.map messageDocument)), ("l1_to_l2_consumed_message", consumedDocument m),
    ("events", .arr (es.map eventDocument))] ++ (match reason with
      | none => []
      | some s => [("revert_error", .str s)])

/-- No gas at all. -/
def NoGas (r : Resources) : Prop := r.daL1Gas = 0 ∧ r.daL1DataGas = 0 ∧ r.l1Gas = 0 ∧ r.l1DataGas = 0 ∧ r.l2Gas = 0

/-- The same document, up to the order of the fields of objects. -/
inductive Reordered : J → J → Prop
  | same (j : J) : Reordered j j
  | arr (l m : List J) (hl : l.length = m.length) (h : ∀ p ∈ l.zip m, Reordered p.1 p.2) : Reordered (.arr l) (.arr m)
  | obj (l m : List (String × J)) (hk : (l.map (·.1)).Perm (m.map (·.1))) (h : ∀ p ∈ l, ∀ q ∈ m, p.1 = q.1 → Reordered p.2 q.2) : Reordered (.obj l) (.obj m)

/-- Counters that the program can hold. -/
structure BuiltinsFit (b : Builtins) : Prop where
  output : b.output < 2 ^ 64
  pedersen : b.pedersen < 2 ^ 64
  rangeCheck : b.rangeCheck < 2 ^ 64
  ecdsa : b.ecdsa < 2 ^ 64
  bitwise : b.bitwise < 2 ^ 64
  ecOp : b.ecOp < 2 ^ 64
  keccak : b.keccak < 2 ^ 64
  poseidon : b.poseidon < 2 ^ 64
  segmentArena : b.segmentArena < 2 ^ 64
  addMod : b.addMod < 2 ^ 64
  mulMod : b.mulMod < 2 ^ 64
  rangeCheck96 : b.rangeCheck96 < 2 ^ 64

/-- A receipt and events that the program can hold. -/
structure ReceiptFits (r : Rcpt) (es : List Event) : Prop where
  builtins : BuiltinsFit r.resources.builtins
  steps : r.resources.steps < 2 ^ 64
  holes : r.resources.memoryHoles < 2 ^ 64
  gas : r.resources.daL1Gas < 2 ^ 128 ∧ r.resources.daL1DataGas < 2 ^ 128 ∧ r.resources.l1Gas < 2 ^ 128 ∧ r.resources.l1DataGas < 2 ^ 128 ∧
    r.resources.l2Gas < 2 ^ 128
  index : r.index < 2 ^ 63
  messages : ∀ m ∈ r.messages, Short m.src ∧ Short m.dst
  events : ∀ e ∈ es, Short e.src

end Verif.Feed
