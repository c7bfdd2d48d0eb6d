import Verif.Pend.Model

/-!
# Submitting transactions and asking for their status

Model of `crates/rpc/src/method/add_{invoke,declare,deploy_account}_transaction.rs`, of the gate in `v08/method/add_*.rs`, of the requests
that are written for the gateway (`crates/gateway-types/src/request.rs`), of `crates/rpc/src/tracker.rs`, of
`crates/rpc/src/method/get_transaction_status.rs` and of `get_messages_status.rs`.

Simplifications: a field element is a natural number; in JSON a hexadecimal and a decimal string of a number are leaves of their own. A class
is a number, and what it is in a request is given (`None`: it cannot be converted). What the gateway answers and whether the database can be read
are given by the environment. Time is in seconds. Logging, metrics, HTTP and compression are left out. The cache of the tracker is the
`TimedSizedCache` of the crate `cached`: its text is not in the repository, so two points in which versions of it differ are parameters.
-/
namespace Verif.Submit

/-- A bound on a resource (common/src/transaction.rs `ResourceBound`; gateway-types/src/reply.rs:867-874). -/
structure Bound where
  amount : Nat
  price : Nat
  deriving DecidableEq

/-- `ResourceBounds` (gateway-types/src/reply.rs:833-845); both types have the same fields and the conversion (857-865) keeps them. -/
structure Bounds where
  l1 : Bound
  l2 : Bound
  l1Data : Option Bound
  deriving DecidableEq

/-- `DataAvailabilityMode`. -/
inductive Da | l1 | l2
  deriving DecidableEq

/-- `BroadcastedInvokeTransactionV0` (rpc/src/types.rs:1066-1078). -/
structure Invoke0 where
  version : Nat
  maxFee : Nat
  signature : List Nat
  contractAddress : Nat
  selector : Nat
  calldata : List Nat
  deriving DecidableEq

/-- `BroadcastedInvokeTransactionV1` (types.rs:1118-1130). -/
structure Invoke1 where
  version : Nat
  maxFee : Nat
  signature : List Nat
  nonce : Nat
  sender : Nat
  calldata : List Nat
  deriving DecidableEq

/-- `BroadcastedInvokeTransactionV3` (types.rs:1168-1184). -/
structure Invoke3 where
  version : Nat
  signature : List Nat
  nonce : Nat
  bounds : Bounds
  tip : Nat
  paymaster : List Nat
  deployment : List Nat
  nonceMode : Da
  feeMode : Da
  sender : Nat
  calldata : List Nat
  proofFacts : List Nat
  proof : List Nat
  deriving DecidableEq

/-- `BroadcastedDeclareTransactionV0` and `V1` (types.rs:421-477); `V0` has no nonce. -/
structure Declare1 where
  version : Nat
  maxFee : Nat
  signature : List Nat
  nonce : Nat
  cls : Nat
  sender : Nat
  deriving DecidableEq

/-- `BroadcastedDeclareTransactionV2` (types.rs:513-525). -/
structure Declare2 where
  version : Nat
  maxFee : Nat
  signature : List Nat
  nonce : Nat
  compiled : Nat
  cls : Nat
  sender : Nat
  deriving DecidableEq

/-- `BroadcastedDeclareTransactionV3` (types.rs:562-577). -/
structure Declare3 where
  version : Nat
  signature : List Nat
  nonce : Nat
  bounds : Bounds
  tip : Nat
  paymaster : List Nat
  deployment : List Nat
  nonceMode : Da
  feeMode : Da
  compiled : Nat
  cls : Nat
  sender : Nat
  deriving DecidableEq

/-- `BroadcastedDeployAccountTransactionV1` (types.rs:762-774). -/
structure Deploy1 where
  version : Nat
  maxFee : Nat
  signature : List Nat
  nonce : Nat
  salt : Nat
  calldata : List Nat
  classHash : Nat
  deriving DecidableEq

/-- `BroadcastedDeployAccountTransactionV3` (types.rs:826-840). -/
structure Deploy3 where
  version : Nat
  signature : List Nat
  nonce : Nat
  bounds : Bounds
  tip : Nat
  paymaster : List Nat
  nonceMode : Da
  feeMode : Da
  salt : Nat
  calldata : List Nat
  classHash : Nat
  deriving DecidableEq

/-- A transaction as it was given to the node: `BroadcastedTransaction` (types.rs:150-163). -/
inductive Tx
  | invoke0 (t : Invoke0)
  | invoke1 (t : Invoke1)
  | invoke3 (t : Invoke3)
  | declare0 (version : Nat)
  | declare1 (t : Declare1)
  | declare2 (t : Declare2)
  | declare3 (t : Declare3)
  | deploy1 (t : Deploy1)
  | deploy3 (t : Deploy3)
  deriving DecidableEq

/-- `version()` (types.rs:221-262). -/
def Tx.version : Tx → Nat
  | .invoke0 t => t.version
  | .invoke1 t => t.version
  | .invoke3 t => t.version
  | .declare0 v => v
  | .declare1 t => t.version
  | .declare2 t => t.version
  | .declare3 t => t.version
  | .deploy1 t => t.version
  | .deploy3 t => t.version

/-- `without_query_version` (common/src/lib.rs:243-246): the lower 128 bits. -/
def plain (v : Nat) : Nat := v % 2 ^ 128

/-- What parsing makes sure of: the kind of transaction was chosen by the lower bits of the version (types.rs:335-390, 709-752, 992-1049). -/
def Tx.parsed (t : Tx) : Prop :=
  match t with
  | .invoke0 t => plain t.version = 0
  | .invoke1 t => plain t.version = 1
  | .invoke3 t => plain t.version = 3
  | .declare0 v => plain v = 0
  | .declare1 t => plain t.version = 1
  | .declare2 t => plain t.version = 2
  | .declare3 t => plain t.version = 3
  | .deploy1 t => plain t.version = 1
  | .deploy3 t => plain t.version = 3

instance (t : Tx) : Decidable t.parsed := by unfold Tx.parsed; cases t <;> infer_instance

/-! ## What is written for the gateway -/

/-- JSON with the leaves that occur in these requests; `cls` stands for the object of a class. -/
inductive J
  | hex (n : Nat)
  | dec (n : Nat)
  | num (n : Nat)
  | str (s : String)
  | cls (n : Nat)
  | b64 (bytes : List Nat)
  | arr (l : List J)
  | obj (l : List (String × J))

/-- A list of elements that are written as hexadecimal strings. -/
def hexes (l : List Nat) : J := .arr (l.map .hex)

/-- A list of elements that are written as decimal strings (`CallParamAsDecimalStr`, `TransactionSignatureElemAsDecimalStr`). -/
def decs (l : List Nat) : J := .arr (l.map .dec)

/-- `Serialize for DataAvailabilityMode` (gateway-types/src/reply.rs:788-798). -/
def Da.json : Da → J
  | .l1 => .num 0
  | .l2 => .num 1

/-- `ResourceBound` (reply.rs:867-874). -/
def Bound.json (b : Bound) : J := .obj [("max_amount", .hex b.amount), ("max_price_per_unit", .hex b.price)]

/-- `ResourceBounds` (reply.rs:833-845). -/
def Bounds.json (b : Bounds) : J :=
  .obj ([("L1_GAS", b.l1.json), ("L2_GAS", b.l2.json)] ++ (match b.l1Data with
    | none => []
    | some d => [("L1_DATA_GAS", d.json)]))

/-- A field with `skip_serializing_if = "Option::is_none"`. -/
def optField (k : String) : Option Nat → List (String × J)
  | none => []
  | some n => [(k, .hex n)]

/-- A field with `skip_serializing_if = "Vec::is_empty"`. -/
def vecField (k : String) (l : List Nat) : List (String × J) := if l.isEmpty then [] else [(k, hexes l)]

/-- `Proof`: a base64 string of its bytes, left out if there are none (common/src/lib.rs:718-735; request.rs:152-153). -/
def proofField (k : String) (l : List Nat) : List (String × J) := if l.isEmpty then [] else [(k, .b64 l)]

/-- `InvokeFunctionV0V1` (request.rs:118-133). -/
structure ReqInvoke01 where
  maxFee : Nat
  signature : List Nat
  nonce : Option Nat
  sender : Nat
  selector : Option Nat
  calldata : List Nat

/-- The fields it is written with (request.rs:118-133). -/
def ReqInvoke01.fields (r : ReqInvoke01) : List (String × J) :=
  [("max_fee", .hex r.maxFee), ("signature", hexes r.signature)] ++ optField "nonce" r.nonce ++
    [("sender_address", .hex r.sender)] ++ optField "entry_point_selector" r.selector ++ [("calldata", hexes r.calldata)]

/-- `InvokeFunctionV3` (request.rs:135-154); the same fields as in the transaction. -/
def Invoke3.fields (t : Invoke3) : List (String × J) :=
  [("signature", hexes t.signature), ("nonce", .hex t.nonce), ("nonce_data_availability_mode", t.nonceMode.json),
    ("fee_data_availability_mode", t.feeMode.json), ("resource_bounds", t.bounds.json), ("tip", .hex t.tip),
    ("paymaster_data", hexes t.paymaster), ("sender_address", .hex t.sender), ("calldata", hexes t.calldata),
    ("account_deployment_data", hexes t.deployment)] ++ vecField "proof_facts" t.proofFacts ++ proofField "proof" t.proof

/-- `DeclareV0V1V2` (request.rs:171-188); its first field is called `version`, too. -/
structure ReqDeclare012 where
  version : Nat
  maxFee : Nat
  signature : List Nat
  cls : Nat
  sender : Nat
  nonce : Nat
  compiled : Option Nat

/-- The fields it is written with (request.rs:171-188). -/
def ReqDeclare012.fields (r : ReqDeclare012) : List (String × J) :=
  [("version", .hex r.version), ("max_fee", .hex r.maxFee), ("signature", hexes r.signature), ("contract_class", .cls r.cls),
    ("sender_address", .hex r.sender), ("nonce", .hex r.nonce)] ++ optField "compiled_class_hash" r.compiled

/-- `DeclareV3` (request.rs:190-206). `cls` is the converted class. -/
def Declare3.fields (t : Declare3) (cls : Nat) : List (String × J) :=
  [("signature", hexes t.signature), ("nonce", .hex t.nonce), ("nonce_data_availability_mode", t.nonceMode.json),
    ("fee_data_availability_mode", t.feeMode.json), ("resource_bounds", t.bounds.json), ("tip", .hex t.tip),
    ("paymaster_data", hexes t.paymaster), ("contract_class", .cls cls), ("compiled_class_hash", .hex t.compiled),
    ("sender_address", .hex t.sender), ("account_deployment_data", hexes t.deployment)]

/-- `DeployAccountV0V1` (request.rs:65-77). -/
def Deploy1.fields (t : Deploy1) : List (String × J) :=
  [("max_fee", .hex t.maxFee), ("signature", decs t.signature), ("nonce", .hex t.nonce), ("class_hash", .hex t.classHash),
    ("contract_address_salt", .hex t.salt), ("constructor_calldata", decs t.calldata)]

/-- `DeployAccountV3` (request.rs:79-94). -/
def Deploy3.fields (t : Deploy3) : List (String × J) :=
  [("signature", hexes t.signature), ("nonce", .hex t.nonce), ("nonce_data_availability_mode", t.nonceMode.json),
    ("fee_data_availability_mode", t.feeMode.json), ("resource_bounds", t.bounds.json), ("tip", .hex t.tip),
    ("paymaster_data", hexes t.paymaster), ("class_hash", .hex t.classHash), ("contract_address_salt", .hex t.salt),
    ("constructor_calldata", hexes t.calldata)]

/-- An enum with `#[serde(tag = ..)]` inside `AddTransaction` with `#[serde(tag = "type")]` (request.rs:97-107, 156-169, 208-221): both tags
are written before the fields. -/
def tagged (type version : String) (fields : List (String × J)) : J :=
  .obj ([("type", .str type), ("version", .str version)] ++ fields)

/-- Why a transaction is not sent to the gateway. -/
inductive Refusal | version | cls
  deriving DecidableEq

/-- The request for the gateway (add_invoke_transaction.rs:221-325, add_declare_transaction.rs:313-449, add_deploy_account_transaction.rs:
212-325). `convert` turns a class into the form of the request. Refused: a declare transaction of version 0, a class that cannot be converted,
and a deploy account transaction of `V1` whose version is neither 0 nor 1. -/
def request (convert : Nat → Option Nat) : Tx → Except Refusal J
  | .invoke0 t => .ok (tagged "INVOKE_FUNCTION" "0x0" (ReqInvoke01.fields
      { maxFee := t.maxFee, signature := t.signature, nonce := none, sender := t.contractAddress, selector := some t.selector,
        calldata := t.calldata }))
  | .invoke1 t => .ok (tagged "INVOKE_FUNCTION" "0x1" (ReqInvoke01.fields
      { maxFee := t.maxFee, signature := t.signature, nonce := some t.nonce, sender := t.sender, selector := none, calldata := t.calldata }))
  | .invoke3 t => .ok (tagged "INVOKE_FUNCTION" "0x3" t.fields)
  | .declare0 _ => .error .version
  | .declare1 t => match convert t.cls with
    | none => .error .cls
    | some c => .ok (tagged "DECLARE" "0x1" (ReqDeclare012.fields
      { version := t.version, maxFee := t.maxFee, signature := t.signature, cls := c, sender := t.sender, nonce := t.nonce, compiled := none }))
  | .declare2 t => match convert t.cls with
    | none => .error .cls
    | some c => .ok (tagged "DECLARE" "0x2" (ReqDeclare012.fields
      { version := t.version, maxFee := t.maxFee, signature := t.signature, cls := c, sender := t.sender, nonce := t.nonce,
        compiled := some t.compiled }))
  | .declare3 t => match convert t.cls with
    | none => .error .cls
    | some c => .ok (tagged "DECLARE" "0x3" (t.fields c))
  | .deploy1 t =>
    if plain t.version = 0 then .ok (tagged "DEPLOY_ACCOUNT" "0x0" t.fields)
    else if plain t.version = 1 then .ok (tagged "DEPLOY_ACCOUNT" "0x1" t.fields)
    else .error .version
  | .deploy3 t => .ok (tagged "DEPLOY_ACCOUNT" "0x3" t.fields)

/-! ## What is remembered -/

/-- `TransactionVariant` (common/src/transaction.rs), the kinds that can be submitted. The versions are in the kinds. -/
inductive Variant
  | invokeV0 (calldata : List Nat) (sender selector maxFee : Nat) (signature : List Nat)
  | invokeV1 (calldata : List Nat) (sender maxFee : Nat) (signature : List Nat) (nonce : Nat)
  | invokeV3 (signature : List Nat) (nonce : Nat) (nonceMode feeMode : Da) (bounds : Bounds) (tip : Nat) (paymaster deployment calldata :
      List Nat) (sender : Nat) (proofFacts : List Nat)
  | declareV1 (classHash maxFee nonce : Nat) (signature : List Nat) (sender : Nat)
  | declareV2 (classHash maxFee nonce : Nat) (signature : List Nat) (sender compiled : Nat)
  | declareV3 (classHash nonce : Nat) (nonceMode feeMode : Da) (bounds : Bounds) (tip : Nat) (paymaster signature deployment : List Nat)
      (sender compiled : Nat)
  | deployV1 (address maxFee : Nat) (signature : List Nat) (nonce salt : Nat) (calldata : List Nat) (classHash : Nat)
  | deployV3 (address : Nat) (signature : List Nat) (nonce : Nat) (nonceMode feeMode : Da) (bounds : Bounds) (tip : Nat) (paymaster : List Nat)
      (salt : Nat) (calldata : List Nat) (classHash : Nat)
  deriving DecidableEq

/-- What is remembered of a submitted transaction (add_invoke_transaction.rs:243-250, 270-276, 304-316; add_declare_transaction.rs:344-350,
382-389, 425-437; add_deploy_account_transaction.rs:237-245, 268-276, 310-322). `classHash` is what the gateway answered for a declare
transaction, `address` the address of a contract with these arguments. -/
def remember (address : List Nat → Nat → Nat → Nat) (classHash : Nat) : Tx → Option Variant
  | .invoke0 t => some (.invokeV0 t.calldata t.contractAddress t.selector t.maxFee t.signature)
  | .invoke1 t => some (.invokeV1 t.calldata t.sender t.maxFee t.signature t.nonce)
  | .invoke3 t => some (.invokeV3 t.signature t.nonce t.nonceMode t.feeMode t.bounds t.tip t.paymaster t.deployment t.calldata t.sender t.proofFacts)
  | .declare0 _ => none
  | .declare1 t => some (.declareV1 classHash t.maxFee t.nonce t.signature t.sender)
  | .declare2 t => some (.declareV2 classHash t.maxFee t.nonce t.signature t.sender t.compiled)
  | .declare3 t => some (.declareV3 classHash t.nonce t.nonceMode t.feeMode t.bounds t.tip t.paymaster t.signature t.deployment t.sender t.compiled)
  | .deploy1 t => some (.deployV1 (address t.calldata t.salt t.classHash) t.maxFee t.signature t.nonce t.salt t.calldata t.classHash)
  | .deploy3 t => some (.deployV3 (address t.calldata t.salt t.classHash) t.signature t.nonce t.nonceMode t.feeMode t.bounds t.tip t.paymaster t.salt
      t.calldata t.classHash)

/-! ## The tracker -/

/-- An entry of the tracker's cache: `TrackerValue` (tracker.rs:21-25), with the time it was put there. -/
structure Entry where
  hash : Nat
  stamp : Nat
  block : Nat
  tx : Variant
  deriving DecidableEq

/-- Parameters of the tracker (tracker.rs:27-32; context.rs) and of the crate `cached`: whether a value that replaces another becomes the most
recently used, and whether room is made before or after a value is put in. -/
structure Par where
  cap : Nat
  life : Nat
  moveOnSet : Bool
  roomFirst : Bool

/-- Whether an entry is not yet too old (`TimedSizedCache`: `elapsed < lifespan`). -/
def fresh (p : Par) (now : Nat) (e : Entry) : Bool := now - e.stamp < p.life

/-- `cache_get`: a value that is not too old; it becomes the most recently used, the first of the list. -/
def cacheGet (p : Par) (now h : Nat) (l : List Entry) : List Entry × Option Entry :=
  match l.find? fun e => e.hash == h with
  | none => (l, none)
  | some e => if fresh p now e then (e :: l.filter (fun x => x.hash != h), some e) else (l, none)

/-- `flush`: too old entries are dropped. -/
def flush (p : Par) (now : Nat) (l : List Entry) : List Entry := l.filter (fresh p now)

/-- Room for one more: the entry that was used least recently is dropped if there are `n` or more. -/
def makeRoom (n : Nat) (l : List Entry) : List Entry := if n ≤ l.length then l.dropLast else l

/-- The value is put in the place of the old one, or in front. -/
def put (p : Par) (e : Entry) (l : List Entry) : List Entry :=
  if l.any fun x => x.hash == e.hash then
    if p.moveOnSet then e :: l.filter (fun x => x.hash != e.hash) else l.map fun x => if x.hash == e.hash then e else x
  else e :: l

/-- `cache_set`. -/
def cacheSet (p : Par) (e : Entry) (l : List Entry) : List Entry :=
  if p.roomFirst then put p e (makeRoom p.cap l) else makeRoom (p.cap + 1) (put p e l)

/-- `insert` (tracker.rs:57-74), without the notification of subscribers. -/
def insert (p : Par) (now h block : Nat) (tx : Variant) (l : List Entry) : List Entry := cacheSet p ⟨h, now, block, tx⟩ (flush p now l)

/-- `contains_key` (tracker.rs:44-48). -/
def containsKey (p : Par) (now h : Nat) (l : List Entry) : List Entry × Bool :=
  ((cacheGet p now h l).1, (cacheGet p now h l).2.isSome)

/-! ## Errors -/

/-- `KnownStarknetErrorCode` (gateway-types/src/error.rs), those that are looked at; the others are one. -/
inductive GwCode
  | classAlreadyDeclared | compilationFailed | bytecodeTooLarge | classObjectTooLarge | duplicated | entryPointNotFound | balance | maxFee
  | compiledClassHash | classVersion | nonce | proof | version | undeclared | validate | other
  deriving DecidableEq

/-- `SequencerError`: an error of Starknet (with whether its message has "Invalid transaction nonce" in it), an HTTP error with a status, or
another. -/
inductive GwErr
  | starknet (code : GwCode) (saysNonce : Bool)
  | http (status : Option Nat)
  | other
  deriving DecidableEq

/-- Which of the three methods. -/
inductive Kind | invoke | declare | deploy
  deriving DecidableEq

/-- The method a transaction is for. -/
def Tx.kind : Tx → Kind
  | .invoke0 _ | .invoke1 _ | .invoke3 _ => .invoke
  | .declare0 _ | .declare1 _ | .declare2 _ | .declare3 _ => .declare
  | .deploy1 _ | .deploy3 _ => .deploy

/-- The code of the JSON-RPC error for an error of the gateway: `From<SequencerError>` (add_invoke_transaction.rs:160-205) and the codes of
`ApplicationError` (error.rs:131-188). -/
def codeInvoke : GwErr → Int
  | .starknet .duplicated _ => 59
  | .starknet .balance _ => 54
  | .starknet .maxFee _ => 53
  | .starknet .nonce _ => 52
  | .starknet .validate n => if n then 52 else 55
  | .starknet .version _ => 61
  | .starknet .entryPointNotFound _ => 58
  | .starknet .proof _ => 69
  | .http (some 413) => -32603
  | _ => 63

/-- The same for declare transactions (add_declare_transaction.rs:77-146). -/
def codeDeclare : GwErr → Int
  | .starknet .classAlreadyDeclared _ => 51
  | .starknet .compilationFailed _ => 56
  | .starknet .bytecodeTooLarge _ => 57
  | .starknet .classObjectTooLarge _ => 57
  | .starknet .duplicated _ => 59
  | .starknet .balance _ => 54
  | .starknet .maxFee _ => 53
  | .starknet .nonce _ => 52
  | .starknet .validate n => if n then 52 else 55
  | .starknet .compiledClassHash _ => 60
  | .starknet .version _ => 61
  | .starknet .classVersion _ => 62
  | .starknet .entryPointNotFound _ => 58
  | .http (some 413) => -32603
  | _ => 63

/-- The same for deploy account transactions (add_deploy_account_transaction.rs:142-190). -/
def codeDeploy : GwErr → Int
  | .starknet .undeclared _ => 28
  | .starknet .duplicated _ => 59
  | .starknet .balance _ => 54
  | .starknet .maxFee _ => 53
  | .starknet .nonce _ => 52
  | .starknet .validate n => if n then 52 else 55
  | .starknet .version _ => 61
  | .starknet .entryPointNotFound _ => 58
  | .http (some 413) => -32603
  | _ => 63

/-- The code for an error of the gateway. -/
def gwCode : Kind → GwErr → Int
  | .invoke => codeInvoke
  | .declare => codeDeclare
  | .deploy => codeDeploy

/-! ## Submitting -/

/-- What the gateway answers to a request: a transaction hash (and a class hash), or an error. -/
structure Accepted where
  hash : Nat
  classHash : Nat
  deriving DecidableEq

/-- The gateway: what it answers to a request, and what it has accepted. -/
structure World where
  /-- What the gateway answers to the next request. -/
  gateway : J → Except GwErr Accepted
  /-- What reading the latest block from the database gives: a failure, no block, or its number. -/
  latest : Option (Option Nat)
  /-- `TryInto` from the class of the RPC API to the class of the gateway's. -/
  convert : Nat → Option Nat
  /-- `deployed_contract_address`. -/
  address : List Nat → Nat → Nat → Nat

/-- What a submission is answered with. -/
inductive Ans
  | ok (a : Accepted)
  | err (code : Int)
  deriving DecidableEq

/-- What a submission does: the answer, what was sent to the gateway, whether the gateway took it, and the tracker afterwards. -/
structure Done where
  ans : Ans
  sent : Option J
  taken : Option Accepted
  tracker : List Entry

/-- `is_v3_transaction` (add_*_transaction.rs:38). -/
def Tx.isV3 : Tx → Bool
  | .invoke3 _ | .declare3 _ | .deploy3 _ => true
  | _ => false

/-- `add_invoke_transaction`, `add_declare_transaction` and `add_deploy_account_transaction` (add_invoke_transaction.rs:207-219, add_declare_
transaction.rs:313-449, add_deploy_account_transaction.rs:193-210). -/
def submitAny (p : Par) (w : World) (now : Nat) (tracker : List Entry) (t : Tx) : Done :=
  match request w.convert t with
  | .error .version => ⟨.err 61, none, none, tracker⟩
  | .error .cls => ⟨.err 63, none, none, tracker⟩
  | .ok j => match w.gateway j with
    | .error e => ⟨.err (gwCode t.kind e), some j, none, tracker⟩
    | .ok a => match w.latest, remember w.address a.classHash t with
      | some n, some v => ⟨.ok a, some j, some a, insert p now a.hash (n.getD 0) v tracker⟩
      | _, _ => ⟨.err 63, some j, some a, tracker⟩

/-- The same with the gate that methods of version 0.8 and later have (v08/method/add_*_transaction.rs). -/
def submit (p : Par) (w : World) (api now : Nat) (tracker : List Entry) (t : Tx) : Done :=
  if 8 ≤ api ∧ t.isV3 = false then ⟨.err 61, none, none, tracker⟩ else submitAny p w now tracker t

/-! ## Asking for the status -/

/-- `FinalityStatus` of the gateway (gateway-types/src/reply.rs `transaction_status`). -/
inductive GwFinality | notReceived | received | onL2 | onL1
  deriving DecidableEq

/-- The gateway's answer to a query for a status: the finality, whether it is rejected (the default of the execution status is that it is not),
and a reason. -/
structure GwStatus where
  finality : GwFinality
  rejected : Bool
  reason : Option String
  deriving DecidableEq

/-- `Output` and `Error` (get_transaction_status.rs:29-42). -/
inductive Status
  | received
  | rejected (reason : Option String)
  | known (s : Pend.Status)
  | notFound
  | internal
  deriving DecidableEq

/-- What the gateway's answer means, given whether the tracker has the transaction (get_transaction_status.rs:123-160). -/
def fromGateway (api : Nat) (tracked : Bool) : Option GwStatus → Status
  | none => .internal
  | some g => match g.finality, g.rejected with
    | .notReceived, _ => if tracked then .received else .notFound
    | _, true => if api < 9 then .rejected g.reason else .notFound
    | .received, _ => .received
    | .onL1, _ => .received
    | .onL2, _ => .received

/-- Whether the tracker is asked at all (get_transaction_status.rs:135-141). -/
def asksTracker : Option GwStatus → Bool
  | some g => g.finality == .notReceived
  | none => false

/-- What the node itself knows: the first half of `get_transaction_status` (get_transaction_status.rs:44-118). -/
structure Local where
  head : Nat
  root : Nat
  v9 : Bool
  pending : Pend.Data
  bodies : Pend.Bodies

/-- What the database and the pending data say of a transaction. -/
def Local.look (n : Local) (h : Nat) : Except Pend.Fail (Option Pend.Status) := Pend.getStatus n.head n.root n.v9 n.pending n.bodies h

/-- `get_transaction_status` (get_transaction_status.rs:44-166), with the tracker afterwards. -/
def status (p : Par) (api : Nat) (n : Local) (gw : Option GwStatus) (now : Nat) (tracker : List Entry) (h : Nat) : Status × List Entry :=
  match n.look h with
  | .error _ => (.internal, tracker)
  | .ok (some s) => (.known s, tracker)
  | .ok none =>
    if asksTracker gw then
      (fromGateway api (containsKey p now h tracker).2 gw, flush p now (containsKey p now h tracker).1)
    else (fromGateway api false gw, flush p now tracker)

/-! ## The messages of a transaction on L1 -/

/-- `L1HandlerTransactionStatus` (get_messages_status.rs:51-57). -/
structure MsgStatus where
  hash : Nat
  status : Status
  deriving DecidableEq

/-- Whether a status has an execution status (get_messages_status.rs:88-106). -/
def Status.hasExec : Status → Bool
  | .known .candidate => false
  | .known _ => true
  | _ => false

/-- `Received | Candidate => Received` (get_messages_status.rs:94). -/
def Status.ofMsg : Status → Status
  | .known .candidate => .received
  | s => s

/-- The loop of `get_messages_status` (get_messages_status.rs:78-125) over the hashes of the L1 handler transactions; `none` is the error
`TxnHashNotFound`. -/
def msgLoop (api : Nat) (ask : Nat → Status) : List Nat → Option (List MsgStatus)
  | [] => some []
  | h :: rest =>
    if ask h = .notFound ∨ ask h = .internal then none
    else (msgLoop api ask rest).map fun out => if 9 ≤ api ∧ (ask h).hasExec = false then out else ⟨h, (ask h).ofMsg⟩ :: out

/-- `get_messages_status` (get_messages_status.rs:63-128): if the transaction cannot be fetched from Ethereum, that is the same error. -/
def messages (api : Nat) (ask : Nat → Status) (handlers : Option (List Nat)) : Option (List MsgStatus) :=
  match handlers with
  | none => none
  | some l => msgLoop api ask l

/-! ## What happens to the tracker over time -/

/-- Something that uses the tracker. Reading it (`get`) is done by queries for a status and by subscriptions. -/
inductive Act
  | submit (w : World) (api : Nat) (t : Tx)
  | query (api : Nat) (n : Local) (gw : Option GwStatus) (h : Nat)
  | get (h : Nat)
  | flush
  | wait (d : Nat)

/-- The tracker and the time. -/
structure Node where
  now : Nat
  tracker : List Entry

/-- One use. -/
def step (p : Par) (s : Node) : Act → Node
  | .submit w api t => { s with tracker := (submit p w api s.now s.tracker t).tracker }
  | .query api n gw h => { s with tracker := (status p api n gw s.now s.tracker h).2 }
  | .get h => { s with tracker := (cacheGet p s.now h s.tracker).1 }
  | .flush => { s with tracker := flush p s.now s.tracker }
  | .wait d => { s with now := s.now + d }

/-- Many uses. -/
def run (p : Par) : Node → List Act → Node
  | s, [] => s
  | s, a :: as => run p (step p s a) as

end Verif.Submit
