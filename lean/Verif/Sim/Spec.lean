import Verif.Sim.Model

/-!
# Calls, estimates and simulations: what is meant
-/
namespace Verif.Sim
open Verif.Submit (Bound Bounds Da)

variable {S O R : Type}

/-- The value of a field. -/
inductive Val
  | num (n : Nat)
  | nums (l : List Nat)
  | mode (d : Da)
  | bound (b : Bound)
  deriving DecidableEq

/-- The bounds that count: without a bound for data gas only the one for L1 gas does. -/
def boundsSaid (b : Bounds) : List (String × Val) :=
  match b.l1Data with
  | some d => [("l1_gas", .bound b.l1), ("l2_gas", .bound b.l2), ("l1_data_gas", .bound d)]
  | none => [("l1_gas", .bound b.l1)]

/-- All bounds of a request. -/
def boundsFull (b : Bounds) : List (String × Val) :=
  [("l1_gas", .bound b.l1), ("l2_gas", .bound b.l2)] ++ match b.l1Data with
    | some d => [("l1_data_gas", .bound d)]
    | none => []

/-- What a request says, field by field as in the description of the API; the class of a declare transaction stands there by its hash. A proof
is not a part of what is run. `bounds` says which of the bounds count. -/
def Tx.said (bounds : Bounds → List (String × Val)) (hash : Nat) : Tx → List (String × Val)
  | .declare0 t => [("declare", .num 0), ("class", .num hash), ("sender_address", .num t.sender), ("signature", .nums t.signature),
      ("max_fee", .num t.maxFee), ("nonce", .num 0)]
  | .declare1 t => [("declare", .num 1), ("class", .num hash), ("sender_address", .num t.sender), ("signature", .nums t.signature),
      ("max_fee", .num t.maxFee), ("nonce", .num t.nonce)]
  | .declare2 t => [("declare", .num 2), ("class", .num hash), ("sender_address", .num t.sender), ("signature", .nums t.signature),
      ("max_fee", .num t.maxFee), ("nonce", .num t.nonce), ("compiled_class_hash", .num t.compiled)]
  | .declare3 t => [("declare", .num 3), ("class", .num hash), ("sender_address", .num t.sender), ("signature", .nums t.signature),
      ("nonce", .num t.nonce), ("compiled_class_hash", .num t.compiled), ("tip", .num t.tip), ("paymaster_data", .nums t.paymaster),
      ("account_deployment_data", .nums t.deployment), ("nonce_mode", .mode t.nonceMode), ("fee_mode", .mode t.feeMode)] ++ bounds t.bounds
  | .invoke0 t => [("invoke", .num 0), ("contract_address", .num t.contractAddress), ("entry_point_selector", .num t.selector),
      ("calldata", .nums t.calldata), ("signature", .nums t.signature), ("max_fee", .num t.maxFee)]
  | .invoke1 t => [("invoke", .num 1), ("sender_address", .num t.sender), ("calldata", .nums t.calldata), ("signature", .nums t.signature),
      ("max_fee", .num t.maxFee), ("nonce", .num t.nonce)]
  | .invoke3 t => [("invoke", .num 3), ("sender_address", .num t.sender), ("calldata", .nums t.calldata), ("signature", .nums t.signature),
      ("nonce", .num t.nonce), ("tip", .num t.tip), ("paymaster_data", .nums t.paymaster), ("account_deployment_data", .nums t.deployment),
      ("nonce_mode", .mode t.nonceMode), ("fee_mode", .mode t.feeMode), ("proof_facts", .nums t.proofFacts)] ++ bounds t.bounds
  | .deploy1 t => [("deploy_account", .num 1), ("class_hash", .num t.classHash), ("contract_address_salt", .num t.salt),
      ("constructor_calldata", .nums t.calldata), ("signature", .nums t.signature), ("max_fee", .num t.maxFee), ("nonce", .num t.nonce)]
  | .deploy3 t => [("deploy_account", .num 3), ("class_hash", .num t.classHash), ("contract_address_salt", .num t.salt),
      ("constructor_calldata", .nums t.calldata), ("signature", .nums t.signature), ("nonce", .num t.nonce), ("tip", .num t.tip),
      ("paymaster_data", .nums t.paymaster), ("nonce_mode", .mode t.nonceMode), ("fee_mode", .mode t.feeMode)] ++ bounds t.bounds

/-- The bounds of the library by name. -/
def ApiBounds.says : ApiBounds → List (String × Val)
  | .all l1 l2 d => [("l1_gas", .bound l1), ("l2_gas", .bound l2), ("l1_data_gas", .bound d)]
  | .l1Gas l1 => [("l1_gas", .bound l1)]

/-- The library's transaction, field by field. -/
def Api.says : Api → List (String × Val)
  | .declare01 v f sig n h s => [("declare", .num v), ("class", .num h), ("sender_address", .num s), ("signature", .nums sig), ("max_fee", .num f),
      ("nonce", .num n)]
  | .declare2 f sig n h s c => [("declare", .num 2), ("class", .num h), ("sender_address", .num s), ("signature", .nums sig), ("max_fee", .num f),
      ("nonce", .num n), ("compiled_class_hash", .num c)]
  | .declare3 b tip sig n h c s nm fm pay dep => [("declare", .num 3), ("class", .num h), ("sender_address", .num s), ("signature", .nums sig),
      ("nonce", .num n), ("compiled_class_hash", .num c), ("tip", .num tip), ("paymaster_data", .nums pay), ("account_deployment_data", .nums dep),
      ("nonce_mode", .mode nm), ("fee_mode", .mode fm)] ++ b.says
  | .invoke0 f sig a sel cd => [("invoke", .num 0), ("contract_address", .num a), ("entry_point_selector", .num sel), ("calldata", .nums cd),
      ("signature", .nums sig), ("max_fee", .num f)]
  | .invoke1 f sig n s cd => [("invoke", .num 1), ("sender_address", .num s), ("calldata", .nums cd), ("signature", .nums sig), ("max_fee", .num f),
      ("nonce", .num n)]
  | .invoke3 b tip sig n s cd nm fm pay dep pf => [("invoke", .num 3), ("sender_address", .num s), ("calldata", .nums cd), ("signature", .nums sig),
      ("nonce", .num n), ("tip", .num tip), ("paymaster_data", .nums pay), ("account_deployment_data", .nums dep), ("nonce_mode", .mode nm),
      ("fee_mode", .mode fm), ("proof_facts", .nums pf)] ++ b.says
  | .deploy1 f sig n h salt cd => [("deploy_account", .num 1), ("class_hash", .num h), ("contract_address_salt", .num salt),
      ("constructor_calldata", .nums cd), ("signature", .nums sig), ("max_fee", .num f), ("nonce", .num n)]
  | .deploy3 b tip sig n h salt cd nm fm pay => [("deploy_account", .num 3), ("class_hash", .num h), ("contract_address_salt", .num salt),
      ("constructor_calldata", .nums cd), ("signature", .nums sig), ("nonce", .num n), ("tip", .num tip), ("paymaster_data", .nums pay),
      ("nonce_mode", .mode nm), ("fee_mode", .mode fm)] ++ b.says
  | .l1Handler n a sel cd => [("l1_handler", .num 0), ("nonce", .num n), ("contract_address", .num a), ("entry_point_selector", .num sel),
      ("calldata", .nums cd)]

/-- The node's transaction, field by field; the hash of a transaction is taken of this. -/
def Common.says : Common → List (String × Val)
  | .declareV0 h f n sig s => [("declare", .num 0), ("class", .num h), ("sender_address", .num s), ("signature", .nums sig), ("max_fee", .num f),
      ("nonce", .num n)]
  | .declareV1 h f n sig s => [("declare", .num 1), ("class", .num h), ("sender_address", .num s), ("signature", .nums sig), ("max_fee", .num f),
      ("nonce", .num n)]
  | .declareV2 h f n sig s c => [("declare", .num 2), ("class", .num h), ("sender_address", .num s), ("signature", .nums sig), ("max_fee", .num f),
      ("nonce", .num n), ("compiled_class_hash", .num c)]
  | .declareV3 h n nm fm b tip pay sig dep s c => [("declare", .num 3), ("class", .num h), ("sender_address", .num s), ("signature", .nums sig),
      ("nonce", .num n), ("compiled_class_hash", .num c), ("tip", .num tip), ("paymaster_data", .nums pay), ("account_deployment_data", .nums dep),
      ("nonce_mode", .mode nm), ("fee_mode", .mode fm)] ++ boundsFull b
  | .invokeV0 cd a sel f sig => [("invoke", .num 0), ("contract_address", .num a), ("entry_point_selector", .num sel), ("calldata", .nums cd),
      ("signature", .nums sig), ("max_fee", .num f)]
  | .invokeV1 cd s f sig n => [("invoke", .num 1), ("sender_address", .num s), ("calldata", .nums cd), ("signature", .nums sig), ("max_fee", .num f),
      ("nonce", .num n)]
  | .invokeV3 sig n nm fm b tip pay dep cd s pf => [("invoke", .num 3), ("sender_address", .num s), ("calldata", .nums cd), ("signature", .nums sig),
      ("nonce", .num n), ("tip", .num tip), ("paymaster_data", .nums pay), ("account_deployment_data", .nums dep), ("nonce_mode", .mode nm),
      ("fee_mode", .mode fm), ("proof_facts", .nums pf)] ++ boundsFull b
  | .deployV1 _ f sig n salt cd h => [("deploy_account", .num 1), ("class_hash", .num h), ("contract_address_salt", .num salt),
      ("constructor_calldata", .nums cd), ("signature", .nums sig), ("max_fee", .num f), ("nonce", .num n)]
  | .deployV3 _ sig n nm fm b tip pay salt cd h => [("deploy_account", .num 3), ("class_hash", .num h), ("contract_address_salt", .num salt),
      ("constructor_calldata", .nums cd), ("signature", .nums sig), ("nonce", .num n), ("tip", .num tip), ("paymaster_data", .nums pay),
      ("nonce_mode", .mode nm), ("fee_mode", .mode fm)] ++ boundsFull b
  | .l1Handler a sel n cd => [("l1_handler", .num 0), ("nonce", .num n), ("contract_address", .num a), ("entry_point_selector", .num sel),
      ("calldata", .nums cd)]

/-- The address that the node's transaction deploys to. -/
def Common.deployed : Common → Option Nat
  | .deployV1 a _ _ _ _ _ _ => some a
  | .deployV3 a _ _ _ _ _ _ _ _ _ _ => some a
  | _ => none

/-- The address of a deployed account: the hash of its parts (`raw`), modulo `2 ^ 251 - 256`, as the description of the network has it. -/
def AddressOf (env : Env S O R) (t : Tx) (a : Option Nat) : Prop :=
  match t with
  | .deploy1 d => a = some (env.rawAddress d.calldata d.salt d.classHash % (2 ^ 251 - 256))
  | .deploy3 d => a = some (env.rawAddress d.calldata d.salt d.classHash % (2 ^ 251 - 256))
  | _ => a = none

/-- Hashes are elements of the field. -/
def Felts (env : Env S O R) : Prop := ∀ cd salt ch, env.rawAddress cd salt ch < 2 ^ 251 + 17 * 2 ^ 192 + 1

/-- The class of a request. -/
def Tx.cls : Tx → Option Nat
  | .declare0 t => some t.cls
  | .declare1 t => some t.cls
  | .declare2 t => some t.cls
  | .declare3 t => some t.cls
  | _ => none

/-- The class is a Sierra class. -/
def Tx.sierra : Tx → Bool
  | .declare2 _ => true
  | .declare3 _ => true
  | _ => false

/-- The lists of a request that have a limit. -/
def Tx.lists : Tx → Option (List Nat × List Nat)
  | .invoke0 t => some (t.calldata, t.signature)
  | .invoke1 t => some (t.calldata, t.signature)
  | .invoke3 t => some (t.calldata, t.signature)
  | .deploy1 t => some (t.calldata, t.signature)
  | .deploy3 t => some (t.calldata, t.signature)
  | _ => none

/-- The address that a request names: sender or called contract. -/
def Tx.address : Tx → Option Nat
  | .declare0 t => some t.sender
  | .declare1 t => some t.sender
  | .declare2 t => some t.sender
  | .declare3 t => some t.sender
  | .invoke0 t => some t.contractAddress
  | .invoke1 t => some t.sender
  | .invoke3 t => some t.sender
  | _ => none

/-- The version that a request gives, with its query bit. -/
def Tx.saidVersion : Tx → Nat
  | .declare0 t => t.version
  | .declare1 t => t.version
  | .declare2 t => t.version
  | .declare3 t => t.version
  | .invoke0 t => t.version
  | .invoke1 t => t.version
  | .invoke3 t => t.version
  | .deploy1 t => t.version
  | .deploy3 t => t.version

/-- A block id names a block, with a pending update for the tag `pre_confirmed` only. -/
inductive Names (db : Db) (pend : Option Pending) : Id → Hdr → Option Upd → Prop
  | number (h : Hdr) : h ∈ db.headers → Names db pend (.number h.number) h none
  | hash (h : Hdr) : h ∈ db.headers → Names db pend (.hash h.hash) h none
  | latest (h : Hdr) : h ∈ db.headers → (∀ h' ∈ db.headers, h'.number ≤ h.number) → Names db pend .latest h none
  | l1Accepted (h : Hdr) : h ∈ db.headers → db.l1 = some h.number → Names db pend .l1Accepted h none
  | preConfirmed (p : Pending) : pend = some p → Names db pend .preConfirmed p.header (some p.update)

/-- The constants for a version: those of the greatest version up to it that has some, where given ones go before the built-in ones; for earlier
versions those of 0.13.0. -/
def Governs (env : Env S O R) (v c : Nat) : Prop :=
  let has (k c : Nat) : Prop := (k, c) ∈ env.custom ∨ (c = env.constants k ∧ k ∈ known ∧ ∀ c', (k, c') ∉ env.custom)
  (∃ k, k ≤ v ∧ has k c ∧ ∀ k' c', has k' c' → k' ≤ v → k' ≤ k) ∨ ((∀ k' c', has k' c' → v < k') ∧ c = env.constants (ver 0 13 0 0))

/-- A price of a block, or one where the block has none. -/
def PriceOf (p q : Nat) : Prop := (0 < p ∧ q = p) ∨ (p = 0 ∧ q = 1)

/-- The library is told about the block of the header `h`. -/
structure About (env : Env S O R) (db : Db) (h : Hdr) (kzg : Bool) (c : Ctx) : Prop where
  number : c.number = h.number
  timestamp : c.timestamp = h.timestamp
  sequencer : c.sequencer = h.sequencer
  ethL1 : PriceOf h.ethL1 c.ethL1
  ethL1Data : PriceOf h.ethL1Data c.ethL1Data
  ethL2 : PriceOf h.ethL2 c.ethL2
  strkL1 : PriceOf h.strkL1 c.strkL1
  strkL1Data : PriceOf h.strkL1Data c.strkL1Data
  strkL2 : PriceOf h.strkL2 c.strkL2
  blob : c.blob = true ↔ kzg = true ∧ h.blob = true
  constants : Governs env h.version c.constants
  old : if 10 ≤ h.number then ∃ o ∈ db.headers, o.number + 10 = h.number ∧ c.oldHash = some (o.number, o.hash) else c.oldHash = none

/-- Transactions are run one after the other, each on the state that the one before left. -/
inductive Runs (env : Env S O R) (ctx : Ctx) (strict : Bool) : S → List ExecTx → List O → S → Prop
  | nil (s : S) : Runs env ctx strict s [] [] s
  | cons (s s' s'' : S) (e : ExecTx) (es : List ExecTx) (o : O) (os : List O) : env.run ctx strict s e = .ok o s' →
      Runs env ctx strict s' es os s'' → Runs env ctx strict s (e :: es) (o :: os) s''

/-- What is run for a transaction of a request. -/
structure IsFor (env : Env S O R) (skipValidate skipFee : Bool) (t : Tx) (e : ExecTx) : Prop where
  /-- every field is the one of the request -/
  fields : ∃ h, e.api.says = t.said boundsSaid h ∧ ∀ c, t.cls = some c → env.classHash c = some h
  /-- the query bit of the version is kept, in the hash too -/
  query : e.flags.onlyQuery = true ↔ t.saidVersion / 2 ^ 128 % 2 = 1
  /-- the hash is the one of the transaction of the request -/
  hash : ∃ c h, c.says = t.said boundsFull h ∧ (∀ k, t.cls = some k → env.classHash k = some h) ∧ AddressOf env t c.deployed ∧
    e.hash = env.txHash c e.flags.onlyQuery
  /-- checks are made unless the request says otherwise -/
  validate : e.flags.validate = !skipValidate
  nonce : e.flags.strictNonce = !skipValidate
  fee : e.flags.chargeFee = !skipFee
  paid : e.paidFee = none
  /-- the class that comes along is the one of the request, compiled -/
  noClass : t.cls = none → e.classInfo = none
  cairo0 : ∀ c, t.cls = some c → t.sierra = false → ∃ x, env.deprecated c = some x ∧ e.classInfo = some ⟨x, 0, 0, 0⟩
  sierra : ∀ c, t.cls = some c → t.sierra = true → ∃ v casm x, env.sierraVersion c = some v ∧ env.compile c = some casm ∧
    env.parseCasm casm v = some x ∧ e.classInfo = some ⟨x, env.sierraLength c, env.abiLength c, v⟩
  /-- an account is deployed where its address says -/
  deployed : AddressOf env t e.deployed

/-- The fee of a request. -/
def Tx.fee : Tx → Option Nat
  | .declare0 t => some t.maxFee
  | .declare1 t => some t.maxFee
  | .declare2 t => some t.maxFee
  | .invoke0 t => some t.maxFee
  | .invoke1 t => some t.maxFee
  | .deploy1 t => some t.maxFee
  | _ => none

/-- A request that can be run: the address is one, the fee fits, and the class can be compiled. -/
structure Fit (env : Env S O R) (t : Tx) : Prop where
  address : ∀ a, t.address = some a → a < 2 ^ 251
  fee : ∀ f, t.fee = some f → f < 2 ^ 128
  hash : ∀ c, t.cls = some c → ∃ h, env.classHash c = some h
  cairo0 : ∀ c, t.cls = some c → t.sierra = false → ∃ x, env.deprecated c = some x
  sierra : ∀ c, t.cls = some c → t.sierra = true → ∃ v casm x, env.sierraVersion c = some v ∧ env.compile c = some casm ∧
    env.parseCasm casm v = some x

/-- No list of the request is too long. -/
def Short (t : Tx) : Prop := ∀ cd sig, t.lists = some (cd, sig) → cd.length ≤ 10000 ∧ sig.length ≤ 10000

/-- A database has one header for a number, and one for a hash. -/
def OneEach (db : Db) : Prop := ∀ h ∈ db.headers, ∀ h' ∈ db.headers, (h.number = h'.number ∨ h.hash = h'.hash) → h = h'

end Verif.Sim
