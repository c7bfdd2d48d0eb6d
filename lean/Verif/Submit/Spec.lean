import Verif.Submit.Model

/-!
# What is expected of submitting transactions and asking for their status

The gateway reads a transaction from an object of JSON. A key must be there once (`J.one`), except where the reader says that the last value of
a repeated key counts (`J.last`). The rest is: what the errors of the gateway mean, what a status means, and which transactions are touched.
-/
namespace Verif.Submit.Spec

open Verif.Submit

/-- The values of a key. -/
def values (k : String) : J → List J
  | .obj l => l.filterMap fun p => if p.1 = k then some p.2 else none
  | _ => []

/-- The value of a key that is there once. -/
def one (k : String) (j : J) : Option J :=
  match values k j with
  | [v] => some v
  | _ => none

/-- The last value of a key. -/
def last (k : String) (j : J) : Option J := (values k j).getLast?

/-- The value of a key that need not be there, but not more than once: the outer `none` is an error. -/
def opt (k : String) (j : J) : Option (Option J) :=
  match values k j with
  | [] => some none
  | [v] => some (some v)
  | _ => none

def hex : J → Option Nat
  | .hex n => some n
  | _ => none

def dec : J → Option Nat
  | .dec n => some n
  | _ => none

def cls : J → Option Nat
  | .cls n => some n
  | _ => none

def str : J → Option String
  | .str s => some s
  | _ => none

def b64 : J → Option (List Nat)
  | .b64 l => some l
  | _ => none

/-- All of a list, or nothing. -/
def all (f : J → Option Nat) : List J → Option (List Nat)
  | [] => some []
  | x :: xs => (f x).bind fun v => (all f xs).map (v :: ·)

def list (f : J → Option Nat) : J → Option (List Nat)
  | .arr l => all f l
  | _ => none

/-- The modes are numbers: 0 for L1, 1 for L2. -/
def mode : J → Option Da
  | .num 0 => some .l1
  | .num 1 => some .l2
  | _ => none

def bound (j : J) : Option Bound := do
  let a ← (one "max_amount" j).bind hex
  let p ← (one "max_price_per_unit" j).bind hex
  pure ⟨a, p⟩

def bounds (j : J) : Option Bounds := do
  let l1 ← (one "L1_GAS" j).bind bound
  let l2 ← (one "L2_GAS" j).bind bound
  match ← opt "L1_DATA_GAS" j with
  | none => pure ⟨l1, l2, none⟩
  | some d => pure ⟨l1, l2, some (← bound d)⟩

/-- A list that may be left out when it is empty. -/
def optList (f : J → Option (List Nat)) (k : String) (j : J) : Option (List Nat) := do
  match ← opt k j with
  | none => pure []
  | some v => f v

def invoke0 (j : J) : Option Invoke0 := do
  pure { version := 0, maxFee := ← (one "max_fee" j).bind hex, signature := ← (one "signature" j).bind (list hex),
         contractAddress := ← (one "sender_address" j).bind hex, selector := ← (one "entry_point_selector" j).bind hex,
         calldata := ← (one "calldata" j).bind (list hex) }

def invoke1 (j : J) : Option Invoke1 := do
  pure { version := 1, maxFee := ← (one "max_fee" j).bind hex, signature := ← (one "signature" j).bind (list hex),
         nonce := ← (one "nonce" j).bind hex, sender := ← (one "sender_address" j).bind hex,
         calldata := ← (one "calldata" j).bind (list hex) }

def invoke3 (j : J) : Option Invoke3 := do
  pure { version := 3, signature := ← (one "signature" j).bind (list hex), nonce := ← (one "nonce" j).bind hex,
         bounds := ← (one "resource_bounds" j).bind bounds, tip := ← (one "tip" j).bind hex,
         paymaster := ← (one "paymaster_data" j).bind (list hex), deployment := ← (one "account_deployment_data" j).bind (list hex),
         nonceMode := ← (one "nonce_data_availability_mode" j).bind mode, feeMode := ← (one "fee_data_availability_mode" j).bind mode,
         sender := ← (one "sender_address" j).bind hex, calldata := ← (one "calldata" j).bind (list hex),
         proofFacts := ← optList (list hex) "proof_facts" j, proof := ← optList b64 "proof" j }

def declare1 (j : J) : Option Declare1 := do
  pure { version := ← (last "version" j).bind hex, maxFee := ← (one "max_fee" j).bind hex, signature := ← (one "signature" j).bind (list hex),
         nonce := ← (one "nonce" j).bind hex, cls := ← (one "contract_class" j).bind cls, sender := ← (one "sender_address" j).bind hex }

def declare2 (j : J) : Option Declare2 := do
  pure { version := ← (last "version" j).bind hex, maxFee := ← (one "max_fee" j).bind hex, signature := ← (one "signature" j).bind (list hex),
         nonce := ← (one "nonce" j).bind hex, compiled := ← (one "compiled_class_hash" j).bind hex,
         cls := ← (one "contract_class" j).bind cls, sender := ← (one "sender_address" j).bind hex }

def declare3 (j : J) : Option Declare3 := do
  pure { version := 3, signature := ← (one "signature" j).bind (list hex), nonce := ← (one "nonce" j).bind hex,
         bounds := ← (one "resource_bounds" j).bind bounds, tip := ← (one "tip" j).bind hex,
         paymaster := ← (one "paymaster_data" j).bind (list hex), deployment := ← (one "account_deployment_data" j).bind (list hex),
         nonceMode := ← (one "nonce_data_availability_mode" j).bind mode, feeMode := ← (one "fee_data_availability_mode" j).bind mode,
         compiled := ← (one "compiled_class_hash" j).bind hex, cls := ← (one "contract_class" j).bind cls,
         sender := ← (one "sender_address" j).bind hex }

def deploy1 (j : J) : Option Deploy1 := do
  pure { version := 1, maxFee := ← (one "max_fee" j).bind hex, signature := ← (one "signature" j).bind (list dec),
         nonce := ← (one "nonce" j).bind hex, salt := ← (one "contract_address_salt" j).bind hex,
         calldata := ← (one "constructor_calldata" j).bind (list dec), classHash := ← (one "class_hash" j).bind hex }

def deploy3 (j : J) : Option Deploy3 := do
  pure { version := 3, signature := ← (one "signature" j).bind (list hex), nonce := ← (one "nonce" j).bind hex,
         bounds := ← (one "resource_bounds" j).bind bounds, tip := ← (one "tip" j).bind hex,
         paymaster := ← (one "paymaster_data" j).bind (list hex), nonceMode := ← (one "nonce_data_availability_mode" j).bind mode,
         feeMode := ← (one "fee_data_availability_mode" j).bind mode, salt := ← (one "contract_address_salt" j).bind hex,
         calldata := ← (one "constructor_calldata" j).bind (list hex), classHash := ← (one "class_hash" j).bind hex }

/-- What the gateway reads: `type` and `version` say what kind of transaction it is. Each key must be there once. -/
def read (j : J) : Option Tx := do
  let type ← (one "type" j).bind str
  let version ← (one "version" j).bind str
  if type = "INVOKE_FUNCTION" ∧ version = "0x0" then pure (.invoke0 (← invoke0 j))
  else if type = "INVOKE_FUNCTION" ∧ version = "0x1" then pure (.invoke1 (← invoke1 j))
  else if type = "INVOKE_FUNCTION" ∧ version = "0x3" then pure (.invoke3 (← invoke3 j))
  else if type = "DECLARE" ∧ version = "0x3" then pure (.declare3 (← declare3 j))
  else if type = "DEPLOY_ACCOUNT" ∧ version = "0x1" then pure (.deploy1 (← deploy1 j))
  else if type = "DEPLOY_ACCOUNT" ∧ version = "0x3" then pure (.deploy3 (← deploy3 j))
  else none

/-- What a more lenient gateway reads for declare transactions of versions 1 and 2: the last `version` counts. -/
def readLenient (j : J) : Option Tx := do
  let type ← (one "type" j).bind str
  let version ← (last "version" j).bind hex
  if type = "DECLARE" ∧ plain version = 1 then pure (.declare1 (← declare1 j))
  else if type = "DECLARE" ∧ plain version = 2 then pure (.declare2 (← declare2 j))
  else none

/-- A transaction with another version. -/
def withVersion (v : Nat) : Tx → Tx
  | .invoke0 t => .invoke0 { t with version := v }
  | .invoke1 t => .invoke1 { t with version := v }
  | .invoke3 t => .invoke3 { t with version := v }
  | .declare0 _ => .declare0 v
  | .declare1 t => .declare1 { t with version := v }
  | .declare2 t => .declare2 { t with version := v }
  | .declare3 t => .declare3 { t with version := v }
  | .deploy1 t => .deploy1 { t with version := v }
  | .deploy3 t => .deploy3 { t with version := v }

/-- A transaction with its class in another form. -/
def withClass (c : Nat) : Tx → Tx
  | .declare1 t => .declare1 { t with cls := c }
  | .declare2 t => .declare2 { t with cls := c }
  | .declare3 t => .declare3 { t with cls := c }
  | t => t

/-- The class of a transaction. -/
def classOf : Tx → Option Nat
  | .declare1 t => some t.cls
  | .declare2 t => some t.cls
  | .declare3 t => some t.cls
  | _ => none

/-- The transaction with its class in the form of the gateway. -/
def converted (convert : Nat → Option Nat) (t : Tx) : Option Tx :=
  match classOf t with
  | none => some t
  | some c => (convert c).map fun c' => withClass c' t

/-- Declare transactions of the versions 1 and 2. -/
def oldDeclare : Tx → Prop
  | .declare1 _ | .declare2 _ => True
  | _ => False

/-- What is remembered is the transaction that was submitted: every field that both have is the same. -/
def Same (address : List Nat → Nat → Nat → Nat) (classHash : Nat) : Tx → Variant → Prop
  | .invoke0 t, .invokeV0 calldata sender selector maxFee signature =>
    calldata = t.calldata ∧ sender = t.contractAddress ∧ selector = t.selector ∧ maxFee = t.maxFee ∧ signature = t.signature
  | .invoke1 t, .invokeV1 calldata sender maxFee signature nonce =>
    calldata = t.calldata ∧ sender = t.sender ∧ maxFee = t.maxFee ∧ signature = t.signature ∧ nonce = t.nonce
  | .invoke3 t, .invokeV3 signature nonce nonceMode feeMode bounds tip paymaster deployment calldata sender proofFacts =>
    signature = t.signature ∧ nonce = t.nonce ∧ nonceMode = t.nonceMode ∧ feeMode = t.feeMode ∧ bounds = t.bounds ∧ tip = t.tip ∧
      paymaster = t.paymaster ∧ deployment = t.deployment ∧ calldata = t.calldata ∧ sender = t.sender ∧ proofFacts = t.proofFacts
  | .declare1 t, .declareV1 cls maxFee nonce signature sender =>
    cls = classHash ∧ maxFee = t.maxFee ∧ nonce = t.nonce ∧ signature = t.signature ∧ sender = t.sender
  | .declare2 t, .declareV2 cls maxFee nonce signature sender compiled =>
    cls = classHash ∧ maxFee = t.maxFee ∧ nonce = t.nonce ∧ signature = t.signature ∧ sender = t.sender ∧ compiled = t.compiled
  | .declare3 t, .declareV3 cls nonce nonceMode feeMode bounds tip paymaster signature deployment sender compiled =>
    cls = classHash ∧ nonce = t.nonce ∧ nonceMode = t.nonceMode ∧ feeMode = t.feeMode ∧ bounds = t.bounds ∧ tip = t.tip ∧
      paymaster = t.paymaster ∧ signature = t.signature ∧ deployment = t.deployment ∧ sender = t.sender ∧ compiled = t.compiled
  | .deploy1 t, .deployV1 addr maxFee signature nonce salt calldata cls =>
    addr = address t.calldata t.salt t.classHash ∧ maxFee = t.maxFee ∧ signature = t.signature ∧ nonce = t.nonce ∧ salt = t.salt ∧
      calldata = t.calldata ∧ cls = t.classHash
  | .deploy3 t, .deployV3 addr signature nonce nonceMode feeMode bounds tip paymaster salt calldata cls =>
    addr = address t.calldata t.salt t.classHash ∧ signature = t.signature ∧ nonce = t.nonce ∧ nonceMode = t.nonceMode ∧
      feeMode = t.feeMode ∧ bounds = t.bounds ∧ tip = t.tip ∧ paymaster = t.paymaster ∧ salt = t.salt ∧ calldata = t.calldata ∧
      cls = t.classHash
  | _, _ => False

/-- What the errors of the gateway are called in the Starknet JSON-RPC API, for all three methods. -/
def commonCodes : List (GwCode × Int) :=
  [(.duplicated, 59), (.balance, 54), (.maxFee, 53), (.nonce, 52), (.version, 61), (.entryPointNotFound, 58)]

/-- The errors that only one of the methods has. -/
def ownCodes : Kind → List (GwCode × Int)
  | .invoke => [(.proof, 69)]
  | .declare => [(.classAlreadyDeclared, 51), (.compilationFailed, 56), (.bytecodeTooLarge, 57), (.classObjectTooLarge, 57),
      (.compiledClassHash, 60), (.classVersion, 62)]
  | .deploy => [(.undeclared, 28)]

/-- The code that is expected: a failed validation is 55, or 52 if its message is about the nonce; too large a request is an internal error;
everything without a code of its own is 63, "unexpected error". -/
def expectedCode (k : Kind) : GwErr → Int
  | .starknet .validate saysNonce => if saysNonce then 52 else 55
  | .starknet c _ => ((commonCodes ++ ownCodes k).lookup c).getD 63
  | .http s => if s = some 413 then -32603 else 63
  | .other => 63

/-- What a query for a status is to be answered with. The node's own data come first; the gateway is asked only if they know nothing. -/
inductive Answer (api : Nat) (own : Except Pend.Fail (Option Pend.Status)) (gw : Option GwStatus) (tracked : Prop) : Status → Prop
  | own (s : Pend.Status) : own = .ok (some s) → Answer api own gw tracked (.known s)
  | broken (e : Pend.Fail) : own = .error e → Answer api own gw tracked .internal
  | gatewayDown : own = .ok none → gw = none → Answer api own gw tracked .internal
  | waiting (g : GwStatus) : own = .ok none → gw = some g → g.finality ≠ .notReceived → g.rejected = false → Answer api own gw tracked .received
  | onItsWay (g : GwStatus) : own = .ok none → gw = some g → g.finality = .notReceived → tracked → Answer api own gw tracked .received
  | unknown (g : GwStatus) : own = .ok none → gw = some g → g.finality = .notReceived → ¬ tracked → Answer api own gw tracked .notFound
  | rejected (g : GwStatus) : own = .ok none → gw = some g → g.finality ≠ .notReceived → g.rejected = true → api < 9 →
      Answer api own gw tracked (.rejected g.reason)
  | rejected9 (g : GwStatus) : own = .ok none → gw = some g → g.finality ≠ .notReceived → g.rejected = true → 9 ≤ api →
      Answer api own gw tracked .notFound

/-- The transactions that something touches: those that the gateway takes, and those that are asked for. -/
def touched : Act → List Nat
  | .submit w _ t => match request w.convert t with
    | .error _ => []
    | .ok j => match w.gateway j with
      | .error _ => []
      | .ok a => [a.hash]
  | .query _ _ _ h => [h]
  | .get h => [h]
  | .flush => []
  | .wait _ => []

/-- The seconds that pass. -/
def waited : List Act → Nat
  | [] => 0
  | .wait d :: as => d + waited as
  | _ :: as => waited as

/-- The transaction is remembered and not too old. -/
def Tracked (p : Par) (s : Node) (h : Nat) : Prop := ∃ e ∈ s.tracker, e.hash = h ∧ s.now - e.stamp < p.life

/-- What the messages of a transaction on L1 are to be answered with: those with a status the API has room for, in order. -/
def messages (api : Nat) (ask : Nat → Status) (handlers : List Nat) : List MsgStatus :=
  (handlers.filter fun h => decide (api < 9) || (ask h).hasExec).map fun h => ⟨h, (ask h).ofMsg⟩

end Verif.Submit.Spec
