import Verif.Block.Model
/-!
# Transaction hashes

Model of the hashes in `crates/common/src/transaction.rs`, of the address of a deployed contract (`crates/common/src/lib.rs`) and of the
check of transactions from peers (`crates/pathfinder/src/sync/transactions.rs`).
-/
namespace Verif.Block

/-- `ResourceBound` (common/src/transaction.rs:401-404): `u64` and `u128`. -/
structure Bound where
  amount : Nat
  price : Nat
  deriving DecidableEq, Repr

/-- The fields that all version 3 transactions have (transaction.rs:289-301, 331-343, 365-377, 394-411). A data availability mode is true for L2. -/
structure V3 where
  nonceL2 : Bool
  feeL2 : Bool
  l1Gas : Bound
  l2Gas : Bound
  l1DataGas : Option Bound
  tip : Nat
  paymaster : List F
  deriving DecidableEq, Repr

/-- `DeclareTransactionV0V1` (transaction.rs:270-276). -/
structure DeclareOld where
  classHash : F
  maxFee : F
  nonce : F
  signature : List F
  sender : F
  deriving DecidableEq, Repr

/-- `DeclareTransactionV2` (transaction.rs:279-286). -/
structure DeclareV2 where
  classHash : F
  maxFee : F
  nonce : F
  signature : List F
  sender : F
  casm : F
  deriving DecidableEq, Repr

/-- `DeclareTransactionV3` (transaction.rs:289-301). -/
structure DeclareV3 where
  classHash : F
  nonce : F
  v3 : V3
  signature : List F
  accountDeployment : List F
  sender : F
  casm : F
  deriving DecidableEq, Repr

/-- `DeployTransactionV0` and `DeployTransactionV1` (transaction.rs:304-317). -/
structure Deploy where
  classHash : F
  address : F
  salt : F
  calldata : List F
  deriving DecidableEq, Repr

/-- `DeployAccountTransactionV1` (transaction.rs:320-328). -/
structure DeployAccountV1 where
  address : F
  maxFee : F
  signature : List F
  nonce : F
  salt : F
  calldata : List F
  classHash : F
  deriving DecidableEq, Repr

/-- `DeployAccountTransactionV3` (transaction.rs:331-343). -/
structure DeployAccountV3 where
  address : F
  signature : List F
  nonce : F
  v3 : V3
  salt : F
  calldata : List F
  classHash : F
  deriving DecidableEq, Repr

/-- `InvokeTransactionV0` (transaction.rs:346-353). The entry point type is true for L1 handlers. -/
structure InvokeV0 where
  calldata : List F
  sender : F
  selector : F
  entryType : Option Bool
  maxFee : F
  signature : List F
  deriving DecidableEq, Repr

/-- `InvokeTransactionV1` (transaction.rs:356-362). -/
structure InvokeV1 where
  calldata : List F
  sender : F
  maxFee : F
  signature : List F
  nonce : F
  deriving DecidableEq, Repr

/-- `InvokeTransactionV3` (transaction.rs:365-377). -/
structure InvokeV3 where
  signature : List F
  nonce : F
  v3 : V3
  accountDeployment : List F
  calldata : List F
  sender : F
  proofFacts : List F
  deriving DecidableEq, Repr

/-- `L1HandlerTransaction` (transaction.rs:380-385). -/
structure L1Handler where
  address : F
  selector : F
  nonce : F
  calldata : List F
  deriving DecidableEq, Repr

/-- `TransactionVariant` (transaction.rs:49-62). -/
inductive Txn
  | declareV0 (t : DeclareOld)
  | declareV1 (t : DeclareOld)
  | declareV2 (t : DeclareV2)
  | declareV3 (t : DeclareV3)
  | deployV0 (t : Deploy)
  | deployV1 (t : Deploy)
  | deployAccountV1 (t : DeployAccountV1)
  | deployAccountV3 (t : DeployAccountV3)
  | invokeV0 (t : InvokeV0)
  | invokeV1 (t : InvokeV1)
  | invokeV3 (t : InvokeV3)
  | l1Handler (t : L1Handler)
  deriving DecidableEq, Repr

/-- `EntryPoint::CONSTRUCTOR` (common/src/lib.rs:96-97). -/
def constructorSelector : F := felt 0x028FFE4FF0F226A9107253E17A904099AA4F63A02A5621DE0576E5AA71BC5194

/-- The versions `ZERO` to `THREE` `with_query_only` (common/src/lib.rs:248-278): bit 128 marks a query. -/
def txVersion (n : Nat) (query : Bool) : F := felt (n + if query then 2 ^ 128 else 0)

/-- `LegacyHasher::hash` (transaction.rs:805-820). -/
def legacyHash (h : Hashes) (pre : String) (address entry data chainId : F) (nonce : Option F) : F :=
  chain h ([feltText pre.toList, address, entry, data, chainId] ++ nonce.toList)

/-- `PreV3Hasher::hash` (transaction.rs:834-855). -/
def preV3Hash (h : Hashes) (pre : String) (version address entry data maxFee chainId : F) (nonceOrClass casm : Option F) : F :=
  chain h ([feltText pre.toList, version, address, entry, data, maxFee, chainId] ++ nonceOrClass.toList ++ casm.toList)

/-- `pack_gas_bound` (transaction.rs:943-954): eight bytes of name, eight of amount, sixteen of price. -/
def packBound (name : String) (b : Bound) : F :=
  felt ((name.toList.foldl (fun n c => n * 256 + c.toNat) 0) * 2 ^ 192 + b.amount * 2 ^ 128 + b.price)

/-- `hash_fee_fields` (transaction.rs:930-941). -/
def feeHash (h : Hashes) (v : V3) : F :=
  h.many ([felt v.tip, packBound "L1_GAS" v.l1Gas, packBound "L2_GAS" v.l2Gas] ++ v.l1DataGas.toList.map (packBound "L1_DATA"))

/-- `pack_data_availability` (transaction.rs:913-918). -/
def packModes (v : V3) : F := felt (v.nonceL2.toNat * 2 ^ 32 + v.feeL2.toNat)

/-- `V3Hasher::hash` (transaction.rs:872-911). -/
def v3Hash (h : Hashes) (pre : String) (query : Bool) (sender nonce chainId : F) (v : V3) (data : List F) (proofFacts : List F) : F :=
  h.many ([feltText pre.toList, txVersion 3 query, sender, feeHash h v, h.many v.paymaster, chainId, nonce, packModes v] ++ data ++
    if proofFacts.isEmpty then [] else [h.many proofFacts])

/-- `calculate_hash` (transaction.rs:101-116 and 422-794). -/
def Txn.hash (h : Hashes) (chainId : F) (query : Bool) : Txn → F
  | .declareV0 t => preV3Hash h "declare" (txVersion 0 query) t.sender 0 (chain h []) 0 chainId (some t.classHash) none
  | .declareV1 t => preV3Hash h "declare" (txVersion 1 query) t.sender 0 (chain h [t.classHash]) t.maxFee chainId (some t.nonce) none
  | .declareV2 t => preV3Hash h "declare" (txVersion 2 query) t.sender 0 (chain h [t.classHash]) t.maxFee chainId (some t.nonce) (some t.casm)
  | .declareV3 t => v3Hash h "declare" query t.sender t.nonce chainId t.v3 [h.many t.accountDeployment, t.classHash, t.casm] []
  | .deployV0 t => preV3Hash h "deploy" (txVersion 0 query) t.address constructorSelector (chain h t.calldata) 0 chainId none none
  | .deployV1 t => preV3Hash h "deploy" (txVersion 1 query) t.address constructorSelector (chain h t.calldata) 0 chainId none none
  | .deployAccountV1 t =>
    preV3Hash h "deploy_account" (txVersion 1 query) t.address 0 (chain h (t.classHash :: t.salt :: t.calldata)) t.maxFee chainId (some t.nonce) none
  | .deployAccountV3 t => v3Hash h "deploy_account" query t.address t.nonce chainId t.v3 [h.many t.calldata, t.classHash, t.salt] []
  | .invokeV0 t => preV3Hash h "invoke" (txVersion 0 query) t.sender t.selector (chain h t.calldata) t.maxFee chainId none none
  | .invokeV1 t => preV3Hash h "invoke" (txVersion 1 query) t.sender 0 (chain h t.calldata) t.maxFee chainId (some t.nonce) none
  | .invokeV3 t => v3Hash h "invoke" query t.sender t.nonce chainId t.v3 [h.many t.accountDeployment, h.many t.calldata] t.proofFacts
  | .l1Handler t => preV3Hash h "l1_handler" (txVersion 0 false) t.address t.selector (chain h t.calldata) 0 chainId (some t.nonce) none

/-- `calculate_legacy_hash` (transaction.rs:138-148, 478-487, 512-521, 570-579, 639-649). -/
def Txn.legacy (h : Hashes) (chainId : F) : Txn → Option F
  | .deployV0 t | .deployV1 t => some (legacyHash h "deploy" t.address constructorSelector (chain h t.calldata) chainId none)
  | .invokeV0 t => some (legacyHash h "invoke" t.sender t.selector (chain h t.calldata) chainId none)
  | .l1Handler t => some (legacyHash h "invoke" t.address t.selector (chain h t.calldata) chainId none)
  | _ => none

/-- `calculate_v07_hash` (transaction.rs:652-661). -/
def Txn.v07 (h : Hashes) (chainId : F) : Txn → Option F
  | .l1Handler t => some (legacyHash h "l1_handler" t.address t.selector (chain h t.calldata) chainId (some t.nonce))
  | _ => none

/-- `verify_hash` (transaction.rs:81-99). -/
def Txn.verify (h : Hashes) (chainId : F) (expected : F) (t : Txn) : Bool :=
  expected == t.hash h chainId false || some expected == t.legacy h chainId || some expected == t.v07 h chainId

/-- `ContractAddress::deployed_contract_address` (common/src/lib.rs:622-658). -/
def deployedAddress (h : Hashes) (calldata : List F) (salt classHash : F) : F :=
  let a := chain h [feltText "STARKNET_CONTRACT_ADDRESS".toList, 0, salt, classHash, chain h calldata]
  if 2 ^ 251 - 256 ≤ a.val then felt (a.val - (2 ^ 251 - 256)) else a

/-- `calculate_contract_address` (transaction.rs:156-198). -/
def Txn.withAddress (h : Hashes) : Txn → Txn
  | .deployV0 t => .deployV0 { t with address := deployedAddress h t.calldata t.salt t.classHash }
  | .deployV1 t => .deployV1 { t with address := deployedAddress h t.calldata t.salt t.classHash }
  | .deployAccountV1 t => .deployAccountV1 { t with address := deployedAddress h t.calldata t.salt t.classHash }
  | .deployAccountV3 t => .deployAccountV3 { t with address := deployedAddress h t.calldata t.salt t.classHash }
  | t => t

/-- What `CalculateHashes` does with one transaction of a peer (pathfinder/src/sync/transactions.rs:91-112). -/
def fromPeer (h : Hashes) (chainId : F) (hash : F) (t : Txn) : Option Txn :=
  if hash = (t.withAddress h).hash h chainId false then some (t.withAddress h) else none

end Verif.Block
