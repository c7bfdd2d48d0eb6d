import Verif.Block.TxModel
import Verif.Block.Spec
/-!
# What a transaction hash stands for
-/
namespace Verif.Block

/-- What a hash is taken of: values chained with Pedersen, or hashed with Poseidon. -/
inductive Pre
  | ped (l : List F)
  | pos (l : List F)
  deriving DecidableEq

def Pre.eval (h : Hashes) : Pre → F
  | .ped l => chain h l
  | .pos l => h.many l

def Pre.queries (h : Hashes) : Pre → List Query
  | .ped l => chainQ h l
  | .pos l => [.many l]

def feePre (v : V3) : Pre :=
  .pos ([felt v.tip, packBound "L1_GAS" v.l1Gas, packBound "L2_GAS" v.l2Gas] ++ v.l1DataGas.toList.map (packBound "L1_DATA"))

/-- The lists that are hashed on their own. -/
def Txn.parts : Txn → List Pre
  | .declareV0 _ => []
  | .declareV1 t => [.ped [t.classHash]]
  | .declareV2 t => [.ped [t.classHash]]
  | .declareV3 t => [feePre t.v3, .pos t.v3.paymaster, .pos t.accountDeployment]
  | .deployV0 t | .deployV1 t => [.ped t.calldata]
  | .deployAccountV1 t => [.ped (t.classHash :: t.salt :: t.calldata)]
  | .deployAccountV3 t => [feePre t.v3, .pos t.v3.paymaster, .pos t.calldata]
  | .invokeV0 t => [.ped t.calldata]
  | .invokeV1 t => [.ped t.calldata]
  | .invokeV3 t => [feePre t.v3, .pos t.v3.paymaster, .pos t.accountDeployment, .pos t.calldata, .pos t.proofFacts]
  | .l1Handler t => [.ped t.calldata]

def preV3Pre (pre : String) (version address entry data maxFee chainId : F) (nonceOrClass casm : Option F) : Pre :=
  .ped ([feltText pre.toList, version, address, entry, data, maxFee, chainId] ++ nonceOrClass.toList ++ casm.toList)

def v3Pre (h : Hashes) (pre : String) (query : Bool) (sender nonce chainId : F) (v : V3) (data : List F) (proofFacts : List F) : Pre :=
  .pos ([feltText pre.toList, txVersion 3 query, sender, (feePre v).eval h, h.many v.paymaster, chainId, nonce, packModes v] ++ data ++
    if proofFacts.isEmpty then [] else [h.many proofFacts])

/-- The values of the hash itself. -/
def Txn.top (h : Hashes) (chainId : F) (query : Bool) : Txn → Pre
  | .declareV0 t => preV3Pre "declare" (txVersion 0 query) t.sender 0 (chain h []) 0 chainId (some t.classHash) none
  | .declareV1 t => preV3Pre "declare" (txVersion 1 query) t.sender 0 (chain h [t.classHash]) t.maxFee chainId (some t.nonce) none
  | .declareV2 t => preV3Pre "declare" (txVersion 2 query) t.sender 0 (chain h [t.classHash]) t.maxFee chainId (some t.nonce) (some t.casm)
  | .declareV3 t => v3Pre h "declare" query t.sender t.nonce chainId t.v3 [h.many t.accountDeployment, t.classHash, t.casm] []
  | .deployV0 t => preV3Pre "deploy" (txVersion 0 query) t.address constructorSelector (chain h t.calldata) 0 chainId none none
  | .deployV1 t => preV3Pre "deploy" (txVersion 1 query) t.address constructorSelector (chain h t.calldata) 0 chainId none none
  | .deployAccountV1 t =>
    preV3Pre "deploy_account" (txVersion 1 query) t.address 0 (chain h (t.classHash :: t.salt :: t.calldata)) t.maxFee chainId (some t.nonce) none
  | .deployAccountV3 t => v3Pre h "deploy_account" query t.address t.nonce chainId t.v3 [h.many t.calldata, t.classHash, t.salt] []
  | .invokeV0 t => preV3Pre "invoke" (txVersion 0 query) t.sender t.selector (chain h t.calldata) t.maxFee chainId none none
  | .invokeV1 t => preV3Pre "invoke" (txVersion 1 query) t.sender 0 (chain h t.calldata) t.maxFee chainId (some t.nonce) none
  | .invokeV3 t => v3Pre h "invoke" query t.sender t.nonce chainId t.v3 [h.many t.accountDeployment, h.many t.calldata] t.proofFacts
  | .l1Handler t => preV3Pre "l1_handler" (txVersion 0 false) t.address t.selector (chain h t.calldata) 0 chainId (some t.nonce) none

/-- The values of the hashes of old blocks. -/
def Txn.oldTops (h : Hashes) (chainId : F) : Txn → List Pre
  | .deployV0 t | .deployV1 t => [.ped [feltText "deploy".toList, t.address, constructorSelector, chain h t.calldata, chainId]]
  | .invokeV0 t => [.ped [feltText "invoke".toList, t.sender, t.selector, chain h t.calldata, chainId]]
  | .l1Handler t => [.ped [feltText "invoke".toList, t.address, t.selector, chain h t.calldata, chainId],
      .ped [feltText "l1_handler".toList, t.address, t.selector, chain h t.calldata, chainId, t.nonce]]
  | _ => []

/-- The queries of a transaction. -/
def Txn.queries (h : Hashes) (chainId : F) (query : Bool) (t : Txn) : List Query :=
  (t.top h chainId query :: t.oldTops h chainId ++ t.parts).flatMap (Pre.queries h)

/-- A transaction without what its hash does not cover: the signature, the fee and nonce of the first declare transactions, the entry point
type of the first invoke transactions; and for deploy transactions the class and the salt, which are covered through the address only. -/
def Txn.bound : Txn → Txn
  | .declareV0 t => .declareV0 { t with signature := [], maxFee := 0, nonce := 0 }
  | .declareV1 t => .declareV1 { t with signature := [] }
  | .declareV2 t => .declareV2 { t with signature := [] }
  | .declareV3 t => .declareV3 { t with signature := [] }
  | .deployV0 t => .deployV0 { t with classHash := 0, salt := 0 }
  | .deployV1 t => .deployV1 { t with classHash := 0, salt := 0 }
  | .deployAccountV1 t => .deployAccountV1 { t with signature := [] }
  | .deployAccountV3 t => .deployAccountV3 { t with signature := [] }
  | .invokeV0 t => .invokeV0 { t with signature := [], entryType := none }
  | .invokeV1 t => .invokeV1 { t with signature := [] }
  | .invokeV3 t => .invokeV3 { t with signature := [] }
  | .l1Handler t => .l1Handler t

/-- The same with the class and the salt of deploy transactions. -/
def Txn.unsigned : Txn → Txn
  | .deployV0 t => .deployV0 t
  | .deployV1 t => .deployV1 t
  | t => t.bound

/-- What the legacy hash covers: deploying or calling, the contract, the selector and the arguments. -/
def Txn.legacyBound : Txn → Option (Bool × F × F × List F)
  | .deployV0 t | .deployV1 t => some (true, t.address, constructorSelector, t.calldata)
  | .invokeV0 t => some (false, t.sender, t.selector, t.calldata)
  | .l1Handler t => some (false, t.address, t.selector, t.calldata)
  | _ => none

/-- The salt, the class and the arguments that a deploy transaction gets its address from. -/
def Txn.deployment : Txn → Option (F × F × List F)
  | .deployV0 t | .deployV1 t => some (t.salt, t.classHash, t.calldata)
  | _ => none

def Bound.Ok (b : Bound) : Prop := b.amount < 2 ^ 64 ∧ b.price < 2 ^ 128

structure V3.Ok (v : V3) : Prop where
  l1Gas : v.l1Gas.Ok
  l2Gas : v.l2Gas.Ok
  l1DataGas : ∀ b ∈ v.l1DataGas, b.Ok
  tip : v.tip < 2 ^ 64

/-- The numbers have their widths, and lists are not longer than memory can hold. -/
def Txn.Ok : Txn → Prop
  | .declareV0 _ | .declareV1 _ | .declareV2 _ => True
  | .declareV3 t => t.v3.Ok
  | .deployV0 t | .deployV1 t => t.calldata.length < 2 ^ 63
  | .deployAccountV1 t => t.calldata.length < 2 ^ 63
  | .deployAccountV3 t => t.v3.Ok
  | .invokeV0 t => t.calldata.length < 2 ^ 63
  | .invokeV1 t => t.calldata.length < 2 ^ 63
  | .invokeV3 t => t.v3.Ok
  | .l1Handler t => t.calldata.length < 2 ^ 63

end Verif.Block
