import Verif.Submit.Model

/-!
# Calls, estimates and simulations

Model of `crates/rpc/src/method/{simulate_transactions,estimate_fee,estimate_message_fee,call}.rs`, `crates/rpc/src/executor.rs`,
`crates/executor/src/execution_state.rs`, `call.rs`, `error.rs` and of the conversion of transactions in `crates/executor/src/types.rs`.

Simplifications: a field element is a natural number, and so is a class, a compiled class and a version of Sierra. Hashing, compiling, parsing of
classes and running a transaction or an entry point belong to the environment. The database is what one transaction sees: the table of headers, the
blocks in which contracts got a class, and the last block accepted on L1. Errors of the database are left out. The chain id is taken to be text.
The search for a gas limit inside running a transaction is in `Verif/Fee`.
-/
namespace Verif.Sim
open Verif.Submit (Bound Bounds Da Invoke0 Invoke1 Invoke3 Declare1 Declare2 Declare3 Deploy1 Deploy3 plain)

/-- The errors of these methods (simulate_transactions.rs:219-229, estimate_fee.rs:154-163, estimate_message_fee.rs:206-216, call.rs:12-22).
`limit` is the custom error for a request that is too long; its index is missing where there is one transaction only. -/
inductive Err
  | internal
  | custom
  | limit (signature : Bool) (index : Option Nat)
  | blockNotFound
  | contractNotFound
  | entrypointNotFound
  | contractError
  | transaction (index : Nat)
  deriving DecidableEq

/-- The code in the answer (rpc/src/error.rs:131-188), from version 0.8 of the API on. -/
def Err.code : Err → Int
  | .internal => -32603
  | .custom => -32603
  | .limit _ _ => -32603
  | .contractNotFound => 20
  | .entrypointNotFound => 21
  | .blockNotFound => 24
  | .contractError => 40
  | .transaction _ => 41

/-- What a function gives: a value, an error, or a panic. -/
inductive Res (α : Type)
  | ok (a : α)
  | err (e : Err)
  | panic
  deriving DecidableEq

/-- `?` -/
def Res.bind {α β : Type} (r : Res α) (f : α → Res β) : Res β :=
  match r with
  | .ok a => f a
  | .err e => .err e
  | .panic => .panic

/-- A `None` or an `Err` that becomes `e`. -/
def orErr {α : Type} (e : Err) : Option α → Res α
  | some a => .ok a
  | none => .err e

/-- The blocking task was joined: a panic in it is an internal error of the method (simulate_transactions.rs:151-152 and the like). -/
def Res.joined {α : Type} : Res α → Except Err α
  | .ok a => .ok a
  | .err e => .error e
  | .panic => .error .internal

/-! ## Transactions -/

/-- `BroadcastedTransaction` (rpc/src/types.rs:150-163). The nonce of a `Declare1` is not there in version 0. -/
inductive Tx
  | declare0 (t : Declare1)
  | declare1 (t : Declare1)
  | declare2 (t : Declare2)
  | declare3 (t : Declare3)
  | invoke0 (t : Invoke0)
  | invoke1 (t : Invoke1)
  | invoke3 (t : Invoke3)
  | deploy1 (t : Deploy1)
  | deploy3 (t : Deploy3)
  deriving DecidableEq

/-- `version()` (rpc/src/types.rs:221-262), and executor.rs:198-226. -/
def Tx.version : Tx → Nat
  | .declare0 t => t.version
  | .declare1 t => t.version
  | .declare2 t => t.version
  | .declare3 t => t.version
  | .invoke0 t => t.version
  | .invoke1 t => t.version
  | .invoke3 t => t.version
  | .deploy1 t => t.version
  | .deploy3 t => t.version

/-- `has_query_version` (common/src/lib.rs:259-261): the lowest bit of byte 15. -/
def queryBit (v : Nat) : Bool := v / 2 ^ 128 % 2 = 1

/-- rpc/src/executor.rs:32-33. -/
def limit : Nat := 10000

/-- `calldata_limit_exceeded` (rpc/src/executor.rs:42-60). -/
def calldataExceeded : Tx → Bool
  | .invoke0 t => t.calldata.length > limit
  | .invoke1 t => t.calldata.length > limit
  | .invoke3 t => t.calldata.length > limit
  | .deploy1 t => t.calldata.length > limit
  | .deploy3 t => t.calldata.length > limit
  | _ => false

/-- `signature_elem_limit_exceeded` (rpc/src/executor.rs:62-80). -/
def signatureExceeded : Tx → Bool
  | .invoke0 t => t.signature.length > limit
  | .invoke1 t => t.signature.length > limit
  | .invoke3 t => t.signature.length > limit
  | .deploy1 t => t.signature.length > limit
  | .deploy3 t => t.signature.length > limit
  | _ => false

/-- simulate_transactions.rs:49-63 and estimate_fee.rs:60-70. -/
def checkLimits (txs : List Tx) : Option Err :=
  match txs.findIdx? calldataExceeded with
  | some i => some (.limit false (some i))
  | none =>
    match txs.findIdx? signatureExceeded with
    | some i => some (.limit true (some i))
    | none => none

/-- `ClassInfo` (rpc/src/executor.rs:104-109, 152-157); the version 0 stands for `SierraVersion::DEPRECATED`. -/
structure ClassInfo where
  cls : Nat
  sierraLength : Nat
  abiLength : Nat
  version : Nat
  deriving DecidableEq

/-- `TransactionVariant` (common/src/transaction.rs), the kinds that can be asked for. -/
inductive Common
  | declareV0 (classHash maxFee nonce : Nat) (signature : List Nat) (sender : Nat)
  | declareV1 (classHash maxFee nonce : Nat) (signature : List Nat) (sender : Nat)
  | declareV2 (classHash maxFee nonce : Nat) (signature : List Nat) (sender compiled : Nat)
  | declareV3 (classHash nonce : Nat) (nonceMode feeMode : Da) (bounds : Bounds) (tip : Nat) (paymaster signature deployment : List Nat)
      (sender compiled : Nat)
  | deployV1 (address maxFee : Nat) (signature : List Nat) (nonce salt : Nat) (calldata : List Nat) (classHash : Nat)
  | deployV3 (address : Nat) (signature : List Nat) (nonce : Nat) (nonceMode feeMode : Da) (bounds : Bounds) (tip : Nat) (paymaster : List Nat)
      (salt : Nat) (calldata : List Nat) (classHash : Nat)
  | invokeV0 (calldata : List Nat) (sender selector maxFee : Nat) (signature : List Nat)
  | invokeV1 (calldata : List Nat) (sender maxFee : Nat) (signature : List Nat) (nonce : Nat)
  | invokeV3 (signature : List Nat) (nonce : Nat) (nonceMode feeMode : Da) (bounds : Bounds) (tip : Nat) (paymaster deployment calldata :
      List Nat) (sender : Nat) (proofFacts : List Nat)
  | l1Handler (address selector nonce : Nat) (calldata : List Nat)
  deriving DecidableEq

/-- The resource bounds of the library (executor/src/types.rs:1662-1692). -/
inductive ApiBounds
  | all (l1 l2 l1Data : Bound)
  | l1Gas (l1 : Bound)
  deriving DecidableEq

/-- The library's transaction (`starknet_api::transaction::Transaction`) with its fields by name. -/
inductive Api
  | declare01 (version maxFee : Nat) (signature : List Nat) (nonce classHash sender : Nat)
  | declare2 (maxFee : Nat) (signature : List Nat) (nonce classHash sender compiled : Nat)
  | declare3 (bounds : ApiBounds) (tip : Nat) (signature : List Nat) (nonce classHash compiled sender : Nat) (nonceMode feeMode : Da)
      (paymaster deployment : List Nat)
  | deploy1 (maxFee : Nat) (signature : List Nat) (nonce classHash salt : Nat) (calldata : List Nat)
  | deploy3 (bounds : ApiBounds) (tip : Nat) (signature : List Nat) (nonce classHash salt : Nat) (calldata : List Nat) (nonceMode feeMode : Da)
      (paymaster : List Nat)
  | invoke0 (maxFee : Nat) (signature : List Nat) (address selector : Nat) (calldata : List Nat)
  | invoke1 (maxFee : Nat) (signature : List Nat) (nonce sender : Nat) (calldata : List Nat)
  | invoke3 (bounds : ApiBounds) (tip : Nat) (signature : List Nat) (nonce sender : Nat) (calldata : List Nat) (nonceMode feeMode : Da)
      (paymaster deployment proofFacts : List Nat)
  | l1Handler (nonce address selector : Nat) (calldata : List Nat)
  deriving DecidableEq

/-- `AccountTransactionExecutionFlags`. -/
structure Flags where
  onlyQuery : Bool
  validate : Bool
  chargeFee : Bool
  strictNonce : Bool
  deriving DecidableEq

/-- The arguments of `Transaction::from_api` (rpc/src/executor.rs:240-247): what the library is to run. -/
structure ExecTx where
  api : Api
  hash : Nat
  classInfo : Option ClassInfo
  paidFee : Option Nat
  deployed : Option Nat
  flags : Flags
  deriving DecidableEq

/-- A header with what running needs (`BlockHeader`; executor/src/types.rs:65-81). -/
structure Hdr where
  number : Nat
  hash : Nat
  timestamp : Nat
  ethL1 : Nat
  strkL1 : Nat
  ethL1Data : Nat
  strkL1Data : Nat
  ethL2 : Nat
  strkL2 : Nat
  sequencer : Nat
  version : Nat
  blob : Bool
  deriving DecidableEq

/-- The pending state update: the contracts that it deploys, and the rest. -/
structure Upd where
  deployed : List Nat
  rest : Nat
  deriving DecidableEq

/-- What the library knows of the block (`BlockContext`, execution_state.rs:247-301, 303-416), and the hash that becomes available. -/
structure Ctx where
  number : Nat
  timestamp : Nat
  sequencer : Nat
  ethL1 : Nat
  ethL1Data : Nat
  ethL2 : Nat
  strkL1 : Nat
  strkL1Data : Nat
  strkL2 : Nat
  blob : Bool
  constants : Nat
  oldHash : Option (Nat × Nat)
  deriving DecidableEq

/-- The state that is read: storage up to a block (`none`: the state before the first block), and a pending update on top. -/
structure View where
  upTo : Option Nat
  pending : Option Upd
  deriving DecidableEq

/-- Running one transaction: its result and the state after it, or an error (executor/src/error.rs:120-190). -/
inductive Ran (S O : Type)
  | ok (out : O) (s : S)
  | failed
  | internal
  | custom

/-- Running an entry point (executor/src/call.rs:64-79): what it returned, or an error of the library (error.rs:21-63). -/
inductive CallRan
  | returned (failed : Bool) (data : List Nat)
  | noEntryPoint
  | noContract
  | error
  deriving DecidableEq

/-- Everything that is not modelled: parsing and compiling of classes, hashes, the library. `S` is the library's state, `O` what it gives for a
transaction (with the fee and the trace), `R` the initial reads. -/
structure Env (S O R : Type) where
  classHash : Nat → Option Nat
  deprecated : Nat → Option Nat
  sierraVersion : Nat → Option Nat
  compile : Nat → Option Nat
  parseCasm : Nat → Nat → Option Nat
  sierraLength : Nat → Nat
  abiLength : Nat → Nat
  infoOk : ClassInfo → Bool
  rawAddress : List Nat → Nat → Nat → Nat
  txHash : Common → Bool → Nat
  fromApiOk : ExecTx → Bool
  start : Ctx → View → S
  run : Ctx → Bool → S → ExecTx → Ran S O
  reads : S → R
  call : Ctx → View → Nat → Nat → List Nat → CallRan
  constants : Nat → Nat
  custom : List (Nat × Nat)

variable {S O R : Type} (env : Env S O R)

/-- rpc/src/executor.rs:95-109 (and 111-126): a Cairo 0 class. -/
def deprecatedInfo (cls : Nat) : Res (Option ClassInfo) :=
  (orErr .internal (env.deprecated cls)).bind fun c =>
    let i : ClassInfo := ⟨c, 0, 0, 0⟩
    if env.infoOk i then .ok (some i) else .err .internal

/-- rpc/src/executor.rs:127-157 (and 158-186): a Sierra class. -/
def sierraInfo (cls : Nat) : Res (Option ClassInfo) :=
  (orErr .internal (env.sierraVersion cls)).bind fun v =>
    (orErr .internal (env.compile cls)).bind fun casm =>
      (orErr .internal (env.parseCasm casm v)).bind fun c =>
        let i : ClassInfo := ⟨c, env.sierraLength cls, env.abiLength cls, v⟩
        if env.infoOk i then .ok (some i) else .err .internal

/-- rpc/src/executor.rs:93-188. -/
def classInfo : Tx → Res (Option ClassInfo)
  | .declare0 t => deprecatedInfo env t.cls
  | .declare1 t => deprecatedInfo env t.cls
  | .declare2 t => sierraInfo env t.cls
  | .declare3 t => sierraInfo env t.cls
  | _ => .ok none

/-- `ContractAddress::deployed_contract_address` (common/src/lib.rs:622-658) after hashing. -/
def deployedAddress (calldata : List Nat) (salt classHash : Nat) : Nat :=
  let h := env.rawAddress calldata salt classHash
  if h ≥ 2 ^ 251 - 256 then h - (2 ^ 251 - 256) else h

/-- `PatriciaKey::try_from(..).expect(..)` -/
def key (a : Nat) : Res Nat := if a < 2 ^ 251 then .ok a else .panic

/-- rpc/src/executor.rs:190-205. -/
def deployedKey : Tx → Res (Option Nat)
  | .deploy1 t => (key (deployedAddress env t.calldata t.salt t.classHash)).bind fun a => .ok (some a)
  | .deploy3 t => (key (deployedAddress env t.calldata t.salt t.classHash)).bind fun a => .ok (some a)
  | _ => .ok none

/-- rpc/src/executor.rs:228-233. -/
def flags (t : Tx) (skipValidate skipFee : Bool) : Flags := ⟨queryBit t.version, !skipValidate, !skipFee, !skipValidate⟩

/-- The variant in `try_into_common` (rpc/src/types.rs:1262-1378). -/
def variant : Tx → Res Common
  | .declare0 t => (orErr .internal (env.classHash t.cls)).bind fun h => .ok (.declareV0 h t.maxFee 0 t.signature t.sender)
  | .declare1 t => (orErr .internal (env.classHash t.cls)).bind fun h => .ok (.declareV1 h t.maxFee t.nonce t.signature t.sender)
  | .declare2 t => (orErr .internal (env.classHash t.cls)).bind fun h => .ok (.declareV2 h t.maxFee t.nonce t.signature t.sender t.compiled)
  | .declare3 t => (orErr .internal (env.classHash t.cls)).bind fun h =>
      .ok (.declareV3 h t.nonce t.nonceMode t.feeMode t.bounds t.tip t.paymaster t.signature t.deployment t.sender t.compiled)
  | .deploy1 t => .ok (.deployV1 (deployedAddress env t.calldata t.salt t.classHash) t.maxFee t.signature t.nonce t.salt t.calldata t.classHash)
  | .deploy3 t => .ok (.deployV3 (deployedAddress env t.calldata t.salt t.classHash) t.signature t.nonce t.nonceMode t.feeMode t.bounds t.tip
      t.paymaster t.salt t.calldata t.classHash)
  | .invoke0 t => .ok (.invokeV0 t.calldata t.contractAddress t.selector t.maxFee t.signature)
  | .invoke1 t => .ok (.invokeV1 t.calldata t.sender t.maxFee t.signature t.nonce)
  | .invoke3 t => .ok (.invokeV3 t.signature t.nonce t.nonceMode t.feeMode t.bounds t.tip t.paymaster t.deployment t.calldata t.sender t.proofFacts)

/-- `try_into_starkfee` (executor/src/fee.rs:20-24): 128 bits. -/
def fee (f : Nat) : Res Nat := if f < 2 ^ 128 then .ok f else .err .internal

/-- `to_starknet_api_resource_bounds` (executor/src/types.rs:1662-1692). -/
def apiBounds (b : Bounds) : ApiBounds :=
  match b.l1Data with
  | some d => .all b.l1 b.l2 d
  | none => .l1Gas b.l1

/-- `to_starknet_api_transaction` (executor/src/types.rs:1379-1660). -/
def toApi : Common → Res Api
  | .declareV0 h f n sig s => (fee f).bind fun f => (key s).bind fun s => .ok (.declare01 0 f sig n h s)
  | .declareV1 h f n sig s => (fee f).bind fun f => (key s).bind fun s => .ok (.declare01 1 f sig n h s)
  | .declareV2 h f n sig s c => (fee f).bind fun f => (key s).bind fun s => .ok (.declare2 f sig n h s c)
  | .declareV3 h n nm fm b tip pay sig dep s c => (key s).bind fun s => .ok (.declare3 (apiBounds b) tip sig n h c s nm fm pay dep)
  | .deployV1 _ f sig n salt cd h => (fee f).bind fun f => .ok (.deploy1 f sig n h salt cd)
  | .deployV3 _ sig n nm fm b tip pay salt cd h => .ok (.deploy3 (apiBounds b) tip sig n h salt cd nm fm pay)
  | .invokeV0 cd s sel f sig => (fee f).bind fun f => (key s).bind fun s => .ok (.invoke0 f sig s sel cd)
  | .invokeV1 cd s f sig n => (fee f).bind fun f => (key s).bind fun s => .ok (.invoke1 f sig n s cd)
  | .invokeV3 sig n nm fm b tip pay dep cd s pf => (key s).bind fun s => .ok (.invoke3 (apiBounds b) tip sig n s cd nm fm pay dep pf)
  | .l1Handler a sel n cd => (key a).bind fun a => .ok (.l1Handler n a sel cd)

/-- `map_broadcasted_transaction` (rpc/src/executor.rs:82-250). -/
def mapTx (skipValidate skipFee : Bool) (t : Tx) : Res ExecTx :=
  (classInfo env t).bind fun info =>
    (deployedKey env t).bind fun d =>
      (variant env t).bind fun c =>
        (toApi c).bind fun api =>
          let e : ExecTx := ⟨api, env.txHash c (queryBit t.version), info, none, d, flags t skipValidate skipFee⟩
          if env.fromApiOk e then .ok e else .err .internal

/-- Collecting the transactions of a request (simulate_transactions.rs:125-139, estimate_fee.rs:127-141). -/
def mapAll (skipValidate skipFee : Bool) : List Tx → Res (List ExecTx)
  | [] => .ok []
  | t :: ts => (mapTx env skipValidate skipFee t).bind fun e => (mapAll skipValidate skipFee ts).bind fun es => .ok (e :: es)

/-! ## The block -/

/-- The database as one transaction sees it: `block_headers`, the last block accepted on L1, and `contract_updates` as contracts with block
numbers. -/
structure Db where
  headers : List Hdr
  l1 : Option Nat
  contracts : List (Nat × Nat)
  deriving DecidableEq

/-- `ORDER BY number DESC LIMIT 1` (storage/src/connection/block.rs:236-244). -/
def latest : List Hdr → Option Hdr
  | [] => none
  | h :: hs =>
    match latest hs with
    | some m => if m.number < h.number then some h else some m
    | none => some h

/-- `BlockId` of a request (rpc/src/types.rs). -/
inductive Id
  | number (n : Nat)
  | hash (h : Nat)
  | latest
  | l1Accepted
  | preConfirmed
  deriving DecidableEq

/-- The header by number (storage/src/connection/block.rs, `block_header`). -/
def Db.byNumber (db : Db) (n : Nat) : Option Hdr := db.headers.find? (fun h => h.number = n)

/-- Pending data: the header of the pre-confirmed block and the updates of the pending blocks in one. -/
structure Pending where
  header : Hdr
  update : Upd
  deriving DecidableEq

/-- The header and the pending update for a request (simulate_transactions.rs:84-110; the same in estimate_fee.rs:81-105, call.rs:139-163 and
estimate_message_fee.rs:77-101) with `to_common_or_panic` (rpc/src/types.rs:58-76). `none` for the pending data: it could not be had. -/
def named (db : Db) (pend : Option Pending) : Id → Res (Hdr × Option Upd)
  | .preConfirmed => (orErr .internal pend).bind fun p => .ok (p.header, some p.update)
  | .number n => (orErr .blockNotFound (db.byNumber n)).bind fun h => .ok (h, none)
  | .hash x => (orErr .blockNotFound (db.headers.find? (fun h => h.hash = x))).bind fun h => .ok (h, none)
  | .latest => (orErr .blockNotFound (latest db.headers)).bind fun h => .ok (h, none)
  | .l1Accepted => (orErr .blockNotFound db.l1).bind fun n => (orErr .blockNotFound (db.byNumber n)).bind fun h => .ok (h, none)

/-- `StarknetVersion` as one number; versions compare like it. -/
def ver (a b c d : Nat) : Nat := ((a * 256 + b) * 256 + c) * 256 + d

/-- The versions that have constants of their own (execution_state.rs:23-46, 68-131). -/
def known : List Nat :=
  [ver 0 13 1 0, ver 0 13 1 1, ver 0 13 2 0, ver 0 13 2 1, ver 0 13 3 0, ver 0 13 4 0, ver 0 13 5 0, ver 0 14 0 0, ver 0 14 1 0, ver 0 14 2 0]

/-- `insert_default` (execution_state.rs:133-142). -/
def insertDefault (m : List (Nat × Nat)) (k : Nat) : List (Nat × Nat) :=
  if m.any (fun e => e.1 = k) then m else m ++ [(k, env.constants k)]

/-- `custom` and `fill_default` (execution_state.rs:60-131). -/
def constantsMap : List (Nat × Nat) := known.foldl (insertDefault env) env.custom

/-- The entry with the greatest key up to `v`: `range(..=version).next_back()`. -/
def lastUpTo (v : Nat) : List (Nat × Nat) → Option (Nat × Nat)
  | [] => none
  | e :: m =>
    match lastUpTo v m with
    | some f => if e.1 ≤ v ∧ f.1 < e.1 then some e else some f
    | none => if e.1 ≤ v then some e else none

/-- `for_version` (execution_state.rs:144-155). -/
def forVersion (v : Nat) : Nat :=
  match lastUpTo v (constantsMap env) with
  | some e => e.2
  | none => env.constants (ver 0 13 0 0)

/-- A price that may not be zero (execution_state.rs:339-388). -/
def price (p : Nat) : Nat := if p = 0 then 1 else p

/-- The hash of ten blocks ago (execution_state.rs:250-273). -/
def oldHash (db : Db) (n : Nat) : Res (Option (Nat × Nat)) :=
  if n ≥ 10 then (orErr .internal (db.byNumber (n - 10))).bind fun h => .ok (some (n - 10, h.hash)) else .ok none

/-- The block up to which storage is read (execution_state.rs:241-245). -/
def readUpTo (onParent : Bool) (n : Nat) : Option Nat := if onParent then (if n = 0 then none else some (n - 1)) else some n

/-- `create_state_reader` (execution_state.rs:237-301) with `ExecutionState::simulation` (444-468), `chain_info` and `starknet_block_info`
(303-416). `kzg` is `allow_use_kzg_data`. -/
def context (db : Db) (h : Hdr) (upd : Option Upd) (kzg : Bool) : Res (Ctx × View) :=
  (key h.sequencer).bind fun s =>
    (oldHash db h.number).bind fun o =>
      .ok (⟨h.number, h.timestamp, s, price h.ethL1, price h.ethL1Data, price h.ethL2, price h.strkL1, price h.strkL1Data, price h.strkL2,
        kzg && h.blob, forVersion env h.version, o⟩, ⟨readUpTo false h.number, upd⟩)

/-! ## Running -/

/-- The loops of `simulate` (executor/src/simulate.rs:138-198; `strict` false) and `estimate` (estimate.rs:32-82; `strict` true): the first
transaction that cannot be run ends them. -/
def runAll (ctx : Ctx) (strict : Bool) : Nat → S → List ExecTx → Res (List O × S)
  | _, s, [] => .ok ([], s)
  | i, s, e :: es =>
    match env.run ctx strict s e with
    | .ok o s' => (runAll ctx strict (i + 1) s' es).bind fun r => .ok (o :: r.1, r.2)
    | .failed => .err (.transaction i)
    | .internal => .err .internal
    | .custom => .err .custom

/-- A simulation flag (rpc/src/dto/simulation.rs:714-734). -/
inductive Flag | skipFeeCharge | skipValidate | returnInitialReads
  deriving DecidableEq

/-- Reading a flag for a version of the API: 8, 9 or 10 (rpc/src/dto/simulation.rs:721-734). -/
def parseFlag (api : Nat) (s : String) : Option Flag :=
  if s = "SKIP_FEE_CHARGE" then some .skipFeeCharge
  else if s = "SKIP_VALIDATE" then some .skipValidate
  else if s = "RETURN_INITIAL_READS" ∧ 10 ≤ api then some .returnInitialReads
  else none

/-- The task in `simulate_transactions` (simulate_transactions.rs:64-150). -/
def simulateTask (db : Db) (pend : Option Pending) (id : Id) (txs : List Tx) (fl : List Flag) : Res (List O × Option R) :=
  (named db pend id).bind fun hu =>
    (mapAll env (fl.contains .skipValidate) (fl.contains .skipFeeCharge) txs).bind fun es =>
      (context env db hu.1 hu.2 true).bind fun cv =>
        (runAll env cv.1 false 0 (env.start cv.1 cv.2) es).bind fun r =>
          .ok (r.1, if fl.contains .returnInitialReads then some (env.reads r.2) else none)

/-- `simulate_transactions` (simulate_transactions.rs:43-153). -/
def simulate (db : Db) (pend : Option Pending) (id : Id) (txs : List Tx) (fl : List Flag) : Except Err (List O × Option R) :=
  match checkLimits txs with
  | some e => .error e
  | none => (simulateTask env db pend id txs fl).joined

/-- The task in `estimate_fee` (estimate_fee.rs:71-150). -/
def estimateTask (db : Db) (pend : Option Pending) (id : Id) (txs : List Tx) (skipValidate : Bool) : Res (List O) :=
  (named db pend id).bind fun hu =>
    (mapAll env skipValidate true txs).bind fun es =>
      (context env db hu.1 hu.2 true).bind fun cv =>
        (runAll env cv.1 true 0 (env.start cv.1 cv.2) es).bind fun r => .ok r.1

/-- `estimate_fee` (estimate_fee.rs:54-152). -/
def estimate (db : Db) (pend : Option Pending) (id : Id) (txs : List Tx) (skipValidate : Bool) : Except Err (List O) :=
  match checkLimits txs with
  | some e => .error e
  | none => (estimateTask env db pend id txs skipValidate).joined

/-- `MsgFromL1` (estimate_message_fee.rs:33-39). -/
structure Message where
  sender : Nat
  target : Nat
  selector : Nat
  payload : List Nat
  deriving DecidableEq

/-- `contract_exists` (storage/src/connection/state_update.rs:688-702). -/
def Db.contractExists (db : Db) (a n : Nat) : Bool := db.contracts.any (fun e => e.1 = a && e.2 ≤ n)

/-- `create_executor_transaction` (estimate_message_fee.rs:147-192). -/
def messageTx (m : Message) : Res ExecTx :=
  let c : Common := .l1Handler m.target m.selector 0 (m.sender :: m.payload)
  (toApi c).bind fun api =>
    let e : ExecTx := ⟨api, env.txHash c false, none, some 1, none, ⟨false, true, true, true⟩⟩
    if env.fromApiOk e then .ok e else .err .internal

/-- An execution error of a message is a contract error (estimate_message_fee.rs:224-239). -/
def messageErr {α : Type} : Res α → Res α
  | .err (.transaction _) => .err .contractError
  | r => r

/-- The task in `estimate_message_fee` (estimate_message_fee.rs:67-135); `api` is the version of the API. -/
def messageTask (api : Nat) (db : Db) (pend : Option Pending) (id : Id) (m : Message) : Res (List O) :=
  (named db pend id).bind fun hu =>
    if 10 ≤ api ∧ db.contractExists m.target hu.1.number = false then .err .contractNotFound
    else
      (messageTx env m).bind fun e =>
        (context env db hu.1 hu.2 true).bind fun cv =>
          messageErr ((runAll env cv.1 true 0 (env.start cv.1 cv.2) [e]).bind fun r => .ok r.1)

/-- `estimate_message_fee` (estimate_message_fee.rs:56-145). -/
def estimateMessage (api : Nat) (db : Db) (pend : Option Pending) (id : Id) (m : Message) : Except Err O :=
  if m.payload.length > limit then .error (.limit false none)
  else
    match (messageTask env api db pend id m).joined with
    | .ok [o] => .ok o
    | .ok _ => .error .internal
    | .error e => .error e

/-- `ENTRYPOINT_NOT_FOUND_ERROR` of the library: the text "ENTRYPOINT_NOT_FOUND" as a number. -/
def entrypointNotFound : Nat := 0x454e545259504f494e545f4e4f545f464f554e44

/-- What a call gives (executor/src/call.rs:64-115, error.rs:21-63, rpc call.rs:30-45). -/
def callAnswer : CallRan → Res (List Nat)
  | .noEntryPoint => .err .entrypointNotFound
  | .noContract => .err .contractNotFound
  | .error => .err .contractError
  | .returned true [x] => if x = entrypointNotFound then .err .entrypointNotFound else .err .contractError
  | .returned true _ => .err .contractError
  | .returned false data => .ok data

/-- The task in `call` (rpc call.rs:127-193, executor/src/call.rs:26-115). -/
def callTask (db : Db) (pend : Option Pending) (id : Id) (address selector : Nat) (calldata : List Nat) : Res (List Nat) :=
  (named db pend id).bind fun hu =>
    (context env db hu.1 hu.2 false).bind fun cv =>
      if address < 2 ^ 251 then callAnswer (env.call cv.1 cv.2 address selector calldata) else .err .custom

/-- `call` (rpc call.rs:116-198). -/
def call (db : Db) (pend : Option Pending) (id : Id) (address selector : Nat) (calldata : List Nat) : Except Err (List Nat) :=
  if calldata.length > limit then .error (.limit false none) else (callTask env db pend id address selector calldata).joined

end Verif.Sim
