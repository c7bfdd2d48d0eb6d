import Verif.Block.TxModel
import Verif.Shown.Model
/-!
# Transactions and receipts of the feeder gateway

Model of `crates/gateway-types/src/reply.rs` (module `transaction`): how the JSON of the gateway is read into the transactions and receipts that
are stored, and how stored ones are written in that format (`crates/feeder-gateway` serves blocks with it).

Simplifications. Text is parsed already: a string with the prefix `0x` and hexadecimal digits is `hex` of its number, a string of decimal digits
is `dec` of its number (the conversions of text are in `Verif.Crypto` and `Verif.Shown`), every other string is `str`; so a hexadecimal string that
is too long because of leading zeros is accepted here. `other` stands for Booleans, negative numbers and fractions. What serde does is modelled after its
documentation and its generated code: an object gives each field at most once (a second time is an error), except where the program reads a
`serde_json::Value` first, in which the last one stays; unknown fields are errors with `deny_unknown_fields` and ignored otherwise; an
array is accepted in place of an object, its elements being the fields in their order. The last point is modelled for whole transactions only.
-/
namespace Verif.Feed
open Verif.Block (F P felt Txn Bound V3 Msg Event DeclareOld DeclareV2 DeclareV3 Deploy DeployAccountV1 DeployAccountV3 InvokeV0 InvokeV1 InvokeV3 L1Handler)
open Verif.Shown (Builtins Resources)

/-- JSON as it is sent by the gateway. -/
inductive J
  | null
  | other
  | num (n : Nat)
  | hex (n : Nat)
  | dec (n : Nat)
  | str (s : String)
  | arr (l : List J)
  | obj (l : List (String × J))

/-- Why there is no result: an error is returned, or the task panics. -/
inductive Fail
  | refused
  | panic
  deriving DecidableEq, Repr

/-! ## Parts -/

/-- `Deserialize for Felt` (crypto/src/algebra/field/serde.rs:18-42) and of the types that wrap one (common/src/macros.rs:122-139). -/
def readHex : J → Option F
  | .hex n => if h : n < P then some ⟨n, h⟩ else none
  | _ => none

/-- `Deserialize` of the types with less than 252 bits (common/src/macros.rs:161-193). -/
def readHex251 (j : J) : Option F := (readHex j).bind fun x => if x.val < 2 ^ 251 then some x else none

/-- `Felt::from_dec_str` (felt.rs:469-480) in the `…AsDecimalStr` (serde/src/lib.rs:12-45, common/src/event.rs:23-35): decimal, or hexadecimal with the prefix. -/
def readDec : J → Option F
  | .hex n => if h : n < P then some ⟨n, h⟩ else none
  | .dec n => if h : n < P then some ⟨n, h⟩ else none
  | _ => none

/-- `bytes_from_hex_str::<W>` (serde/src/lib.rs:310-353) in `TipAsHexStr`, `ResourceAmountAsHexStr`, `ResourcePricePerUnitAsHexStr` and `EthereumAddressAsHexStr`. -/
def readBytes (w : Nat) : J → Option Nat
  | .hex n => if n < 256 ^ w then some n else none
  | _ => none

/-- A number: `u64`, `u128`, or an index below 2^63 (common/src/macros.rs:63-87). -/
def readNum (bound : Nat) : J → Option Nat
  | .num n => if n < bound then some n else none
  | _ => none

/-- A string: the reason of a reverted transaction, which is `str` whatever it looks like. -/
def readStr : J → Option String
  | .str s => some s
  | _ => none

/-- All elements, or none. -/
def all {α : Type} (rd : J → Option α) : List J → Option (List α)
  | [] => some []
  | j :: r => do let x ← rd j; let xs ← all rd r; pure (x :: xs)

/-- `Vec<T>`. -/
def readList {α : Type} (rd : J → Option α) : J → Option (List α)
  | .arr l => all rd l
  | _ => none

/-- The fields of an object: their names, and the value of each. -/
structure Fields where
  keys : List String
  get : String → Option J

/-- An object in a `serde_json::Value`: of two fields with one name the last stays. -/
def valueFields (l : List (String × J)) : Fields := ⟨l.map (·.1), fun k => l.reverse.lookup k⟩

/-- An object that is read directly: a field that the type has and that comes twice is an error. -/
def directFields (names : List String) (l : List (String × J)) : Option Fields :=
  if ((l.map (·.1)).filter (names.contains ·)).Nodup then some ⟨l.map (·.1), fun k => l.lookup k⟩ else none

/-- `deny_unknown_fields`. -/
def known (names : List String) (f : Fields) : Option (String → Option J) := if f.keys.all (names.contains ·) then some f.get else none

/-- A field that must be there. -/
def req {α : Type} (g : String → Option J) (k : String) (rd : J → Option α) : Option α := (g k).bind rd

/-- A field with `#[serde(default)]`. -/
def dflt {α : Type} (g : String → Option J) (k : String) (d : α) (rd : J → Option α) : Option α :=
  match g k with
  | none => some d
  | some j => rd j

/-- A field of type `Option<T>`: missing and `null` are `None`. -/
def opt {α : Type} (g : String → Option J) (k : String) (rd : J → Option α) : Option (Option α) :=
  match g k with
  | none => some none
  | some .null => some none
  | some j => (rd j).map some

/-- `Deserialize for DataAvailabilityMode` (reply.rs:800-811); true stands for L2. -/
def readMode (j : J) : Option Bool :=
  match readNum 256 j with
  | some 0 => some false
  | some 1 => some true
  | _ => none

/-- `ResourceBound` (reply.rs:867-874), read from a `Value`; unknown fields are ignored. -/
def readBound : J → Option Bound
  | .obj l => do
    let g := (valueFields l).get
    let a ← req g "max_amount" (readBytes 8)
    let p ← req g "max_price_per_unit" (readBytes 16)
    pure ⟨a, p⟩
  | _ => none

/-- `ResourceBounds` (reply.rs:832-845), read from a `Value`. -/
def readBounds : J → Option (Bound × Bound × Option Bound)
  | .obj l => do
    let g := (valueFields l).get
    let a ← req g "L1_GAS" readBound
    let b ← req g "L2_GAS" readBound
    let c ← opt g "L1_DATA_GAS" readBound
    pure (a, b, c)
  | _ => none

/-! ## Transactions of the gateway -/

/-- `InvokeTransactionV0` (reply.rs:1861-1877) without the hash. -/
structure GwInvoke0 where
  calldata : List F
  sender : F
  selector : F
  maxFee : F
  signature : List F
  deriving DecidableEq

/-- `Transaction` of the gateway (reply.rs:897-916, 1489-1500, 1655-1661, 1804-1813). Where its structs have the fields of the stored ones (the hash
aside) those are used. `deployAccount3` has its address as `sender_address`. -/
inductive GwTx
  | declare0 (hash : F) (t : DeclareOld)
  | declare1 (hash : F) (t : DeclareOld)
  | declare2 (hash : F) (t : DeclareV2)
  | declare3 (hash : F) (t : DeclareV3)
  | deploy (hash : F) (t : Deploy) (version : F)
  | deployAccount01 (hash : F) (t : DeployAccountV1) (version : F)
  | deployAccount3 (hash : F) (t : DeployAccountV3) (version : F)
  | invoke0 (hash : F) (t : GwInvoke0)
  | invoke1 (hash : F) (t : InvokeV1)
  | invoke3 (hash : F) (t : InvokeV3)
  | l1Handler (hash : F) (t : L1Handler) (version : F)
  deriving DecidableEq

/-- The fields of the structs (reply.rs:1559-1572, 1574-1588, 1590-1613, 1620-1633, 1711-1726, 1752-1774, 1861-1877, 1892-1905, 1907-1932, 1934-1947), in their order. -/
def declare01Names : List String := ["class_hash", "max_fee", "nonce", "sender_address", "signature", "transaction_hash"]
def declare2Names : List String := ["class_hash", "max_fee", "nonce", "sender_address", "signature", "transaction_hash", "compiled_class_hash"]
def declare3Names : List String := ["class_hash", "nonce", "nonce_data_availability_mode", "fee_data_availability_mode", "resource_bounds", "tip",
  "paymaster_data", "sender_address", "signature", "transaction_hash", "compiled_class_hash", "account_deployment_data"]
def deployNames : List String := ["contract_address", "contract_address_salt", "class_hash", "constructor_calldata", "transaction_hash", "version"]
def deployAccount01Names : List String := ["contract_address", "transaction_hash", "max_fee", "version", "signature", "nonce", "contract_address_salt",
  "constructor_calldata", "class_hash"]
def deployAccount3Names : List String := ["nonce", "nonce_data_availability_mode", "fee_data_availability_mode", "resource_bounds", "tip",
  "paymaster_data", "sender_address", "signature", "transaction_hash", "version", "contract_address_salt", "constructor_calldata", "class_hash"]
def invoke0Names : List String := ["calldata", "sender_address", "contract_address", "entry_point_selector", "max_fee", "signature", "transaction_hash"]
def invoke1Names : List String := ["calldata", "sender_address", "max_fee", "signature", "nonce", "transaction_hash"]
def invoke3Names : List String := ["nonce", "nonce_data_availability_mode", "fee_data_availability_mode", "resource_bounds", "tip", "paymaster_data",
  "sender_address", "signature", "transaction_hash", "calldata", "account_deployment_data", "proof_facts"]
def l1HandlerNames : List String := ["contract_address", "entry_point_selector", "nonce", "calldata", "transaction_hash", "version"]

/-- The fields that the structs of version 3 share. -/
def readV3 (g : String → Option J) : Option V3 := do
  let n ← req g "nonce_data_availability_mode" readMode
  let f ← req g "fee_data_availability_mode" readMode
  let b ← req g "resource_bounds" readBounds
  let tip ← req g "tip" (readBytes 8)
  let p ← req g "paymaster_data" (readList readHex)
  pure ⟨n, f, b.1, b.2.1, b.2.2, tip, p⟩

/-- `DeclareTransactionV0V1` (reply.rs:1559-1572). -/
def readDeclare01 (f : Fields) : Option (F × DeclareOld) := do
  let g ← known declare01Names f
  let c ← req g "class_hash" readHex251
  let m ← req g "max_fee" readHex
  let n ← req g "nonce" readHex
  let a ← req g "sender_address" readHex251
  let s ← dflt g "signature" [] (readList readDec)
  let h ← req g "transaction_hash" readHex
  pure (h, ⟨c, m, n, s, a⟩)

/-- `DeclareTransactionV2` (reply.rs:1574-1588). -/
def readDeclare2 (f : Fields) : Option (F × DeclareV2) := do
  let g ← known declare2Names f
  let c ← req g "class_hash" readHex251
  let m ← req g "max_fee" readHex
  let n ← req g "nonce" readHex
  let a ← req g "sender_address" readHex251
  let s ← dflt g "signature" [] (readList readDec)
  let h ← req g "transaction_hash" readHex
  let cc ← req g "compiled_class_hash" readHex251
  pure (h, ⟨c, m, n, s, a, cc⟩)

/-- `DeclareTransactionV3` (reply.rs:1590-1613). -/
def readDeclare3 (f : Fields) : Option (F × DeclareV3) := do
  let g ← known declare3Names f
  let c ← req g "class_hash" readHex251
  let n ← req g "nonce" readHex
  let v ← readV3 g
  let a ← req g "sender_address" readHex251
  let s ← dflt g "signature" [] (readList readDec)
  let h ← req g "transaction_hash" readHex
  let cc ← req g "compiled_class_hash" readHex251
  let d ← req g "account_deployment_data" (readList readHex)
  pure (h, ⟨c, n, v, s, d, a, cc⟩)

/-- `DeployTransaction` (reply.rs:1620-1633). -/
def readDeploy (f : Fields) : Option GwTx := do
  let g ← known deployNames f
  let a ← req g "contract_address" readHex251
  let s ← req g "contract_address_salt" readHex
  let c ← req g "class_hash" readHex251
  let d ← req g "constructor_calldata" (readList readDec)
  let h ← req g "transaction_hash" readHex
  let v ← dflt g "version" 0 readHex
  pure (.deploy h ⟨c, a, s, d⟩ v)

/-- `DeployAccountTransactionV0V1` (reply.rs:1711-1726). -/
def readDeployAccount01 (f : Fields) : Option GwTx := do
  let g ← known deployAccount01Names f
  let a ← req g "contract_address" readHex251
  let h ← req g "transaction_hash" readHex
  let m ← req g "max_fee" readHex
  let v ← req g "version" readHex
  let s ← req g "signature" (readList readDec)
  let n ← req g "nonce" readHex
  let salt ← req g "contract_address_salt" readHex
  let d ← req g "constructor_calldata" (readList readDec)
  let c ← req g "class_hash" readHex251
  pure (.deployAccount01 h ⟨a, m, s, n, salt, d, c⟩ v)

/-- `DeployAccountTransactionV3` (reply.rs:1752-1774). -/
def readDeployAccount3 (f : Fields) : Option GwTx := do
  let g ← known deployAccount3Names f
  let n ← req g "nonce" readHex
  let x ← readV3 g
  let a ← req g "sender_address" readHex251
  let s ← req g "signature" (readList readDec)
  let h ← req g "transaction_hash" readHex
  let v ← req g "version" readHex
  let salt ← req g "contract_address_salt" readHex
  let d ← req g "constructor_calldata" (readList readDec)
  let c ← req g "class_hash" readHex251
  pure (.deployAccount3 h ⟨a, s, n, x, salt, d, c⟩ v)

/-- `#[serde(alias = "contract_address")]` (reply.rs:1868-1872): either name, but not both. -/
def either (g : String → Option J) : Option J :=
  match g "sender_address", g "contract_address" with
  | some j, none => some j
  | none, some j => some j
  | _, _ => none

/-- `InvokeTransactionV0` (reply.rs:1861-1877). -/
def readInvoke0 (f : Fields) : Option GwTx := do
  let g ← known invoke0Names f
  let d ← req g "calldata" (readList readDec)
  let a ← (either g).bind readHex251
  let e ← req g "entry_point_selector" readHex
  let m ← req g "max_fee" readHex
  let s ← req g "signature" (readList readDec)
  let h ← req g "transaction_hash" readHex
  pure (.invoke0 h ⟨d, a, e, m, s⟩)

/-- `InvokeTransactionV1` (reply.rs:1892-1905). -/
def readInvoke1 (f : Fields) : Option GwTx := do
  let g ← known invoke1Names f
  let d ← req g "calldata" (readList readDec)
  let a ← req g "sender_address" readHex251
  let m ← req g "max_fee" readHex
  let s ← req g "signature" (readList readDec)
  let n ← req g "nonce" readHex
  let h ← req g "transaction_hash" readHex
  pure (.invoke1 h ⟨d, a, m, s, n⟩)

/-- `InvokeTransactionV3` (reply.rs:1907-1932). -/
def readInvoke3 (f : Fields) : Option GwTx := do
  let g ← known invoke3Names f
  let n ← req g "nonce" readHex
  let v ← readV3 g
  let a ← req g "sender_address" readHex251
  let s ← req g "signature" (readList readDec)
  let h ← req g "transaction_hash" readHex
  let d ← req g "calldata" (readList readDec)
  let dep ← req g "account_deployment_data" (readList readHex)
  let pf ← dflt g "proof_facts" [] (readList readHex)
  pure (.invoke3 h ⟨s, n, v, dep, d, a, pf⟩)

/-- `L1HandlerTransaction` (reply.rs:1934-1947). -/
def readL1Handler (f : Fields) : Option GwTx := do
  let g ← known l1HandlerNames f
  let a ← req g "contract_address" readHex251
  let e ← req g "entry_point_selector" readHex
  let n ← dflt g "nonce" 0 readHex
  let d ← req g "calldata" (readList readHex)
  let h ← req g "transaction_hash" readHex
  let v ← req g "version" readHex
  pure (.l1Handler h ⟨a, e, n, d⟩ v)

/-- An error that is returned. -/
def orRefuse {α : Type} : Option α → Except Fail α
  | some x => .ok x
  | none => .error .refused

/-- The version that chooses the struct (reply.rs:1509-1517, 1670-1678, 1822-1830); it is zero if it is missing. -/
def readVersion (f : Fields) : Option F := dflt f.get "version" 0 readHex

/-- The object without `version` (reply.rs:1518-1521, 1831-1834). -/
def dropVersion (l : List (String × J)) : List (String × J) := l.filter (fun p => p.1 ≠ "version")

/-- What is left of a transaction when the type is taken away: an object or an array. -/
inductive Rest
  | obj (l : List (String × J))
  | arr (l : List J)

/-- The struct `Version` reads from an array with no element or with a version as its only one, and then the array has no `version` to remove:
`expect` panics (reply.rs:1516-1521, 1829-1834). -/
def arrayVersion (l : List J) : Except Fail GwTx :=
  match l with
  | [] => .error .panic
  | [j] => match readHex j with
    | some _ => .error .panic
    | none => .error .refused
  | _ => .error .refused

/-- `Deserialize for DeclareTransaction` (reply.rs:1502-1542). -/
def readDeclare : Rest → Except Fail GwTx
  | .arr l => arrayVersion l
  | .obj l =>
    match readVersion (valueFields l) with
    | none => .error .refused
    | some v =>
      let f := valueFields (dropVersion l)
      if v = 0 then orRefuse ((readDeclare01 f).map fun p => .declare0 p.1 p.2)
      else if v = 1 then orRefuse ((readDeclare01 f).map fun p => .declare1 p.1 p.2)
      else if v = felt 2 then orRefuse ((readDeclare2 f).map fun p => .declare2 p.1 p.2)
      else if v = felt 3 then orRefuse ((readDeclare3 f).map fun p => .declare3 p.1 p.2)
      else .error .refused

/-- `Deserialize for DeployAccountTransaction` (reply.rs:1663-1694). From an array of which `Version` can be read, neither struct can be read. -/
def readDeployAccount : Rest → Except Fail GwTx
  | .arr _ => .error .refused
  | .obj l =>
    match readVersion (valueFields l) with
    | none => .error .refused
    | some v =>
      if v = 0 then orRefuse (readDeployAccount01 (valueFields l))
      else if v = 1 then orRefuse (readDeployAccount01 (valueFields l))
      else if v = felt 3 then orRefuse (readDeployAccount3 (valueFields l))
      else .error .refused

/-- `Deserialize for InvokeTransaction` (reply.rs:1815-1850). -/
def readInvoke : Rest → Except Fail GwTx
  | .arr l => arrayVersion l
  | .obj l =>
    match readVersion (valueFields l) with
    | none => .error .refused
    | some v =>
      let f := valueFields (dropVersion l)
      if v = 0 then orRefuse (readInvoke0 f)
      else if v = 1 then orRefuse (readInvoke1 f)
      else if v = felt 3 then orRefuse (readInvoke3 f)
      else .error .refused

/-- A derived `Deserialize` of a struct with these fields: from an object, or from an array with the fields in their order. -/
def readDirect (names : List String) (rd : Fields → Option GwTx) : Rest → Except Fail GwTx
  | .obj l => orRefuse ((directFields names l).bind rd)
  | .arr l => if l.length ≤ names.length then orRefuse (rd (valueFields (names.zip l))) else .error .refused

/-- The tag `type` of the enum and what else there is (reply.rs:899): the first element of an array, or the one field of this name. -/
def split : J → Option (String × Rest)
  | .obj l => match l.filter (fun p => p.1 = "type") with
    | [(_, .str s)] => some (s, .obj (l.filter (fun p => p.1 ≠ "type")))
    | _ => none
  | .arr (.str s :: r) => some (s, .arr r)
  | _ => none

/-- The variants of the enum by their names (reply.rs:897-916). -/
def readType (s : String) (r : Rest) : Except Fail GwTx :=
  match s with
  | "DECLARE" => readDeclare r
  | "DEPLOY" => readDirect deployNames readDeploy r
  | "DEPLOY_ACCOUNT" => readDeployAccount r
  | "INVOKE_FUNCTION" => readInvoke r
  | "L1_HANDLER" => readDirect l1HandlerNames readL1Handler r
  | _ => .error .refused

/-- The derived `Deserialize for Transaction` (reply.rs:897-916). -/
def readGwTx (j : J) : Except Fail GwTx :=
  match split j with
  | some (s, r) => readType s r
  | none => .error .refused

/-- `hash` (reply.rs:1426-1447) and `From<Transaction> for` the stored `Transaction` (reply.rs:1164-1422). -/
def toStored : GwTx → Except Fail (F × Txn)
  | .declare0 h t => .ok (h, .declareV0 t)
  | .declare1 h t => .ok (h, .declareV1 t)
  | .declare2 h t => .ok (h, .declareV2 t)
  | .declare3 h t => .ok (h, .declareV3 t)
  | .deploy h t v => if v = 0 then .ok (h, .deployV0 t) else if v = 1 then .ok (h, .deployV1 t) else .error .panic
  | .deployAccount01 h t v => if v = 1 then .ok (h, .deployAccountV1 t) else .error .panic
  | .deployAccount3 h t _ => .ok (h, .deployAccountV3 t)
  | .invoke0 h t => .ok (h, .invokeV0 ⟨t.calldata, t.sender, t.selector, none, t.maxFee, t.signature⟩)
  | .invoke1 h t => .ok (h, .invokeV1 t)
  | .invoke3 h t => .ok (h, .invokeV3 t)
  | .l1Handler h t _ => .ok (h, .l1Handler t)

/-- `DeserializeAs` (reply.rs:918-929): how every transaction of a block is read. -/
def readTx (j : J) : Except Fail (F × Txn) :=
  match readGwTx j with
  | .ok t => toStored t
  | .error e => .error e

/-- All transactions of a block: the first failure is that of the block (reply.rs:37-38, 83-84, 106-107). -/
def readTxs : List J → Except Fail (List (F × Txn))
  | [] => .ok []
  | j :: r => do let x ← readTx j; let xs ← readTxs r; pure (x :: xs)

/-- `From` the stored `Transaction` (reply.rs:945-1162). -/
def ofStored : F × Txn → GwTx
  | (h, .declareV0 t) => .declare0 h t
  | (h, .declareV1 t) => .declare1 h t
  | (h, .declareV2 t) => .declare2 h t
  | (h, .declareV3 t) => .declare3 h t
  | (h, .deployV0 t) => .deploy h t 0
  | (h, .deployV1 t) => .deploy h t 1
  | (h, .deployAccountV1 t) => .deployAccount01 h t 1
  | (h, .deployAccountV3 t) => .deployAccount3 h t (felt 3)
  | (h, .invokeV0 t) => .invoke0 h ⟨t.calldata, t.sender, t.selector, t.maxFee, t.signature⟩
  | (h, .invokeV1 t) => .invoke1 h t
  | (h, .invokeV3 t) => .invoke3 h t
  | (h, .l1Handler t) => .l1Handler h t 0

/-! ## Writing -/

/-- `Serialize for Felt` (serde.rs:6-16) and of what is written in hexadecimal. -/
def hexF (x : F) : J := .hex x.val

/-- `to_dec_str` in the `…AsDecimalStr`. -/
def decF (x : F) : J := .dec x.val

/-- A list. -/
def list {α : Type} (f : α → J) (l : List α) : J := .arr (l.map f)

/-- `Serialize for DataAvailabilityMode` (reply.rs:787-798). -/
def writeMode (l2 : Bool) : J := .num (if l2 then 1 else 0)

/-- `ResourceBound` (reply.rs:867-874). -/
def writeBound (b : Bound) : J := .obj [("max_amount", .hex b.amount), ("max_price_per_unit", .hex b.price)]

/-- `ResourceBounds` (reply.rs:832-845). -/
def writeBounds (x : V3) : J :=
  .obj ([("L1_GAS", writeBound x.l1Gas), ("L2_GAS", writeBound x.l2Gas)] ++ (match x.l1DataGas with
    | none => []
    | some b => [("L1_DATA_GAS", writeBound b)]))

/-- The fields that the structs of version 3 share. -/
def writeV3 (x : V3) : List (String × J) :=
  [("nonce_data_availability_mode", writeMode x.nonceL2), ("fee_data_availability_mode", writeMode x.feeL2),
    ("resource_bounds", writeBounds x), ("tip", .hex x.tip), ("paymaster_data", list hexF x.paymaster)]

/-- The tag `version` of the enums for declare and invoke transactions (reply.rs:1489-1500, 1804-1813). -/
def tag (v : Nat) : String × J := ("version", .hex v)

/-- The derived `Serialize for Transaction` (reply.rs:897-916) and of what it contains. -/
def writeGwTx : GwTx → J
  | .declare0 h t => .obj ([("type", .str "DECLARE"), tag 0] ++
      [("class_hash", hexF t.classHash), ("max_fee", hexF t.maxFee), ("nonce", hexF t.nonce), ("sender_address", hexF t.sender),
        ("signature", list decF t.signature), ("transaction_hash", hexF h)])
  | .declare1 h t => .obj ([("type", .str "DECLARE"), tag 1] ++
      [("class_hash", hexF t.classHash), ("max_fee", hexF t.maxFee), ("nonce", hexF t.nonce), ("sender_address", hexF t.sender),
        ("signature", list decF t.signature), ("transaction_hash", hexF h)])
  | .declare2 h t => .obj ([("type", .str "DECLARE"), tag 2] ++
      [("class_hash", hexF t.classHash), ("max_fee", hexF t.maxFee), ("nonce", hexF t.nonce), ("sender_address", hexF t.sender),
        ("signature", list decF t.signature), ("transaction_hash", hexF h), ("compiled_class_hash", hexF t.casm)])
  | .declare3 h t => .obj ([("type", .str "DECLARE"), tag 3, ("class_hash", hexF t.classHash), ("nonce", hexF t.nonce)] ++ writeV3 t.v3 ++
      [("sender_address", hexF t.sender), ("signature", list decF t.signature), ("transaction_hash", hexF h), ("compiled_class_hash", hexF t.casm),
        ("account_deployment_data", list hexF t.accountDeployment)])
  | .deploy h t v => .obj [("type", .str "DEPLOY"), ("contract_address", hexF t.address), ("contract_address_salt", hexF t.salt),
      ("class_hash", hexF t.classHash), ("constructor_calldata", list decF t.calldata), ("transaction_hash", hexF h), ("version", hexF v)]
  | .deployAccount01 h t v => .obj [("type", .str "DEPLOY_ACCOUNT"), ("contract_address", hexF t.address), ("transaction_hash", hexF h),
      ("max_fee", hexF t.maxFee), ("version", hexF v), ("signature", list decF t.signature), ("nonce", hexF t.nonce),
      ("contract_address_salt", hexF t.salt), ("constructor_calldata", list decF t.calldata), ("class_hash", hexF t.classHash)]
  | .deployAccount3 h t v => .obj ([("type", .str "DEPLOY_ACCOUNT"), ("nonce", hexF t.nonce)] ++ writeV3 t.v3 ++
      [("sender_address", hexF t.address), ("signature", list decF t.signature), ("transaction_hash", hexF h), ("version", hexF v),
        ("contract_address_salt", hexF t.salt), ("constructor_calldata", list decF t.calldata), ("class_hash", hexF t.classHash)])
  | .invoke0 h t => .obj [("type", .str "INVOKE_FUNCTION"), tag 0, ("calldata", list decF t.calldata), ("sender_address", hexF t.sender),
      ("entry_point_selector", hexF t.selector), ("max_fee", hexF t.maxFee), ("signature", list decF t.signature), ("transaction_hash", hexF h)]
  | .invoke1 h t => .obj [("type", .str "INVOKE_FUNCTION"), tag 1, ("calldata", list decF t.calldata), ("sender_address", hexF t.sender),
      ("max_fee", hexF t.maxFee), ("signature", list decF t.signature), ("nonce", hexF t.nonce), ("transaction_hash", hexF h)]
  | .invoke3 h t => .obj ([("type", .str "INVOKE_FUNCTION"), tag 3, ("nonce", hexF t.nonce)] ++ writeV3 t.v3 ++
      [("sender_address", hexF t.sender), ("signature", list decF t.signature), ("transaction_hash", hexF h), ("calldata", list decF t.calldata),
        ("account_deployment_data", list hexF t.accountDeployment)] ++
      (if t.proofFacts.isEmpty then [] else [("proof_facts", list hexF t.proofFacts)]))
  | .l1Handler h t v => .obj [("type", .str "L1_HANDLER"), ("contract_address", hexF t.address), ("entry_point_selector", hexF t.selector),
      ("nonce", hexF t.nonce), ("calldata", list hexF t.calldata), ("transaction_hash", hexF h), ("version", hexF v)]

/-- `SerializeAs` (reply.rs:931-943). -/
def writeTx (x : F × Txn) : J := writeGwTx (ofStored x)

/-! ## Receipts -/

/-- The stored `Receipt` (common/src/receipt.rs:7-14). -/
structure Rcpt where
  fee : F
  resources : Resources
  messages : List Msg
  reverted : Option String
  hash : F
  index : Nat
  deriving DecidableEq

/-- An object that is read directly and whose unknown fields are errors. -/
def strict (names : List String) : J → Option (String → Option J)
  | .obj l => (directFields names l).bind (known names)
  | _ => none

/-- An object that is read directly and whose unknown fields are ignored. -/
def loose (names : List String) : J → Option (String → Option J)
  | .obj l => (directFields names l).map (·.get)
  | _ => none

/-- The names of `BuiltinCounters` (reply.rs:428-443). -/
def builtinNames : List String := ["output_builtin", "pedersen_builtin", "range_check_builtin", "ecdsa_builtin", "bitwise_builtin", "ec_op_builtin",
  "keccak_builtin", "poseidon_builtin", "segment_arena_builtin", "add_mod_builtin", "mul_mod_builtin", "range_check96_builtin"]

/-- `BuiltinCounters` (reply.rs:428-443) and its conversion (445-479). -/
def readBuiltins (j : J) : Option Builtins := do
  let g ← loose builtinNames j
  let n := fun k => dflt g k 0 (readNum (2 ^ 64))
  let a ← n "output_builtin"
  let b ← n "pedersen_builtin"
  let c ← n "range_check_builtin"
  let d ← n "ecdsa_builtin"
  let e ← n "bitwise_builtin"
  let f ← n "ec_op_builtin"
  let h ← n "keccak_builtin"
  let i ← n "poseidon_builtin"
  let k ← n "segment_arena_builtin"
  let l ← n "add_mod_builtin"
  let m ← n "mul_mod_builtin"
  let o ← n "range_check96_builtin"
  pure ⟨a, b, c, d, e, f, h, i, k, l, m, o⟩

/-- `Gas` (reply.rs:358-368). -/
structure Gas where
  l1 : Nat
  l1Data : Nat
  l2 : Option Nat
  deriving DecidableEq

/-- `Deserialize for Gas` (reply.rs:358-368). -/
def readGas (j : J) : Option Gas := do
  let g ← strict ["l1_gas", "l1_data_gas", "l2_gas"] j
  let a ← req g "l1_gas" (readNum (2 ^ 128))
  let b ← req g "l1_data_gas" (readNum (2 ^ 128))
  let c ← opt g "l2_gas" (readNum (2 ^ 128))
  pure ⟨a, b, c⟩

/-- `ExecutionResources` (reply.rs:318-330) and its conversion (332-344; 370-395). -/
def readResources (j : J) : Option Resources := do
  let g ← strict ["builtin_instance_counter", "n_steps", "n_memory_holes", "data_availability", "total_gas_consumed"] j
  let b ← req g "builtin_instance_counter" readBuiltins
  let s ← req g "n_steps" (readNum (2 ^ 64))
  let m ← req g "n_memory_holes" (readNum (2 ^ 64))
  let da ← opt g "data_availability" readGas
  let total ← opt g "total_gas_consumed" readGas
  let da := da.getD ⟨0, 0, none⟩
  let total := total.getD ⟨0, 0, none⟩
  pure ⟨b, s, m, da.l1, da.l1Data, total.l1, total.l1Data, total.l2.getD 0⟩

/-- `Event` (common/src/event.rs:9-18). -/
def readEvent (j : J) : Option Event := do
  let g ← strict ["data", "from_address", "keys"] j
  let d ← req g "data" (readList readDec)
  let a ← req g "from_address" readHex251
  let k ← req g "keys" (readList readDec)
  pure { src := a, data := d, keys := k }

/-- `L2ToL1Message` (reply.rs:560-570) and its conversion (572-585). -/
def readMsg (j : J) : Option Msg := do
  let g ← strict ["from_address", "payload", "to_address"] j
  let a ← req g "from_address" readHex251
  let p ← req g "payload" (readList readDec)
  let b ← req g "to_address" readHex251
  pure ⟨a, b, p⟩

/-- `L1ToL2Message` (reply.rs:533-546): it must be readable, and is dropped (reply.rs:729-730). -/
def readConsumed (j : J) : Option Unit := do
  let g ← strict ["from_address", "payload", "selector", "to_address", "nonce"] j
  let _ ← req g "from_address" (readBytes 20)
  let _ ← req g "payload" (readList readDec)
  let _ ← req g "selector" readHex
  let _ ← req g "to_address" readHex251
  let _ ← opt g "nonce" readHex
  pure ()

/-- `ExecutionStatus` (reply.rs:602-611); true stands for a reverted transaction. -/
def readStatus : J → Option Bool
  | .str "SUCCEEDED" => some false
  | .str "REVERTED" => some true
  | _ => none

/-- The names of `Receipt` (reply.rs:613-630). -/
def receiptNames : List String := ["actual_fee", "events", "execution_resources", "l1_to_l2_consumed_message", "l2_to_l1_messages", "transaction_hash",
  "transaction_index", "execution_status", "revert_error"]

/-- `Receipt` (reply.rs:613-630), `DeserializeAs` (672-694) and the conversion (717-757). -/
def readReceipt (j : J) : Option (Rcpt × List Event) := do
  let g ← strict receiptNames j
  let fee ← req g "actual_fee" readHex
  let es ← req g "events" (readList readEvent)
  let r ← req g "execution_resources" readResources
  let _ ← opt g "l1_to_l2_consumed_message" readConsumed
  let ms ← req g "l2_to_l1_messages" (readList readMsg)
  let h ← req g "transaction_hash" readHex
  let i ← req g "transaction_index" (readNum (2 ^ 63))
  let s ← req g "execution_status" readStatus
  let e ← opt g "revert_error" readStr
  pure (⟨fee, r, ms, if s then some (e.getD "") else none, h, i⟩, es)

/-- `BuiltinCounters` from stored ones (reply.rs:481-515) and its `Serialize`. -/
def writeBuiltins (b : Builtins) : J :=
  .obj [("output_builtin", .num b.output), ("pedersen_builtin", .num b.pedersen), ("range_check_builtin", .num b.rangeCheck),
    ("ecdsa_builtin", .num b.ecdsa), ("bitwise_builtin", .num b.bitwise), ("ec_op_builtin", .num b.ecOp), ("keccak_builtin", .num b.keccak),
    ("poseidon_builtin", .num b.poseidon), ("segment_arena_builtin", .num b.segmentArena), ("add_mod_builtin", .num b.addMod),
    ("mul_mod_builtin", .num b.mulMod), ("range_check96_builtin", .num b.rangeCheck96)]

/-- `Gas` from a stored `L1Gas` (reply.rs:397-405) and its `Serialize`: the L2 gas is `None`, which is written as `null`. -/
def writeGas (l1 l1Data : Nat) : J := .obj [("l1_gas", .num l1), ("l1_data_gas", .num l1Data), ("l2_gas", .null)]

/-- `ExecutionResources` from stored ones (reply.rs:346-356) and its `Serialize`. -/
def writeResources (r : Resources) : J :=
  .obj [("builtin_instance_counter", writeBuiltins r.builtins), ("n_steps", .num r.steps), ("n_memory_holes", .num r.memoryHoles),
    ("data_availability", writeGas r.daL1Gas r.daL1DataGas), ("total_gas_consumed", writeGas r.l1Gas r.l1DataGas)]

/-- `Serialize for Event` (common/src/event.rs:9-18). -/
def writeEvent (e : Event) : J := .obj [("data", list decF e.data), ("from_address", hexF e.src), ("keys", list decF e.keys)]

/-- `L2ToL1Message` from a stored one (reply.rs:587-600) and its `Serialize`. -/
def writeMsg (m : Msg) : J := .obj [("from_address", hexF m.src), ("payload", list decF m.payload), ("to_address", hexF m.dst)]

/-- `Receipt` from a stored one (reply.rs:632-670) and `SerializeAs` (696-715). -/
def writeReceipt (x : Rcpt × List Event) : J :=
  .obj [("actual_fee", hexF x.1.fee), ("events", list writeEvent x.2), ("execution_resources", writeResources x.1.resources),
    ("l1_to_l2_consumed_message", .null), ("l2_to_l1_messages", list writeMsg x.1.messages), ("transaction_hash", hexF x.1.hash),
    ("transaction_index", .num x.1.index), ("execution_status", .str (if x.1.reverted.isSome then "REVERTED" else "SUCCEEDED")),
    ("revert_error", match x.1.reverted with
      | none => .null
      | some s => .str s)]

end Verif.Feed
