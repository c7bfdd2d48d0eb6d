import Verif.Sync.Feed
import Verif.State.Model
import Verif.Diff.Model
import Verif.Block.TxModel
/-!
# Serving blocks to peers

Model of `crates/pathfinder/src/p2p_network/sync/sync_handlers.rs` (what a node answers to the requests of peers) and of the conversions
between stored data and messages in `crates/p2p/src/sync/client/conv.rs` and `types.rs`. The reading side is `Verif.Sync.Feed`.

Not modelled: the encoding of messages as bytes (protobuf), the channel to the peer (a peer that goes away ends the answer), and
database errors other than a class definition that is missing.
-/
namespace Verif.Serve

open Verif.Sync Verif.Block

/-! ## Which blocks are served -/

/-- `MAX_BLOCKS_COUNT` of the server (sync_handlers.rs:35-36). -/
def maxServed : Nat := 100

/-- `MAX_BLOCKS_COUNT` of the client (p2p/src/sync/client/peer_agnostic.rs:600-601). -/
def maxAsked : Nat := 500

/-- `BlockNumberOrHash` (p2p_proto/src/common.rs). -/
inductive Start where
  | number (n : Nat)
  | hash (h : Nat)
deriving DecidableEq

/-- `Iteration` (p2p_proto/src/sync/common.rs:17-24). `step` is never zero (`Step`, lines 26-47). -/
structure Iteration where
  start : Start
  forward : Bool
  limit : Nat
  step : Nat
deriving DecidableEq

/-- `Step::from` (p2p_proto/src/sync/common.rs:43-47). -/
def stepOf (n : Nat) : Nat := if n = 0 then 1 else n

/-- `BlockNumber::new`: at most `i64::MAX`. -/
def blockNumber (n : Nat) : Option Nat := if n < 2 ^ 63 then some n else none

/-- What the handler of one block does after the items it has sent: go on, say that there is no such block, or fail. -/
inductive Handled where
  | next
  | missing
  | failed
deriving DecidableEq

/-- `get_next_block_number` (sync_handlers.rs:451-469). The sum is a `u64`. -/
def nextNumber (n step : Nat) (forward : Bool) : Option Nat :=
  if forward then (if n + step < 2 ^ 64 then blockNumber (n + step) else none)
  else if step ≤ n then blockNumber (n - step) else none

/-- The loop of `iterate` (sync_handlers.rs:368-387): the items sent and whether the end mark follows. The first number counts the
rounds that are left. -/
def serveLoop {T : Type} (handler : Nat → List T × Handled) (step : Nat) (forward : Bool) : Nat → Nat → List T × Bool
  | 0, _ => ([], true)
  | left + 1, n =>
    match handler n with
    | (items, .failed) => (items, false)
    | (items, .missing) => (items, true)
    | (items, .next) =>
      if left = 0 then (items, true)
      else
        match nextNumber n step forward with
        | none => (items, true)
        | some m =>
          let (more, fin) := serveLoop handler step forward left m
          (items ++ more, fin)

/-- `get_start_block_number` (sync_handlers.rs:393-401). `numberOf` is `block_id`. -/
def startNumber (numberOf : Nat → Option Nat) : Start → Option Nat
  | .number n => blockNumber n
  | .hash h => numberOf h

/-- `iterate` (sync_handlers.rs:335-391). The end mark is `none`. -/
def iterate {T : Type} (numberOf : Nat → Option Nat) (handler : Nat → List T × Handled) (it : Iteration) : List (Option T) :=
  if it.limit = 0 then [none]
  else
    match startNumber numberOf it.start with
    | none => [none]
    | some n =>
      let (items, fin) := serveLoop handler it.step it.forward (min it.limit maxServed) n
      items.map some ++ if fin then [none] else []

/-- `make_request` of the streams of block data (p2p/src/sync/client/peer_agnostic.rs:861-877, 1089-1105, 1233-1249, 1434-1450). -/
def makeRequest (start stop : Nat) : Iteration :=
  ⟨.number start, true, min ((if start ≤ stop then stop - start else start - stop) + 1) maxAsked, stepOf 1⟩

/-- `make_request` of the header stream (peer_agnostic.rs:716-729), with natural numbers in the place of `i64`. -/
def makeHeaderRequest (start stop : Nat) (forward : Bool) : Iteration :=
  ⟨.number start, forward, min ((if start ≤ stop then stop - start else start - stop) + 1) maxAsked, stepOf 1⟩

/-! ## Headers -/

/-- `BlockCommitmentSignature`. -/
structure Sig where
  r : F
  s : F
deriving DecidableEq

/-- `SignedBlockHeader` of the messages (p2p_proto/src/sync/header.rs:13-35). -/
structure HeaderDto where
  blockHash : F
  parentHash : F
  number : Nat
  time : Nat
  sequencer : F
  stateRoot : F
  stateDiff : Nat × F
  transactions : Nat × F
  events : Nat × F
  receipts : F
  version : List Char
  l1GasFri : Nat
  l1GasWei : Nat
  l1DataGasFri : Nat
  l1DataGasWei : Nat
  l2GasFri : Option Nat
  l2GasWei : Option Nat
  blob : Bool
  signatures : List Sig

/-- `SignedBlockHeader::to_dto` (conv.rs:83-129). -/
def headerToDto (h : Header) (g : Sig) : HeaderDto where
  blockHash := h.hash
  parentHash := h.parent
  number := h.number
  time := h.timestamp
  sequencer := h.sequencer
  stateRoot := h.stateCommitment
  stateDiff := (h.stateDiffLength, h.stateDiffCommitment)
  transactions := (h.transactionCount, h.transactionCommitment)
  events := (h.eventCount, h.eventCommitment)
  receipts := h.receiptCommitment
  version := h.version.show
  l1GasFri := h.strkL1Gas
  l1GasWei := h.ethL1Gas
  l1DataGasFri := h.strkL1DataGas
  l1DataGasWei := h.ethL1DataGas
  l2GasFri := some h.strkL2Gas
  l2GasWei := some h.ethL2Gas
  blob := h.blob
  signatures := [g]

/-- `SignedBlockHeader::try_from_dto` (types.rs:69-110). -/
def headerFromDto (d : HeaderDto) : Option (Header × Sig) :=
  match d.signatures with
  | [g] => do
    let number ← blockNumber d.number
    let time ← blockNumber d.time
    let version ← Verif.Common.Version.read d.version
    return ({
      hash := d.blockHash, parent := d.parentHash, number := number, timestamp := time
      ethL1Gas := d.l1GasWei, strkL1Gas := d.l1GasFri, ethL1DataGas := d.l1DataGasWei, strkL1DataGas := d.l1DataGasFri
      ethL2Gas := d.l2GasWei.getD 0, strkL2Gas := d.l2GasFri.getD 0
      sequencer := d.sequencer, version := version
      eventCommitment := d.events.2, stateCommitment := d.stateRoot, transactionCommitment := d.transactions.2
      transactionCount := d.transactions.1, eventCount := d.events.1, blob := d.blob, receiptCommitment := d.receipts
      stateDiffCommitment := d.stateDiff.2, stateDiffLength := d.stateDiff.1 }, g)
  | _ => none

/-- `get_header` (sync_handlers.rs:132-151): a block is served if the header and the signature are stored. -/
def headerHandler (header : Nat → Option Header) (signature : Nat → Option Sig) (n : Nat) : List HeaderDto × Handled :=
  match header n with
  | none => ([], .missing)
  | some h =>
    match signature n with
    | none => ([], .missing)
    | some g => ([headerToDto h g], .next)

/-! ## Transactions -/

/-- `TransactionVariant` of the messages (p2p_proto/src/sync/transaction.rs, p2p_proto/src/transaction.rs). Fields that are carried over
unchanged have the type of the stored transaction; amounts and prices of bounds are field elements. -/
structure V3Dto where
  nonceL2 : Bool
  feeL2 : Bool
  l1Gas : F × F
  l2Gas : F × F
  l1DataGas : Option (F × F)
  tip : Nat
  paymaster : List F
deriving DecidableEq

inductive TxnDto where
  | declareV0 (sender maxFee : F) (signature : List F) (classHash : F)
  | declareV1 (sender maxFee : F) (signature : List F) (classHash nonce : F)
  | declareV2 (sender maxFee : F) (signature : List F) (classHash nonce casm : F)
  | declareV3 (sender : F) (signature : List F) (nonce casm : F) (v3 : V3Dto) (accountDeployment : List F) (classHash : F)
  | deploy (classHash salt : F) (calldata : List F) (version : Nat)
  | deployAccountV1 (maxFee : F) (signature : List F) (classHash nonce salt : F) (calldata : List F)
  | deployAccountV3 (signature : List F) (classHash nonce salt : F) (calldata : List F) (v3 : V3Dto)
  | invokeV0 (maxFee : F) (signature : List F) (address selector : F) (calldata : List F)
  | invokeV1 (sender maxFee : F) (signature : List F) (nonce : F) (calldata : List F)
  | invokeV3 (sender : F) (signature calldata : List F) (v3 : V3Dto) (accountDeployment : List F) (nonce : F) (proofFacts : List F)
  | l1Handler (nonce address selector : F) (calldata : List F)
deriving DecidableEq

/-- `ResourceBound::to_dto` (conv.rs:433-440). -/
def boundToDto (b : Bound) : F × F := (felt b.amount, felt b.price)

/-- `try_into` for the parts of a bound (conv.rs:810-840): `u64` and `u128`. -/
def boundFromDto (d : F × F) : Option Bound :=
  if d.1.val < 2 ^ 64 ∧ d.2.val < 2 ^ 128 then some ⟨d.1.val, d.2.val⟩ else none

def v3ToDto (v : V3) : V3Dto :=
  ⟨v.nonceL2, v.feeL2, boundToDto v.l1Gas, boundToDto v.l2Gas, v.l1DataGas.map boundToDto, v.tip, v.paymaster⟩

/-- `ResourceBounds::try_from_dto` and the data availability modes (conv.rs:810-852). -/
def v3FromDto (d : V3Dto) : Option V3 := do
  let l1 ← boundFromDto d.l1Gas
  let l2 ← boundFromDto d.l2Gas
  let data ← d.l1DataGas.elim (some none) fun g => (boundFromDto g).map some
  return ⟨d.nonceL2, d.feeL2, l1, l2, data, d.tip, d.paymaster⟩

/-- `TransactionVariant::to_dto` (conv.rs:131-305). -/
def txnToDto : Txn → TxnDto
  | .declareV0 t => .declareV0 t.sender t.maxFee t.signature t.classHash
  | .declareV1 t => .declareV1 t.sender t.maxFee t.signature t.classHash t.nonce
  | .declareV2 t => .declareV2 t.sender t.maxFee t.signature t.classHash t.nonce t.casm
  | .declareV3 t => .declareV3 t.sender t.signature t.nonce t.casm (v3ToDto t.v3) t.accountDeployment t.classHash
  | .deployV0 t => .deploy t.classHash t.salt t.calldata 0
  | .deployV1 t => .deploy t.classHash t.salt t.calldata 1
  | .deployAccountV1 t => .deployAccountV1 t.maxFee t.signature t.classHash t.nonce t.salt t.calldata
  | .deployAccountV3 t => .deployAccountV3 t.signature t.classHash t.nonce t.salt t.calldata (v3ToDto t.v3)
  | .invokeV0 t => .invokeV0 t.maxFee t.signature t.sender t.selector t.calldata
  | .invokeV1 t => .invokeV1 t.sender t.maxFee t.signature t.nonce t.calldata
  | .invokeV3 t => .invokeV3 t.sender t.signature t.calldata (v3ToDto t.v3) t.accountDeployment t.nonce t.proofFacts
  | .l1Handler t => .l1Handler t.nonce t.address t.selector t.calldata

/-- `TransactionVariant::try_from_dto` (conv.rs:461-700). -/
def txnFromDto : TxnDto → Option Txn
  | .declareV0 sender maxFee signature classHash => some (.declareV0 ⟨classHash, maxFee, 0, signature, sender⟩)
  | .declareV1 sender maxFee signature classHash nonce => some (.declareV1 ⟨classHash, maxFee, nonce, signature, sender⟩)
  | .declareV2 sender maxFee signature classHash nonce casm =>
    some (.declareV2 ⟨classHash, maxFee, nonce, signature, sender, casm⟩)
  | .declareV3 sender signature nonce casm v3 accountDeployment classHash =>
    (v3FromDto v3).map fun v => .declareV3 ⟨classHash, nonce, v, signature, accountDeployment, sender, casm⟩
  | .deploy classHash salt calldata version =>
    if version = 0 then some (.deployV0 { classHash, salt, calldata, address := 0 })
    else if version = 1 then some (.deployV1 { classHash, salt, calldata, address := 0 })
    else none
  | .deployAccountV1 maxFee signature classHash nonce salt calldata =>
    some (.deployAccountV1 { address := 0, maxFee, signature, nonce, salt, calldata, classHash })
  | .deployAccountV3 signature classHash nonce salt calldata v3 =>
    (v3FromDto v3).map fun v => .deployAccountV3 { address := 0, signature, nonce, v3 := v, salt, calldata, classHash }
  | .invokeV0 maxFee signature address selector calldata =>
    some (.invokeV0 { calldata, sender := address, selector, entryType := none, maxFee, signature })
  | .invokeV1 sender maxFee signature nonce calldata => some (.invokeV1 { calldata, sender, maxFee, signature, nonce })
  | .invokeV3 sender signature calldata v3 accountDeployment nonce proofFacts =>
    (v3FromDto v3).map fun v => .invokeV3 { signature, nonce, v3 := v, accountDeployment, calldata, sender, proofFacts }
  | .l1Handler nonce address selector calldata => some (.l1Handler ⟨address, selector, nonce, calldata⟩)

/-! ## Receipts -/

/-- `BuiltinCounters` (common/src/receipt.rs:60-74), without `segment_arena`; `output`, `pedersen`, `range_check`, `ecdsa`, `bitwise`, `ec_op`,
`keccak`, `poseidon`, `add_mod`, `mul_mod`, `range_check96` in this order. -/
structure Builtins where
  output : Nat
  pedersen : Nat
  rangeCheck : Nat
  ecdsa : Nat
  bitwise : Nat
  ecOp : Nat
  keccak : Nat
  poseidon : Nat
  addMod : Nat
  mulMod : Nat
  rangeCheck96 : Nat
deriving DecidableEq

/-- `Receipt` (common/src/receipt.rs:7-14 and 41-55) without the transaction hash: the fee, the resources, the messages, the revert
reason and the index. -/
structure Rcpt where
  fee : F
  builtins : Builtins
  segmentArena : Nat
  steps : Nat
  memoryHoles : Nat
  daL1Gas : Nat
  daL1DataGas : Nat
  totalL1Gas : Nat
  totalL1DataGas : Nat
  l2Gas : Nat
  messages : List Msg
  reverted : Option (List UInt8)
  index : Nat
deriving DecidableEq

/-- `ReceiptCommon` of the messages (p2p_proto/src/sync/receipt.rs:27-78) without the price unit, which nobody reads. The address of a
message has twenty bytes. -/
structure RcptDto where
  fee : F
  builtins : Builtins
  steps : Nat
  memoryHoles : Nat
  l1Gas : Option F
  l1DataGas : Option F
  totalL1Gas : Option F
  l2Gas : Option F
  messages : List (F × List F × Nat)
  reverted : Option (List UInt8)
deriving DecidableEq

/-- The counters that are converted to `u32` with `unwrap`. -/
def Rcpt.counters (r : Rcpt) : List Nat :=
  [r.builtins.bitwise, r.builtins.ecdsa, r.builtins.ecOp, r.builtins.pedersen, r.builtins.rangeCheck, r.builtins.poseidon,
    r.builtins.keccak, r.builtins.output, r.builtins.addMod, r.builtins.mulMod, r.builtins.rangeCheck96, r.steps, r.memoryHoles]

/-- `Receipt::to_dto` (conv.rs:307-400); `none` is a panic. The kind of receipt, the contract address and the message hash that go with it
are not read by the client and are left out. -/
def rcptToDto (r : Rcpt) : Option RcptDto :=
  if r.counters.all (· < 2 ^ 32) then
    some ⟨r.fee, r.builtins, r.steps, r.memoryHoles, some (felt r.daL1Gas), some (felt r.daL1DataGas), some (felt r.totalL1Gas),
      some (felt r.l2Gas), r.messages.map fun m => (m.src, m.payload, m.dst.val % 2 ^ 160), r.reverted⟩
  else none

/-- `GasPrice::try_from` of an optional field element (conv.rs:760-782). -/
def gasFromDto (x : Option F) : Option Nat := let v := (x.getD 0).val; if v < 2 ^ 128 then some v else none

/-- `Receipt::try_from` (conv.rs:716-808). -/
def rcptFromDto (d : RcptDto) (index : Nat) : Option Rcpt := do
  let l1 ← gasFromDto d.l1Gas
  let l1Data ← gasFromDto d.l1DataGas
  let total ← gasFromDto d.totalL1Gas
  let l2 ← gasFromDto d.l2Gas
  return {
    fee := d.fee, builtins := d.builtins, segmentArena := 0, steps := d.steps, memoryHoles := d.memoryHoles
    daL1Gas := l1, daL1DataGas := l1Data, totalL1Gas := total, totalL1DataGas := 0, l2Gas := l2
    messages := d.messages.map fun m => ⟨m.1, felt m.2.2, m.2.1⟩
    reverted := d.reverted, index := index }

/-- A transaction with its hash, its receipt and its events, as stored. -/
structure Entry where
  hash : F
  txn : Txn
  rcpt : Rcpt
  events : List Event
deriving DecidableEq

/-- One message of the transaction stream: the hash, the transaction and the receipt. -/
abbrev TxMsg := F × TxnDto × RcptDto

/-- The loop of `get_transactions_for_block` (sync_handlers.rs:296-311): what is sent until a conversion panics. -/
def sendTxs : List Entry → List TxMsg × Handled
  | [] => ([], .next)
  | e :: es =>
    match rcptToDto e.rcpt with
    | none => ([], .failed)
    | some r => let (ms, o) := sendTxs es; ((e.hash, txnToDto e.txn, r) :: ms, o)

/-- `get_transactions_for_block` (sync_handlers.rs:287-314). -/
def txHandler (body : Nat → Option (List Entry)) (n : Nat) : List TxMsg × Handled :=
  match body n with
  | none => ([], .missing)
  | some es => sendTxs es

/-- `handle_response` of the transaction stream (peer_agnostic.rs:829-858). The end mark is `none`. -/
def readTx (r : Option TxMsg) (index : Nat) : Option (F × Txn × Rcpt) := do
  let m ← r
  let t ← txnFromDto m.2.1
  let x ← rcptFromDto m.2.2 index
  return (m.1, t, x)

/-! ## Events -/

/-- `get_events_for_block` (sync_handlers.rs:316-333). The conversions of events (conv.rs:422-431, 854-877) carry all fields over. -/
def eventHandler (body : Nat → Option (List Entry)) (n : Nat) : List (F × Event) × Handled :=
  match body n with
  | none => ([], .missing)
  | some es => (es.flatMap fun e => e.events.map fun v => (e.hash, v), .next)

/-! ## Classes -/

/-- The loop of `get_classes_for_block` (sync_handlers.rs:187-219): a definition that is missing or does not parse ends the answer. -/
def sendClasses {C : Type} (definition : Nat → Option C) : List Nat → List (Nat × C) × Handled
  | [] => ([], .next)
  | h :: hs =>
    match definition h with
    | none => ([], .failed)
    | some c => let (cs, o) := sendClasses definition hs; ((h, c) :: cs, o)

/-- `get_classes_for_block` (sync_handlers.rs:153-221). `definition` is `class_definition_at` and the conversion to a message, for which see
`Verif.ClassSync.Wire`. -/
def classHandler {C : Type} (declared : Nat → Option (List Nat)) (definition : Nat → Nat → Option C) (n : Nat) :
    List (Nat × C) × Handled :=
  match declared n with
  | none => ([], .missing)
  | some hs => sendClasses (definition n) hs

/-! ## State diffs -/

/-- `get_state_diff` (sync_handlers.rs:223-285): one message for each contract, each system contract, each Cairo class and each Sierra
class. The migrated classes are not sent. -/
def diffMessages (u : State.Update) : List DiffResp :=
  (u.contracts.map fun p => .contract p.1 p.2.nonce (p.2.cls.map (·.hash)) p.2.storage) ++
    (u.system.map fun p => .contract p.1 none none p.2) ++
    (u.cairo.map fun h => .declared h none) ++
    (u.sierra.map fun p => .declared p.1 (some p.2))

def diffHandler (update : Nat → Option State.Update) (n : Nat) : List DiffResp × Handled :=
  match update n with
  | none => ([], .missing)
  | some u => (diffMessages u, .next)

/-- The state diff message as the client sees it: the end mark is `stop`. -/
def diffResp : Option DiffResp → DiffResp
  | some r => r
  | none => .stop

/-- The same update in the form of `Verif.Diff`. -/
def toSU (u : State.Update) : Diff.SU where
  contracts := u.contracts.map fun p => (p.1, ⟨p.2.storage, p.2.cls.map fun
    | .deploy c => .deploy c
    | .replace c => .replace c, p.2.nonce⟩)
  system := u.system
  cairo := u.cairo
  sierra := u.sierra
  migrated := u.migrated

/-- How `state_diff_for_block` ends with one peer (peer_agnostic.rs:333-460): an update, `IncorrectStateDiffCount`, or the reply ended without
the end mark, after which the next peer is asked. -/
inductive Single where
  | update (a : DiffAcc)
  | wrongCount
  | noEnd
deriving DecidableEq

/-- The responses of one peer in `state_diff_for_block` (peer_agnostic.rs:363-455). The handling of a message is that of the stream, except
that too many changes are an error. An I/O error is left out. -/
def readSingle (system : Nat → Bool) : DiffAcc → Nat → List DiffResp → Single
  | _, _, [] => .noEnd
  | acc, left, .stop :: _ => if left = 0 then .update acc else .wrongCount
  | acc, left, r :: rs =>
    match absorbDiff system acc left r with
    | .ok _ acc left => readSingle system acc left rs
    | _ => .wrongCount

/-! ## The client and an honest server -/

/-- The client keeps asking a peer that serves `reply` for each start, the state being that of `Verif.Sync.Feed` (peer_agnostic.rs:772-825). -/
def sessions {P R C A E : Type} (k : Kind R C A) (stop : Nat) (peer : P) (reply : Nat → List R) :
    Nat → FeedState E → List (Except (FeedErr E) (P × A × Nat)) × FeedState E
  | 0, s => ([], s)
  | rounds + 1, .waiting start p counts =>
    let (out, s) := attempt k stop (.waiting start p counts) (peer, some (reply start))
    let (more, s) := sessions k stop peer reply rounds s
    (out ++ more, s)
  | _ + 1, s => ([], s)

/-- The client asks an honest server for the blocks `start` to `stop`; it knows from its headers how many items each block has (`make`,
peer_agnostic.rs:763-775, 943-957, 1167-1181, 1350-1425). -/
def fetch {P R C A E : Type} (k : Kind R C A) (start stop : Nat) (peer : P) (reply : Nat → List R) (count : Nat → Nat) (rounds : Nat) :
    List (Except (FeedErr E) (P × A × Nat)) × FeedState E :=
  sessions k stop peer reply rounds
    (.waiting start (Progress.new (count start)) ((List.range' (start + 1) (stop + 1 - (start + 1))).map fun n => .ok (count n)))

/-- A header message as the client sees it (peer_agnostic.rs:662-718). -/
def headerResp : Option HeaderDto → HeaderResp (Header × Sig)
  | none => .fin
  | some d => match headerFromDto d with
    | some a => .header a
    | none => .unparsed

/-- The header stream with a peer that serves `reply` for each start (peer_agnostic.rs:630-659): the headers, the next number, and whether
the stream has ended. -/
def headerFetch {P A : Type} (reverse : Bool) (stop : Int) (peer : P) (reply : Int → List (HeaderResp A)) : Nat → Int → List (P × A) × Int × Bool
  | 0, start => ([], start, false)
  | rounds + 1, start =>
    let (out, s, e) := headerReply reverse stop peer start (reply start)
    if e then (out, s, true)
    else
      let (out', s', e') := headerFetch reverse stop peer reply rounds s
      (out ++ out', s', e')

end Verif.Serve
