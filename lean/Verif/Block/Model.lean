import Verif.Trie.Spec
import Verif.Trie.Store
import Verif.Common.Version
/-!
# Block hashes and block commitments

Model of `crates/block-commitments/src/lib.rs` and of the check of downloaded blocks in `crates/pathfinder/src/state/sync/l2.rs`. The hash
functions are parameters. A field element is a number below the prime.
-/
namespace Verif.Block
open Verif.Trie (FeltOps MTree Storage Err)
open Verif.Common (Version)

/-- The prime of the field. -/
def P : Nat := 2 ^ 251 + 17 * 2 ^ 192 + 1

instance : NeZero P := ⟨by decide⟩

abbrev F := Fin P

/-- `Felt::from`, `MontFelt::from` of an unsigned integer, and `MontFelt::from_be_bytes` of 32 bytes as a number, which reduces. -/
def felt (n : Nat) : F := Fin.ofNat P n

/-- `felt_bytes!` and `Felt::from_be_slice` (crypto/src/algebra/field/felt.rs:111-127): bytes as a number, most significant first.
Simplification: more than 31 bytes may not fit and panic; a version has at most 15. -/
def feltText (s : List Char) : F := felt (s.foldl (fun n c => n * 256 + c.toNat) 0)

/-- The hash functions: `pedersen_hash`, `poseidon_hash`, `poseidon_hash_many` and Keccak-256 as a number. `PoseidonHasher` gives the
hash of the list of values written (C32). -/
structure Hashes where
  ped : F → F → F
  two : F → F → F
  many : List F → F
  keccak : List UInt8 → Nat

/-- `HashChain` (crypto/src/hash/pedersen/chain.rs:13-41) after `update` with each value and `finalize`. -/
def chain (h : Hashes) (l : List F) : F := h.ped (l.foldl h.ped 0) (felt l.length)

/-! ## Commitments -/

/-- `Felt::from_bits` on at most 64 bits. -/
def ofBits (l : List Bool) : F := felt (l.foldl (fun n b => n * 2 + b.toNat) 0)

/-- `PedersenHash` (common/src/hash.rs:17-22) for the tree. -/
def pedOps (h : Hashes) : FeltOps F := ⟨0, h.ped, ofBits, felt, (· + ·)⟩

/-- `PoseidonHash` (common/src/hash.rs:25-30) for the tree. -/
def posOps (h : Hashes) : FeltOps F := ⟨0, h.two, ofBits, felt, (· + ·)⟩

/-- `NullStorage` (merkle-tree/src/transaction.rs:30-49). -/
def nullStorage : Storage F := ⟨fun _ => none, fun _ => none, fun _ => none⟩

/-- The bits of a number, most significant first. -/
def bits : Nat → Nat → List Bool
  | 0, _ => []
  | w + 1, n => n.testBit w :: bits w n

/-- `index.to_be_bytes().view_bits()` (merkle-tree/src/transaction.rs:53). -/
def key (i : Nat) : List Bool := bits 64 i

/-- The keys and values that are set, from an index on. -/
def leaves : Nat → List F → List (List Bool × F)
  | _, [] => []
  | i, x :: l => (key i, x) :: leaves (i + 1) l

/-- `calculate_commitment_root` (block-commitments/src/lib.rs:511-527) with `TransactionOrEventTree` (merkle-tree/src/transaction.rs).
Simplification: more than `2^64` values do not exist. -/
def commitmentRoot (o : FeltOps F) (l : List F) : Except Err F :=
  ((MTree.empty : MTree F).setMany o nullStorage 64 (leaves 0 l)).bind fun t => (t.commit o nullStorage).map (·.rootCommitment)

/-- `TransactionVariant`, as far as the commitment looks at it: the kind and the signature. -/
inductive Variant
  | invoke (sig : List F)
  | declare (sig : List F)
  | deployAccount (sig : List F)
  | deploy
  | l1Handler
  deriving DecidableEq, Repr

/-- `Transaction`: the hash and the variant. The hash is checked against all other fields by `verify_hash` (common/src/transaction.rs). -/
structure Tx where
  hash : F
  variant : Variant
  deriving DecidableEq, Repr

/-- The signature of the variants that have one (lib.rs:593-607, 623-637). -/
def Variant.signature : Variant → List F
  | .invoke s | .declare s | .deployAccount s => s
  | .deploy | .l1Handler => []

/-- `calculate_transaction_hash_with_signature_pre_0_11_1` (lib.rs:537-556). -/
def txHashPre0111 (h : Hashes) (t : Tx) : F :=
  h.ped t.hash (match t.variant with
    | .invoke s => chain h s
    | _ => chain h [])

/-- `calculate_transaction_hash_with_signature_pre_0_13_2` (lib.rs:568-588). -/
def txHashPre0132 (h : Hashes) (t : Tx) : F :=
  h.ped t.hash (match t.variant with
    | .invoke s | .declare s | .deployAccount s => chain h s
    | .deploy | .l1Handler => chain h [])

/-- `calculate_transaction_hash_with_signature_pre_0_13_4` (lib.rs:592-620). -/
def txHashPre0134 (h : Hashes) (t : Tx) : F :=
  h.many (t.hash :: if t.variant.signature = [] then [0] else t.variant.signature)

/-- `calculate_transaction_hash_with_signature` (lib.rs:622-644). -/
def txHashNew (h : Hashes) (t : Tx) : F := h.many (t.hash :: t.variant.signature)

/-- `<` of versions. -/
def before (v w : Version) : Bool := v.cmp w == .lt

def v0111 : Version := ⟨0, 11, 1, 0⟩
def v0132 : Version := ⟨0, 13, 2, 0⟩
def v0134 : Version := ⟨0, 13, 4, 0⟩

/-- The hash of one transaction (lib.rs:404-416). -/
def txLeaf (h : Hashes) (v : Version) (t : Tx) : F :=
  if before v v0111 then txHashPre0111 h t
  else if before v v0132 then txHashPre0132 h t
  else if before v v0134 then txHashPre0134 h t
  else txHashNew h t

/-- The tree of a version (lib.rs:418-422, 677-681). -/
def treeOps (h : Hashes) (v : Version) : FeltOps F := if before v v0132 then pedOps h else posOps h

/-- `calculate_transaction_commitment` (lib.rs:397-423). -/
def transactionCommitment (h : Hashes) (ts : List Tx) (v : Version) : Except Err F :=
  commitmentRoot (treeOps h v) (ts.map (txLeaf h v))

/-- `L2ToL1Message` (common/src/receipt.rs:30-38). -/
structure Msg where
  src : F
  dst : F
  payload : List F
  deriving DecidableEq, Repr

/-- `Receipt` (common/src/receipt.rs:7-14). The status is the revert reason, if any. `rest` stands for the index, the steps, the builtins,
the memory holes and the data availability gas. -/
structure Receipt where
  txHash : F
  fee : F
  messages : List Msg
  reverted : Option (List UInt8)
  l1Gas : Nat
  l1DataGas : Nat
  l2Gas : Nat
  rest : Nat
  deriving DecidableEq, Repr

/-- The values hashed for a message (lib.rs:436-442). -/
def Msg.values (m : Msg) : List F := m.src :: m.dst :: felt m.payload.length :: m.payload

/-- The hash of the messages (lib.rs:432-445). -/
def messagesHash (h : Hashes) (ms : List Msg) : F := h.many (felt ms.length :: ms.flatMap Msg.values)

/-- The hash of a revert reason (lib.rs:450-456): the six most significant bits are dropped. -/
def reasonHash (h : Hashes) (s : List UInt8) : F := felt (h.keccak s % 2 ^ 250)

/-- The value for the execution status (lib.rs:447-457). -/
def statusHash (h : Hashes) : Option (List UInt8) → F
  | none => 0
  | some s => reasonHash h s

/-- The hash of a receipt (lib.rs:427-472). -/
def receiptHash (h : Hashes) (r : Receipt) : F :=
  h.many [r.txHash, r.fee, messagesHash h r.messages, statusHash h r.reverted, 0,
    felt r.l1Gas, felt r.l1DataGas]

/-- `calculate_receipt_commitment` (lib.rs:425-476). -/
def receiptCommitment (h : Hashes) (rs : List Receipt) : Except Err F := commitmentRoot (posOps h) (rs.map (receiptHash h))

/-- `Event` (common/src/event.rs). -/
structure Event where
  src : F
  keys : List F
  data : List F
  deriving DecidableEq, Repr

/-- `calculate_event_hash_pre_0_13_2` (lib.rs:688-707). -/
def eventHashOld (h : Hashes) (e : Event) : F := chain h [e.src, chain h e.keys, chain h e.data]

/-- `calculate_event_hash` (lib.rs:711-724). -/
def eventHash (h : Hashes) (e : Event) (tx : F) : F :=
  h.many (e.src :: tx :: felt e.keys.length :: (e.keys ++ felt e.data.length :: e.data))

/-- The events with their transactions, in order (lib.rs:665-667). -/
def flatEvents (es : List (F × List Event)) : List (F × Event) := es.flatMap fun p => p.2.map fun e => (p.1, e)

/-- The hash of one event (lib.rs:668-674). -/
def eventLeaf (h : Hashes) (v : Version) (p : F × Event) : F := if before v v0132 then eventHashOld h p.2 else eventHash h p.2 p.1

/-- `calculate_event_commitment` (lib.rs:659-682). -/
def eventCommitment (h : Hashes) (es : List (F × List Event)) (v : Version) : Except Err F :=
  commitmentRoot (treeOps h v) ((flatEvents es).map (eventLeaf h v))

/-! ## Headers -/

/-- `BlockHeader` (common/src/header.rs:7-29). `blob` is `l1_da_mode == Blob`. -/
structure Header where
  hash : F
  parent : F
  number : Nat
  timestamp : Nat
  ethL1Gas : Nat
  strkL1Gas : Nat
  ethL1DataGas : Nat
  strkL1DataGas : Nat
  ethL2Gas : Nat
  strkL2Gas : Nat
  sequencer : F
  version : Version
  eventCommitment : F
  stateCommitment : F
  transactionCommitment : F
  transactionCount : Nat
  eventCount : Nat
  blob : Bool
  receiptCommitment : F
  stateDiffCommitment : F
  stateDiffLength : Nat
  deriving DecidableEq, Repr

/-- `Chain` (common/src/lib.rs). -/
inductive Chain
  | mainnet | sepoliaTestnet | sepoliaIntegration | custom
  deriving DecidableEq, Repr

/-- `first_0_7_block` of `meta::for_chain` (lib.rs:221-250). -/
def Chain.first07 : Chain → Nat
  | .mainnet => 833
  | _ => 0

/-- `fallback_sequencer_address` (lib.rs:221-250). -/
def Chain.fallback : Chain → Option F
  | .mainnet => some (felt 0x021f4b90b0377c82bf330b7b5295820769e72d79d8acd0effa0ebde6e9988bc5)
  | _ => none

/-- `compute_final_hash_pre_0_7` (lib.rs:262-292). -/
def hashPre07 (h : Hashes) (b : Header) (chainId : F) : F :=
  chain h [felt b.number, b.stateCommitment, 0, 0, felt b.transactionCount, b.transactionCommitment, 0, 0, 0, 0, chainId, b.parent]

/-- `compute_final_hash_pre_0_13_2` (lib.rs:295-322). -/
def hashPre0132 (h : Hashes) (b : Header) : F :=
  chain h [felt b.number, b.stateCommitment, b.sequencer, felt b.timestamp, felt b.transactionCount, b.transactionCommitment,
    felt b.eventCount, b.eventCommitment, 0, 0, b.parent]

/-- `concatenate_counts` (lib.rs:480-497): three big endian 64 bit numbers, one byte and seven zero bytes, as one number. -/
def concatCounts (b : Header) : F :=
  felt (b.transactionCount * 2 ^ 192 + b.eventCount * 2 ^ 128 + b.stateDiffLength * 2 ^ 64 + (if b.blob then 128 else 0) * 2 ^ 56)

/-- `gas_prices_to_hash` (lib.rs:499-509). -/
def gasPricesHash (h : Hashes) (b : Header) : F :=
  h.many [feltText "STARKNET_GAS_PRICES0".toList, felt b.ethL1Gas, felt b.strkL1Gas, felt b.ethL1DataGas, felt b.strkL1DataGas,
    felt b.ethL2Gas, felt b.strkL2Gas]

/-- `compute_final_hash_v0` (lib.rs:324-349). -/
def hashV0 (h : Hashes) (b : Header) : F :=
  h.many [feltText "STARKNET_BLOCK_HASH0".toList, felt b.number, b.stateCommitment, b.sequencer, felt b.timestamp, concatCounts b,
    b.stateDiffCommitment, b.transactionCommitment, b.eventCommitment, b.receiptCommitment, felt b.ethL1Gas, felt b.strkL1Gas,
    felt b.ethL1DataGas, felt b.strkL1DataGas, feltText b.version.show, 0, b.parent]

/-- `compute_final_hash_v1` (lib.rs:353-375). -/
def hashV1 (h : Hashes) (b : Header) : F :=
  h.many [feltText "STARKNET_BLOCK_HASH1".toList, felt b.number, b.stateCommitment, b.sequencer, felt b.timestamp, concatCounts b,
    b.stateDiffCommitment, b.transactionCommitment, b.eventCommitment, b.receiptCommitment, gasPricesHash h b,
    feltText b.version.show, 0, b.parent]

/-- `compute_final_hash` (lib.rs:379-389). -/
def finalHash (h : Hashes) (b : Header) : F := if before b.version v0134 then hashV0 h b else hashV1 h b

/-- `verify_block_hash` (lib.rs:142-180). `none` is the error for a custom chain with an old block. -/
def verifyBlockHash (h : Hashes) (b : Header) (c : Chain) (chainId : F) : Option Bool :=
  if b.number < c.first07 then
    if c = .custom then none else some (hashPre07 h b chainId == b.hash)
  else if before b.version v0132 then
    if hashPre0132 h b == b.hash then some true
    else match c.fallback with
      | some a => some (hashPre0132 h { b with sequencer := a } == b.hash)
      | none => some false
  else some (finalHash h b == b.hash)

/-! ## Blocks of the gateway -/

/-- The gateway's `Block` (gateway-types/src/reply.rs:13-56). Gas prices are pairs (wei, fri). The status is in `GwReply`; the state diff
commitment and length of the reply are not used to check it. -/
structure GwBlock where
  hash : F
  number : Nat
  l1Gas : Nat × Nat
  l1DataGas : Nat × Nat
  l2Gas : Option (Nat × Nat)
  parent : F
  sequencer : Option F
  stateCommitment : F
  timestamp : Nat
  receipts : List (Receipt × List Event)
  transactions : List Tx
  version : Version
  transactionCommitment : F
  eventCommitment : F
  blob : Bool
  receiptCommitment : Option F
  deriving DecidableEq, Repr

/-- The events by transaction (lib.rs:76-80; l2.rs:1484-1488). -/
def GwBlock.events (b : GwBlock) : List (F × List Event) := b.receipts.map fun p => (p.1.txHash, p.2)

/-- `header_from_gateway_block` (lib.rs:97-131). -/
def headerOf (b : GwBlock) (sdc : F) (sdl : Nat) : Header :=
  { hash := b.hash, parent := b.parent, number := b.number, timestamp := b.timestamp
    ethL1Gas := b.l1Gas.1, strkL1Gas := b.l1Gas.2, ethL1DataGas := b.l1DataGas.1, strkL1DataGas := b.l1DataGas.2
    ethL2Gas := (b.l2Gas.getD (0, 0)).1, strkL2Gas := (b.l2Gas.getD (0, 0)).2
    sequencer := b.sequencer.getD 0, version := b.version, eventCommitment := b.eventCommitment, stateCommitment := b.stateCommitment
    transactionCommitment := b.transactionCommitment, transactionCount := b.transactions.length
    eventCount := (b.receipts.flatMap (·.2)).length, blob := b.blob, receiptCommitment := b.receiptCommitment.getD 0
    stateDiffCommitment := sdc, stateDiffLength := sdl }

/-- A commitment of the block, checked unless it is missing, and the one to go on with (l2.rs:1455-1465, 1473-1482, 1495-1503). -/
def settle (given : Option F) (computed : F) : Option F :=
  match given with
  | none => some computed
  | some g => if computed = g then some g else none

/-- Zero stands for a missing commitment (l2.rs:1456, 1495). -/
def nonzero (c : F) : Option F := if c = 0 then none else some c

/-- `verify_gateway_block_commitments_and_hash` (l2.rs:1442-1539; the same checks as lib.rs:31-94): an error, a mismatch (`none`), or the
three commitments in the form of version 0.13.2 or later. Simplification: all three are computed before the first is compared. -/
def verifyGw (h : Hashes) (b : GwBlock) (sdc : F) (sdl : Nat) (c : Chain) (chainId : F) : Except Unit (Option (F × F × F)) :=
  match transactionCommitment h b.transactions b.version, receiptCommitment h (b.receipts.map (·.1)),
      eventCommitment h b.events b.version with
  | .ok tc, .ok rc, .ok ec =>
    match settle (nonzero b.transactionCommitment) tc, settle b.receiptCommitment rc, settle (nonzero b.eventCommitment) ec with
    | some tc', some rc', some ec' =>
      match verifyBlockHash h { headerOf b sdc sdl with transactionCommitment := tc', receiptCommitment := rc', eventCommitment := ec' }
          c chainId with
      | none => .error ()
      | some false => .ok none
      | some true =>
        if before b.version v0132 then
          match transactionCommitment h b.transactions v0132, eventCommitment h b.events v0132 with
          | .ok t, .ok e => .ok (some (t, e, rc))
          | _, _ => .error ()
        else .ok (some (tc, ec, rc))
    | _, _, _ => .ok none
  | _, _, _ => .error ()

end Verif.Block
