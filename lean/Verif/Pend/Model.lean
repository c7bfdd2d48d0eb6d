import Verif.Diff.Model
import Verif.State.Model
/-!
# Blocks that are not yet on the chain, and queries about them

Model of `crates/rpc/src/pending.rs`, of the conversion of gateway state differences in `crates/gateway-types/src/reply.rs`, and of the
methods of `crates/rpc/src/method` that read the state or a transaction with the block tag `pre_confirmed`. A field element is a number. A
hash map or hash set is the list of its entries. The gas prices, addresses and times of the blocks are left out: they are passed on as they
are. The chain's state is the database of `Verif.State`.
-/
namespace Verif.Pend
open Verif.Diff (SU CUpd Found modify insert insertSet)

/-! ## State differences of the gateway -/

/-- `state_update::StateDiff` (reply.rs:2142-2159). `storage` and `nonces` are hash maps, `cairo` is a hash set, the others are vectors. -/
structure GDiff where
  storage : List (Nat × List (Nat × Nat)) := []
  deployed : List (Nat × Nat) := []
  cairo : List Nat := []
  sierra : List (Nat × Nat) := []
  nonces : List (Nat × Nat) := []
  replaced : List (Nat × Nat) := []
  migrated : List (Nat × Nat) := []
  deriving DecidableEq

/-- `StateDiff::extend` (reply.rs:2168-2182). The migrated classes of `other` are left out, as in the program. -/
def extend (d other : GDiff) : GDiff :=
  { d with
    storage := other.storage.foldl (fun l p => modify [] l p.1 fun v => v ++ p.2) d.storage
    deployed := d.deployed ++ other.deployed
    cairo := other.cairo.foldl insertSet d.cairo
    sierra := d.sierra ++ other.sierra
    nonces := other.nonces.foldl insert d.nonces
    replaced := d.replaced ++ other.replaced }

/-- `StateDiff::deduplicate` (reply.rs:2185-2202). -/
def dedup (d : GDiff) : GDiff := { d with storage := d.storage.map fun p => (p.1, p.2.foldl insert []) }

/-- `with_storage_update` (state_update.rs:150-163), for the entry of the map. -/
def putStorage (l : List (Nat × CUpd)) (p : Nat × (Nat × Nat)) : List (Nat × CUpd) :=
  modify {} l p.1 fun c => { c with storage := insert c.storage p.2 }

/-- `with_system_storage_update` (state_update.rs:165-177). -/
def putSystem (l : List (Nat × List (Nat × Nat))) (p : Nat × (Nat × Nat)) : List (Nat × List (Nat × Nat)) :=
  modify [] l p.1 fun c => insert c p.2

/-- `with_deployed_contract` (state_update.rs:179-183). -/
def putDeployed (l : List (Nat × CUpd)) (p : Nat × Nat) : List (Nat × CUpd) :=
  modify {} l p.1 fun c => { c with cls := some (.deploy p.2) }

/-- `with_contract_nonce` (state_update.rs:145-148). -/
def putNonce (l : List (Nat × CUpd)) (p : Nat × Nat) : List (Nat × CUpd) := modify {} l p.1 fun c => { c with nonce := some p.2 }

/-- `with_replaced_class` (state_update.rs:185-189). -/
def putReplaced (l : List (Nat × CUpd)) (p : Nat × Nat) : List (Nat × CUpd) :=
  modify {} l p.1 fun c => { c with cls := some (.replace p.2) }

/-- The nested loops over a storage difference, as one list of writes. -/
def flat (s : List (Nat × List (Nat × Nat))) : List (Nat × (Nat × Nat)) := s.flatMap fun p => p.2.map fun kv => (p.1, kv)

/-- The entries that are removed for the system contracts (reply.rs:2071-2082), in the order of the addresses. -/
def systemStorage (s : List (Nat × List (Nat × Nat))) : List (Nat × List (Nat × Nat)) :=
  [1, 2].filterMap fun a => (s.lookup a).map fun v => (a, v)

/-- The conversion of a gateway state update (reply.rs:2056-2133), without the block hash and the commitments. -/
def toSU (d : GDiff) : SU :=
  { system := (flat (systemStorage d.storage)).foldl putSystem []
    contracts := d.replaced.foldl putReplaced (d.nonces.foldl putNonce (d.deployed.foldl putDeployed
      ((flat (d.storage.filter fun p => !State.isSystem p.1)).foldl putStorage [])))
    sierra := d.sierra.foldl insert []
    migrated := d.migrated.foldl insert []
    cairo := d.cairo }

/-! ## Pending data -/

/-- A transaction: its hash and all the rest. -/
structure Tx where
  hash : Nat
  body : Nat
  deriving DecidableEq

/-- A receipt with its events: the hash of its transaction, the execution status and all the rest. -/
structure Rcpt where
  tx : Nat
  exec : Nat
  rest : Nat
  deriving DecidableEq

/-- `reply::PreConfirmedBlock` (reply.rs:96-120). -/
structure GBlock where
  txs : List Tx := []
  receipts : List (Option Rcpt) := []
  diffs : List (Option GDiff) := []
  deriving DecidableEq

/-- The pre-latest block as the gateway gives it: number, hash of the parent, body and state difference. -/
structure GLatest where
  number : Nat
  parent : Nat
  txs : List Tx
  receipts : List Rcpt
  diff : GDiff
  deriving DecidableEq

/-- `PreLatestData` (pending.rs:81-85). `root` is the parent state commitment of the state update. -/
structure PreLatest where
  number : Nat
  parent : Nat
  txs : List Tx
  receipts : List Rcpt
  su : SU
  root : Nat

/-- `PendingData` and `PendingBlocks` (pending.rs:89-97, 131-146). `root` is the parent state commitment of the state update of the
pre-confirmed block. -/
structure Data where
  txs : List Tx
  receipts : List Rcpt
  preLatest : Option PreLatest
  cand : List Tx
  su : SU
  root : Nat
  agg : SU
  number : Nat

/-- What can go wrong: an error is returned, or the program panics. -/
inductive Fail
  | bail
  | panic
  deriving DecidableEq

/-- The state differences of the transactions of a pre-confirmed block as one (pending.rs:205-215). -/
def total (g : GBlock) : GDiff := dedup ((g.diffs.filterMap id).foldl extend {})

/-- The conversion of the pre-latest block (pending.rs:242-268), without its assertion. -/
def preLatest (p : GLatest) : PreLatest := ⟨p.number, p.parent, p.txs, p.receipts, toSU p.diff, 0⟩

/-- `transaction_receipts` without the missing ones (pending.rs:184-188). -/
def given (g : GBlock) : List Rcpt := g.receipts.filterMap id

/-- The transactions that have a receipt (pending.rs:190-198). -/
def executed (g : GBlock) : List Tx := g.txs.filter fun t => ((given g).map (·.tx)).contains t.hash

/-- The other transactions (pending.rs:190-198). -/
def candidates (g : GBlock) : List Tx := g.txs.filter fun t => !((given g).map (·.tx)).contains t.hash

/-- `try_from_pre_confirmed_and_pre_latest` (pending.rs:171-288). -/
def convert (g : GBlock) (number : Nat) (pl : Option GLatest) : Except Fail Data :=
  if (given g).length ≠ (executed g).length then .error .bail
  else if (pl.map fun p => p.number + 1).getD number ≠ number then .error .panic
  else .ok
    { txs := executed g
      receipts := given g
      preLatest := pl.map preLatest
      cand := candidates g
      su := toSU (total g)
      root := 0
      agg := Diff.apply ((pl.map fun p => toSU p.diff).getD {}) (toSU (total g))
      number }

/-- `PendingData::empty` (pending.rs:299-333): the block that follows the latest one. -/
def empty (number root : Nat) : Data := ⟨[], [], none, [], {}, root, {}, number + 1⟩

/-- `PendingWatcher::get` (pending.rs:602-718). `head` and `root` are number and state commitment of the latest block, `v9` says that the
version of the interface is at least 0.9, `w` is the data that is watched. -/
def get (head root : Nat) (v9 : Bool) (w : Data) : Except Fail Data :=
  if v9 then
    match w.preLatest with
    | some p =>
      if p.number = head + 1 then
        if p.number + 1 = w.number then .ok { w with preLatest := some { p with root } } else .error .panic
      else if p.number = head then
        if p.number + 1 = w.number then .ok { w with preLatest := none, root, agg := w.su } else .error .panic
      else .ok (empty head root)
    | none => if w.number = head + 1 then .ok { w with root, agg := w.su } else .ok (empty head root)
  else .ok (empty head root)

/-! ## State queries -/

/-- The answer of a query. -/
inductive Ans (α : Type)
  | ok (a : α)
  | blockNotFound
  | contractNotFound
  | panic
  deriving DecidableEq

/-- `get_nonce` with a block tag of the chain's tip (get_nonce.rs:60-83). -/
def dbNonce (db : State.Db) (a : Nat) : Ans Nat :=
  if (State.head db).isNone then .blockNotFound
  else match State.contractNonce db .latest a with
    | some n => .ok n
    | none => if State.contractExists db .latest a then .ok 0 else .contractNotFound

/-- `get_nonce` with the tag `pre_confirmed` (get_nonce.rs:45-83). -/
def getNonce (db : State.Db) (root : Nat) (v9 : Bool) (w : Data) (a : Nat) : Ans Nat :=
  match get ((State.head db).getD 0) root v9 w with
  | .error _ => .panic
  | .ok d => match Diff.contractNonce d.agg a with
    | some n => .ok n
    | none => dbNonce db a

/-- `get_storage_at` with a block tag of the chain's tip (get_storage_at.rs:99-127): the value and the block of its last update. -/
def dbStorage (db : State.Db) (a k : Nat) : Ans (Nat × Nat) :=
  if (State.head db).isNone then .blockNotFound
  else match State.storageValueWithBlock db .latest a k with
    | some p => .ok p
    | none => if State.contractExists db .latest a then .ok (0, 0) else .contractNotFound

/-- `get_storage_at` with the tag `pre_confirmed` (get_storage_at.rs:79-127). -/
def getStorage (db : State.Db) (root : Nat) (v9 : Bool) (w : Data) (a k : Nat) : Ans (Nat × Nat) :=
  match get ((State.head db).getD 0) root v9 w with
  | .error _ => .panic
  | .ok d => match Diff.storageValue d.agg a k with
    | some .zero => .ok (0, 0)
    | some (.set v) => .ok (v, d.number)
    | none => dbStorage db a k

/-- `get_class_hash_at` with a block tag of the chain's tip (get_class_hash_at.rs:57-75). -/
def dbClass (db : State.Db) (a : Nat) : Ans Nat :=
  if (State.head db).isNone then .blockNotFound
  else match State.contractClass db .latest a with
    | some c => .ok c
    | none => .contractNotFound

/-- `get_class_hash_at` with the tag `pre_confirmed` (get_class_hash_at.rs:45-75). -/
def getClassHash (db : State.Db) (root : Nat) (v9 : Bool) (w : Data) (a : Nat) : Ans Nat :=
  match get ((State.head db).getD 0) root v9 w with
  | .error _ => .panic
  | .ok d => match Diff.contractClass d.agg a with
    | some c => .ok c
    | none => dbClass db a

/-! ## Transaction queries -/

/-- The stored bodies: for each block the transactions with their receipts, and the number of the last block that L1 accepted. -/
structure Bodies where
  blocks : List (List (Tx × Rcpt))
  l1 : Option Nat

/-- `transaction_with_receipt` (storage/src/connection/transaction.rs): the block of a stored transaction, and the transaction. -/
def Bodies.find (b : Bodies) (h : Nat) : Option (Nat × Tx × Rcpt) :=
  b.blocks.zipIdx.findSome? fun p => (p.1.find? fun t => t.1.hash == h).map fun t => (p.2, t.1, t.2)

/-- `find_transaction` (pending.rs:484-508). -/
def findTx (d : Data) (h : Nat) : Option Tx :=
  ((d.txs.find? fun t => t.hash == h).or (d.cand.find? fun t => t.hash == h)).or
    (d.preLatest.bind fun p => p.txs.find? fun t => t.hash == h)

/-- `FinalizedTxData` (pending.rs:29-35). The finality is always `PreConfirmed`. -/
structure Final where
  block : Nat
  tx : Tx
  receipt : Rcpt
  deriving DecidableEq

/-- The receipt that is looked up for a transaction that was found; a panic if there is none (pending.rs:526-532, 549-557). -/
def withReceipt (number : Nat) (receipts : List Rcpt) (t : Tx) (h : Nat) : Except Fail (Option Final) :=
  match receipts.find? fun r => r.tx == h with
  | some r => .ok (some ⟨number, t, r⟩)
  | none => .error .panic

/-- The second half of `find_finalized_tx_data`: the pre-latest block (pending.rs:543-571). -/
def findFinalLatest (p : Option PreLatest) (h : Nat) : Except Fail (Option Final) :=
  match p with
  | none => .ok none
  | some p => match p.txs.find? fun t => t.hash == h with
    | some t => withReceipt p.number p.receipts t h
    | none => .ok none

/-- `find_finalized_tx_data` (pending.rs:515-574). -/
def findFinal (d : Data) (h : Nat) : Except Fail (Option Final) :=
  match d.txs.find? fun t => t.hash == h with
  | some t => withReceipt d.number d.receipts t h
  | none => findFinalLatest d.preLatest h

/-- The answer of `get_transaction_receipt` (get_transaction_receipt.rs:98-146). -/
inductive RcptAns
  | pending (f : Final)
  | full (block : Nat) (tx : Tx) (receipt : Rcpt) (l1 : Bool)
  | notFound
  | panic
  deriving DecidableEq

/-- `block_is_l1_accepted` (storage/src/connection/block.rs), for a stored block. -/
def Bodies.onL1 (b : Bodies) (n : Nat) : Bool := decide (∃ m ∈ b.l1, n ≤ m)

/-- `get_transaction_receipt` (get_transaction_receipt.rs:84-147). -/
def getReceipt (head root : Nat) (v9 : Bool) (w : Data) (b : Bodies) (h : Nat) : RcptAns :=
  match get head root v9 w with
  | .error _ => .panic
  | .ok d => match findFinal d h with
    | .error _ => .panic
    | .ok (some f) => .pending f
    | .ok none => match b.find h with
      | some (n, t, r) => .full n t r (b.onL1 n)
      | none => .notFound

/-- `get_transaction_by_hash` (get_transaction_by_hash.rs:44-90). The outer `none` is a panic. -/
def getTx (head root : Nat) (v9 : Bool) (w : Data) (b : Bodies) (h : Nat) : Option (Option Tx) :=
  match get head root v9 w with
  | .error _ => none
  | .ok d => some ((findTx d h).or ((b.find h).map (·.2.1)))

/-- The status of a transaction that the node knows (get_transaction_status.rs:30-40). -/
inductive Status
  | candidate
  | preConfirmed (exec : Nat)
  | onL2 (exec : Nat)
  | onL1 (exec : Nat)
  deriving DecidableEq

/-- The first half of `get_transaction_status` (get_transaction_status.rs:52-109): `ok none` means that the gateway is asked. -/
def getStatus (head root : Nat) (v9 : Bool) (w : Data) (b : Bodies) (h : Nat) : Except Fail (Option Status) :=
  match get head root v9 w with
  | .error e => .error e
  | .ok d => match findFinal d h with
    | .error e => .error e
    | .ok (some f) => .ok (some (.preConfirmed f.receipt.exec))
    | .ok none =>
      if d.cand.any fun t => t.hash == h then .ok (some .candidate)
      else .ok ((b.find h).map fun p => if b.onL1 p.1 then .onL1 p.2.2.exec else .onL2 p.2.2.exec)

end Verif.Pend
