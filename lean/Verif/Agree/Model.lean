/-!
# Methods that describe a block (C108)

The tables that the block methods read, the statements that write them, and the JSON-RPC methods
as functions of the tables.  Each method runs inside one database transaction, so that it sees one
state of the tables.

Simplified: a transaction is a hash with a body, and receipts and events are opaque numbers; how they
are encoded is not part of this model.  Numbers are unbounded.  SQL tables are lists;
`ORDER BY` and `LIMIT 1` are written out.
-/

namespace Verif.Agree

/-- A row of `block_headers` (`crates/storage/src/connection/block.rs:11-43`): the number, the hash
and everything else. -/
structure Hdr where
  num : Nat
  hash : Nat
  info : Nat
deriving DecidableEq, Repr

/-- A transaction with its hash (`crates/common/src/transaction.rs`). -/
structure Tx where
  hash : Nat
  body : Nat
deriving DecidableEq, Repr

/-- A row of `transactions`: the block's transactions with their receipts in one blob, and the
events, if known, in another (`crates/storage/src/schema/revision_0056.rs` and later). -/
structure Row where
  num : Nat
  data : List (Tx × Nat)
  events : Option (List (List Nat))
deriving DecidableEq, Repr

/-- A row of `transaction_hashes`. -/
structure HashRow where
  hash : Nat
  num : Nat
  idx : Nat
deriving DecidableEq, Repr

/-- The tables, and `refs.l1_l2_head` (`crates/storage/src/connection/reference.rs:6-31`). -/
structure DB where
  headers : List Hdr
  rows : List Row
  hashes : List HashRow
  l1 : Option Nat
deriving DecidableEq, Repr

/-- An empty database. -/
def DB.empty : DB := ⟨[], [], [], none⟩

/-- The writes. -/
inductive Op
  /-- `insert_block_header` -/
  | header (h : Hdr)
  /-- `insert_transaction_data` -/
  | body (n : Nat) (data : List (Tx × Nat)) (events : Option (List (List Nat)))
  /-- `update_events` -/
  | events (n : Nat) (evs : List (List Nat))
  /-- `purge_block` or `prune_block` -/
  | remove (n : Nat)
  /-- `update_l1_l2_pointer` -/
  | pointer (p : Option Nat)
deriving Repr

/-- `INSERT INTO block_headers` (`block.rs:11-43`).  The hash is the primary key and there is a
unique index on the number: a violation is an error. -/
def insertHeader (db : DB) (h : Hdr) : Option DB :=
  if db.headers.any (fun x => x.num == h.num || x.hash == h.hash) then none
  else some { db with headers := db.headers ++ [h] }

/-- The rows of `transaction_hashes` for a block, from index `i` on (`transaction.rs:152-168`). -/
def hashRows (n : Nat) : Nat → List (Tx × Nat) → List HashRow
  | _, [] => []
  | i, (t, _) :: rest => ⟨t.hash, n, i⟩ :: hashRows n (i + 1) rest

/-- Inserts rows one by one; `transaction_hashes.hash` is the primary key. -/
def insertHashes : List HashRow → List HashRow → Option (List HashRow)
  | tbl, [] => some tbl
  | tbl, r :: rs => if tbl.any (fun x => x.hash == r.hash) then none else insertHashes (tbl ++ [r]) rs

/-- `insert_transaction_data` (`crates/storage/src/connection/transaction.rs:95-172`): nothing is
written when there are no transactions and no events; `transactions.block_number` is the primary
key and refers to `block_headers`. -/
def insertBody (db : DB) (n : Nat) (data : List (Tx × Nat)) (events : Option (List (List Nat))) :
    Option DB :=
  if data = [] ∧ (events.getD []) = [] then some db
  else if ! db.headers.any (fun x => x.num == n) then none
  else if db.rows.any (fun x => x.num == n) then none
  else (insertHashes db.hashes (hashRows n 0 data)).map fun hs =>
    { db with rows := db.rows ++ [⟨n, data, events⟩], hashes := hs }

/-- `update_events` (`transaction.rs:174-209`): an `UPDATE` that affects the block's row, if any. -/
def updateEvents (db : DB) (n : Nat) (evs : List (List Nat)) : DB :=
  { db with rows := db.rows.map fun r => if r.num = n then { r with events := some evs } else r }

/-- `purge_block` (`block.rs:96-199`) and `prune_block` (`crates/storage/src/pruning.rs:45-67`):
the header is deleted, and with it the rows that refer to it (`ON DELETE CASCADE`). -/
def removeBlock (db : DB) (n : Nat) : DB :=
  { db with
    headers := db.headers.filter fun h => h.num != n
    rows := db.rows.filter fun r => r.num != n
    hashes := db.hashes.filter fun r => r.num != n }

/-- One write; `none` is an error, after which the transaction is rolled back. -/
def step (db : DB) : Op → Option DB
  | .header h => insertHeader db h
  | .body n data events => insertBody db n data events
  | .events n evs => some (updateEvents db n evs)
  | .remove n => some (removeBlock db n)
  | .pointer p => some { db with l1 := p }

/-- Writes in order. -/
def run : DB → List Op → Option DB
  | db, [] => some db
  | db, op :: ops => (step db op).bind fun db' => run db' ops

/-! ## Queries -/

/-- `pathfinder_common::BlockId` (`crates/common/src/lib.rs`). -/
inductive Id
  | number (n : Nat)
  | hash (h : Nat)
  | latest
deriving DecidableEq, Repr

/-- `SELECT … ORDER BY number DESC LIMIT 1`. -/
def newest : List Hdr → Option Hdr
  | [] => none
  | h :: hs => match newest hs with
    | none => some h
    | some m => if m.num ≤ h.num then some h else some m

/-- `block_header` (`block.rs:349-371`): the row selected by `BlockId`. -/
def blockHeader (db : DB) : Id → Option Hdr
  | .number n => db.headers.find? fun h => h.num == n
  | .hash x => db.headers.find? fun h => h.hash == x
  | .latest => newest db.headers

/-- `block_id` (`block.rs:201-232`): for a number only the hash is read, for a hash only the
number. -/
def blockId (db : DB) : Id → Option (Nat × Nat)
  | .number n => (db.headers.find? fun h => h.num == n).map fun h => (n, h.hash)
  | .hash x => (db.headers.find? fun h => h.hash == x).map fun h => (h.num, x)
  | .latest => (newest db.headers).map fun h => (h.num, h.hash)

/-- `block_number` (`block.rs:268-303`). -/
def blockNumber (db : DB) : Id → Option Nat
  | .number n => if db.headers.any (fun h => h.num == n) then some n else none
  | .hash x => (db.headers.find? fun h => h.hash == x).map Hdr.num
  | .latest => (newest db.headers).map Hdr.num

/-- `block_exists` (`block.rs:316-338`): `SELECT EXISTS`. -/
def blockExists (db : DB) : Id → Bool
  | .number n => db.headers.any fun h => h.num == n
  | .hash x => db.headers.any fun h => h.hash == x
  | .latest => ! db.headers.isEmpty

/-- `block_is_l1_accepted` (`block.rs:424-434`). -/
def blockIsL1Accepted (db : DB) (id : Id) : Bool :=
  match db.l1 with
  | none => false
  | some p => match blockId db id with
    | none => false
    | some (n, _) => decide (n ≤ p)

/-- `query_transactions_by_block` (`transaction.rs:399-440`): no row reads as no transactions. -/
def queryTransactions (db : DB) (n : Nat) : List (Tx × Nat) :=
  match db.rows.find? fun r => r.num == n with
  | none => []
  | some r => r.data

/-- `query_transactions_and_events_by_block` (`transaction.rs:442-500`): no events read as an empty
list. -/
def queryEvents (db : DB) (n : Nat) : List (List Nat) :=
  match db.rows.find? fun r => r.num == n with
  | none => []
  | some r => r.events.getD []

/-- `transactions_for_block` (`transaction.rs:279-293`). -/
def transactionsForBlock (db : DB) (id : Id) : Option (List Tx) :=
  (blockNumber db id).map fun n => (queryTransactions db n).map Prod.fst

/-- `transaction_data_for_block` (`transaction.rs:260-277`): transactions with receipts, zipped
with the events. -/
def transactionDataForBlock (db : DB) (id : Id) : Option (List (Tx × Nat × List Nat)) :=
  (blockNumber db id).map fun n =>
    ((queryTransactions db n).zip (queryEvents db n)).map fun p => (p.1.1, p.1.2, p.2)

/-- `transaction_count` (`transaction.rs:253-258`). -/
def transactionCount (db : DB) (id : Id) : Nat :=
  match blockNumber db id with
  | none => 0
  | some n => (queryTransactions db n).length

/-- `transaction_at_block` (`transaction.rs:239-251`). -/
def transactionAtBlock (db : DB) (id : Id) (i : Nat) : Option Tx :=
  (blockNumber db id).bind fun n => ((queryTransactions db n)[i]?).map Prod.fst

/-- Inserts a row into rows ordered by index. -/
def putByIdx (r : HashRow) : List HashRow → List HashRow
  | [] => [r]
  | x :: xs => if r.idx ≤ x.idx then r :: x :: xs else x :: putByIdx r xs

/-- `ORDER BY idx`. -/
def orderByIdx : List HashRow → List HashRow
  | [] => []
  | r :: rs => putByIdx r (orderByIdx rs)

/-- `transaction_hashes_for_block` (`transaction.rs:339-371`): read from `transaction_hashes`, not
from the block's blob. -/
def transactionHashesForBlock (db : DB) (id : Id) : Option (List Nat) :=
  (blockNumber db id).map fun n =>
    (orderByIdx (db.hashes.filter fun r => r.num == n)).map HashRow.hash

/-- `query_transaction_and_events_by_hash` (`transaction.rs:594-651`) and
`transaction_with_receipt` (`transaction.rs:226-237`): the join of the two tables.  `none` is not
found; `some none` is an error (the transaction or its events are missing from the blob). -/
def transactionWithReceipt (db : DB) (hash : Nat) : Option (Option (Nat × Tx × Nat × List Nat)) :=
  (db.hashes.find? fun r => r.hash == hash).bind fun hr =>
    (db.rows.find? fun r => r.num == hr.num).map fun row =>
      (row.data[hr.idx]?).bind fun p =>
        row.events.bind fun evs => (evs[hr.idx]?).map fun ev => (row.num, p.1, p.2, ev)

/-! ## Methods -/

/-- `crate::types::BlockId` without `pre_confirmed` (`crates/rpc/src/types.rs:20-34`). -/
inductive RpcId
  | number (n : Nat)
  | hash (h : Nat)
  | latest
  | l1Accepted
deriving DecidableEq, Repr

/-- The errors (`crates/rpc/src/error.rs`). -/
inductive Err
  | blockNotFound
  | invalidTxnIndex
  | noBlocks
  | txnHashNotFound
  | internal
deriving DecidableEq, Repr

/-- `to_common_or_panic` (`crates/rpc/src/types.rs:58-76`); `none` is the error that every method
reports as `BlockNotFound`. -/
def toCommon (db : DB) : RpcId → Option Id
  | .number n => some (.number n)
  | .hash h => some (.hash h)
  | .latest => some .latest
  | .l1Accepted => db.l1.map Id.number

/-- An answer that must be there: `None` is an internal error (`.context(…)?`). -/
def must {α : Type} : Option α → Except Err α
  | none => .error .internal
  | some a => .ok a

/-- `get_block_with_tx_hashes` (`get_block_with_tx_hashes.rs:43-118`): header, L1 acceptance and
hashes. -/
def getBlockWithTxHashes (db : DB) (rid : RpcId) : Except Err (Hdr × Bool × List Nat) :=
  match toCommon db rid with
  | none => .error .blockNotFound
  | some id => match blockHeader db id with
    | none => .error .blockNotFound
    | some h => match must (transactionHashesForBlock db (.number h.num)) with
      | .error e => .error e
      | .ok hs => .ok (h, blockIsL1Accepted db (.number h.num), hs)

/-- `get_block_with_txs` (`get_block_with_txs.rs:63-140`). -/
def getBlockWithTxs (db : DB) (rid : RpcId) : Except Err (Hdr × Bool × List Tx) :=
  match toCommon db rid with
  | none => .error .blockNotFound
  | some id => match blockHeader db id with
    | none => .error .blockNotFound
    | some h => match must (transactionsForBlock db (.number h.num)) with
      | .error e => .error e
      | .ok ts => .ok (h, blockIsL1Accepted db (.number h.num), ts)

/-- `get_block_with_receipts` (`get_block_with_receipts.rs:60-133`). -/
def getBlockWithReceipts (db : DB) (rid : RpcId) :
    Except Err (Hdr × Bool × List (Tx × Nat × List Nat)) :=
  match toCommon db rid with
  | none => .error .blockNotFound
  | some id => match blockHeader db id with
    | none => .error .blockNotFound
    | some h => match must (transactionDataForBlock db id) with
      | .error e => .error e
      | .ok ts => .ok (h, blockIsL1Accepted db id, ts)

/-- `get_block_transaction_count` (`get_block_transaction_count.rs:27-70`). -/
def getBlockTransactionCount (db : DB) (rid : RpcId) : Except Err Nat :=
  match toCommon db rid with
  | none => .error .blockNotFound
  | some id => if blockExists db id then .ok (transactionCount db id) else .error .blockNotFound

/-- `get_transaction_by_block_id_and_index` (`get_transaction_by_block_id_and_index.rs:52-125`). -/
def getTransactionByBlockIdAndIndex (db : DB) (rid : RpcId) (i : Nat) : Except Err Tx :=
  match toCommon db rid with
  | none => .error .blockNotFound
  | some id => match transactionAtBlock db id i with
    | some t => .ok t
    | none => if blockExists db id then .error .invalidTxnIndex else .error .blockNotFound

/-- `block_number` (`crates/rpc/src/method/block_number.rs:12-35`). -/
def getBlockNumber (db : DB) : Except Err Nat :=
  match blockId db .latest with
  | none => .error .noBlocks
  | some (n, _) => .ok n

/-- `block_hash_and_number` (`crates/rpc/src/method/block_hash_and_number.rs:14-37`). -/
def getBlockHashAndNumber (db : DB) : Except Err (Nat × Nat) :=
  match blockId db .latest with
  | none => .error .noBlocks
  | some r => .ok r

/-- `last_l1_accepted_block_hash_and_number`
(`last_l1_accepted_block_hash_and_number.rs:14-37`). -/
def getLastL1Accepted (db : DB) : Except Err (Nat × Nat) :=
  match db.l1 with
  | none => .error .noBlocks
  | some p => match blockId db (.number p) with
    | none => .error .noBlocks
    | some r => .ok r

/-- `get_transaction_receipt` for a transaction that is not pre-confirmed
(`get_transaction_receipt.rs:82-148`): the receipt, the block's number and hash, and whether the
block is accepted on L1. -/
def getTransactionReceipt (db : DB) (hash : Nat) :
    Except Err (Tx × Nat × List Nat × Nat × Nat × Bool) :=
  match transactionWithReceipt db hash with
  | none => .error .txnHashNotFound
  | some none => .error .internal
  | some (some (n, t, r, ev)) => match blockId db (.number n) with
    | none => .error .internal
    | some (_, bh) => .ok (t, r, ev, n, bh, blockIsL1Accepted db (.number n))

/-- A state update: changes of contracts, changes of system contracts, declared classes. -/
structure Upd where
  contracts : List (Nat × Nat)
  system : List (Nat × Nat)
  declared : List Nat
deriving DecidableEq, Repr

/-- `filter_state_update_contracts` (`get_state_update.rs:117-127`). -/
def filterUpd (u : Upd) (sought : List Nat) : Upd :=
  { u with
    contracts := u.contracts.filter fun c => sought.contains c.1
    system := u.system.filter fun c => sought.contains c.1 }

/-- `get_state_update` (`get_state_update.rs:55-115`).  `stored` stands for the state update that
storage reads for a stored block (the subject of C20). -/
def getStateUpdate (stored : Nat → Upd) (db : DB) (rid : RpcId) (sought : List Nat) :
    Except Err Upd :=
  match toCommon db rid with
  | none => .error .blockNotFound
  | some id => match blockNumber db id with
    | none => .error .blockNotFound
    | some n =>
      if n ≠ 0 ∧ ! blockExists db (.number (n - 1)) then .error .blockNotFound
      else if sought.isEmpty then .ok (stored n) else .ok (filterUpd (stored n) sought)

end Verif.Agree
