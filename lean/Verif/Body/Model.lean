import Verif.Block.Model
/-!
# Transactions, receipts and events of blocks

Model of the tables `transactions` and `transaction_hashes` with the functions of `crates/storage/src/connection/transaction.rs` that write and read them, and of
the stages of `crates/pathfinder/src/sync` that fill them with what peers send.

Simplifications: a block is given by its number. The encoding of the columns (bincode, zstd) is that of the values themselves. The event filters are
modelled in `Verif/Events`; here only the next block without events is kept. Errors of the database that are not constraints are left out.
-/
namespace Verif.Body
open Verif.Block (F Tx Receipt Event Hashes transactionCommitment eventCommitment before v0132)
open Verif.Common (Version)

/-- What the stages need of a row of `block_headers`. -/
structure Hdr where
  number : Nat
  version : Version
  transactionCommitment : F
  eventCommitment : F
  receiptCommitment : F
  transactionCount : Nat
  eventCount : Nat
  deriving DecidableEq, Repr

/-- A row of `transactions` (storage/src/schema/revision_0057.rs:128-132). -/
structure Row where
  number : Nat
  transactions : List (Tx × Receipt)
  events : Option (List (List Event))
  deriving DecidableEq, Repr

/-- The tables, and `next_block` of the running event filter. A row of `transaction_hashes` (revision_0057.rs:133-137) is the hash (the primary key), the
block and the index. -/
structure DB where
  headers : List Hdr
  rows : List Row
  hashes : List (F × Nat × Nat)
  nextEvents : Nat
  deriving DecidableEq, Repr

/-- `block_header`, `block_number` of a number (storage/src/connection/block.rs:349-371). -/
def DB.header (db : DB) (n : Nat) : Option Hdr := db.headers.find? fun h => h.number == n

/-- `insert_block_header` (block.rs:11-43): the number is unique. -/
def DB.insertHeader (db : DB) (h : Hdr) : Option DB :=
  if (db.header h.number).isSome then none else some { db with headers := h :: db.headers }

/-- The inserts into `transaction_hashes`, from an index on (transaction.rs:123-130). -/
def insertHashes (n : Nat) : Nat → List F → List (F × Nat × Nat) → Option (List (F × Nat × Nat))
  | _, [], t => some t
  | i, x :: l, t => if t.any fun r => r.1 == x then none else insertHashes n (i + 1) l (t ++ [(x, n, i)])

/-- `insert_transaction_data` (transaction.rs:94-170). The rows refer to a header. -/
def DB.insertData (db : DB) (n : Nat) (txs : List (Tx × Receipt)) (events : Option (List (List Event))) : Option DB :=
  let db := if events.isSome then { db with nextEvents := n + 1 } else db
  if txs.isEmpty && events.all (·.isEmpty) then some db
  else if (db.header n).isNone || db.rows.any fun r => r.number == n then none
  else (insertHashes n 0 (txs.map (·.1.hash)) db.hashes).map fun t => { db with hashes := t, rows := db.rows ++ [⟨n, txs, events⟩] }

/-- `update_events` (transaction.rs:172-215). -/
def DB.updateEvents (db : DB) (n : Nat) (events : List (List Event)) : DB :=
  { db with rows := db.rows.map (fun r => if r.number = n then { r with events := some events } else r), nextEvents := n + 1 }

/-- `purge_block` (block.rs:93-199) on these tables: the rows go with the header. -/
def DB.purge (db : DB) (n : Nat) : DB :=
  { db with
    headers := db.headers.filter (fun h => h.number != n)
    rows := db.rows.filter (fun r => r.number != n)
    hashes := db.hashes.filter (fun r => r.2.1 != n) }

/-! ## Reading -/

/-- The row of a block (transaction.rs:400-408, 452-460, 507-515). -/
def DB.row (db : DB) (n : Nat) : Option Row := db.rows.find? fun r => r.number == n

/-- `transactions_with_receipts_for_block` (transaction.rs:294-311, 396-424). The outer `none` is "no such block". -/
def DB.transactionsFor (db : DB) (n : Nat) : Option (List (Tx × Receipt)) :=
  (db.header n).map fun _ => (db.row n).elim [] (·.transactions)

/-- `transaction_data_for_block` (transaction.rs:257-277, 448-503). -/
def DB.dataFor (db : DB) (n : Nat) : Option (List ((Tx × Receipt) × List Event)) :=
  (db.header n).map fun _ => ((db.row n).elim [] (·.transactions)).zip (((db.row n).bind (·.events)).getD [])

/-- `query_transaction_infos_by_block` (transaction.rs:426-446). -/
def DB.infos (db : DB) (n : Nat) : List (F × Nat) :=
  ((db.hashes.filter fun r => r.2.1 == n).map fun r => (r.1, r.2.2)).mergeSort fun a b => decide (a.2 ≤ b.2)

/-- `transaction_hashes_for_block` (transaction.rs:339-350). -/
def DB.hashesFor (db : DB) (n : Nat) : Option (List F) := (db.header n).map fun _ => (db.infos n).map (·.1)

/-- `events_for_block` (transaction.rs:313-337). The error is "Event list and transaction list mismatch". -/
def DB.eventsFor (db : DB) (n : Nat) : Except Unit (Option (List ((F × Nat) × List Event))) :=
  if (db.header n).isNone then .ok none
  else
    let events := ((db.row n).bind (·.events)).getD []
    if events.length ≠ (db.infos n).length then .error () else .ok (some ((db.infos n).zip events))

/-- `transaction_at_block` (transaction.rs:233-246). -/
def DB.transactionAt (db : DB) (n i : Nat) : Option Tx := ((db.transactionsFor n).bind fun l => l[i]?).map (·.1)

/-- The row of a hash joined with that of its block (transaction.rs:546-558, 585-597). -/
def DB.joined (db : DB) (x : F) : Option (Row × Nat) :=
  (db.hashes.find? fun r => r.1 == x).bind fun r => (db.row r.2.1).map fun b => (b, r.2.2)

/-- `transaction` (transaction.rs:217-225, 542-579). The error is "Transaction not found". -/
def DB.transaction (db : DB) (x : F) : Except Unit (Option (Nat × Tx × Receipt)) :=
  match db.joined x with
  | none => .ok none
  | some (b, i) => match b.transactions[i]? with
    | none => .error ()
    | some (t, r) => .ok (some (b.number, t, r))

/-- `transaction_with_receipt` (transaction.rs:227-240, 581-651). The error is "Transaction not found" or "Events missing". -/
def DB.withReceipt (db : DB) (x : F) : Except Unit (Option (Nat × Tx × Receipt × List Event)) :=
  match db.joined x with
  | none => .ok none
  | some (b, i) => match b.transactions[i]?, b.events.bind fun l => l[i]? with
    | some (t, r), some e => .ok (some (b.number, t, r, e))
    | _, _ => .error ()

/-! ## Stages that verify and store -/

/-- `version.max(V_0_13_2)`. -/
def atLeast0132 (v : Version) : Version := if before v v0132 then v0132 else v

/-- `transactions::VerifyCommitment` (pathfinder/src/sync/transactions.rs:167-194). An error of the tree is an error too. -/
def verifyTransactions (h : Hashes) (hdr : Hdr) (txs : List (Tx × Receipt)) : Bool :=
  match transactionCommitment h (txs.map (·.1)) (atLeast0132 hdr.version) with
  | .ok c => c == hdr.transactionCommitment
  | .error _ => false

/-- The receipt that `CalculateHashes` makes (transactions.rs:100-108). -/
def withHash (p : Tx × Receipt) : Tx × Receipt := (p.1, { p.2 with txHash := p.1.hash })

/-- `transactions::FetchCommitmentFromDb`, `VerifyCommitment` and `Store` for one block (transactions.rs:85-236). `Store` counts blocks itself: the number
is that of the stream (C64). -/
def storeTransactions (h : Hashes) (db : DB) (n : Nat) (txs : List (Tx × Receipt)) : Option DB :=
  (db.header n).bind fun hdr =>
    if verifyTransactions h hdr (txs.map withHash) then db.insertData n (txs.map withHash) none else none

/-- `events::verify_commitment` (events.rs:53-92). -/
def verifyEvents (h : Hashes) (hdr : Hdr) (events : List (F × List Event)) : Bool :=
  match eventCommitment h events (atLeast0132 hdr.version) with
  | .ok c => c == hdr.eventCommitment
  | .error _ => false

/-- `events::verify_commitment` and `events::persist` for one block (events.rs:53-130). -/
def storeEvents (h : Hashes) (db : DB) (n : Nat) (events : List (F × List Event)) : Option DB :=
  (db.header n).bind fun hdr => if verifyEvents h hdr events then some (db.updateEvents n (events.map (·.2))) else none

/-- The events of one transaction among those received, in order: an entry of the `HashMap` of `EventSource` (track.rs:470-490). -/
def eventsOf (events : List (F × Event)) (x : F) : List Event := (events.filter fun p => p.1 == x).map (·.2)

/-- The number of keys of the `HashMap`. -/
def keyCount (events : List (F × Event)) : Nat := (events.map (·.1)).eraseDups.length

/-- `events::VerifyCommitment` (events.rs:132-179). -/
def verifyTracked (h : Hashes) (hdr : Hdr) (hashes : List F) (events : List (F × Event)) : Bool :=
  let ordered := (hashes.filter fun x => !(eventsOf events x).isEmpty).map fun x => (x, eventsOf events x)
  ordered.length == keyCount events && verifyEvents h hdr ordered

/-- The body of a block in `track.rs`: the sources take as many transactions and events as the header says (track.rs:340-426, 455-497), the stages verify
them, and `StoreBlock` stores them with the header in one transaction (track.rs:749-873). The state diff, the classes and the state root are in
`Verif/Diff` and `Verif/State`. A second transaction with the same hash is refused by the table; the events of the first were removed from the map. -/
def storeBlock (h : Hashes) (db : DB) (hdr : Hdr) (txs : List (Tx × Receipt)) (events : List (F × Event)) : Option DB :=
  if txs.length ≠ hdr.transactionCount ∨ events.length ≠ hdr.eventCount then none
  else if !verifyTransactions h hdr (txs.map withHash) then none
  else if !verifyTracked h hdr (txs.map (·.1.hash)) events then none
  else (db.insertHeader hdr).bind fun db =>
    db.insertData hdr.number (txs.map withHash) (some (txs.map fun p => eventsOf events p.1.hash))

/-! ## Where to resume -/

/-- The smallest of some numbers. -/
def smallest (l : List Nat) : Option Nat := l.min?

/-- `first_block_without_transactions` (storage/src/connection/block.rs:436-460): `LIMIT 1` of the headers without a row, by number. -/
def DB.firstWithoutTransactions (db : DB) : Option Nat :=
  smallest ((db.headers.filter fun h => (db.row h.number).isNone).map (·.number))

/-- `transactions::next_missing` (transactions.rs:36-57). -/
def DB.nextTransactions (db : DB) (head : Nat) : Option Nat := db.firstWithoutTransactions.filter (· ≤ head)

/-- `events::next_missing` (events.rs:20-32). -/
def DB.nextMissingEvents (db : DB) (head : Nat) : Option Nat := if db.nextEvents < head then some db.nextEvents else none

/-- `RunningEventFilter::load` (storage/src/connection/event.rs:616-804), as to `next_block`: after a restart it is the block after the last header, whether it
was stored or is rebuilt. -/
def DB.restart (db : DB) : DB := { db with nextEvents := (db.headers.map (·.number)).max?.elim 0 (· + 1) }

/-- `sync_transactions` (pathfinder/src/sync/checkpoint.rs:183-213, 334-351) with what a peer sends for each block, from the first block on. Stops at the first
error, with the blocks before it stored. -/
def syncTransactions (h : Hashes) (data : Nat → List (Tx × Receipt)) : Nat → Nat → DB → DB × Bool
  | _, 0, db => (db, true)
  | n, k + 1, db => match storeTransactions h db n (data n) with
    | none => (db, false)
    | some db => syncTransactions h data (n + 1) k db

/-- One run: from `next_missing` to the head. -/
def DB.syncTransactions (h : Hashes) (data : Nat → List (Tx × Receipt)) (db : DB) (head : Nat) : DB × Bool :=
  match db.nextTransactions head with
  | none => (db, true)
  | some n => Verif.Body.syncTransactions h data n (head + 1 - n) db

end Verif.Body
