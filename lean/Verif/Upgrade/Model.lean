import Verif.Events.Model
/-
Model of the migrations that build or repair the event index: crates/storage/src/schema/revision_0066.rs,
revision_0068.rs and revision_0074.rs. Filters, tables and the rebuilding of the running filter are those of
Verif/Events.

Simplifications for the whole file: the tables are reduced to the ones the index is made of; `canonical_blocks` and
`block_headers` list the same blocks; the compression of filters and of events is the identity; rows with missing events
(P2P checkpoint sync) do not occur; a migration that reports an error is not modelled, `none` stands for a panic.
-/
namespace Verif.Upgrade
open Verif.Events

/-- The tables before revision 66: the headers, the transactions with their events, and `starknet_events_filters`, a
Bloom filter per block (revision_0046.rs 13-20). -/
structure Old where
  headers : List (Nat × Nat)
  txs : List (Nat × List (Nat × List Event))
  blooms : List (Nat × List Byte)

/-- `SELECT number FROM canonical_blocks ORDER BY number DESC LIMIT 1`, revision_0066.rs 42-53. -/
def Old.latest (old : Old) : Option Nat := (old.headers.map (·.1)).max?

/-- The Bloom filter of a block, empty if it has no row, revision_0066.rs 78-88. -/
def oldBloom (c : Cfg) (old : Old) (n : Nat) : List Byte := (old.blooms.lookup n).getD (bloomNew c)

/-- One turn of the loop, revision_0066.rs 76-103: the aggregate that is being filled and the rows of `event_filters`. -/
def aggregateStep (c : Cfg) (old : Old) (st : Agg × List Agg) (n : Nat) : Option (Agg × List Agg) :=
  (aggInsert c st.1 (oldBloom c old n) n).map fun a =>
    if n = a.toBlock then (aggNew c (n + 1), st.2 ++ [a]) else (a, st.2)

/-- `migrate_event_filters`, revision_0066.rs 40-122: the rows of `event_filters`. -/
def aggregate (c : Cfg) (old : Old) : Option (List Agg) :=
  match old.latest with
  | none => some []
  | some latest => ((List.range (latest + 1)).foldlM (aggregateStep c old) (aggNew c 0, [])).map (·.2)

/-- Revision 66, revision_0066.rs 11-36: the table of Bloom filters is replaced. The running filter has no table yet; the
value given here is overwritten by revision 68. -/
def revision66 (c : Cfg) (old : Old) : Option Db :=
  (aggregate c old).map fun fs => { headers := old.headers, txs := old.txs, filters := fs, stored := (aggNew c 0, 0) }

/-- Revision 68, revision_0068.rs 9-63: the running filter is rebuilt and stored. -/
def revision68 (c : Cfg) (db : Db) : Option Db :=
  match latestBlock db with
  | none => some { db with stored := (aggNew c 0, 0) }
  | some latest => (rebuild c db latest).map fun r => { db with stored := r }

/-- `rebuild_event_filter`, revision_0074.rs 149-220. -/
def rebuildRange (c : Cfg) (db : Db) (from_ : Nat) : Option Agg :=
  (db.txs.filter fun r => decide (from_ ≤ r.1) && decide (r.1 ≤ from_ + c.len - 1)).foldlM
    (fun a r => aggInsert c a (blockBloom c (r.2.flatMap (·.2))) r.1) (aggNew c from_)

/-- `UPDATE event_filters SET bitmap = ? WHERE from_block = ? AND to_block = ?`, revision_0074.rs 81-89 and 107-113. -/
def setBitmap (fs : List Agg) (a : Agg) : List Agg :=
  fs.map fun f => if f.fromBlock = a.fromBlock ∧ f.toBlock = a.toBlock then { f with bitmap := a.bitmap } else f

/-- `(start_block..=end_block).step_by(AGGREGATE_BLOOM_BLOCK_RANGE_LEN)`, revision_0074.rs 103. -/
def stepBy (start stop len : Nat) : List Nat :=
  (List.range ((stop + len - start) / len)).map fun i => start + i * len

/-- One turn of the loop, revision_0074.rs 103-124. -/
def repairStep (c : Cfg) (db : Db) (fs : List Agg) (from_ : Nat) : Option (List Agg) :=
  (rebuildRange c db from_).map (setBitmap fs)

/-- `FIRST_EVENT_FILTER_TO_REBUILD_FROM_BLOCK`, revision_0074.rs 27. -/
def firstDamaged : Nat := 917504

/-- `AGGREGATE_BLOOM_BLOCK_RANGE_LEN` of the released program, bloom.rs 73-80. -/
def rangeLen : Nat := 8192

/-- Revision 74, revision_0074.rs 29-147. `sepolia` is the hash of the first block of Sepolia, `first` the block from which
on filters are rebuilt. The subtraction that gives the last range is checked for overflow. -/
def revision74 (c : Cfg) (sepolia first : Nat) (db : Db) : Option Db :=
  match headerHash db 0 with
  | none => some db
  | some genesis =>
    if genesis ≠ sepolia then some db
    else match latestBlock db with
      | none => none
      | some latest =>
        if first > latest then some db
        else if latest < c.len + latest % c.len then none
        else ((stepBy first (latest - c.len - latest % c.len) c.len).foldlM (repairStep c db) db.filters).bind fun fs =>
          (rebuildRange c db (latest - latest % c.len)).map fun a =>
            { db with filters := fs, stored := (a, latest + 1) }

/-- The migrations of an old database that concern the index, in order (schema.rs 58-96). -/
def upgrade (c : Cfg) (sepolia first : Nat) (old : Old) : Option Db :=
  ((revision66 c old).bind (revision68 c)).bind (revision74 c sepolia first)

end Verif.Upgrade
