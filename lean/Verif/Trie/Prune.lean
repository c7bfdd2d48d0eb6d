/-
Model of trie pruning and of trie rollback: removal markers, pruning, root tables and reorgs,
crates/storage/src/connection/trie.rs, crates/storage/src/connection/block.rs 96-199,
crates/merkle-tree/src/starknet_state.rs, crates/merkle-tree/src/contract_state.rs and
crates/pathfinder/src/state/sync/revert.rs, crates/pathfinder/src/state/sync.rs 1543-1600.

One trie table is modelled together with its removal table and its root table.  `C` is the type of contract
addresses: `trie_contracts` holds one trie per contract; `trie_storage` and `trie_class` are the special case of
a single trie (`C := Unit`).
-/
import Verif.Db.Latest
import Verif.Trie.Store

namespace Verif.Trie
open Verif.Db

/-- `{table}`, `{table}_removals` and `*_roots` (schema/revision_0041.rs 85-130).
Simplification: the root table is grouped by contract address; all its queries except the purge of a block
select one address. -/
structure PDb (C F : Type) where
  table : Table F
  removals : List (Nat × List Nat)
  roots : C → List (Nat × Option Nat)

variable {C F : Type} [DecidableEq C] [DecidableEq F]

omit [DecidableEq C] [DecidableEq F] in
/-- `class_root_index` / `storage_root_index` / `contract_root_index`, trie.rs 13-27, 54-68, 80-97. -/
def PDb.rootAt (db : PDb C F) (c : C) (b : Nat) : Option Nat := (latest (db.roots c) b).bind (·.2)

/-- `prune_trie`, trie.rs 450-497, after `checked_sub`. -/
def PDb.pruneTrie (db : PDb C F) (before : Nat) : PDb C F :=
  let doomed := (db.removals.filter fun m => m.1 < before).flatMap (·.2)
  { db with
    table := ⟨db.table.rows.filter fun r => !doomed.contains r.1⟩
    removals := db.removals.filter fun m => !decide (m.1 < before) }

/-- `remove_trie`, trie.rs 400-421. -/
def PDb.removeTrie (db : PDb C F) (removed : List Nat) (n : Nat) : PDb C F :=
  if removed.isEmpty then db else { db with removals := db.removals ++ [(n, removed)] }

/-- The prologue of `insert_trie`, trie.rs 505-508; `mode = none` is `TriePruneMode::Archive`, `some k` is
`TriePruneMode::Prune { num_blocks_kept: k }`.  `checked_sub` at trie.rs 456. -/
def PDb.prologue (mode : Option Nat) (db : PDb C F) (n : Nat) (removed : List Nat) : PDb C F :=
  match mode with
  | none => db
  | some kept => (if kept ≤ n then db.pruneTrie (n - kept) else db).removeTrie removed n

/-- `insert_trie`, trie.rs 500-587. -/
def PDb.insertTrie (o : FeltOps F) (mode : Option Nat) (db : PDb C F) (n : Nat) (u : TrieUpdate F) :
    Except Err (PDb C F × RootIndexUpdate) := do
  let db := db.prologue mode n u.nodesRemoved
  let (T, ru) ← Trie.insertTrie o db.table u
  return ({ db with table := T }, ru)

/-- `delete_class_roots` / `delete_storage_roots` / `delete_contract_roots`, trie.rs 136-158, 281-302, 333-360. -/
def deleteRoots (rows : List (Nat × Option Nat)) (before : Nat) : List (Nat × Option Nat) :=
  match latest rows before with
  | none => rows
  | some (l, _) => deleteBelow rows l

/-- `insert_class_root` / `insert_storage_root` / `insert_contract_root`, trie.rs 112-134, 256-279, 304-331. -/
def PDb.insertRoot (mode : Option Nat) (db : PDb C F) (n : Nat) (c : C) (ru : RootIndexUpdate) : PDb C F :=
  let put (v : Option Nat) : PDb C F :=
    let rows := upsert (db.roots c) n v
    let rows := match mode with
      | none => rows
      | some kept => if kept ≤ n then deleteRoots rows (n - kept) else rows
    { db with roots := fun c' => if c' = c then rows else db.roots c' }
  match ru with
  | .unchanged => db
  | .updated i => put (some i)
  | .trieEmpty => put none

/-- One trie in one block: the update is computed on the database `src` (`update_contract_state`,
contract_state.rs 54-75: only if there are writes; the tree is loaded at the parent block, or empty for the genesis
block), then inserted into `db` (`ContractStateUpdateResult::insert`, contract_state.rs 23-40). -/
def PDb.update (o : FeltOps F) (H : Nat) (mode : Option Nat) (src db : PDb C F) (n : Nat) (c : C)
    (leaf : List Bool → Option F) (ws : List (List Bool × F)) : Except Err (PDb C F × RootIndexUpdate) :=
  if ws.isEmpty then .ok (db, .unchanged) else do
    let root := match n with
      | 0 => none
      | p + 1 => src.rootAt c p
    let u ← computeUpdate o H src.table root leaf ws
    let (db, ru) ← db.insertTrie o mode n u
    return (db.insertRoot mode n c ru, ru)

/-- The contract part of `update_starknet_state`, starknet_state.rs 24-93.  `par = true`: the update is one of
those computed in parallel on the state before the block (`src0`, starknet_state.rs 26-63); `par = false`: it is
computed on the current transaction (system contracts, starknet_state.rs 76-93). -/
def PDb.updates (o : FeltOps F) (H : Nat) (mode : Option Nat) (src0 : PDb C F) (n : Nat)
    (leaf : C → List Bool → Option F) :
    List (Bool × C × List (List Bool × F)) → PDb C F → Except Err (PDb C F × List (C × RootIndexUpdate))
  | [], db => .ok (db, [])
  | (par, c, ws) :: ups, db => do
    let (db, ru) ← PDb.update o H mode (if par then src0 else db) db n c (leaf c) ws
    let (db, log) ← PDb.updates o H mode src0 n leaf ups db
    return (db, (c, ru) :: log)

/-- The trie part of `revert_contract_state` (contract_state.rs 165-190) and of `revert_class_updates`
(revert.rs 105-150) / `revert_contract_updates` (revert.rs 57-98): load at `head`, write the reverse updates,
insert at `target`. -/
def PDb.revert (o : FeltOps F) (H : Nat) (mode : Option Nat) (head target : Nat)
    (leaf : C → List Bool → Option F) :
    List (C × List (List Bool × F)) → PDb C F → Except Err (PDb C F × List (C × RootIndexUpdate))
  | [], db => .ok (db, [])
  | (c, ws) :: revs, db => do
    let u ← computeUpdate o H db.table (db.rootAt c head) (leaf c) ws
    let (db, ru) ← db.insertTrie o mode target u
    let (db, log) ← PDb.revert o H mode head target leaf revs (db.insertRoot mode target c ru)
    return (db, (c, ru) :: log)

/-- `coalesce_removed_trie_nodes`, trie.rs 430-447. -/
def PDb.coalesce (db : PDb C F) (target : Nat) : PDb C F :=
  { db with removals := db.removals.map fun m => if target < m.1 then (target, m.2) else m }

/-- The trie tables in `purge_block`, block.rs 136-187. -/
def PDb.purge (db : PDb C F) (n : Nat) : PDb C F :=
  { db with
    roots := fun c => deleteAt (db.roots c) n
    removals := db.removals.filter fun m => m.1 != n }

/-- The purge loop of `l2_reorg`, sync.rs 1583-1596: `len` blocks, from `first + len - 1` down to `first`. -/
def PDb.purgeDown (db : PDb C F) (first : Nat) : Nat → PDb C F
  | 0 => db
  | len + 1 => (db.purge (first + len)).purgeDown first len

/-- The database together with the state tables' view of the leaf values of every block on the chain
(`storage_updates` etc.; modelled in `Verif/State`), and the contracts with storage writes in every block. -/
structure PState (C F : Type) where
  db : PDb C F
  /-- number of blocks on the chain; the head is `next - 1` -/
  next : Nat
  leaf : Nat → C → List Bool → Option F
  touched : Nat → List C

/-- What the node does. -/
inductive POp (C F : Type) where
  /-- append a block -/
  | block (ups : List (Bool × C × List (List Bool × F)))
  /-- reorg: `target` becomes the head; `revs` are the reverse updates of the contract tries -/
  | reorg (target : Nat) (revs : List (C × List (List Bool × F)))
  /-- reorg that removes all blocks -/
  | reorgAll

/-- Leaf values at the head (empty before the first block). -/
def PState.headLeaf (s : PState C F) (c : C) : List Bool → Option F :=
  match s.next with
  | 0 => fun _ => none
  | h + 1 => s.leaf h c

/-- Writes of one block to one contract. -/
def writesTo (ups : List (Bool × C × List (List Bool × F))) (c : C) : List (List Bool × F) :=
  ups.flatMap fun u => if u.2.1 = c then u.2.2 else []

/-- One operation.  Reorg: `l2_reorg`, sync.rs 1543-1600 with `revert_starknet_state`, revert.rs 28-51. -/
def PState.step (o : FeltOps F) (H : Nat) (mode : Option Nat) (s : PState C F) :
    POp C F → Except Err (PState C F × List (C × RootIndexUpdate))
  | .block ups => do
    let (db, log) ← PDb.updates o H mode s.db s.next s.headLeaf ups s.db
    return ({ db := db, next := s.next + 1
              leaf := fun b c => if b = s.next then (writesTo ups c).foldl (leafWrite o) (s.headLeaf c) else s.leaf b c
              touched := fun b => if b = s.next then (ups.filter fun u => !u.2.2.isEmpty).map (·.2.1)
                else s.touched b }, log)
  | .reorg target revs => do
    let (db, log) ← PDb.revert o H mode (s.next - 1) target s.headLeaf revs s.db
    return ({ s with db := (db.coalesce target).purgeDown (target + 1) (s.next - (target + 1)), next := target + 1 },
      log)
  | .reorgAll => return ({ s with db := s.db.purgeDown 0 s.next, next := 0 }, [])

/-- A sequence of operations. -/
def PState.run (o : FeltOps F) (H : Nat) (mode : Option Nat) (s : PState C F) : List (POp C F) →
    Except Err (PState C F)
  | [] => .ok s
  | op :: ops => do
    let (s, _) ← s.step o H mode op
    s.run o H mode ops

omit [DecidableEq C] [DecidableEq F] in
/-- The fresh database. -/
def PState.init : PState C F := ⟨⟨⟨[]⟩, [], fun _ => []⟩, 0, fun _ _ _ => none, fun _ => []⟩

end Verif.Trie
