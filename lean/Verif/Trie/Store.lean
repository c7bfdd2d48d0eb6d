/-
Model of the node storage of a trie table, crates/storage/src/connection/trie.rs.
-/
import Verif.Trie.Model

namespace Verif.Trie

/-- One of the tables `trie_contracts`, `trie_class`, `trie_storage`
(`idx INTEGER PRIMARY KEY, hash BLOB, data BLOB`, schema/revision_0041.rs 85-100).
Simplification: the `data` column is kept decoded; the codec is modelled in `Verif/Trie/Codec.lean`. -/
structure Table (F : Type) where
  rows : List (Nat × F × StoredNode)

/-- SQLite's choice of a row id for `INTEGER PRIMARY KEY` without `AUTOINCREMENT`: one more than the largest
row id in use (1 in an empty table). -/
def Table.nextIdx {F} (T : Table F) : Nat := T.rows.foldl (fun m r => max m r.1) 0 + 1

/-- The row with the given `idx`. -/
def Table.row {F} (T : Table F) (idx : Nat) : Option (F × StoredNode) :=
  (T.rows.find? fun r => r.1 == idx).map (·.2)

/-- `trie_node` (trie.rs 590-613) and `trie_node_hash` (trie.rs 616-635), together with a leaf lookup
`leaf`, form the `Storage` the merkle tree works on. -/
def Table.storage {F} (T : Table F) (leaf : List Bool → Option F) : Storage F where
  get i := (T.row i).map (·.2)
  hash i := (T.row i).map (·.1)
  leaf := leaf

/-- The loop collecting the nodes to insert, trie.rs 533-562.  The head of the list is the top of the stack
`to_process`.  Simplification: the `while let` loop gets `fuel` iterations. -/
def collect {F} (added : List (F × Node)) : Nat → List NodeRef → List Nat → Except Err (List Nat)
  | _, [], acc => .ok acc
  | 0, _ :: _, _ => .error .fuel
  | fuel + 1, .storageIndex _ :: rest, acc => collect added fuel rest acc
  | fuel + 1, .index i :: rest, acc =>
    match added[i]? with
    | none => .error .badIndex
    | some (_, .binary l r) => collect added fuel (r :: l :: rest) (acc ++ [i])
    | some (_, .edge c _) => collect added fuel (c :: rest) (acc ++ [i])
    | some (_, .leafEdge _) => collect added fuel rest (acc ++ [i])
    | some (_, .leafBinary) => collect added fuel rest (acc ++ [i])

/-- A child reference in `Node::as_stored`, trie.rs 901-940. -/
def refStored (indices : List (Nat × Nat)) : NodeRef → Except Err Nat
  | .storageIndex i => .ok i
  | .index i => match indices.lookup i with
    | some s => .ok s
    | none => .error .badIndex

/-- `Node::as_stored`, trie.rs 901-940. -/
def Node.asStored (indices : List (Nat × Nat)) : Node → Except Err StoredNode
  | .binary l r => do
    let l ← refStored indices l
    let r ← refStored indices r
    return .binary l r
  | .edge c p => do
    let c ← refStored indices c
    return .edge c p
  | .leafEdge p => .ok (.leafEdge p)
  | .leafBinary => .ok .leafBinary

/-- The insertion loop, trie.rs 570-586. -/
def insertAll {F} (added : List (F × Node)) :
    List Nat → Table F → List (Nat × Nat) → Except Err (Table F × List (Nat × Nat))
  | [], T, indices => .ok (T, indices)
  | i :: rest, T, indices =>
    match added[i]? with
    | none => .error .badIndex
    | some (h, node) => do
      let s ← node.asStored indices
      let idx := T.nextIdx
      insertAll added rest ⟨T.rows ++ [(idx, h, s)]⟩ ((i, idx) :: indices)

/-- `RootIndexUpdate`, trie.rs 768-772. -/
inductive RootIndexUpdate where
  | unchanged | updated (idx : Nat) | trieEmpty
deriving DecidableEq, Repr

/-- `Transaction::insert_trie`, trie.rs 500-587, without the pruning prologue (505-508), which is modelled in
`Verif/Trie/Prune.lean`. -/
def insertTrie {F} [DecidableEq F] (o : FeltOps F) (T : Table F) (u : TrieUpdate F) :
    Except Err (Table F × RootIndexUpdate) :=
  if u.nodesAdded.isEmpty then
    if !u.nodesRemoved.isEmpty && u.rootCommitment = o.zero then .ok (T, .trieEmpty)
    else .ok (T, .unchanged)
  else do
    let order ← collect u.nodesAdded (2 * u.nodesAdded.length + 1) [.index (u.nodesAdded.length - 1)] []
    let (T', indices) ← insertAll u.nodesAdded order.reverse T []
    match indices.lookup (u.nodesAdded.length - 1) with
    | some i => return (T', .updated i)
    | none => .error .panic

/-- Effect of a `RootIndexUpdate` on the root index valid after the block
(`insert_class_root` etc., trie.rs 30-130: `Unchanged` keeps the previous row). -/
def RootIndexUpdate.apply (old : Option Nat) : RootIndexUpdate → Option Nat
  | .unchanged => old
  | .updated i => some i
  | .trieEmpty => none

/-- `MerkleTree::new` or `MerkleTree::empty` depending on whether a root index exists, as in
`ClassCommitmentTree::load` (class.rs 40-55), `StorageCommitmentTree::load`, `ContractsStorageTree::load`. -/
def MTree.open {F} : Option Nat → MTree F
  | none => .empty
  | some i => .load i

/-- A batch of writes on one tree, as done by `update_starknet_state` and `update_contract_state`. -/
def MTree.setMany {F} [DecidableEq F] (o : FeltOps F) (S : Storage F) (H : Nat) (t : MTree F) :
    List (List Bool × F) → Except Err (MTree F)
  | [] => .ok t
  | (k, v) :: ws => do
    let t' ← t.set o S H k v
    t'.setMany o S H ws

/-- Computing the update of one trie from the database state `T`: load the tree at the given root, write, commit
(`update_contract_state`, merkle-tree/src/contract_state.rs 54-75; `update_starknet_state`, starknet_state.rs
66-100).  Nothing is written to the database. -/
def computeUpdate {F} [DecidableEq F] (o : FeltOps F) (H : Nat) (T : Table F) (root : Option Nat)
    (leaf : List Bool → Option F) (ws : List (List Bool × F)) : Except Err (TrieUpdate F) := do
  let t ← (MTree.open root).setMany o (T.storage leaf) H ws
  t.commit o (T.storage leaf)

/-- One block applied to one trie: compute the update, then insert it. -/
def applyBlock {F} [DecidableEq F] (o : FeltOps F) (H : Nat) (T : Table F) (root : Option Nat)
    (leaf : List Bool → Option F) (ws : List (List Bool × F)) :
    Except Err (Table F × Option Nat × F × List Nat) := do
  let u ← computeUpdate o H T root leaf ws
  let (T', ru) ← insertTrie o T u
  return (T', ru.apply root, u.rootCommitment, u.nodesRemoved)

end Verif.Trie

namespace Verif.Trie

/-- A trie in the database: the node table, the root index row valid at the latest block and the leaf values
(which live in the state tables: `contract_storage`/`storage_updates`, `contract_state_hashes`,
`class_commitment_leaves`). -/
structure DbTrie (F : Type) where
  table : Table F
  root : Option Nat
  leaf : List Bool → Option F

/-- What is remembered of one block: the root index row, the commitment, the indices reported as removed. -/
structure Version (F : Type) where
  root : Option Nat
  commitment : F
  removed : List Nat

/-- The fresh database. -/
def DbTrie.init {F} : DbTrie F := ⟨⟨[]⟩, none, fun _ => none⟩

/-- The state tables after a block: a zero value reads as absent
(`contract_storage_trie` leaf lookup in merkle-tree/src/contract.rs and the `storage_value` query:
writes at a block shadow earlier ones). -/
def leafWrite {F} [DecidableEq F] (o : FeltOps F) (leaf : List Bool → Option F) (w : List Bool × F) :
    List Bool → Option F :=
  fun k => if k = w.1 then (if w.2 = o.zero then none else some w.2) else leaf k

/-- One block: trie update, then the state tables. -/
def DbTrie.block {F} [DecidableEq F] (o : FeltOps F) (H : Nat) (d : DbTrie F) (ws : List (List Bool × F)) :
    Except Err (DbTrie F × Version F) := do
  let (T', root', c, removed) ← applyBlock o H d.table d.root d.leaf ws
  return (⟨T', root', ws.foldl (leafWrite o) d.leaf⟩, ⟨root', c, removed⟩)

/-- A sequence of blocks (archive mode: nothing is pruned). -/
def DbTrie.blocks {F} [DecidableEq F] (o : FeltOps F) (H : Nat) (d : DbTrie F) :
    List (List (List Bool × F)) → Except Err (DbTrie F × List (Version F))
  | [] => .ok (d, [])
  | ws :: rest => do
    let (d', v) ← d.block o H ws
    let (d'', vs) ← d'.blocks o H rest
    return (d'', v :: vs)

/-- Operations on one in-memory tree. -/
inductive Op (F : Type) where
  | set (k : List Bool) (v : F)
  | get (k : List Bool)

/-- Running a sequence of operations; collects the answers of the `get`s. -/
def MTree.run {F} [DecidableEq F] (o : FeltOps F) (S : Storage F) (H : Nat) (t : MTree F) :
    List (Op F) → Except Err (List (Option F) × MTree F)
  | [] => .ok ([], t)
  | .set k v :: ops => do
    let t' ← t.set o S H k v
    t'.run o S H ops
  | .get k :: ops => do
    let (a, t') ← t.get S H k
    let (as, t'') ← t'.run o S H ops
    return (a :: as, t'')

end Verif.Trie
