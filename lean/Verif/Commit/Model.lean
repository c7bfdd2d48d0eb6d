import Verif.Trie.Store
import Verif.Common.Version
/-!
# The state commitment of a block

Model of `crates/merkle-tree/src/starknet_state.rs`, of `update_contract_state` in `contract_state.rs`, of
`StateCommitment::calculate` in `crates/common/src/lib.rs` and of the merging of updates for checkpoint sync in
`crates/pathfinder/src/sync/state_updates.rs`, on top of the tries of `Verif.Trie`.

Simplifications: an address, storage key or class hash used as a key is the list of its bits (`view_bits`). All contract tries share one
node table, as in the program; the storage trie and the class trie have a table each. The state tables are functions: what the tables hold at
the newest block, with values as `Verif.State` proves that they are read back. Old versions are not kept here; pruning of nodes is in
`Verif.Trie.Prune`. `verify_hashes` is off.
-/
namespace Verif.Commit
open Verif.Trie

/-- The bits of an address, a storage key or a class hash. -/
abbrev Key := List Bool

/-- The hash functions: Pedersen for the contract and storage tries, Poseidon for the class trie, `calculate_class_commitment_leaf_hash`
(common/src/lib.rs:704-716), and the hash of two commitments with the version string (lib.rs:129-137). -/
structure Ops (F : Type) where
  ped : FeltOps F
  pos : FeltOps F
  classLeaf : F → F
  global : F → F → F

/-- `ContractUpdateRef` (common/src/state_update.rs:66-70). The class is its hash: a deployment and a replacement are treated alike. -/
structure ContractUpd (F : Type) where
  storage : List (Key × F) := []
  cls : Option F := none
  nonce : Option F := none
  deriving DecidableEq

/-- `StateUpdateRef` (common/src/state_update.rs:59-64). A hash map is the list of its entries in the order of iteration. -/
structure Update (F : Type) where
  contracts : List (Key × ContractUpd F) := []
  system : List (Key × List (Key × F)) := []
  sierra : List (Key × F) := []
  migrated : List (Key × F) := []
  deriving DecidableEq

/-- The part of the database that is read and written. -/
structure World (F : Type) where
  /-- `trie_contracts`: the nodes of all contract tries. -/
  table : Table F
  /-- `contract_roots`. -/
  roots : Key → Option Nat
  /-- `storage_value`. -/
  leaf : Key → Key → Option F
  /-- `contract_class_hash`. -/
  cls : Key → Option F
  /-- `contract_nonce`. -/
  nonce : Key → Option F
  /-- `trie_storage`, `storage_roots`, `contract_state_hashes`. -/
  storageTrie : DbTrie F
  /-- `trie_class`, `class_roots`, `class_commitment_leaves`. -/
  classTrie : DbTrie F

/-- The fresh database. -/
def World.init {F} : World F := ⟨⟨[]⟩, fun _ => none, fun _ _ => none, fun _ => none, fun _ => none, .init, .init⟩

/-- `StateUpdateError` (common/src/state_update.rs:733-739). -/
inductive CErr
  | trie (e : Err)
  | classMissing (a : Key)
  deriving DecidableEq

def liftT {α : Type} : Except Err α → Except CErr α
  | .ok a => .ok a
  | .error e => .error (.trie e)

/-- `ContractStateUpdateResult` (contract_state.rs:10-16); `upd` is `none` if there were no storage updates. -/
structure CResult (F : Type) where
  addr : Key
  stateHash : F
  upd : Option (TrieUpdate F)

/-- `contract_root(..).unwrap_or_default()` (storage/src/connection/trie.rs:96-111). -/
def contractRoot {F} (o : Ops F) (w : World F) (a : Key) : F :=
  match w.roots a with
  | none => o.ped.zero
  | some i => match w.table.row i with
    | none => o.ped.zero
    | some r => r.1

/-- `calculate_contract_state_hash` (contract_state.rs:113-131). -/
def contractStateHash {F} (o : Ops F) (cls root nonce : F) : F :=
  o.ped.hash (o.ped.hash (o.ped.hash cls root) nonce) o.ped.zero

/-- The new root of the contract (contract_state.rs:53-80). -/
def newRoot {F} [DecidableEq F] (o : Ops F) (H : Nat) (w : World F) (a : Key) (ups : List (Key × F)) :
    Except CErr (F × Option (TrieUpdate F)) :=
  if ups ≠ [] then (liftT (computeUpdate o.ped H w.table (w.roots a) (w.leaf a) ups)).map fun u => (u.rootCommitment, some u)
  else .ok (contractRoot o w a, none)

/-- The class hash (contract_state.rs:82-93); `isSys` is `is_system_contract` (common/src/lib.rs:660-662). -/
def newClass {F} (o : Ops F) (isSys : Key → Bool) (w : World F) (a : Key) (cls : Option F) : Except CErr F :=
  if isSys a then .ok o.ped.zero
  else match cls with
    | some c => .ok c
    | none => match w.cls a with
      | some c => .ok c
      | none => .error (.classMissing a)

/-- The nonce (contract_state.rs:95-104). -/
def newNonce {F} (o : Ops F) (w : World F) (a : Key) (nonce : Option F) : F :=
  match nonce with
  | some n => n
  | none => (w.nonce a).getD o.ped.zero

/-- `update_contract_state` (contract_state.rs:43-110). Nothing is written. -/
def updateContractState {F} [DecidableEq F] (o : Ops F) (H : Nat) (isSys : Key → Bool) (w : World F) (a : Key) (ups : List (Key × F))
    (nonce cls : Option F) : Except CErr (CResult F) :=
  (newRoot o H w a ups).bind fun r => (newClass o isSys w a cls).map fun c =>
    ⟨a, contractStateHash o c r.1 (newNonce o w a nonce), r.2⟩

/-- `ContractStateUpdateResult::insert` (contract_state.rs:23-38) without the row of `contract_state_hashes`, which is a leaf of the storage
trie. -/
def insertResult {F} [DecidableEq F] (o : Ops F) (w : World F) (r : CResult F) : Except CErr (World F) :=
  match r.upd with
  | none => pure w
  | some u => do
    let (T, ru) ← liftT (insertTrie o.ped w.table u)
    pure { w with table := T, roots := fun b => if b = r.addr then ru.apply (w.roots b) else w.roots b }

/-- The parallel part (starknet_state.rs:29-66). Every contract update is computed on a connection of its own, which sees the committed
database: the order and the threads do not matter, the results are collected in the order of the updates. Of several errors the first
one is taken. -/
def contractResults {F} [DecidableEq F] (o : Ops F) (H : Nat) (isSys : Key → Bool) (committed : World F) :
    List (Key × ContractUpd F) → Except CErr (List (CResult F))
  | [] => pure []
  | (a, u) :: rest => do
    let r ← updateContractState o H isSys committed a u.storage u.nonce u.cls
    let rs ← contractResults o H isSys committed rest
    pure (r :: rs)

/-- The loop over the results (starknet_state.rs:68-78), without the writes to the storage trie. -/
def insertResults {F} [DecidableEq F] (o : Ops F) (w : World F) : List (CResult F) → Except CErr (World F)
  | [] => pure w
  | r :: rs => do
    let w' ← insertResult o w r
    insertResults o w' rs

/-- The loop over the system contracts (starknet_state.rs:80-101): one after the other, on the transaction. The second result are the
writes to the storage trie. -/
def updateSystem {F} [DecidableEq F] (o : Ops F) (H : Nat) (isSys : Key → Bool) (w : World F) :
    List (Key × List (Key × F)) → Except CErr (World F × List (Key × F))
  | [] => pure (w, [])
  | (a, ups) :: rest => do
    let r ← updateContractState o H isSys w a ups none none
    let w' ← insertResult o w r
    let (w'', ws) ← updateSystem o H isSys w' rest
    pure (w'', (a, r.stateHash) :: ws)

/-- `update_starknet_state` (starknet_state.rs:9-148): the two commitments. -/
def updateState {F} [DecidableEq F] (o : Ops F) (H : Nat) (isSys : Key → Bool) (w : World F) (u : Update F) :
    Except CErr (World F × F × F) := do
  let rs ← contractResults o H isSys w u.contracts
  let w1 ← insertResults o w rs
  let (w2, sys) ← updateSystem o H isSys w1 u.system
  let (st, sv) ← liftT (w.storageTrie.block o.ped H (rs.map (fun r => (r.addr, r.stateHash)) ++ sys))
  let (ct, cv) ← liftT (w.classTrie.block o.pos H ((u.sierra ++ u.migrated).map fun p => (p.1, o.classLeaf p.2)))
  pure ({ w2 with storageTrie := st, classTrie := ct }, sv.commitment, cv.commitment)

/-- The state tables after `insert_state_update_data` (storage/src/connection/state_update.rs), for one contract. -/
def insertContract {F} [DecidableEq F] (o : Ops F) (w : World F) (p : Key × ContractUpd F) : World F :=
  { w with
    leaf := fun a => if a = p.1 then p.2.storage.foldl (leafWrite o.ped) (w.leaf a) else w.leaf a
    cls := fun a => if a = p.1 then p.2.cls.or (w.cls a) else w.cls a
    nonce := fun a => if a = p.1 then p.2.nonce.or (w.nonce a) else w.nonce a }

/-- The same for one system contract. -/
def insertSystem {F} [DecidableEq F] (o : Ops F) (w : World F) (p : Key × List (Key × F)) : World F :=
  { w with leaf := fun a => if a = p.1 then p.2.foldl (leafWrite o.ped) (w.leaf a) else w.leaf a }

/-- One block: `update_starknet_state`, then the state tables (state/sync.rs:1309-1391). -/
def applyUpdate {F} [DecidableEq F] (o : Ops F) (H : Nat) (isSys : Key → Bool) (w : World F) (u : Update F) :
    Except CErr (World F × F × F) := do
  let (w', s, c) ← updateState o H isSys w u
  pure (u.system.foldl (insertSystem o) (u.contracts.foldl (insertContract o) w'), s, c)

/-- A sequence of blocks: the commitments of each. -/
def applyUpdates {F} [DecidableEq F] (o : Ops F) (H : Nat) (isSys : Key → Bool) (w : World F) :
    List (Update F) → Except CErr (World F × List (F × F))
  | [] => pure (w, [])
  | u :: us => do
    let (w', s, c) ← applyUpdate o H isSys w u
    let (w'', cs) ← applyUpdates o H isSys w' us
    pure (w'', (s, c) :: cs)

/-- `StateCommitment::calculate` (common/src/lib.rs:113-138). -/
def calculate {F} [DecidableEq F] (o : Ops F) (storage cls : F) (v : Common.Version) : F :=
  if cls = o.ped.zero ∧ storage = o.ped.zero then o.ped.zero
  else if cls = o.ped.zero ∧ v.cmp ⟨0, 14, 0, 0⟩ = .lt then storage
  else o.global storage cls

/-! ## Merged updates -/

/-- `entry(k).or_default()`, then a change of the entry. -/
def upsert {α : Type} (d : α) (l : List (Key × α)) (k : Key) (f : α → α) : List (Key × α) :=
  match l with
  | [] => [(k, f d)]
  | p :: ps => if p.1 = k then (k, f p.2) :: ps else p :: upsert d ps k f

/-- `HashMap::insert`. -/
def mapInsert {α : Type} (l : List (Key × α)) (p : Key × α) : List (Key × α) := upsert p.2 l p.1 fun _ => p.2

/-- The body of the loop of `merge_state_updates` (pathfinder/src/sync/state_updates.rs:214-233). The migrated classes are left out, as
in the program. -/
def mergeOne {F} (m x : Update F) : Update F :=
  { m with
    contracts := x.contracts.foldl (fun l p => upsert {} l p.1 fun e =>
      { storage := e.storage ++ p.2.storage, nonce := p.2.nonce.or e.nonce, cls := p.2.cls.or e.cls }) m.contracts
    system := x.system.foldl (fun l p => upsert [] l p.1 fun e => e ++ p.2) m.system
    sierra := x.sierra.foldl mapInsert m.sierra }

/-- `merge_state_updates` (state_updates.rs:205-236). -/
def merge {F} (us : List (Update F)) : Update F := us.foldl mergeOne {}

end Verif.Commit
