import Verif.Db.Latest
/-
Model of the versioned state tables of the storage crate:
crates/storage/src/connection/state_update.rs, block.rs (purge_block), pruning.rs (prune_block),
class.rs (casm_hash_at, class_definition_at) and of the two loops of
crates/pathfinder/src/state/sync.rs that drive them (l2_reorg, perform_blockchain_pruning).

Simplifications that hold for the whole file: every field element (addresses, keys, values, hashes) is a
natural number; SQL integers are unbounded; a SQL table is the list of its rows in insertion order; the
transaction either runs to completion or (explicit `none`) leaves the database unchanged.
-/
namespace Verif.State
open Verif.Db

abbrev Addr := Nat
abbrev Key := Nat
abbrev Val := Nat
abbrev Nonce := Nat
abbrev Class := Nat
abbrev Casm := Nat
abbrev Hash := Nat

/-- `ContractClassUpdate` (crates/common/src/state_update.rs 41-45). -/
inductive ClassUpd where
  | deploy (c : Class)
  | replace (c : Class)
deriving DecidableEq, Repr

/-- `ContractClassUpdate::class_hash` (crates/common/src/state_update.rs 114-119). -/
def ClassUpd.hash : ClassUpd → Class
  | .deploy c => c
  | .replace c => c

/-- `ContractUpdate` (crates/common/src/state_update.rs 29-34); the storage hash map is the list of its
entries, in the (arbitrary) order in which it is iterated. -/
structure ContractUpd where
  storage : List (Key × Val) := []
  cls : Option ClassUpd := none
  nonce : Option Nonce := none
deriving DecidableEq, Repr

/-- `StateUpdate` / `StateUpdateData` (crates/common/src/state_update.rs 12-40) without the block hash and
the commitments; hash maps and sets are the lists of their entries in iteration order. -/
structure Update where
  contracts : List (Addr × ContractUpd) := []
  system : List (Addr × List (Key × Val)) := []
  cairo : List Class := []
  sierra : List (Class × Casm) := []
  migrated : List (Class × Casm) := []
deriving DecidableEq, Repr

/-- `ContractAddress::is_system_contract` (crates/common/src/lib.rs 660-662). -/
def isSystem (a : Addr) : Bool := a == 1 || a == 2

/-- A row of `contract_updates` (key = contract address), `nonce_updates` (key = contract address id) or
`storage_updates` (key = contract address id and storage address id), schema/revision_0071.rs 89-147. -/
structure Row (κ α : Type) where
  block : Nat
  key : κ
  val : α
deriving DecidableEq, Repr

/-- A row of `casm_class_hashes` (schema/revision_0075.rs 13-20). The column `block_number` is nullable only
for rows created by that migration; the model has no such rows. -/
structure CasmRow where
  cls : Class
  block : Nat
  casm : Casm
deriving DecidableEq, Repr

/-- The tables. `headers` keeps number and hash of `block_headers`; `addrs` and `keys` are the tables
`contract_addresses` and `storage_addresses`, whose integer id is the position in the list
(schema/revision_0056.rs 11-20); `classDefs` keeps hash and block number of `class_definitions`. -/
structure Db where
  headers : List (Nat × Hash) := []
  addrs : List Addr := []
  keys : List Key := []
  contracts : List (Row Addr Class) := []
  nonces : List (Row Nat Nonce) := []
  storage : List (Row (Nat × Nat) Val) := []
  classDefs : List (Class × Option Nat) := []
  redeclared : List (Class × Nat) := []
  casm : List CasmRow := []
deriving DecidableEq, Repr

/-! ### insert_state_update -/

/-- `SELECT id ...` falling back to `INSERT ... RETURNING id`, state_update.rs 60-82, 146-154, 163-170. -/
def intern (tbl : List Nat) (x : Nat) : List Nat × Nat :=
  match tbl.idxOf? x with
  | some i => (tbl, i)
  | none => (tbl ++ [x], tbl.length)

/-- Body of the storage loops, state_update.rs 162-180 and 193-211. -/
def insStorage (n cid : Nat) (db : Db) (kv : Key × Val) : Db :=
  let t := intern db.keys kv.1
  { db with keys := t.1, storage := db.storage ++ [⟨n, (cid, t.2), kv.2⟩] }

/-- The class and nonce rows of one contract, state_update.rs 139-160. -/
def insContractHead (n : Nat) (db : Db) (p : Addr × ContractUpd) : Db :=
  let contracts := match p.2.cls with
    | some c => db.contracts ++ [⟨n, p.1, c.hash⟩]
    | none => db.contracts
  let t := intern db.addrs p.1
  let nonces := match p.2.nonce with
    | some x => db.nonces ++ [⟨n, t.2, x⟩]
    | none => db.nonces
  { db with contracts := contracts, addrs := t.1, nonces := nonces }

/-- Body of the contract loop, state_update.rs 138-181. -/
def insContract (n : Nat) (db : Db) (p : Addr × ContractUpd) : Db :=
  p.2.storage.foldl (insStorage n (intern db.addrs p.1).2) (insContractHead n db p)

/-- Body of the system contract loop, state_update.rs 183-212. -/
def insSystem (n : Nat) (db : Db) (p : Addr × List (Key × Val)) : Db :=
  let t := intern db.addrs p.1
  p.2.foldl (insStorage n t.2) { db with addrs := t.1 }

/-- `upsert_declared_at`: `INSERT .. ON CONFLICT(hash) DO UPDATE SET block_number=IFNULL(block_number,
excluded.block_number) RETURNING block_number`, state_update.rs 106-116. -/
def upsertDeclaredAt (defs : List (Class × Option Nat)) (n : Nat) (h : Class) : List (Class × Option Nat) × Nat :=
  match defs.lookup h with
  | none => (defs ++ [(h, some n)], n)
  | some none => (defs.map fun d => if d.1 = h then (h, some n) else d, n)
  | some (some b) => (defs, b)

/-- Body of the declared class loop, state_update.rs 225-235. -/
def declare (n : Nat) (db : Db) (h : Class) : Db :=
  let t := upsertDeclaredAt db.classDefs n h
  if t.2 ≠ n then { db with classDefs := t.1, redeclared := db.redeclared ++ [(h, n)] }
  else { db with classDefs := t.1 }

/-- Implicit declaration of deployed classes, state_update.rs 241-253. -/
def declareImplicit (n : Nat) (db : Db) (p : Addr × ContractUpd) : Db :=
  match p.2.cls with
  | some (.deploy c) => { db with classDefs := (upsertDeclaredAt db.classDefs n c).1 }
  | _ => db

/-- `INSERT OR IGNORE INTO casm_class_hashes` with the unique index on (hash, block_number),
state_update.rs 125-131 and schema/revision_0075.rs 19-20. -/
def insCasm (n : Nat) (db : Db) (p : Class × Casm) : Db :=
  if db.casm.any fun r => r.cls == p.1 && r.block == n then db
  else { db with casm := db.casm ++ [⟨p.1, n, p.2⟩] }

/-- `insert_state_update_data0`, state_update.rs 51-258. -/
def insertUpdate (db : Db) (n : Nat) (u : Update) : Db :=
  let db := u.contracts.foldl (insContract n) db
  let db := u.system.foldl (insSystem n) db
  let db := (u.sierra.map (·.1) ++ u.cairo).foldl (declare n) db
  let db := u.contracts.foldl (declareImplicit n) db
  let db := u.sierra.foldl (insCasm n) db
  u.migrated.foldl (insCasm n) db

/-- `insert_block_header` restricted to number and hash (block.rs 14-90). The primary key on the hash and the
unique index on the number make the statement fail if either is present. -/
def insertHeader (db : Db) (n : Nat) (h : Hash) : Option Db :=
  if db.headers.any fun r => r.1 == n || r.2 == h then none
  else some { db with headers := db.headers ++ [(n, h)] }

/-- Insertion of a class definition before it is declared (class.rs 20-75, 124-145): the row gets no block
number and an existing row keeps its own. -/
def insertDefinition (db : Db) (h : Class) : Db :=
  if db.classDefs.any fun d => d.1 == h then db else { db with classDefs := db.classDefs ++ [(h, none)] }

/-! ### reads -/

/-- `BlockId` (crates/common/src/lib.rs). -/
inductive BlockId where
  | latest
  | number (n : Nat)
  | hash (h : Hash)
deriving DecidableEq, Repr

/-- `SELECT number FROM block_headers WHERE hash = ?`, a scalar sub-select that is NULL without a row. -/
def numberOf (db : Db) (h : Hash) : Option Nat := (db.headers.find? fun r => r.2 == h).map (·.1)

/-- `ORDER BY block_number DESC LIMIT 1` without an upper bound. -/
def newest {α : Type} (rows : List (Nat × α)) : Option (Nat × α) := latest rows ((rows.map (·.1)).foldr max 0)

/-- The three variants of every historical read (e.g. state_update.rs 641-684): no bound for `Latest`,
`block_number <= ?` for a number, and `block_number <= (SELECT ..)` for a hash, which selects nothing when
the sub-select is NULL. -/
def atBlock {α : Type} (db : Db) (id : BlockId) (rows : List (Nat × α)) : Option (Nat × α) :=
  match id with
  | .latest => newest rows
  | .number n => latest rows n
  | .hash h => (numberOf db h).bind (latest rows)

/-- `storage_updates JOIN contract_addresses JOIN storage_addresses WHERE contract_address = ? AND
storage_address = ?`, state_update.rs 643-650. -/
def storageRows (db : Db) (a : Addr) (k : Key) : List (Nat × Val) :=
  db.storage.filterMap fun r =>
    if db.addrs[r.key.1]? = some a ∧ db.keys[r.key.2]? = some k then some (r.block, r.val) else none

/-- `nonce_updates JOIN contract_addresses WHERE contract_address = ?`, state_update.rs 737-742. -/
def nonceRows (db : Db) (a : Addr) : List (Nat × Nonce) :=
  db.nonces.filterMap fun r => if db.addrs[r.key]? = some a then some (r.block, r.val) else none

/-- `contract_updates WHERE contract_address = ?`, state_update.rs 787-790. -/
def classRows (db : Db) (a : Addr) : List (Nat × Class) :=
  db.contracts.filterMap fun r => if r.key = a then some (r.block, r.val) else none

/-- `casm_class_hashes WHERE hash = ?`, class.rs 478-488. -/
def casmRows (db : Db) (h : Class) : List (Nat × Casm) :=
  db.casm.filterMap fun r => if r.cls = h then some (r.block, r.casm) else none

/-- `storage_value_with_block`, state_update.rs 633-686. -/
def storageValueWithBlock (db : Db) (id : BlockId) (a : Addr) (k : Key) : Option (Val × Nat) :=
  (atBlock db id (storageRows db a k)).map fun r => (r.2, r.1)

/-- `storage_value`, state_update.rs 623-631. -/
def storageValue (db : Db) (id : BlockId) (a : Addr) (k : Key) : Option Val :=
  (storageValueWithBlock db id a k).map (·.1)

/-- `contract_exists`, state_update.rs 688-727. -/
def contractExists (db : Db) (id : BlockId) (a : Addr) : Bool :=
  match id with
  | .latest => !(classRows db a).isEmpty
  | .number n => (classRows db a).any fun r => r.1 ≤ n
  | .hash h => match numberOf db h with
    | none => false
    | some n => (classRows db a).any fun r => r.1 ≤ n

/-- `contract_nonce`, state_update.rs 729-777. -/
def contractNonce (db : Db) (id : BlockId) (a : Addr) : Option Nonce :=
  (atBlock db id (nonceRows db a)).map (·.2)

/-- `contract_class_hash`, state_update.rs 779-818. -/
def contractClass (db : Db) (id : BlockId) (a : Addr) : Option Class :=
  (atBlock db id (classRows db a)).map (·.2)

/-- `casm_hash_at`, class.rs 471-528. -/
def casmHashAt (db : Db) (id : BlockId) (h : Class) : Option Casm :=
  (atBlock db id (casmRows db h)).map (·.2)

/-- The block reported by `class_definition_at_with_block_number` (class.rs 224-269); the definition blob
itself is not modelled. -/
def classDeclaredAt (db : Db) (id : BlockId) (h : Class) : Option Nat :=
  match db.classDefs.lookup h with
  | some (some b) =>
    match id with
    | .latest => some b
    | .number n => if b ≤ n then some b else none
    | .hash x => match numberOf db x with
      | none => none
      | some n => if b ≤ n then some b else none
  | _ => none

/-! ### state_update (read back) -/

/-- Hash map insertion on an association list: replaces the entry in place or adds one. -/
def put {α : Type} (m : List (Nat × α)) (k : Nat) (v : α) : List (Nat × α) :=
  if m.any (fun e => e.1 == k) then m.map fun e => if e.1 = k then (k, v) else e else m ++ [(k, v)]

/-- `entry(k).or_default()` followed by a modification. -/
def alter {α : Type} (m : List (Nat × α)) (k : Nat) (d : α) (f : α → α) : List (Nat × α) :=
  put m k (f ((m.lookup k).getD d))

/-- `with_contract_nonce`, crates/common/src/state_update.rs 145-148. -/
def withNonce (u : Update) (a : Addr) (x : Nonce) : Update :=
  { u with contracts := alter u.contracts a {} fun c => { c with nonce := some x } }

/-- `with_storage_update` and `with_system_storage_update`, crates/common/src/state_update.rs 150-176. -/
def withStorage (u : Update) (a : Addr) (k : Key) (v : Val) : Update :=
  if isSystem a then { u with system := alter u.system a [] fun s => put s k v }
  else { u with contracts := alter u.contracts a {} fun c => { c with storage := put c.storage k v } }

/-- `with_deployed_contract` and `with_replaced_class`, crates/common/src/state_update.rs 178-188. -/
def withClass (u : Update) (a : Addr) (c : ClassUpd) : Update :=
  { u with contracts := alter u.contracts a {} fun x => { x with cls := some c } }

/-- `HashSet::insert`. -/
def putSet (s : List Nat) (x : Nat) : List Nat := if s.contains x then s else s ++ [x]

/-- Nonce rows of the block joined with their address, state_update.rs 317-347. -/
def readNonces (db : Db) (n : Nat) (u : Update) : Update :=
  db.nonces.foldl (fun u r => if r.block = n then
    match db.addrs[r.key]? with
    | some a => withNonce u a r.val
    | none => u else u) u

/-- Storage rows of the block joined with both addresses, state_update.rs 349-382. -/
def readStorage (db : Db) (n : Nat) (u : Update) : Update :=
  db.storage.foldl (fun u r => if r.block = n then
    match db.addrs[r.key.1]?, db.keys[r.key.2]? with
    | some a, some k => withStorage u a k r.val
    | _, _ => u else u) u

/-- Class definitions of the block, joined with the CASM hash of the same block, state_update.rs 384-416. -/
def readDeclared (db : Db) (n : Nat) (u : Update) : Update :=
  db.classDefs.foldl (fun u d => if d.2 = some n then
    match (db.casm.find? fun r => r.cls == d.1 && r.block == n) with
    | some r => { u with sierra := put u.sierra d.1 r.casm }
    | none => { u with cairo := putSet u.cairo d.1 } else u) u

/-- Re-declared classes of the block, state_update.rs 418-432. -/
def readRedeclared (db : Db) (n : Nat) (u : Update) : Update :=
  db.redeclared.foldl (fun u d => if d.2 = n then { u with cairo := putSet u.cairo d.1 } else u) u

/-- CASM hashes of the block for which an earlier row exists, state_update.rs 434-466. -/
def readMigrated (db : Db) (n : Nat) (u : Update) : Update :=
  db.casm.foldl (fun u r => if r.block = n ∧ db.casm.any (fun s => s.cls == r.cls && decide (s.block < r.block)) then
    { u with migrated := put u.migrated r.cls r.casm } else u) u

/-- Contract class rows of the block; replaced if an earlier row of the same contract exists,
state_update.rs 468-499. -/
def readClasses (db : Db) (n : Nat) (u : Update) : Update :=
  db.contracts.foldl (fun u r => if r.block = n then
    withClass u r.key
      (if db.contracts.any (fun s => s.key == r.key && decide (s.block < r.block)) then .replace r.val else .deploy r.val)
    else u) u

/-- `state_update` for a block number with a header, state_update.rs 305-502. -/
def readUpdate (db : Db) (n : Nat) : Option Update :=
  if db.headers.any fun r => r.1 == n then
    some (readClasses db n (readMigrated db n (readRedeclared db n (readDeclared db n
      (readStorage db n (readNonces db n {}))))))
  else none

/-! ### purge_block and prune_block -/

/-- `DELETE FROM t WHERE block_number = ?`. -/
def delBlock {κ α : Type} (rows : List (Row κ α)) (n : Nat) : List (Row κ α) := rows.filter fun r => r.block != n

/-- `purge_block`, block.rs 96-199, restricted to the modelled tables. `redeclared_classes` rows go with the
header (foreign key with ON DELETE CASCADE, schema/revision_0064.rs 35-39). `casm_class_hashes` is not touched. -/
def purgeBlock (db : Db) (n : Nat) : Db :=
  { db with
    headers := db.headers.filter fun r => r.1 != n
    redeclared := db.redeclared.filter fun r => r.2 != n
    contracts := delBlock db.contracts n
    nonces := delBlock db.nonces n
    storage := delBlock db.storage n
    classDefs := db.classDefs.map fun d => if d.2 = some n then (d.1, none) else d }

/-- Inner loop of prune_block for one key: delete the rows of that key at each of the listed blocks,
pruning.rs 176-187, 188-198, 199-212. -/
def delKeyBlocks {κ α : Type} [DecidableEq κ] (k : κ) (rows : List (Row κ α)) (blocks : List Nat) : List (Row κ α) :=
  blocks.foldl (fun rows b => rows.filter fun r => !(decide (r.key = k) && r.block == b)) rows

/-- Pruning of one table: keys written at the first kept block, and for each of them the older blocks,
pruning.rs 142-212. -/
def pruneTable {κ α : Type} [DecidableEq κ] (rows : List (Row κ α)) (kept : Nat) : List (Row κ α) :=
  ((rows.filter fun r => r.block == kept).map (·.key)).foldl
    (fun rows k => delKeyBlocks k rows ((rows.filter fun r => decide (r.key = k) && decide (r.block < kept)).map (·.block)))
    rows

/-- `prune_block`, pruning.rs 44-216, restricted to the modelled tables. -/
def pruneBlock (db : Db) (b : Nat) : Db :=
  { db with
    headers := db.headers.filter fun r => r.1 != b
    redeclared := db.redeclared.filter fun r => r.2 != b
    contracts := pruneTable db.contracts (b + 1)
    nonces := pruneTable db.nonces (b + 1)
    storage := pruneTable db.storage (b + 1) }

/-! ### reverse updates -/

/-- `SELECT DISTINCT key .. WHERE block_number > to AND block_number <= from`, state_update.rs 830-836, 907-918,
971-979. -/
def updatedKeys {κ α : Type} [DecidableEq κ] (rows : List (Row κ α)) (head to : Nat) : List κ :=
  ((rows.filter fun r => decide (to < r.block) && decide (r.block ≤ head)).map (·.key)).eraseDups

/-- `SELECT .. WHERE key = ? AND block_number <= to ORDER BY block_number DESC LIMIT 1`. -/
def oldVal {κ α : Type} [DecidableEq κ] (rows : List (Row κ α)) (to : Nat) (k : κ) : Option α :=
  (latest (rows.filterMap fun r => if r.key = k then some (r.block, r.val) else none) to).map (·.2)

/-- `ReverseContractUpdate` (crates/common/src/state_update.rs). -/
inductive RevUpd where
  | deleted
  | updated (u : ContractUpd)
deriving DecidableEq, Repr

/-- `ReverseContractUpdate::update_mut` followed by an assignment. -/
def RevUpd.modify (f : ContractUpd → ContractUpd) : RevUpd → RevUpd
  | .deleted => .deleted
  | .updated u => .updated (f u)

/-- The entry made for a changed class hash, state_update.rs 836-846. -/
def RevUpd.ofClass : Option Class → RevUpd
  | none => .deleted
  | some c => .updated { cls := some (.replace c) }

/-- One row of the query of `reverse_storage_updates`, joined with its address and key. -/
def revStorageStep (db : Db) (to : Nat) (m : List (Addr × List (Key × Val))) (id : Nat × Nat) : List (Addr × List (Key × Val)) :=
  match db.addrs[id.1]?, db.keys[id.2]? with
  | some a, some k => alter m a [] fun l => l ++ [(k, (oldVal db.storage to id).getD 0)]
  | _, _ => m

/-- `reverse_storage_updates`, state_update.rs 900-963. -/
def reverseStorage (db : Db) (head to : Nat) : List (Addr × List (Key × Val)) :=
  (updatedKeys db.storage head to).foldl (revStorageStep db to) []

/-- `reverse_nonce_updates`, state_update.rs 965-1002. -/
def reverseNonce (db : Db) (head to : Nat) : List (Addr × Option Nonce) :=
  (updatedKeys db.nonces head to).filterMap fun id => db.addrs[id]?.map fun a => (a, oldVal db.nonces to id)

/-- `reverse_contract_updates`, state_update.rs 820-898. -/
def reverseContracts (db : Db) (head to : Nat) : List (Addr × RevUpd) :=
  let cs := (updatedKeys db.contracts head to).map fun a => (a, oldVal db.contracts to a)
  let m : List (Addr × RevUpd) := cs.foldl (fun m p =>
    if m.any (fun e => e.1 == p.1) then m else m ++ [(p.1, RevUpd.ofClass p.2)]) []
  let m := (reverseNonce db head to).foldl (fun m p =>
    alter m p.1 (.updated {}) (RevUpd.modify fun u => { u with nonce := p.2 })) m
  (reverseStorage db head to).foldl (fun m p =>
    alter m p.1 (.updated {}) (RevUpd.modify fun u => { u with storage := p.2 })) m

/-- The older of two rows. -/
def older {α : Type} (s : Nat × α) : Option (Nat × α) → Option (Nat × α)
  | none => some s
  | some t => if s.1 ≤ t.1 then some s else some t

/-- The scalar sub-select `SELECT .. WHERE hash = ? AND block_number <= to` of state_update.rs 1024-1031 has no ORDER BY:
SQLite returns the first row it finds; with the unique index on (hash, block_number) that is the oldest one. -/
def oldest {α : Type} (rows : List (Nat × α)) (to : Nat) : Option (Nat × α) :=
  (rows.filter fun s => decide (s.1 ≤ to)).foldr older none

/-- `reverse_sierra_class_updates`, state_update.rs 1011-1053. -/
def reverseSierra (db : Db) (head to : Nat) : List (Class × Option Casm) :=
  (db.casm.filter fun r => decide (to < r.block) && decide (r.block ≤ head)).map fun r =>
    (r.cls, (oldest (casmRows db r.cls) to).map (·.2))

/-- The preimage of a contract's state hash: class, nonce and storage, with the zero defaults of the tries. A
contract that is absent from the global tree has the state `{}`. -/
structure CState where
  cls : Option Class := none
  nonce : Nonce := 0
  storage : Key → Val := fun _ => 0

/-- `tree.set(address, value)` for every entry, contract_state.rs 179-182; also the loop of revert.rs 117-133. -/
def setAll {α : Type} (s : Nat → α) (kvs : List (Nat × α)) : Nat → α :=
  kvs.foldl (fun s kv k => if k = kv.1 then kv.2 else s k) s

/-- The class of the reverted contract, contract_state.rs 151-164. `none` is the panic of `.unwrap()` on a missing
class hash; system contracts have no class. -/
def revClass (db : Db) (target : Nat) (a : Addr) : Option ClassUpd → Option (Option Class)
  | some c => some (some c.hash)
  | none => if isSystem a then some none else (contractClass db (.number target) a).map some

/-- The nonce of the reverted contract, contract_state.rs 166-172. -/
def revNonce (db : Db) (target : Nat) (a : Addr) : Option Nonce → Nonce
  | some x => x
  | none => (contractNonce db (.number target) a).getD 0

/-- `revert_contract_state`, crates/merkle-tree/src/contract_state.rs 135-215, on the level of the preimage of the
contract state hash; the storage trie at the head is given as the map it represents (Verif.Trie relates the
two). -/
def revertContract (db : Db) (target : Nat) (a : Addr) (atHead : CState) : RevUpd → Option CState
  | .deleted => some {}
  | .updated u => (revClass db target a u.cls).map fun c =>
    { cls := c, nonce := revNonce db target a u.nonce, storage := setAll atHead.storage u.storage }

/-- `revert_contract_updates`, crates/pathfinder/src/state/sync/revert.rs 57-101: the leaves of the global tree
after the reverse updates have been applied to the state at the head. -/
def revertContracts (db : Db) (head target : Nat) (atHead : Addr → CState) (a : Addr) : Option CState :=
  match (reverseContracts db head target).lookup a with
  | none => some (atHead a)
  | some r => revertContract db target a (atHead a) r

/-- `revert_class_updates`, crates/pathfinder/src/state/sync/revert.rs 103-147: the leaves of the class tree after the
reverse updates have been applied to those at the head. The leaf of a class is given by its CASM hash, a missing
leaf by `none`. -/
def revertClasses (db : Db) (head target : Nat) (atHead : Class → Option Casm) : Class → Option Casm :=
  setAll atHead (reverseSierra db head target)

/-! ### the drivers in sync.rs -/

/-- `block_id(Latest)`: the highest header. -/
def head (db : Db) : Option Nat := (newest db.headers).map (·.1)

/-- `earliest_block_number`: the lowest header (block.rs). -/
def earliest (db : Db) : Option Nat := (db.headers.map (·.1)).min?

/-- `block_exists` for a number. -/
def hasBlock (db : Db) (n : Nat) : Bool := db.headers.any fun r => r.1 == n

/-- The purge loop of l2_reorg, sync.rs 1590-1601: blocks `tail + d`, ..., `tail` are purged in that order. -/
def purgeDown (db : Db) (tail : Nat) : Nat → Db
  | 0 => purgeBlock db tail
  | d + 1 => purgeDown (purgeBlock db (tail + d + 1)) tail d

/-- `l2_reorg`, sync.rs 1543-1602: fails if the tail block or its parent is missing; the tries are in
Verif.Trie.Prune. `none` stands for the error, on which the transaction is dropped. -/
def l2Reorg (db : Db) (tail : Nat) : Option Db :=
  match head db with
  | none => none
  | some h =>
    if hasBlock db tail && (tail == 0 || hasBlock db (tail - 1)) then some (purgeDown db tail (h - tail)) else none

/-- The loop of perform_blockchain_pruning, sync.rs 1157-1166, for blocks `first`, ..., `first + d - 1`. -/
def pruneLoop (db : Db) (first : Nat) : Nat → Db
  | 0 => db
  | d + 1 =>
    let db := if hasBlock db first then pruneBlock db first else db
    pruneLoop db (first + 1) d

/-- `perform_blockchain_pruning`, sync.rs 1103-1171. `point` is the pruning point block: the L1 checkpoint if it
is below the L2 head, or the L2 head itself, so it never exceeds the head (sync.rs 1111-1143). -/
def prune (db : Db) (point numKept : Nat) : Db :=
  match head db, earliest db with
  | some h, some e =>
    if point ≤ h ∧ numKept ≤ point then pruneLoop db e (point - numKept - e) else db
  | _, _ => db

/-- One database transaction of the sync loop. -/
inductive Op where
  | define (h : Class)
  | block (hash : Hash) (u : Update)
  | reorg (tail : Nat)
  | prune (point numKept : Nat)
deriving DecidableEq, Repr

/-- The number of the next block to sync: the one after the head, or genesis. -/
def nextNumber (db : Db) : Nat :=
  match head db with
  | none => 0
  | some h => h + 1

/-- Storing the next block: the header and the state update (sync.rs l2_update). -/
def storeBlock (db : Db) (hash : Hash) (u : Update) : Option Db :=
  (insertHeader db (nextNumber db) hash).map fun d => insertUpdate d (nextNumber db) u

/-- A transaction that fails leaves the database as it was. -/
def step (db : Db) : Op → Db
  | .define h => insertDefinition db h
  | .block hash u => (storeBlock db hash u).getD db
  | .reorg tail => (l2Reorg db tail).getD db
  | .prune p k => prune db p k

def run (ops : List Op) : Db := ops.foldl step {}

end Verif.State
