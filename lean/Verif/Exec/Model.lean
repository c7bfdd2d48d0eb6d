/-!
Model of what the execution of transactions reads: the storage adapter that puts the blocks
agreed on by consensus on top of the database, the state reader above it, the process wide cache
of compiled classes, and the collection of declared classes while a proposal is executed.

Simplifications that hold for the whole file: field elements, class hashes, contract addresses and
definitions are natural numbers; a hash map is a list of pairs and is read with its first hit; a
class definition or compiled class is one number, and parsing it succeeds.
-/

namespace Verif.Exec

/-- crates/common/src/state_update.rs 54-58 `ContractClassUpdate`. -/
inductive ClassUpdate where
  | deploy (h : Nat)
  | replace (h : Nat)
deriving Repr, DecidableEq

/-- crates/common/src/state_update.rs 114-120 `ContractClassUpdate::class_hash`. -/
def ClassUpdate.hash : ClassUpdate → Nat
  | .deploy h => h
  | .replace h => h

/-- crates/common/src/state_update.rs 41-47 `ContractUpdate`. -/
structure CU where
  storage : List (Nat × Nat)
  cls : Option ClassUpdate
  nonce : Option Nat
deriving Repr, DecidableEq

/-- crates/common/src/l2.rs 98-103 `DeclaredClass`. -/
structure Cls where
  hash : Nat
  casmV2 : Nat
  sierra : Nat
  casm : Nat
deriving Repr, DecidableEq

/-- crates/common/src/l2.rs 57-63 `ConsensusFinalizedL2Block`: the state update and the declared
classes with their definitions. Header, transactions and events are left out. For a block that is
in the database only the state update is used. -/
structure Blk where
  contracts : List (Nat × CU)
  system : List (Nat × List (Nat × Nat))
  cairo : List Nat
  declared : List (Nat × Nat)
  migrated : List (Nat × Nat)
  classes : List Cls
deriving Repr, DecidableEq

/-- crates/storage/src/connection/state_update.rs 133-153: the row of `nonce_updates` a block
leaves for a contract. -/
def Blk.nonce (b : Blk) (a : Nat) : Option Nat := (b.contracts.lookup a).bind (·.nonce)

/-- crates/storage/src/connection/state_update.rs 133-138: the row of `contract_updates` a block
leaves for a contract. -/
def Blk.cls (b : Blk) (a : Nat) : Option Nat :=
  (b.contracts.lookup a).bind fun u => u.cls.map (·.hash)

/-- crates/storage/src/connection/state_update.rs 155-203: the row of `storage_updates` a block
leaves for a slot of a contract or of a system contract. -/
def Blk.slot (b : Blk) (a k : Nat) : Option Nat :=
  ((b.contracts.lookup a).bind fun u => u.storage.lookup k).or
    ((b.system.lookup a).bind fun s => s.lookup k)

/-- crates/storage/src/connection/state_update.rs 242-256: the row of `casm_class_hashes` a block
leaves for a class; declared classes go first, migrated ones are `INSERT OR IGNORE` after them. -/
def Blk.casmHash (b : Blk) (h : Nat) : Option Nat :=
  (b.declared.lookup h).or (b.migrated.lookup h)

/-- crates/storage/src/connection/state_update.rs 205-240: the classes whose row a block marks as
declared: Cairo and Sierra declarations and the classes of deployed contracts. -/
def Blk.introduces (b : Blk) (h : Nat) : Bool :=
  b.cairo.contains h || b.declared.any (·.1 == h) ||
    b.contracts.any fun p => p.2.cls == some (.deploy h)

/-- The database as one read transaction sees it: the blocks by number, and the definitions of
classes with the compiled definition when there is one (tables `class_definitions` and
`casm_definitions`). -/
structure Db where
  blocks : List Blk
  defs : Nat → Option (Nat × Option Nat)

/-- crates/storage/src/connection/state_update.rs 623-830: `ORDER BY block_number DESC LIMIT 1`
over the rows with `block_number <= n`. -/
def Db.newest {α : Type} (db : Db) (n : Nat) (sel : Blk → Option α) : Option α :=
  (db.blocks.take (n + 1)).reverse.findSome? sel

/-- crates/storage/src/connection/state_update.rs 623-690 `storage_value`. -/
def Db.storageValue (db : Db) (n a k : Nat) : Option Nat := db.newest n fun b => b.slot a k

/-- crates/storage/src/connection/state_update.rs 729-777 `contract_nonce`. -/
def Db.contractNonce (db : Db) (n a : Nat) : Option Nat := db.newest n fun b => b.nonce a

/-- crates/storage/src/connection/state_update.rs 779-820 `contract_class_hash`. -/
def Db.contractClassHash (db : Db) (n a : Nat) : Option Nat := db.newest n fun b => b.cls a

/-- crates/storage/src/connection/class.rs 471-529 `casm_hash_at`. -/
def Db.casmHashAt (db : Db) (n h : Nat) : Option Nat := db.newest n fun b => b.casmHash h

/-- The column `block_number` of `class_definitions`: the first block that introduces the class. -/
def Db.declaredAt (db : Db) (h : Nat) : Option Nat := db.blocks.findIdx? fun b => b.introduces h

/-- What looking up a class gives: crates/executor/src/state_reader.rs 77-170. `found` carries the
block number for the cache and the class the executor runs: the compiled definition if there is
one, the definition otherwise. -/
inductive ClassRes where
  | found (height : Option Nat) (defn : Nat) (casm : Option Nat)
  | undeclared
  | failed
deriving Repr, DecidableEq

/-- crates/storage/src/connection/class.rs 282-297 and 369-455
`class_definition_at_with_block_number` with `casm_definition_at`. -/
def Db.classAt (db : Db) (n h : Nat) : ClassRes :=
  match db.declaredAt h with
  | none => .undeclared
  | some m =>
    if m ≤ n then
      match db.defs h with
      | none => .failed
      | some (d, c) => .found (some m) d c
    else .undeclared

/-- crates/storage/src/connection/class.rs 193-222 and 300-323
`class_definition_with_block_number` with `casm_definition`: also classes that no stored block
declares. -/
def Db.classAny (db : Db) (h : Nat) : ClassRes :=
  match db.defs h with
  | some (d, c) => .found (db.declaredAt h) d c
  | none => if (db.declaredAt h).isSome then .failed else .undeclared

/-- crates/common/src/l2.rs 50-51 `DecidedBlocks`: ascending by number. -/
abbrev Decided := List (Nat × Blk)

/-- crates/executor/src/state_reader/storage_adapter/concurrent.rs 432-447 `rev_blocks_by_id` for a
block number. -/
def revBlocks (d : Decided) (n : Nat) : List (Nat × Blk) :=
  (d.filter fun p => decide (p.1 ≤ n)).reverse

/-- concurrent.rs 449-458 `find_class`. -/
def findClass (bs : List (Nat × Blk)) (h : Nat) : Option (Nat × Cls) :=
  bs.findSome? fun p => (p.2.classes.find? fun c => c.hash == h).map fun c => (p.1, c)

/-- concurrent.rs 460-465 `find_contract_update`. -/
def findContractUpdate (bs : List (Nat × Blk)) (a : Nat) : Option CU :=
  bs.findSome? fun p => p.2.contracts.lookup a

/-- concurrent.rs 502-528 `decided::storage_value`. -/
def decidedStorage (d : Decided) (n a k : Nat) : Option Nat :=
  (revBlocks d n).findSome? fun p =>
    (((p.2.contracts.map fun q => (q.1, q.2.storage)) ++ p.2.system).lookup a).bind
      fun s => s.lookup k

/-- concurrent.rs 530-538 `decided::contract_nonce`. -/
def decidedNonce (d : Decided) (n a : Nat) : Option Nat :=
  (findContractUpdate (revBlocks d n) a).bind (·.nonce)

/-- concurrent.rs 540-549 `decided::contract_class_hash`. -/
def decidedClassHash (d : Decided) (n a : Nat) : Option Nat :=
  (findContractUpdate (revBlocks d n) a).bind fun u => u.cls.map (·.hash)

/-- concurrent.rs 560-568 `decided::casm_hash_at`. -/
def decidedCasmHash (d : Decided) (n h : Nat) : Option Nat :=
  (findClass (revBlocks d n) h).map fun p => p.2.casmV2

/-- concurrent.rs 180-203 `storage_value`: decided blocks first, then the database. -/
def storageValue (db : Db) (d : Decided) (n a k : Nat) : Option Nat :=
  (decidedStorage d n a k).or (db.storageValue n a k)

/-- concurrent.rs 205-223 `contract_nonce`. -/
def contractNonce (db : Db) (d : Decided) (n a : Nat) : Option Nat :=
  (decidedNonce d n a).or (db.contractNonce n a)

/-- concurrent.rs 225-243 `contract_class_hash`. -/
def contractClassHash (db : Db) (d : Decided) (n a : Nat) : Option Nat :=
  (decidedClassHash d n a).or (db.contractClassHash n a)

/-- concurrent.rs 268-285 `casm_hash_at`. -/
def casmHashAt (db : Db) (d : Decided) (n h : Nat) : Option Nat :=
  (decidedCasmHash d n h).or (db.casmHashAt n h)

/-- concurrent.rs 140-178 `casm_definition_at` and `class_definition_at_with_block_number`: both
take the class of the newest decided block that carries it. -/
def classAt (db : Db) (d : Decided) (n h : Nat) : ClassRes :=
  match findClass (revBlocks d n) h with
  | some (m, c) => .found (some m) c.sierra (some c.casm)
  | none => db.classAt n h

/-- crates/executor/src/state_reader.rs 214-248 `get_storage_at`; `none` is the state before the
first block. -/
def getStorageAt (db : Db) (d : Decided) (n : Option Nat) (a k : Nat) : Nat :=
  match n with
  | none => 0
  | some n => (storageValue db d n a k).getD 0

/-- state_reader.rs 250-276 `get_nonce_at`. -/
def getNonceAt (db : Db) (d : Decided) (n : Option Nat) (a : Nat) : Nat :=
  match n with
  | none => 0
  | some n => (contractNonce db d n a).getD 0

/-- state_reader.rs 278-308 `get_class_hash_at`. -/
def getClassHashAt (db : Db) (d : Decided) (n : Option Nat) (a : Nat) : Nat :=
  match n with
  | none => 0
  | some n => (contractClassHash db d n a).getD 0

/-- state_reader.rs 341-364 `get_compiled_class_hash` for a reader without pending data; `none` is
the error for a class that is not declared. -/
def getCompiledClassHash (db : Db) (d : Decided) (n : Option Nat) (h : Nat) : Option Nat :=
  n.map fun n => (casmHashAt db d n h).getD 0

/-- state_reader.rs 77-115 `non_cached_compiled_contract_class`; `pending` is
`ignore_block_number_for_classes`. -/
def nonCached (db : Db) (d : Decided) (n : Option Nat) (pending : Bool) (h : Nat) : ClassRes :=
  match n with
  | none => .undeclared
  | some n =>
    if pending then
      match findClass d h with
      | some (m, c) => .found (some m) c.sierra (some c.casm)
      | none => db.classAny h
    else classAt db d n h

/-- crates/executor/src/lru_cache.rs 12-50 `LruContractCache`: the class and the number of the block
that declares it. Evictions are steps of their own. -/
abbrev Cache := Nat → Option ((Nat × Option Nat) × Nat)

/-- lru_cache.rs 38-49 `set`. -/
def Cache.set (c : Cache) (h : Nat) (v : Nat × Option Nat) (height : Nat) : Cache :=
  fun h' => if h' = h then some (v, height) else c h'

/-- state_reader.rs 318-327: the entry, if it may be used by a reader of block `n`. -/
def Cache.hit (c : Cache) (n : Option Nat) (h : Nat) : Option (Nat × Option Nat) :=
  match c h, n with
  | some (v, height), some n => if height ≤ n then some v else none
  | _, _ => none

/-- What the executor is given for a class. -/
inductive Runnable where
  | runs (defn : Nat) (casm : Option Nat)
  | undeclared
  | failed
deriving Repr, DecidableEq

def ClassRes.runnable : ClassRes → Runnable
  | .found _ d c => .runs d c
  | .undeclared => .undeclared
  | .failed => .failed

/-- state_reader.rs 310-339 `get_compiled_class`: the answer and the cache afterwards. -/
def getCompiledClass (cache : Cache) (db : Db) (d : Decided) (n : Option Nat) (pending : Bool)
    (h : Nat) : Runnable × Cache :=
  match cache.hit n h with
  | some (df, c) => (.runs df c, cache)
  | none =>
    let r := nonCached db d n pending h
    match r with
    | .found (some m) df c => (r.runnable, cache.set h (df, c) m)
    | _ => (r.runnable, cache)

/-! ### The blocks of proposals -/

/-- A transaction of a proposal as far as its declaration is concerned: the class it carries and
whether its execution was reverted (crates/validator/src/lib.rs 965-968 `MappedTransaction` and the
receipt). -/
structure Tx where
  declares : Option Cls
  reverted : Bool
deriving Repr, DecidableEq

/-- crates/validator/src/lib.rs 494-516 `ValidatorTransactionBatchStage`: the accumulated
transactions (receipts and events have the same length) and classes. -/
structure Stage where
  txs : List Tx
  classes : List Cls
deriving Repr, DecidableEq

/-- The class a transaction adds to the declared ones, lib.rs 636-645. -/
def Tx.added (t : Tx) : Option Cls := if t.reverted then none else t.declares

/-- lib.rs 524-657 `execute_batch` after the execution. -/
def Stage.executeBatch (s : Stage) (batch : List Tx) : Stage :=
  if batch.isEmpty then s
  else { txs := s.txs ++ batch, classes := s.classes ++ batch.filterMap Tx.added }

/-- lib.rs 659-692 `rollback_to_transaction`; `none` is the error. -/
def Stage.rollback (s : Stage) (target : Nat) : Option Stage :=
  if target > s.txs.length then none
  else if target = s.txs.length then some s
  else some { s with txs := s.txs.take target }

/-- lib.rs 786-883 `consensus_finalize0`: the classes declared in the state diff, which
`close_block(n)` computes from the first `n` transactions, and the class definitions of the block. -/
def Stage.finalize (s : Stage) : List (Nat × Nat) × List Cls :=
  ((s.txs.filterMap Tx.added).map fun c => (c.hash, c.casmV2), s.classes)

/-- crates/executor/src/concurrent_block.rs 303-322: creating the executor of block `n` needs the
hash of block `n - 10`, which only the database has. `none` is the error. -/
def startExecutor (db : Db) (n : Nat) : Option Unit :=
  if 10 ≤ n then (if n - 10 < db.blocks.length then some () else none) else some ()

/-! ### Closing a block -/

/-- The part of the result of the library's `close_block` that crates/executor/src/concurrent_block.rs
343-429 reads for classes: the new class of each contract whose class changed, the compiled class hash
of each class for which it changed, and for each migrated class the pair of its new and its old
compiled class hash. -/
structure Summary where
  classes : List (Nat × Nat)
  compiled : List (Nat × Nat)
  migration : List (Nat × Nat)
deriving Repr, DecidableEq

/-- crates/executor/src/types.rs 612-623 `StateDiff`, the class parts. -/
structure ClassDiff where
  deployed : List (Nat × Nat)
  replaced : List (Nat × Nat)
  declared : List (Nat × Nat)
  migrated : List (Nat × Nat)
deriving Repr, DecidableEq

/-- concurrent_block.rs 343-429 `convert_commitment_state_diff`, the class parts. -/
def convertDiff (s : Summary) : ClassDiff where
  deployed := s.classes
  replaced := []
  declared := s.compiled
  migrated := s.migration.map fun p => (p.1, p.2)

/-- crates/executor/src/types.rs 1195-1284 `to_state_diff`, the class parts; `before` is the class of
a contract in the state before the transaction, zero if it has none. -/
def toStateDiff (before : Nat → Nat) (classes compiled : List (Nat × Nat)) : ClassDiff where
  deployed := classes.filter fun p => before p.1 == 0
  replaced := classes.filter fun p => !(before p.1 == 0)
  declared := compiled
  migrated := []

end Verif.Exec
