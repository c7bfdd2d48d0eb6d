/-!
Model of how a node that follows the gateway gets class definitions, stores them and serves them:
download and checks, the events between the downloading and the storing task, the tables of classes,
reorganisations, the repair at start, and the RPC reads.

Simplifications that hold for the whole file: class hashes, addresses and compiled classes are
natural numbers; a definition is a number with its kind; a hash map is a list of pairs.
-/

namespace Verif.Avail

/-- crates/common/src/class_definition.rs: the text of a class definition and whether it is Sierra. -/
structure Def where
  body : Nat
  sierra : Bool
deriving Repr, DecidableEq

/-- The class parts of crates/common/src/state_update.rs `StateUpdate`: contracts with the class they
are deployed with or replaced by, declared Cairo 0 classes, declared Sierra classes with their
compiled class hash. -/
structure Upd where
  deployed : List (Nat × Nat)
  replaced : List (Nat × Nat)
  cairo : List Nat
  sierra : List (Nat × Nat)
deriving Repr, DecidableEq

/-- A row of the table `class_definitions`. -/
structure Row where
  defn : Option Def
  block : Option Nat
deriving Repr, DecidableEq

/-- The stored blocks, `class_definitions`, `casm_definitions`. -/
structure Db where
  chain : List Upd
  rows : Nat → Option Row
  casm : Nat → Option Nat

/-- crates/storage/src/connection/class.rs 123-144 `insert_cairo_class_definition`. -/
def Db.insertDef (db : Db) (h : Nat) (d : Def) : Db :=
  { db with rows := fun h' =>
      if h' = h then
        match db.rows h with
        | none => some { defn := some d, block := none }
        | some r => some { r with defn := r.defn.or (some d) }
      else db.rows h' }

/-- class.rs 19-75 `insert_sierra_class_definition`. The compiled class hash is left out. -/
def Db.insertSierra (db : Db) (h : Nat) (d : Def) (c : Nat) : Db :=
  { db.insertDef h d with casm := fun h' => if h' = h then some c else db.casm h' }

/-- crates/storage/src/connection/state_update.rs 107-116: `upsert_declared_at`. -/
def Db.declareAt (db : Db) (m h : Nat) : Db :=
  { db with rows := fun h' =>
      if h' = h then
        match db.rows h with
        | none => some { defn := none, block := some m }
        | some r => some { r with block := r.block.or (some m) }
      else db.rows h' }

/-- state_update.rs 205-240: the classes that a block marks as declared, in the order of the
statements. -/
def Upd.introduced (u : Upd) : List Nat :=
  u.sierra.map (·.1) ++ u.cairo ++ u.deployed.map (·.2)

/-- Storing a block, as far as classes are concerned. -/
def Db.storeBlock (db : Db) (u : Upd) : Db :=
  u.introduced.foldl (fun s h => s.declareAt db.chain.length h) { db with chain := db.chain ++ [u] }

/-- crates/storage/src/connection/block.rs 96-199 `purge_block` for the last block: rows that say
this block say none, definitions stay. -/
def Db.purge (db : Db) : Db :=
  { db with
    chain := db.chain.dropLast
    rows := fun h => (db.rows h).map fun r =>
      if r.block = some (db.chain.length - 1) then { r with block := none } else r }

/-- crates/pathfinder/src/state/sync.rs `l2_reorg`: purges block after block down to `k`. -/
def Db.reorg (db : Db) (k : Nat) : Db :=
  if _h : k < db.chain.length then db.purge.reorg k else db
termination_by db.chain.length
decreasing_by simp [Db.purge]; omega

/-! ### Download -/

/-- crates/pathfinder/src/state/sync/class.rs 11-22 `DownloadedClass`. -/
inductive Downloaded where
  | cairo (d : Def) (hash : Nat)
  | sierra (d : Def) (hash : Nat) (casm : Nat)
deriving Repr, DecidableEq

/-- What the gateway answers for a class hash: the definition, and the compiled class if it is Sierra
(downloaded or compiled). `none` is a failed request, text that cannot be parsed, or a failed
compilation. -/
abbrev Gateway := Nat → Option (Def × Nat)

/-- class.rs 24-140 `download_class`; `hashOf` is `compute_class_hash`. A Cairo 0 class with another
hash is only logged and goes on under the computed hash. -/
def download (hashOf : Def → Nat) (g : Gateway) (h : Nat) : Option Downloaded :=
  match g h with
  | none => none
  | some (d, c) =>
    if d.sierra then (if hashOf d = h then some (.sierra d h c) else none)
    else some (.cairo d (hashOf d))

/-- crates/pathfinder/src/state/sync/l2.rs 745-766: the classes to look at. -/
def Upd.newClasses (u : Upd) : List Nat :=
  u.deployed.map (·.2) ++ u.cairo ++ u.sierra.map (·.1)

/-- crates/storage/src/connection/class.rs 173-184 `class_definitions_exist`. -/
def Db.hasDef (db : Db) (h : Nat) : Bool := ((db.rows h).bind (·.defn)).isSome

/-- l2.rs 772-795: the classes to download. -/
def Db.missing (db : Db) (u : Upd) : List Nat := u.newClasses.filter fun h => !db.hasDef h

/-- crates/pathfinder/src/state/sync.rs 69-103 `SyncEvent`, what matters for classes. -/
inductive Event where
  | cairo (d : Def) (h : Nat)
  | sierra (d : Def) (h : Nat) (c : Nat)
  | block (u : Upd)
  | reorg (k : Nat)

/-- l2.rs 1270-1325 `emit_events_for_downloaded_classes`: a Sierra class that the block does not
declare is left out. -/
def classEvents (u : Upd) (ds : List Downloaded) : List Event :=
  ds.filterMap fun
    | .cairo d h => some (.cairo d h)
    | .sierra d h c => if u.sierra.any (·.1 == h) then some (.sierra d h c) else none

/-- crates/pathfinder/src/state/sync.rs 880-999, the arms of the consumer. -/
def Db.apply (db : Db) : Event → Db
  | .cairo d h => db.insertDef h d
  | .sierra d h c => db.insertSierra h d c
  | .block u => db.storeBlock u
  | .reorg k => db.reorg k

/-! ### The tasks -/

/-- The database, the channel between the tasks, and the blocks whose missing classes are known and
being downloaded: one with ordinary sync, several with bulk sync. -/
structure St where
  db : Db
  queue : List Event
  loading : List (Upd × List Nat)

/-- One step of the node.

* `check`: the missing classes of a downloaded block are looked up (l2.rs 772-795).
* `emit`: the classes are downloaded and sent, then the block (l2.rs 238-254 and the sending of the
  block, 1243-1262 for bulk sync, which keeps the order of the blocks).
* `giveUp`: the classes are sent, and then the producer fails or falls back (l2.rs 257-300 and
  1182-1226).
* `reorg`: the producer finds a reorganisation; nothing is being downloaded then.
* `consume`: the consumer stores the next event.
* `restart`: the tasks or the process restart. -/
inductive Step (hashOf : Def → Nat) : St → St → Prop where
  | check (s : St) (u : Upd) :
      Step hashOf s { s with loading := s.loading ++ [(u, s.db.missing u)] }
  | emit (s : St) (g : Gateway) (u : Upd) (hs : List Nat) (rest : List (Upd × List Nat))
      (ds : List Downloaded) (hl : s.loading = (u, hs) :: rest)
      (hd : hs.mapM (download hashOf g) = some ds) :
      Step hashOf s { s with queue := s.queue ++ classEvents u ds ++ [.block u], loading := rest }
  | giveUp (s : St) (g : Gateway) (u : Upd) (hs : List Nat) (rest : List (Upd × List Nat))
      (ds : List Downloaded) (hl : s.loading = (u, hs) :: rest)
      (hd : hs.mapM (download hashOf g) = some ds) :
      Step hashOf s { s with queue := s.queue ++ classEvents u ds, loading := [] }
  | reorg (s : St) (k : Nat) (hl : s.loading = []) :
      Step hashOf s { s with queue := s.queue ++ [.reorg k] }
  | consume (s : St) (e : Event) (rest : List Event) (hq : s.queue = e :: rest) :
      Step hashOf s { s with db := s.db.apply e, queue := rest }
  | restart (s : St) : Step hashOf s { s with queue := [], loading := [] }

/-- An empty database. -/
def St.init : St where
  db := { chain := [], rows := fun _ => none, casm := fun _ => none }
  queue := []
  loading := []

/-- States of a node, whatever the gateway says. -/
inductive Reach (hashOf : Def → Nat) : St → Prop where
  | init : Reach hashOf St.init
  | step {s t : St} (r : Reach hashOf s) (h : Step hashOf s t) : Reach hashOf t

/-- crates/pathfinder/src/state/sync/repair.rs 115-150 `store_repaired_class` after `download_class`:
stored under the hash that was asked for, over whatever is there. -/
def Db.repair (hashOf : Def → Nat) (g : Gateway) (db : Db) (h : Nat) : Db :=
  match download hashOf g h with
  | none => db
  | some (.cairo d _) =>
    { db with rows := fun h' => if h' = h then (db.rows h).map fun r => { r with defn := some d } else db.rows h' }
  | some (.sierra d _ c) =>
    { db with
      rows := fun h' => if h' = h then (db.rows h).map fun r => { r with defn := some d } else db.rows h'
      casm := fun h' => if h' = h then some c else db.casm h' }

/-- States of a node that also repairs: repair.rs 46-105 takes the hashes without definition. -/
inductive ReachRepair (hashOf : Def → Nat) : St → Prop where
  | init : ReachRepair hashOf St.init
  | step {s t : St} (r : ReachRepair hashOf s) (h : Step hashOf s t) : ReachRepair hashOf t
  | repair {s : St} (r : ReachRepair hashOf s) (g : Gateway) (h : Nat)
      (hm : s.db.rows h ≠ none) (hn : s.db.hasDef h = false) :
      ReachRepair hashOf { s with db := s.db.repair hashOf g h }

/-! ### RPC -/

/-- The answers. -/
inductive Answer where
  | found (d : Def)
  | blockNotFound
  | classHashNotFound
  | contractNotFound
  | internal
deriving Repr, DecidableEq

/-- crates/rpc/src/method/get_class.rs 46-96 `get_class` for a block number. A definition that is
`NULL` cannot be read as a blob (class.rs 225-297). -/
def getClass (db : Db) (n h : Nat) : Answer :=
  if n < db.chain.length then
    match db.rows h with
    | none => .classHashNotFound
    | some r =>
      match r.block with
      | none => .classHashNotFound
      | some m =>
        if m ≤ n then
          match r.defn with
          | none => .internal
          | some d => .found d
        else .classHashNotFound
  else .blockNotFound

/-- The class a block gives a contract: state_update.rs 133-138. -/
def Upd.classOf (u : Upd) (a : Nat) : Option Nat := (u.deployed ++ u.replaced).lookup a

/-- state_update.rs 779-820 `contract_class_hash`. -/
def Db.classHash (db : Db) (n a : Nat) : Option Nat :=
  (db.chain.take (n + 1)).reverse.findSome? fun u => u.classOf a

/-- crates/rpc/src/method/get_class_at.rs 55-108 `get_class_at` for a block number. -/
def getClassAt (db : Db) (n a : Nat) : Answer :=
  if n < db.chain.length then
    match db.classHash n a with
    | none => .contractNotFound
    | some h =>
      match (db.rows h).bind (·.defn) with
      | none => .internal
      | some d => .found d
  else .blockNotFound

/-- crates/rpc/src/method/get_compiled_casm.rs 69-100 `get_compiled_casm`; `none` is that the class
hash is not found. -/
def getCompiledCasm (db : Db) (h : Nat) : Option Nat := db.casm h

end Verif.Avail
