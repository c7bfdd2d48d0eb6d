/-
Model of opening the node's database, and of how blocks leave it.

Code modelled (all in /repo/crates):
* storage/src/lib.rs:329-391      `StorageBuilder::migrate`
* storage/src/lib.rs:400-461      `StorageBuilder::readonly`
* storage/src/lib.rs:468-517      `determine_trie_prune_mode`
* storage/src/lib.rs:530-562      `determine_blockchain_history_mode`
* storage/src/lib.rs:565-645      `validate_mode_and_update_db`
* storage/src/lib.rs:723-800      `migrate_database`
* storage/src/connection/pruning.rs:45-  `prune_block` (the block header only)
* pathfinder/src/state/sync.rs:1072-1171 `PruningEvent`, `perform_blockchain_pruning`

An SQL statement run outside a transaction, and a committed transaction, reaches
the disk as one unit; a process can die between any two of these.  Opening is
therefore modelled as the list of states of the database file that it passes
through, together with how it ends.

Everything in the tables other than the schema revision, the two rows of
`storage_options`, the numbers in `block_headers` and the latest L1 state is one
value of an arbitrary type `D`; a migration is an arbitrary partial function on
it (`none`: the migration fails).  The 37 migrations are a parameter: the list
`ms`, so that the latest revision is `40 + ms.length`
(storage/src/schema.rs: `LATEST_SCHEMA_REVISION`).
-/

namespace Verif.Open

/-- storage/src/schema.rs: `BASE_SCHEMA_REVISION`. -/
def baseRevision : Nat := 40

/-- The database file.  `rev`: the pragma `user_version`.  `history`: the value of
the row 'prune_blockchain' of `storage_options`.  `tries`: whether it has the row
'prune_tries'.  `blocks`: the numbers in `block_headers`.  `l1`: the highest
block number in the table of L1 states.  Simplified: the two rows and the
numbers are kept outside of `data` and are left alone by migrations; the table
`storage_options` is taken to exist at all times (migrations 54 and 70 make
it). -/
structure Disk (D : Type) where
  rev : Nat
  data : D
  history : Option Nat
  tries : Bool
  blocks : List Nat
  l1 : Option Nat

/-- A storage mode: storage/src/lib.rs `BlockchainHistoryMode` and
`TriePruneMode`, which have the same two cases. -/
inductive Mode where
  | archive
  | prune (kept : Nat)
deriving DecidableEq

/-- What the operator asked for: pathfinder/src/bin/pathfinder/main.rs passes
both as `Option`s to the builder. -/
structure Cfg where
  history : Option Mode
  tries : Option Mode

/-- How opening ends. -/
inductive Out where
  | err
  | ok (history tries : Mode)
deriving DecidableEq

/-- The migrations: `empty` is the content of a file just created, `base` the
base schema (storage/src/schema.rs `base_schema`), `ms` the migrations
(storage/src/schema.rs `migrations`). -/
structure Schema (D : Type) where
  empty : D
  base : D → Option D
  ms : List (D → Option D)

/-- storage/src/schema.rs: `LATEST_SCHEMA_REVISION`. -/
def Schema.latest {D : Type} (S : Schema D) : Nat := baseRevision + S.ms.length

variable {D : Type}

/-- The file as SQLite creates it (storage/src/lib.rs:337: `Connection::open`). -/
def created (S : Schema D) : Disk D :=
  { rev := 0, data := S.empty, history := none, tries := false, blocks := [], l1 := none }

/-- The state of the file after passing through `t` from `d`. -/
def last (d : Disk D) (t : List (Disk D)) : Disk D := t.getLast?.getD d

/-- storage/src/lib.rs:773-797: the loop over the missing migrations, each in its
own transaction that also sets the revision. -/
def applyAll : List (D → Option D) → Disk D → List (Disk D) × Bool
  | [], _ => ([], true)
  | m :: ms, d =>
    match m d.data with
    | none => ([], false)
    | some x =>
      let d' := { d with rev := d.rev + 1, data := x }
      let r := applyAll ms d'
      (d' :: r.1, r.2)

/-- storage/src/lib.rs:738-800: `migrate_database` after the base schema. -/
def migrateFrom (S : Schema D) (d : Disk D) : List (Disk D) × Bool :=
  if d.rev = S.latest then ([], true)
  else if d.rev < baseRevision then ([], false)
  else if d.rev > S.latest then ([], false)
  else applyAll (S.ms.reverse.take (S.latest - d.rev)).reverse d

/-- storage/src/lib.rs:723-800: `migrate_database`. -/
def migrateDb (S : Schema D) (d : Disk D) : List (Disk D) × Bool :=
  if d.rev = 0 then
    match S.base d.data with
    | none => ([], false)
    | some x =>
      let d' := { d with rev := baseRevision, data := x }
      let r := migrateFrom S d'
      (d' :: r.1, r.2)
  else migrateFrom S d

/-- storage/src/lib.rs:626-637: pruning the blocks `oldest..oldest + n`.  Only
the header is modelled.  Simplified: `BlockNumber::new_or_panic` is not (it
panics at 2^63, after as many rounds of the loop). -/
def pruneRange (lo hi : Nat) (blocks : List Nat) : List Nat :=
  blocks.filter fun b => !(decide (lo ≤ b) && decide (b < hi))

/-- storage/src/lib.rs:565-645: `validate_mode_and_update_db`.  A number that does
not fit SQLite's signed 64 bit integers is refused by rusqlite. -/
def validate (m : Mode) (init : Option Nat) (isNew : Bool) (d : Disk D) :
    List (Disk D) × Option Mode :=
  match m with
  | .archive => if init.isSome then ([], none) else ([], some m)
  | .prune k =>
    match (match init with
      | some i => some i
      | none => if isNew then some k else none) with
    | none => ([], none)
    | some i =>
      if 2 ^ 63 ≤ k then ([], none)
      else
        let d' := { d with history := some k }
        if isNew then ([d'], some m)
        else if k < i then
          match d.blocks.min? with
          | none => ([d'], some m)
          | some oldest =>
            ([d', { d' with blocks := pruneRange oldest (oldest + (i - k)) d.blocks }], some m)
        else ([d'], some m)

/-- storage/src/lib.rs:530-562: `determine_blockchain_history_mode`. -/
def determineHistory (asked : Option Mode) (isNew : Bool) (d : Disk D) :
    List (Disk D) × Option Mode :=
  let dflt := match d.history with
    | some k => Mode.prune k
    | none => Mode.archive
  validate (asked.getD dflt) d.history isNew d

/-- storage/src/lib.rs:468-517: `determine_trie_prune_mode`. -/
def determineTries (asked : Option Mode) (isNew : Bool) (d : Disk D) :
    List (Disk D) × Option Mode :=
  let m := asked.getD (if isNew || d.tries then Mode.prune 20 else Mode.archive)
  match m with
  | .archive => if d.tries then ([], none) else ([], some m)
  | .prune _ =>
    if !isNew && !d.tries then ([], none)
    else if isNew then ([{ d with tries := true }], some m)
    else ([], some m)

/-- storage/src/lib.rs:329-391: `migrate`.  `none`: there is no file.  Left out:
the journal mode, loading the running event filter (C27) and errors of the disk
itself; an open that stops half way for such a reason is `Act.crash` below. -/
def openDb (S : Schema D) (cfg : Cfg) (file : Option (Disk D)) : List (Disk D) × Out :=
  let isNew := file.isNone
  let d₀ := file.getD (created S)
  let t₀ := if isNew then [d₀] else []
  let m := migrateDb S d₀
  if !m.2 then (t₀ ++ m.1, .err)
  else
    let d₁ := last d₀ m.1
    let h := determineHistory cfg.history isNew d₁
    match h.2 with
    | none => (t₀ ++ m.1 ++ h.1, .err)
    | some hm =>
      let d₂ := last d₁ h.1
      let t := determineTries cfg.tries isNew d₂
      match t.2 with
      | none => (t₀ ++ m.1 ++ h.1 ++ t.1, .err)
      | some tm => (t₀ ++ m.1 ++ h.1 ++ t.1, .ok hm tm)

/-- storage/src/lib.rs:400-461: `readonly`. -/
def readonly (d : Disk D) : Mode × Mode :=
  (match d.history with
    | some k => .prune k
    | none => .archive,
   if d.tries then .prune 20 else .archive)

/-- pathfinder/src/state/sync.rs:1072-1075. -/
inductive PruningEvent where
  | l1 (n : Nat)
  | l2 (n : Nat)

/-- pathfinder/src/state/sync.rs:1111-1141: the block relative to which to prune. -/
def pruningPoint (e : PruningEvent) (d : Disk D) : Option Nat :=
  match e with
  | .l1 n =>
    match d.blocks.max? with
    | none => none
    | some head => if head ≤ n then none else some n
  | .l2 n =>
    if n = 0 then none
    else
      match d.l1 with
      | some c => if c < n then none else some n
      | none => some n

/-- pathfinder/src/state/sync.rs:1103-1171: `perform_blockchain_pruning`.  `none`:
it panics (`expect("Blocks should exist in database")`). -/
def perform (m : Mode) (e : PruningEvent) (d : Disk D) : Option (Disk D) :=
  match m with
  | .archive => some d
  | .prune k =>
    match pruningPoint e d with
    | none => some d
    | some p =>
      if p < k then some d
      else
        match d.blocks.min? with
        | none => none
        | some earliest => some { d with blocks := pruneRange earliest (p - k) d.blocks }

/-- The number of the next block that the sync downloads: the one after the newest
that is stored, or the first. -/
def nextBlock (blocks : List Nat) : Nat :=
  match blocks.max? with
  | none => 0
  | some h => h + 1

/-- The highest block number in the table of L1 states after one more was stored. -/
def newL1 (old : Option Nat) (n : Nat) : Nat :=
  match old with
  | none => n
  | some c => max c n

/-- A node and its database.  `up`: the history mode of the node that has the
database open. -/
structure Sys (D : Type) where
  file : Option (Disk D)
  up : Option Mode

/-- What can happen.  `start`: opening runs to its end.  `crash n`: it stops after
the `n`-th state.  `stop`: the node goes away, between two transactions.
`block`, `l1`, `reorg`: a transaction of the sync (pathfinder/src/state/sync.rs:
798-1055) that stores the next block, stores an L1 update, or drops the blocks
from `n` on.  `write`: the node changes anything else. -/
inductive Act (D : Type) where
  | start (cfg : Cfg)
  | crash (cfg : Cfg) (n : Nat)
  | stop
  | block
  | l1 (n : Nat)
  | reorg (n : Nat)
  | write (x : D)

/-- One step; `none`: it cannot happen.  A transaction that panics is not
committed. -/
def step (S : Schema D) (s : Sys D) (a : Act D) : Option (Sys D) :=
  match a with
  | .start cfg =>
    match s.up with
    | some _ => none
    | none =>
      let r := openDb S cfg s.file
      some ⟨r.1.getLast?.or s.file,
        match r.2 with
        | .err => none
        | .ok h _ => some h⟩
  | .crash cfg n =>
    match s.up with
    | some _ => none
    | none => some ⟨((openDb S cfg s.file).1.take n).getLast?.or s.file, none⟩
  | .stop => some ⟨s.file, none⟩
  | .block =>
    match s.up, s.file with
    | some m, some d =>
      let next := nextBlock d.blocks
      match perform m (.l2 next) { d with blocks := d.blocks ++ [next] } with
      | none => none
      | some d' => some ⟨some d', s.up⟩
    | _, _ => none
  | .l1 n =>
    match s.up, s.file with
    | some m, some d =>
      match perform m (.l1 n) { d with l1 := some (newL1 d.l1 n) } with
      | none => none
      | some d' => some ⟨some d', s.up⟩
    | _, _ => none
  | .reorg n =>
    match s.up, s.file with
    | some _, some d =>
      some ⟨some { d with blocks := d.blocks.filter fun b => decide (b < n) }, s.up⟩
    | _, _ => none
  | .write x =>
    match s.up, s.file with
    | some _, some d => some ⟨some { d with data := x }, s.up⟩
    | _, _ => none

/-- A run. -/
def run (S : Schema D) : Sys D → List (Act D) → Option (Sys D)
  | s, [] => some s
  | s, a :: as =>
    match step S s a with
    | none => none
    | some s' => run S s' as

/-- Nothing there yet. -/
def none' : Sys D := ⟨none, none⟩

end Verif.Open
