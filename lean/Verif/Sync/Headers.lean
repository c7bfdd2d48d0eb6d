import Verif.Sync.Pipeline

/-!
# Header synchronisation

Models `crates/pathfinder/src/sync/headers.rs`, the header part of `crates/pathfinder/src/sync/checkpoint.rs` and the
queries on `block_headers` they use.

`H` is the type of hashes, `B` everything in a header besides number, hash and parent hash, `S` signatures, `P` peers.
-/

namespace Verif.Sync

variable {P H B S : Type}

/-- `SignedBlockHeader` (crates/common/src/header.rs lines 7-45). -/
structure Header (H B S : Type) where
  number : Nat
  hash : H
  parent : H
  body : B
  signature : S
  deriving DecidableEq

/-- The errors of the header stages (crates/pathfinder/src/sync/error.rs lines 8-60). Everything that has to do with the
database is `Fatal`. -/
inductive SyncErr (P : Type) where
  | fatal
  | badBlockHash (p : P)
  | badSignature (p : P)
  | discontinuity (p : P)
  deriving DecidableEq

/-- `ForwardContinuity::map` (crates/pathfinder/src/sync/headers.rs lines 143-165). The state is the number and the
parent hash of the next header. -/
def forwardContinuity [DecidableEq H] (s : Nat × H) (p : P) (h : Header H B S) :
    Except (SyncErr P) (Header H B S × (Nat × H)) :=
  if h.number ≠ s.1 ∨ h.parent ≠ s.2 then .error (.discontinuity p)
  else .ok (h, (s.1 + 1, h.hash))

/-- `BlockNumber::parent` (crates/common/src/lib.rs lines 305-311). -/
def parentNumber (n : Nat) : Option Nat := if n = 0 then none else some (n - 1)

/-- `BackwardContinuity::map` (crates/pathfinder/src/sync/headers.rs lines 178-201). The state is the number and the hash
of the next header. -/
def backwardContinuity [DecidableEq H] (s : Option Nat × H) (p : P) (h : Header H B S) :
    Except (SyncErr P) (Header H B S × (Option Nat × H)) :=
  match s.1 with
  | none => .error (.discontinuity p)
  | some n =>
    if h.number ≠ n ∨ h.hash ≠ s.2 then .error (.discontinuity p)
    else .ok (h, (parentNumber n, h.parent))

/-- What verification depends on: `compute_final_hash`, the table of block hashes shipped with the node and the
signature check. -/
structure Checks (H B S : Type) where
  compute : Nat → H → B → H
  known : Nat → Option H
  signed : S → H → Bool

/-- `verify_hash` (crates/pathfinder/src/sync/headers.rs lines 235-250). -/
def Checks.hashOk [DecidableEq H] (c : Checks H B S) (h : Header H B S) : Bool :=
  c.compute h.number h.parent h.body = (c.known h.number).getD h.hash

/-- `VerifyHashAndSignature::map` (crates/pathfinder/src/sync/headers.rs lines 203-219, 252-260). -/
def Checks.verify [DecidableEq H] (c : Checks H B S) (_ : Unit) (p : P) (h : Header H B S) :
    Except (SyncErr P) (Header H B S × Unit) :=
  if c.hashOk h = false then .error (.badBlockHash p)
  else if c.signed h.signature h.hash = false then .error (.badSignature p)
  else .ok (h, ())

/-! ## The stored headers -/

/-- The rows of `block_headers`: `number` is unique and `hash` is the primary key
(crates/storage/src/schema/revision_0056.rs, base.rs). -/
abbrev Rows (H B S : Type) := List (Header H B S)

/-- `insert_block_header` and `insert_signature` (crates/storage/src/connection/block.rs lines 11-43): fails if the number
or the hash is already there. -/
def insertHeader [DecidableEq H] (db : Rows H B S) (h : Header H B S) : Option (Rows H B S) :=
  if db.any fun r => decide (r.number = h.number) || decide (r.hash = h.hash) then none else some (h :: db)

/-- The header stored for a number (`block_header`, crates/storage/src/connection/block.rs lines 349-371). -/
def headerAt (db : Rows H B S) (n : Nat) : Option (Header H B S) := db.find? fun r => r.number == n

/-- The row with the largest key among those selected: `ORDER BY key DESC LIMIT 1`. -/
def highestBy {R : Type} (key : R → Nat) (rows : List R) : Option R :=
  rows.foldl (fun best r =>
    match best with
    | none => some r
    | some b => if key b < key r then some r else some b) none

/-- `next_ancestor` (crates/storage/src/connection/block.rs lines 48-66). -/
def nextAncestor (db : Rows H B S) (target : Nat) : Option (Header H B S) :=
  highestBy (·.number) (db.filter fun r => decide (r.number < target))

/-- `next_ancestor_without_parent` (crates/storage/src/connection/block.rs lines 72-91). -/
def nextAncestorWithoutParent (db : Rows H B S) (target : Nat) : Option (Header H B S) :=
  highestBy (·.number) (db.filter fun r => decide (r.number ≤ target) && decide (0 < r.number) &&
    !(db.any fun t => decide (r.number - 1 = t.number)))

/-- `HeaderGap` (crates/pathfinder/src/sync/headers.rs lines 20-31). -/
structure Gap (H : Type) where
  head : Nat
  headHash : H
  tail : Nat
  tailParentHash : H
  deriving DecidableEq

/-- The lower end of a gap (crates/pathfinder/src/sync/headers.rs lines 87-95). `zero` is `BlockHash::ZERO`. -/
def gapBelow (zero : H) (db : Rows H B S) (head : Nat) (headHash : H) : Gap H :=
  match nextAncestor db head with
  | some t => ⟨head, headHash, t.number + 1, t.hash⟩
  | none => ⟨head, headHash, 0, zero⟩

/-- `next_gap` (crates/pathfinder/src/sync/headers.rs lines 41-107). -/
def nextGap (zero : H) (db : Rows H B S) (head : Nat) (headHash : H) : Option (Gap H) :=
  match headerAt db head with
  | some _ =>
    match nextAncestorWithoutParent db head with
    | none => none
    | some g => some (gapBelow zero db (g.number - 1) g.parent)
  | none => some (gapBelow zero db head headHash)

/-- The loop of `Persist::map` (crates/pathfinder/src/sync/headers.rs lines 278-283). -/
def insertAll [DecidableEq H] : Rows H B S → List (Header H B S) → Option (Rows H B S)
  | db, [] => some db
  | db, h :: hs => (insertHeader db h).bind fun db => insertAll db hs

/-- `Persist::map` (crates/pathfinder/src/sync/headers.rs lines 266-288): one transaction per chunk. A failed insertion is
fatal and leaves the database as it was. -/
def persistHeaders [DecidableEq H] (db : Rows H B S) (_ : P) (chunk : List (Header H B S)) :
    Except (SyncErr P) (Nat × Rows H B S) :=
  match insertAll db chunk with
  | none => .error .fatal
  | some db' => .ok (chunk.getLast?.elim 0 (·.number), db')

/-- Driving the last stage: the database after the chunks and the result of `try_fold`
(crates/pathfinder/src/sync/checkpoint.rs lines 320-328). -/
def persistStream [DecidableEq H] : Rows H B S → List (Item P (SyncErr P) (List (Header H B S))) →
    Rows H B S × Except (SyncErr P) Unit
  | db, [] => (db, .ok ())
  | db, .error e :: _ => (db, .error e)
  | db, .ok (p, chunk) :: rest =>
    match persistHeaders db p chunk with
    | .error e => (db, .error e)
    | .ok (_, db') => persistStream db' rest

/-- The items that reach the last stage of `handle_header_stream` (crates/pathfinder/src/sync/checkpoint.rs lines
311-319). -/
def headerChunks [DecidableEq H] (c : Checks H B S) (head : Nat × H) (stream : List (P × Header H B S)) :
    List (Item P (SyncErr P) (List (Header H B S))) :=
  tryChunks 1000 (pipe c.verify () (pipe backwardContinuity (some head.1, head.2) (infallible stream)))

/-- `handle_header_stream` (crates/pathfinder/src/sync/checkpoint.rs lines 303-328). -/
def handleHeaderStream [DecidableEq H] (c : Checks H B S) (db : Rows H B S) (head : Nat × H)
    (stream : List (P × Header H B S)) : Rows H B S × Except (SyncErr P) Unit :=
  persistStream db (headerChunks c head stream)

end Verif.Sync
