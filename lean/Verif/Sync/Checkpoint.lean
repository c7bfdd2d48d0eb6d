import Verif.Sync.Headers

/-!
# Checkpoint synchronisation of headers

Models the header part of `crates/pathfinder/src/sync/checkpoint.rs` and the order in which `crates/pathfinder/src/sync.rs`
runs checkpoint and tracking synchronisation. A crash, a restart of the process and a recoverable error all end the
current run; the database is then what the last committed transaction left.
-/

namespace Verif.Sync

variable {P H B S : Type}

/-- The two tables that matter: `block_headers` and `l1_state` (number and hash of the blocks L1 reported). -/
structure Store (H B S : Type) where
  headers : Rows H B S
  l1 : List (Nat × H)

/-- `upsert_l1_state` (crates/storage/src/connection/ethereum.rs lines 7-26). -/
def upsertL1 (rows : List (Nat × H)) (u : Nat × H) : List (Nat × H) := (rows.filter fun r => r.1 != u.1) ++ [u]

/-- `latest_l1_state` (crates/storage/src/connection/ethereum.rs lines 53-74). -/
def latestL1 (rows : List (Nat × H)) : Option (Nat × H) := highestBy (·.1) rows

/-- `CheckpointAnalysis` (crates/pathfinder/src/sync/checkpoint.rs lines 438-472). -/
inductive Analysis where
  | hashMismatchWithAnchor
  | predatesAnchor
  | exceedsLocalChain (latest : Nat) (anchor : Option Nat)
  | hashMismatchWithLocalChain (block : Nat) (anchor : Option Nat)
  | consistent
  deriving DecidableEq

/-- The second half of `CheckpointAnalysis::analyse` (crates/pathfinder/src/sync/checkpoint.rs lines 499-520). -/
def analyseLocal [DecidableEq H] (latest : Option (Header H B S)) (atCheckpoint : Option (Header H B S))
    (anchor : Option Nat) (cp : Nat × H) : Analysis :=
  match latest with
  | none => .consistent
  | some l =>
    if cp.1 > l.number then .exceedsLocalChain l.number anchor
    else
      match atCheckpoint with
      | none => .consistent
      | some r => if r.hash ≠ cp.2 then .hashMismatchWithLocalChain cp.1 anchor else .consistent

/-- `CheckpointAnalysis::analyse` with `LocalState::from_db` (crates/pathfinder/src/sync/checkpoint.rs lines 480-520,
602-640). -/
def analyse [DecidableEq H] (st : Store H B S) (cp : Nat × H) : Analysis :=
  let latest := highestBy (·.number) st.headers
  let local' := headerAt st.headers cp.1
  match latestL1 st.l1 with
  | none => analyseLocal latest local' none cp
  | some a =>
    if cp.1 < a.1 then .predatesAnchor
    else if cp.1 = a.1 ∧ cp.2 ≠ a.2 then .hashMismatchWithAnchor
    else analyseLocal latest local' (some a.1) cp

/-- The header part of `purge_block` (crates/storage/src/connection/block.rs lines 107-112). -/
def purgeHeader (db : Rows H B S) (n : Nat) : Rows H B S := db.filter fun r => r.number != n

/-- The loop of `rollback_to_anchor` (crates/pathfinder/src/sync/checkpoint.rs lines 660-673) from `head` down to
`last`. -/
def rollbackLoop (last : Nat) : Nat → Rows H B S → Rows H B S
  | 0, db => if 0 ≥ last then purgeHeader db 0 else db
  | head + 1, db => if head + 1 ≥ last then rollbackLoop last head (purgeHeader db (head + 1)) else db

/-- `rollback_to_anchor` (crates/pathfinder/src/sync/checkpoint.rs lines 642-683). -/
def rollbackToAnchor (db : Rows H B S) (head : Nat) (anchor : Option Nat) : Rows H B S :=
  rollbackLoop (anchor.elim 0 (· + 1)) head db

/-- `CheckpointAnalysis::handle` (crates/pathfinder/src/sync/checkpoint.rs lines 542-600): nothing means an error, which
is fatal. -/
def Analysis.handle (a : Analysis) (db : Rows H B S) : Option (Rows H B S) :=
  match a with
  | .hashMismatchWithAnchor => none
  | .predatesAnchor => none
  | .exceedsLocalChain l anchor => some (rollbackToAnchor db l anchor)
  | .hashMismatchWithLocalChain b anchor => some (rollbackToAnchor db b anchor)
  | .consistent => some db

/-- What the sync process is doing. -/
inductive Mode (H : Type) where
  /-- No run is active. -/
  | stopped
  /-- The rollback is committed, the anchor is not persisted yet. -/
  | checked (cp : Nat × H)
  /-- The loop of `sync_headers`. -/
  | headers (cp : Nat × H)
  /-- Tracking synchronisation from this number and parent hash. -/
  | tracking (next : Nat) (parent : H)

/-- The process and its database. -/
structure Node (H B S : Type) where
  store : Store H B S
  mode : Mode H

/-- Where tracking goes on after `run` (crates/pathfinder/src/sync/checkpoint.rs lines 141-150). -/
def continueFrom (zero : H) (db : Rows H B S) : Nat × H :=
  match highestBy (·.number) db with
  | none => (0, zero)
  | some l => (l.number + 1, l.hash)

/-- One step of the process. `admit` restricts the findings about checkpoints that may occur. -/
inductive SyncStep [DecidableEq H] (c : Checks H B S) (zero : H) (admit : Analysis → Prop) (P : Type) :
    Node H B S → Node H B S → Prop
  /-- The first part of `run` (crates/pathfinder/src/sync/checkpoint.rs lines 106-118). -/
  | check (st : Store H B S) (cp : Nat × H) (db : Rows H B S) :
    admit (analyse st cp) → (analyse st cp).handle st.headers = some db →
    SyncStep c zero admit P ⟨st, .stopped⟩ ⟨{ st with headers := db }, .checked cp⟩
  /-- `persist_anchor` (crates/pathfinder/src/sync/checkpoint.rs lines 126-129, 685-703). -/
  | anchor (st : Store H B S) (cp : Nat × H) :
    SyncStep c zero admit P ⟨st, .checked cp⟩ ⟨{ st with l1 := upsertL1 st.l1 cp }, .headers cp⟩
  /-- An iteration of `sync_headers` (crates/pathfinder/src/sync/checkpoint.rs lines 162-181) with whatever the peers send,
  or its first part: any number of chunks may be committed before an interruption. -/
  | stream (st : Store H B S) (cp : Nat × H) (gap : Gap H) (xs : List (P × Header H B S)) (k : Nat) :
    nextGap zero st.headers cp.1 cp.2 = some gap →
    SyncStep c zero admit P ⟨st, .headers cp⟩
      ⟨{ st with headers := (persistStream st.headers ((headerChunks c (gap.head, gap.headHash) xs).take k)).1 }, .headers cp⟩
  /-- The end of `sync_headers`, and of `run` after the bodies (crates/pathfinder/src/sync/checkpoint.rs lines 133-150). -/
  | complete (st : Store H B S) (cp : Nat × H) :
    nextGap zero st.headers cp.1 cp.2 = none →
    SyncStep c zero admit P ⟨st, .headers cp⟩
      ⟨st, .tracking (continueFrom zero st.headers).1 (continueFrom zero st.headers).2⟩
  /-- Tracking stores one more block (crates/pathfinder/src/sync/track.rs lines 56-175): the header passed the continuity
  and verification stages. -/
  | track (st : Store H B S) (n : Nat) (p : H) (peer : P) (h : Header H B S) (s : Nat × H) (db : Rows H B S) :
    forwardContinuity (n, p) peer h = .ok (h, s) → c.verify () peer h = .ok (h, ()) →
    insertHeader st.headers h = some db →
    SyncStep c zero admit P ⟨st, .tracking n p⟩ ⟨{ st with headers := db }, .tracking s.1 s.2⟩
  /-- A crash, a restart or an error. -/
  | stop (n : Node H B S) : SyncStep c zero admit P n { n with mode := .stopped }

/-- The states a node gets to from an empty database. `honest` restricts the checkpoints. -/
inductive SyncReach [DecidableEq H] (c : Checks H B S) (zero : H) (admit : Analysis → Prop) (P : Type)
    (honest : Nat × H → Prop) : Node H B S → Prop
  | start : SyncReach c zero admit P honest ⟨⟨[], []⟩, .stopped⟩
  | step {a b : Node H B S} : SyncReach c zero admit P honest a → SyncStep c zero admit P a b →
    (∀ cp, b.mode = .checked cp → honest cp) → SyncReach c zero admit P honest b

end Verif.Sync
