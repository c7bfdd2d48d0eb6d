/-!
# The head of the chain, and the blocks that L1 accepted

Model of the consumer of sync events (`consumer` in `crates/pathfinder/src/state/sync.rs`) with what it does to the tables `block_headers`, `l1_state` and
`refs`, of the producer that follows the gateway (`crates/pathfinder/src/state/sync/l2.rs`), and of the feed of L1 state updates
(`crates/ethereum/src/lib.rs`).

Simplifications: of a block only the number, the hash and the parent hash are kept. Whether the state root of a block comes out right is given with the event.
Classes, pending blocks, the sync status and the messages to consensus are left out. Block hashes are numbers.
-/
namespace Verif.Head

abbrev Hash := Nat

/-- A row of `block_headers`. -/
structure Blk where
  number : Nat
  hash : Hash
  parent : Hash
  deriving DecidableEq, Repr

/-- `block_headers`, `l1_state` (number and hash) and `refs.l1_l2_head`. -/
structure DB where
  blocks : List Blk
  l1 : List (Nat × Hash)
  pointer : Option Nat
  deriving DecidableEq, Repr

/-- `block_header`, `block_hash`, `block_exists` of a number (storage/src/connection/block.rs:209-371). -/
def DB.block (db : DB) (n : Nat) : Option Blk := db.blocks.find? fun b => b.number == n

/-- `ORDER BY number DESC LIMIT 1` (block.rs:210-220). -/
def DB.latest (db : DB) : Option Blk := db.blocks.foldl (fun m b => if m.all (·.number < b.number) then some b else m) none

/-- `earliest_block_number` (block.rs:305-314). -/
def DB.earliest (db : DB) : Option Nat := (db.blocks.map (·.number)).min?

/-- `block_is_l1_accepted` (block.rs:424-434). -/
def DB.isAccepted (db : DB) (n : Nat) : Bool := match db.pointer, db.block n with
  | some p, some b => b.number ≤ p
  | _, _ => false

/-- The block that `BlockId::L1Accepted` stands for (rpc/src/types.rs:65-70): the outer `none` is the error that there is none, the inner that the block is not
found. -/
def DB.acceptedBlock (db : DB) : Option (Option Blk) := db.pointer.map db.block

/-- `l1_state_at_number` (storage/src/connection/ethereum.rs:28-53). -/
def DB.l1At (db : DB) (n : Nat) : Option Hash := (db.l1.find? fun r => r.1 == n).map (·.2)

/-- `latest_l1_checkpoint` (ethereum.rs:76-88). -/
def DB.latestL1 (db : DB) : Option Nat := (db.l1.map (·.1)).max?

/-- `upsert_l1_state` (ethereum.rs:7-26): `INSERT OR REPLACE` by number. -/
def DB.upsertL1 (db : DB) (n : Nat) (h : Hash) : DB := { db with l1 := (n, h) :: db.l1.filter fun r => r.1 != n }

/-- `l1_update` (pathfinder/src/state/sync.rs:1273-1297). -/
def DB.l1Update (db : DB) (n : Nat) (h : Hash) : DB :=
  let db := db.upsertL1 n h
  match db.block n with
  | some b => if b.hash = h then { db with pointer := some n } else db
  | none => db

/-- `insert_block_header` (storage/src/connection/block.rs:11-43): the number is unique. The hash is the primary key, but the hash fixes the number (C65). -/
def DB.insert (db : DB) (b : Blk) : Option DB := if (db.block b.number).isSome then none else some { db with blocks := db.blocks ++ [b] }

/-- The end of `l2_update` (sync.rs:1414-1432). -/
def DB.track (db : DB) (b : Blk) : DB :=
  if db.pointer.elim 0 (· + 1) = b.number ∧ db.l1At b.number = some b.hash then { db with pointer := some b.number } else db

/-- `l2_update` for a block from the gateway (sync.rs:1300-1435). `ok` says that the state root comes out right. -/
def DB.l2Update (db : DB) (b : Blk) (ok : Bool) : Option DB := if ok then (db.insert b).map (·.track b) else none

/-- The parent hash that `l2_update` gives a block from consensus (sync.rs:1333-1341). -/
def DB.parentHash (db : DB) (n : Nat) : Option Hash := if n = 0 then some 0 else (db.block (n - 1)).map (·.hash)

/-- `Reorg`: number and hash of the first and of the last block that is taken back. -/
structure Reorg where
  start : Nat
  startHash : Hash
  ending : Nat
  endHash : Hash
  deriving DecidableEq, Repr

/-- The pointer after a reorg (sync.rs:1608-1622). -/
def reorgPointer (tail : Nat) : Option Nat → Option Nat
  | none => none
  | some p => if tail = 0 then none else if p ≥ tail then some (tail - 1) else some p

/-- `l2_reorg` (sync.rs:1543-1630): the blocks from the head down to the tail are purged. Reverting the tries is in `Verif/State`. -/
def DB.l2Reorg (db : DB) (tail : Nat) : Option (DB × Reorg) :=
  match db.latest, db.block tail with
  | some head, some t =>
    if tail ≠ 0 ∧ (db.block (tail - 1)).isNone then none
    else some ({ db with blocks := db.blocks.filter (fun b => b.number < tail || head.number < b.number), pointer := reorgPointer tail db.pointer },
      ⟨tail, t.hash, head.number, head.hash⟩)
  | _, _ => none

/-- The removal of blocks in `perform_blockchain_pruning` (sync.rs:1147-1176). -/
def DB.dropBelow (db : DB) (point kept : Nat) : DB :=
  if point < kept then db else { db with blocks := db.blocks.filter fun b => !(b.number < point - kept) }

/-- `perform_blockchain_pruning` after an L1 update (sync.rs:1112-1127). -/
def DB.pruneL1 (db : DB) (kept : Option Nat) (n : Nat) : DB :=
  match kept, db.latest with
  | some k, some head => if n ≥ head.number then db else db.dropBelow n k
  | _, _ => db

/-- `perform_blockchain_pruning` after a block from the gateway (sync.rs:1128-1145). -/
def DB.pruneL2 (db : DB) (kept : Option Nat) (n : Nat) : DB :=
  match kept with
  | none => db
  | some k => if n = 0 then db else if db.latestL1.any (· < n) then db else db.dropBelow n k

/-- `SyncEvent`. -/
inductive Event
  | l1 (n : Nat) (h : Hash)
  | downloaded (b : Blk) (ok : Bool)
  | finalized (n : Nat) (h : Hash) (ok : Bool)
  | reorg (tail : Nat)
  deriving DecidableEq, Repr

/-- What is sent to subscribers. -/
inductive Note
  | block (b : Blk)
  | reorg (r : Reorg)
  deriving DecidableEq, Repr

/-- The consumer: the database and `next_number`. -/
structure Consumer where
  db : DB
  next : Nat
  deriving DecidableEq, Repr

/-- The handling of an event up to the commit (sync.rs:772-1042). `none` is an error: the consumer ends. `kept` is the number of blocks to keep, if pruning. -/
def Consumer.handle (kept : Option Nat) (s : Consumer) : Event → Option (Consumer × Option Note)
  | .l1 n h => some ({ s with db := (s.db.l1Update n h).pruneL1 kept n }, none)
  | .downloaded b ok =>
    if b.number < s.next then some (s, none)
    else (s.db.l2Update b ok).map fun db => (⟨db.pruneL2 kept b.number, s.next + 1⟩, some (.block b))
  | .finalized n h ok =>
    if n < s.next then some (s, none)
    else (s.db.parentHash n).bind fun p => (s.db.l2Update ⟨n, h, p⟩ ok).map fun db => (⟨db, s.next⟩, some (.block ⟨n, h, p⟩))
  | .reorg tail => (s.db.l2Reorg tail).map fun r => (⟨r.1, tail⟩, some (.reorg r.2))

/-- Without the notifications. -/
def Consumer.step (kept : Option Nat) (s : Consumer) (e : Event) : Option Consumer := (s.handle kept e).map (·.1)

/-- Several events. -/
def Consumer.run (kept : Option Nat) : Consumer → List Event → Option Consumer
  | s, [] => some s
  | s, e :: l => (s.step kept e).bind fun s => s.run kept l

/-- The start of the consumer (sync.rs:757-769). -/
def Consumer.start (db : DB) : Consumer := ⟨db, db.latest.elim 0 (·.number + 1)⟩

/-- The commit and the notification (sync.rs:1043-1055): the database that is on disk after the event, what subscribers are sent, and whether the consumer goes
on. `commits` says that the database commits. -/
def Consumer.finish (kept : Option Nat) (s : Consumer) (e : Event) (commits : Bool) : DB × Option Note × Bool :=
  match s.handle kept e with
  | none => (s.db, none, false)
  | some (s', note) => (if commits then s'.db else s.db, note, commits)

/-- `persist_anchor` of the sync from peers (pathfinder/src/sync/checkpoint.rs:686-704). -/
def DB.persistAnchor (db : DB) (n : Nat) (h : Hash) : DB := { db.upsertL1 n h with pointer := some n }

/-! ## The producer -/

/-- `BlockChain` (l2.rs:34-86): the hashes by number, newest first, and head and tail. -/
structure Cache where
  head : Nat
  tail : Nat
  map : List (Nat × Hash)
  deriving DecidableEq, Repr

/-- `BlockChain::get` (l2.rs:68-70). -/
def Cache.get (c : Cache) (n : Nat) : Option Hash := (c.map.find? fun p => p.1 == n).map (·.2)

/-- `BlockChain::reset_to_genesis` (l2.rs:46-50). -/
def Cache.reset : Cache := ⟨0, 0, []⟩

/-- `BlockChain::with_capacity` with the last blocks of the database (l2.rs:52-66, sync.rs:1179-1213), oldest first. -/
def Cache.ofBlocks (l : List (Nat × Hash)) : Cache := ⟨(l.getLast?).elim 0 (·.1), (l.head?).elim 0 (·.1), l.reverse⟩

/-- `BlockChain::push` (l2.rs:72-84). `full` says that the capacity of the `HashMap` is reached; this depends on its inner state. -/
def Cache.push (c : Cache) (n : Nat) (h : Hash) (full : Bool) : Cache :=
  let map := c.map.filter fun p => !(n ≤ p.1 && p.1 ≤ c.head)
  let c' : Cache := if full then ⟨c.head, c.tail + 1, map.filter fun p => p.1 != c.tail⟩ else ⟨c.head, c.tail, map⟩
  ⟨n, c'.tail, (n, h) :: c'.map.filter fun p => p.1 != n⟩

/-- The answers of the gateway to one `download_block`: a block, which may fail verification or not be accepted; that it is not there, with the answer to the
question for the head; or an error. -/
inductive Ans
  | block (b : Blk) (valid : Bool)
  | notFound (head : Option (Nat × Hash))
  | fail
  deriving DecidableEq, Repr

/-- `DownloadBlock`. -/
inductive Dl
  | block (b : Blk)
  | wait
  | retry
  | reorg
  deriving DecidableEq, Repr

/-- `download_block` (l2.rs:838-998). `none` is an error or the panic of the assertion. -/
def download (n : Nat) (prev : Option Hash) (c : Cache) : Ans → Option Dl
  | .block b valid => if valid then some (.block b) else none
  | .fail => none
  | .notFound none => some .wait
  | .notFound (some (hn, hh)) =>
    if hn ≥ n then some .retry
    else if hn + 1 = n ∧ prev.isNone then none
    else if (if hn + 1 = n then prev else c.get hn) = some hh then some .wait else some .reorg

/-- The search of `reorg` below a block (l2.rs:1550-1585), with the answers of the gateway for each number. The outer `none` is an error; the inner that
nothing is left. -/
def walk (c : Cache) (ans : Nat → Ans) : Nat → Option (Option (Nat × Hash))
  | 0 => some none
  | k + 1 => (c.get k).bind fun prev => (download k (some prev) c (ans k)).bind fun d =>
    match d with
    | .block b => if b.hash = prev then some (some (k, prev)) else walk c ans k
    | _ => walk c ans k

/-- The producer: `head` and `blocks` of `sync` (l2.rs:101-350). -/
structure Producer where
  head : Option (Nat × Hash)
  cache : Cache
  deriving DecidableEq, Repr

/-- `reorg` and what `sync` does with its result (l2.rs:183-204, 216-233, 1541-1600). -/
def Producer.reorg (p : Producer) (ans : Nat → Ans) (full : Bool) : Option (Producer × List Event) :=
  match p.head with
  | none => some (⟨none, Cache.reset⟩, [])
  | some (n, _) => (walk p.cache ans n).map fun r => match r with
    | none => (⟨none, Cache.reset⟩, [.reorg 0])
    | some (k, h) => (⟨some (k, h), p.cache.push k h full⟩, [.reorg (k + 1)])

/-- One round of `sync` (l2.rs:135-350) with the answer for the next block, those for a reorg, and whether the state root of the block comes out right. `none` is
an error: the producer is started again. -/
def Producer.round (p : Producer) (a : Ans) (ans : Nat → Ans) (ok full : Bool) : Option (Producer × List Event) :=
  let next := p.head.elim 0 (·.1 + 1)
  (download next (p.head.map (·.2)) p.cache a).bind fun d => match d with
    | .wait => some (p, [])
    | .retry => some (p, [])
    | .reorg => p.reorg ans full
    | .block b =>
      if p.head.any fun h => h.2 != b.parent then p.reorg ans full
      else some (⟨some (next, b.hash), p.cache.push next b.hash full⟩, [.downloaded b ok])

/-- `latest_n_blocks` (sync.rs:1179-1213), newest first. -/
def DB.latestN (db : DB) : Nat → Nat → List (Nat × Hash)
  | 0, _ => []
  | c + 1, n => match db.block n with
    | none => []
    | some b => (n, b.hash) :: if n = 0 then [] else db.latestN c (n - 1)

/-- The start of the producer, again after an error (sync.rs:503-560, 615-646). -/
def Producer.start (db : DB) (size : Nat) : Producer :=
  match db.latest with
  | none => ⟨none, Cache.ofBlocks []⟩
  | some b => ⟨some (b.number, b.hash), Cache.ofBlocks (db.latestN size b.number).reverse⟩

/-! ## Catching up -/

/-- `bulk_sync`: the next block to emit, the blocks that were downloaded and wait, sorted by number, and the head (l2.rs:1019-1260). -/
structure Bulk where
  start : Nat
  waiting : List Blk
  head : Option (Nat × Hash)
  deriving DecidableEq, Repr

/-- `BTreeMap::insert`. -/
def insertSorted (b : Blk) : List Blk → List Blk
  | [] => [b]
  | c :: l => if b.number < c.number then b :: c :: l else if b.number = c.number then b :: l else c :: insertSorted b l

/-- The number of blocks to emit, and the next block after them (l2.rs:1192-1203). -/
def emittable : Nat → List Blk → Nat
  | _, [] => 0
  | start, b :: l => if b.number = start then emittable (start + 1) l + 1 else 0

/-- The emission (l2.rs:1205-1262): stops at a block whose parent is not the head. The flag says that it stopped. -/
def emit : List Blk → Option (Nat × Hash) → List Blk × Option (Nat × Hash) × Bool
  | [], head => ([], head, false)
  | b :: l, head =>
    if head.any fun h => h.2 != b.parent then ([], head, true)
    else ((b :: (emit l (some (b.number, b.hash))).1), (emit l (some (b.number, b.hash))).2)

/-- The loop over the downloads in the order in which they end (l2.rs:1174-1262); `none` is one that failed. The result is the blocks that are emitted. -/
def Bulk.run (s : Bulk) : List (Option Blk) → List Blk
  | [] => []
  | none :: _ => []
  | some b :: l =>
    let waiting := insertSorted b s.waiting
    let k := emittable s.start waiting
    let r := emit (waiting.take k) s.head
    if r.2.2 then r.1 else r.1 ++ Bulk.run ⟨s.start + k, waiting.drop k, r.2.1⟩ l

/-! ## The feed of L1 state updates -/

/-- What the client sees: a log of a state update in an L1 block, that the logs of an L1 block were removed, a finalized block. -/
inductive L1Event
  | log (block : Nat) (n : Nat) (h : Hash)
  | removed (block : Nat)
  | finalized (block : Nat)
  deriving DecidableEq, Repr

/-- `BTreeMap::insert` for `pending_state_updates`. -/
def insertPending (k : Nat) (u : Nat × Hash) : List (Nat × Nat × Hash) → List (Nat × Nat × Hash)
  | [] => [(k, u)]
  | c :: l => if k < c.1 then (k, u) :: c :: l else if k = c.1 then (k, u) :: l else c :: insertPending k u l

/-- One event (ethereum/src/lib.rs:376-425): the pending updates and those that are passed on. -/
def l1Step (pending : List (Nat × Nat × Hash)) : L1Event → List (Nat × Nat × Hash) × List (Nat × Hash)
  | .log e n h => (insertPending e (n, h) pending, [])
  | .removed e => (pending.filter fun p => p.1 != e, [])
  | .finalized f => (pending.filter (fun p => f < p.1), (pending.filter fun p => p.1 ≤ f).map (·.2))

/-- All that is passed on. -/
def l1Run : List (Nat × Nat × Hash) → List L1Event → List (Nat × Hash)
  | _, [] => []
  | pending, e :: l => (l1Step pending e).2 ++ l1Run (l1Step pending e).1 l

end Verif.Head
