import Verif.Exec.Model

/-!
Model of how the blocks a node has agreed on move from memory to the database while proposals are
executed. `agreed m` is the block consensus decides at height `m`, on every node the same.
-/

namespace Verif.Exec

/-- The parts of the consensus task (crates/pathfinder/src/consensus/inner/p2p_task.rs 191 and
following) and of the database that decide what an execution reads. `blocks` is what is committed,
`confirmed` counts the commit confirmations that were processed, and `reader` is the executor of a
proposal: the block it executes on and the blocks its database transaction sees. -/
structure Node where
  blocks : List Blk
  confirmed : Nat
  decided : Decided
  reader : Option (Nat × List Blk)

/-- p2p_task.rs 559-569: insertion into the ordered map. -/
def insertDecided (d : Decided) (m : Nat) (b : Blk) : Decided :=
  (d.filter fun p => decide (p.1 < m)) ++ (m, b) :: (d.filter fun p => decide (m < p.1))

/-- p2p_task.rs 750-767 `remove_decided_block`. -/
def removeDecided (d : Decided) (m : Nat) : Decided := d.filter fun p => decide (p.1 ≠ m)

/-- crates/validator/src/lib.rs 91-130 `should_defer_validation`: the parent is decided or
committed. -/
def Node.known (s : Node) (m : Nat) : Prop := m < s.blocks.length ∨ ∃ b, (m, b) ∈ s.decided

/-- One step of the node.

* `decide`: consensus decides a block it has executed, which needs a known parent
  (p2p_task.rs 544-570). A block that is already committed is inserted and removed again
  (623-663), which is no step here.
* `commit`: the sync task commits the next block and takes it from consensus
  (crates/pathfinder/src/state/sync.rs 916-949).
* `fetch`: the sync task commits the next block from the gateway, because consensus does not
  have it (p2p_task.rs 386-404, scenario 2).
* `confirm`: the task processes the next commit confirmation (p2p_task.rs 384-412).
* `start`: the first batch of a proposal on top of a known block creates the executor, whose
  database transaction sees what is committed now
  (crates/executor/src/state_reader/storage_adapter/concurrent.rs 79-87 and 309-316).
* `drop`: the proposal is finished or given up. -/
inductive Step (agreed : Nat → Blk) : Node → Node → Prop where
  | decide (s : Node) (m : Nat) (fresh : ∀ b, (m, b) ∉ s.decided) (new : s.blocks.length ≤ m)
      (parent : m = 0 ∨ s.known (m - 1)) :
      Step agreed s { s with decided := insertDecided s.decided m (agreed m) }
  | commit (s : Node) (b : Blk) (h : (s.blocks.length, b) ∈ s.decided) :
      Step agreed s { s with blocks := s.blocks ++ [b] }
  | confirm (s : Node) (h : s.confirmed < s.blocks.length) :
      Step agreed s { s with confirmed := s.confirmed + 1,
                             decided := removeDecided s.decided s.confirmed }
  | start (s : Node) (n : Nat) (h : s.known n) :
      Step agreed s { s with reader := some (n, s.blocks) }
  | drop (s : Node) : Step agreed s { s with reader := none }

/-- The steps with the block of the gateway among them. -/
inductive StepFetch (agreed : Nat → Blk) : Node → Node → Prop where
  | base {s t : Node} (h : Step agreed s t) : StepFetch agreed s t
  | fetch (s : Node) (h : ∀ b, (s.blocks.length, b) ∉ s.decided) :
      StepFetch agreed s { s with blocks := s.blocks ++ [agreed s.blocks.length] }

/-- A node that starts with the first `k` blocks committed: crates/pathfinder/src/consensus/inner/p2p_task.rs
191, the map of decided blocks is empty after a start. -/
def Node.fresh (agreed : Nat → Blk) (k : Nat) : Node where
  blocks := (List.range k).map agreed
  confirmed := k
  decided := []
  reader := none

/-- States a node gets to when sync takes every block from consensus. -/
inductive Reach (agreed : Nat → Blk) : Node → Prop where
  | fresh (k : Nat) : Reach agreed (Node.fresh agreed k)
  | step {s t : Node} (r : Reach agreed s) (h : Step agreed s t) : Reach agreed t

/-- States a node gets to when sync may also take blocks from the gateway. -/
inductive ReachFetch (agreed : Nat → Blk) : Node → Prop where
  | fresh (k : Nat) : ReachFetch agreed (Node.fresh agreed k)
  | step {s t : Node} (r : ReachFetch agreed s) (h : StepFetch agreed s t) : ReachFetch agreed t

/-! ### The cache of compiled classes -/

/-- The database and the process wide cache. -/
structure Cached where
  db : Db
  cache : Cache

/-- What happens between two executions that use the cache: a block is stored, a definition is
stored, an entry is evicted, and other executions look classes up. -/
inductive CacheStep : Cached → Cached → Prop where
  | append (s : Cached) (b : Blk) :
      CacheStep s { s with db := { s.db with blocks := s.db.blocks ++ [b] } }
  | define (s : Cached) (h d : Nat) (c : Option Nat) (new : s.db.defs h = none) :
      CacheStep s { s with db := { s.db with
        defs := fun h' => if h' = h then some (d, c) else s.db.defs h' } }
  | evict (s : Cached) (h : Nat) :
      CacheStep s { s with cache := fun h' => if h' = h then none else s.cache h' }
  | look (s : Cached) (n : Option Nat) (pending : Bool) (h : Nat) :
      CacheStep s { s with cache := (getCompiledClass s.cache s.db [] n pending h).2 }

/-- The steps with reorganisations among them: crates/pathfinder/src/state/sync.rs 950-975; the
cache is not touched. -/
inductive CacheStepReorg : Cached → Cached → Prop where
  | base {s t : Cached} (h : CacheStep s t) : CacheStepReorg s t
  | reorg (s : Cached) (k : Nat) :
      CacheStepReorg s { s with db := { s.db with blocks := s.db.blocks.take k } }

/-- The cache is empty when the process starts. -/
inductive CacheReach : Cached → Prop where
  | start (db : Db) : CacheReach { db, cache := fun _ => none }
  | step {s t : Cached} (r : CacheReach s) (h : CacheStep s t) : CacheReach t

inductive CacheReachReorg : Cached → Prop where
  | start (db : Db) : CacheReachReorg { db, cache := fun _ => none }
  | step {s t : Cached} (r : CacheReachReorg s) (h : CacheStepReorg s t) : CacheReachReorg t

/-! The cache is shared with the executions of proposals, which read through decided blocks
(crates/executor/src/lru_cache.rs 8 `GLOBAL_CACHE`). -/

/-- The steps when consensus runs in the same process. Blocks are stored as agreed, definitions are
those of their hash, and a lookup may go through decided blocks `d`. -/
inductive SharedStep (agreed : Nat → Blk) (defOf : Nat → Nat × Option Nat) : Cached → Cached → Prop where
  | append (s : Cached) :
      SharedStep agreed defOf s
        { s with db := { s.db with blocks := s.db.blocks ++ [agreed s.db.blocks.length] } }
  | define (s : Cached) (h : Nat) :
      SharedStep agreed defOf s { s with db := { s.db with
        defs := fun h' => if h' = h then some (defOf h) else s.db.defs h' } }
  | evict (s : Cached) (h : Nat) :
      SharedStep agreed defOf s { s with cache := fun h' => if h' = h then none else s.cache h' }
  | look (s : Cached) (d : Decided) (hd : ∀ p ∈ d, p.2 = agreed p.1) (n : Option Nat) (pending : Bool)
      (h : Nat) :
      SharedStep agreed defOf s
        { s with cache := (getCompiledClass s.cache s.db d n pending h).2 }

/-- Everything is empty at the start. -/
inductive SharedReach (agreed : Nat → Blk) (defOf : Nat → Nat × Option Nat) : Cached → Prop where
  | start : SharedReach agreed defOf { db := { blocks := [], defs := fun _ => none }, cache := fun _ => none }
  | step {s t : Cached} (r : SharedReach agreed defOf s) (h : SharedStep agreed defOf s t) :
      SharedReach agreed defOf t

end Verif.Exec
