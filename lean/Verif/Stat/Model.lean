/-!
# The reported sync status (C107)

The node keeps one shared `SyncState` (`crates/rpc/src/lib.rs:247-257`).  Two tasks write it: the
task that follows the head of the gateway and the consumer of sync events.  Two requests read it:
`starknet_syncing` and `/ready/synced`.  The model is a transition system in which the tasks
interleave at the points where they wait; the requests are functions of its state.

Not modelled: the download of blocks and the detection of a reorganisation (both are actions with
arbitrary contents), the contents of blocks, and the serialisation of the answer.
-/

namespace Verif.Stat

/-- `NumberedBlock` (`crates/rpc/src/types/syncing.rs:113-122`): a number and a hash.
Simplified: numbers are unbounded (`BlockNumber` stops at `i64::MAX`). -/
structure Blk where
  num : Nat
  hash : Nat
deriving DecidableEq, Repr

/-- `syncing::Status` (`crates/rpc/src/types/syncing.rs:49-55`). -/
structure Status where
  starting : Blk
  current : Blk
  highest : Blk
deriving DecidableEq, Repr

/-- What happened, in order; only for stating properties, no task reads it. -/
inductive Note
  /-- the status task wrote this head of the gateway into the status -/
  | head (b : Blk)
  /-- the consumer accepted this downloaded block for storing -/
  | block (b : Blk)
  /-- the consumer removed the blocks from this number on -/
  | reorg (tail : Nat)
deriving DecidableEq, Repr

/-- The node's state as far as it matters for the status. -/
structure Sys where
  /-- `SyncState::status`; `none` is `Syncing::False` -/
  status : Option Status
  /-- the `starting` block of the status task -/
  starting : Blk
  /-- the value in the `watch` channel filled by `l2::poll_latest` -/
  watch : Blk
  /-- `latest_hash` of the status task -/
  seen : Nat
  /-- the head which the status task has read but not yet written -/
  taken : Option Blk
  /-- the stored blocks, newest first -/
  chain : List Blk
  /-- `next_number` of the consumer -/
  next : Nat
  /-- the block which the consumer is storing -/
  storing : Option Blk
  /-- the consumer ended with an error -/
  stopped : Bool
  /-- whether the status task was started -/
  watching : Bool
  /-- the readiness flag -/
  ready : Bool
  /-- history -/
  log : List Note
deriving Repr

/-- The start of `state::sync` (`crates/pathfinder/src/state/sync.rs:214-254`) and of `consumer`
(`:757-769`): the newest stored block is the starting block, the genesis number and the zero hash
if there is none; the channel holds the gateway's head.  `watching` is false for
`state::consensus_sync` (`:476-`) and for peer-to-peer sync
(`crates/pathfinder/src/bin/pathfinder/main.rs:838-868`), which never start the status task. -/
def init (chain : List Blk) (gateway : Blk) (watching : Bool) : Sys :=
  { status := none
    starting := chain.head?.getD ⟨0, 0⟩
    watch := gateway
    seen := 0
    taken := none
    chain := chain
    next := match chain.head? with
      | some b => b.num + 1
      | none => 0
    storing := none
    stopped := false
    watching := watching
    ready := false
    log := [] }

/-- One step of one of the tasks. -/
inductive Act
  /-- the gateway answered a poll with this head -/
  | poll (b : Blk)
  /-- the status task reads the channel -/
  | take
  /-- the status task writes the status -/
  | publish
  /-- the consumer receives a downloaded block and updates the status -/
  | receive (b : Blk)
  /-- the consumer commits the block -/
  | commit
  /-- storing the block fails -/
  | fail
  /-- the consumer receives a reorganisation -/
  | reorg (tail : Nat)
  /-- the node becomes ready -/
  | setReady
deriving DecidableEq, Repr

/-- The status task's write, `update_sync_status_latest`
(`crates/pathfinder/src/state/sync.rs:1239-1268`). -/
def publishHead (starting latest : Blk) : Option Status → Status
  | none => { starting := starting, current := starting, highest := latest }
  | some st => if st.highest.hash ≠ latest.hash then { st with highest := latest } else st

/-- The consumer's write (`crates/pathfinder/src/state/sync.rs:784-796`). -/
def acceptBlock (b : Blk) : Option Status → Option Status
  | none => none
  | some st => some (if st.highest.num ≤ b.num then { st with current := b, highest := b }
      else { st with current := b })

/-- `l2_reorg` (`crates/pathfinder/src/state/sync.rs:1543-1630`): the tail and its parent must be
stored; the blocks from the tail on are removed. -/
def reorgChain (chain : List Blk) (tail : Nat) : Option (List Blk) :=
  if (chain.any fun b => b.num = tail) ∧ (tail = 0 ∨ chain.any fun b => b.num + 1 = tail) then
    some (chain.filter fun b => b.num < tail)
  else none

/-- One step; `none` when it is not possible in this state. -/
def step (s : Sys) : Act → Option Sys
  -- `l2::poll_latest` (`crates/pathfinder/src/state/sync/l2.rs:698-722`): the answer is sent as it is
  | .poll b => some { s with watch := b }
  -- `latest.wait_for(|(_, hash)| hash != &latest_hash)` (`state/sync.rs:1228-1238`)
  | .take =>
    if s.watching ∧ s.taken = none ∧ s.watch.hash ≠ s.seen then
      some { s with taken := some s.watch, seen := s.watch.hash }
    else none
  -- `state.status.write().await` (`state/sync.rs:1239-1268`)
  | .publish =>
    match s.taken with
    | none => none
    | some b => some { s with
        taken := none
        status := some (publishHead s.starting b s.status)
        log := s.log ++ [.head b] }
  -- `consumer` (`state/sync.rs:772-798`): old numbers are ignored, else the status is written first
  | .receive b =>
    if s.storing = none ∧ s.stopped = false then
      if b.num < s.next then some s
      else some { s with
        status := acceptBlock b s.status
        storing := some b
        log := s.log ++ [.block b] }
    else none
  -- `state/sync.rs:812-905`, `:1041-1060`: the block is stored and `next_number` goes up by one
  | .commit =>
    match s.storing with
    | none => none
    | some b =>
      if s.stopped then none
      else some { s with chain := b :: s.chain, next := s.next + 1, storing := none }
  -- the `?` on any of the storage operations ends the consumer
  | .fail =>
    match s.storing with
    | none => none
    | some _ => some { s with stopped := true }
  -- `state/sync.rs:950-970`; the status is not written
  | .reorg tail =>
    if s.storing = none ∧ s.stopped = false then
      match reorgChain s.chain tail with
      | none => some { s with stopped := true }
      | some chain => some { s with chain := chain, next := tail, log := s.log ++ [.reorg tail] }
    else none
  -- `crates/pathfinder/src/bin/pathfinder/main.rs:509`
  | .setReady => some { s with ready := true }

/-- A run of steps. -/
def run (s : Sys) : List Act → Option Sys
  | [] => some s
  | a :: as => (step s a).bind fun t => run t as

/-- What a caller of `starknet_syncing` is given. -/
inductive Answer
  | no
  | status (s : Status)
  | internalError
deriving DecidableEq, Repr

/-- `syncing` (`crates/rpc/src/method/syncing.rs:8-22`).  The release is built with
`overflow-checks = true`, so the subtraction panics below zero; the router turns a panic into an
internal error (`crates/rpc/src/jsonrpc/router.rs:134-150`). -/
def syncing : Option Status → Answer
  | none => .no
  | some st =>
    if st.highest.num < st.current.num then .internalError
    else if st.highest.num - st.current.num < 6 then .no
    else .status st

/-- What a caller of the monitoring server is given. -/
inductive Http
  | ok
  | unavailable
  /-- the handler panics: the connection ends without an answer -/
  | dropped
deriving DecidableEq, Repr

/-- `health_route` (`crates/pathfinder/src/monitoring.rs:49-51`). -/
def health (_ : Sys) : Http := .ok

/-- `ready_route` (`crates/pathfinder/src/monitoring.rs:54-60`). -/
def readyRoute (s : Sys) : Http := if s.ready then .ok else .unavailable

/-- `synced_route` (`crates/pathfinder/src/monitoring.rs:63-80`). -/
def syncedRoute (s : Sys) : Http :=
  if s.ready = false then .unavailable
  else match s.status with
    | some st =>
      if st.highest.num < st.current.num then .dropped
      else if st.highest.num - st.current.num < 6 then .ok
      else .unavailable
    | none => .unavailable

end Verif.Stat
