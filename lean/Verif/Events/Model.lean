import Verif.Events.Bloom
/-
Model of the event index and of event queries: crates/storage/src/connection/event.rs, the parts of block.rs
(purge_block), pruning.rs (prune_block), transaction.rs (insert_transaction_data, events_for_block) and lib.rs
(start-up) that touch it, and the drivers in crates/pathfinder/src/state/sync.rs.

Simplifications for the whole file: block numbers are unbounded natural numbers; block and transaction hashes are
natural numbers; SQL tables are lists of rows; transactions and receipts are reduced to the transaction hash, so the
events of a block are stored together with its transactions; rows with missing events (P2P checkpoint sync) do not
occur. `none` stands for a panic.
-/
namespace Verif.Events

/-- A block as it is stored: its hash and, for each transaction, the transaction hash and the events. -/
structure Body where
  hash : Nat
  txs : List (Nat × List Event)
deriving DecidableEq, Repr

/-- The tables: `block_headers` (number, hash), `transactions` (number, transactions with events), `event_filters`
and the single row of `running_event_filter` (filter, next block), schema/revision_0068.rs 12-63. -/
structure Db where
  headers : List (Nat × Nat)
  txs : List (Nat × List (Nat × List Event))
  filters : List Agg
  stored : Agg × Nat
deriving DecidableEq

/-- `RunningEventFilter` (event.rs 608-611) and the filter cache (bloom.rs 357-359), which are kept in memory. -/
structure Mem where
  running : Agg
  next : Nat
  cache : List Agg
deriving DecidableEq

structure Sys where
  db : Db
  mem : Mem
deriving DecidableEq

/-! ### lookups -/

/-- `block_number(BlockId::Latest)`: the highest header. -/
def latestBlock (db : Db) : Option Nat := (db.headers.map (·.1)).max?

/-- `earliest_block_number`: the lowest header. -/
def earliestBlock (db : Db) : Option Nat := (db.headers.map (·.1)).min?

/-- `block_header(BlockId::Number(n))`, reduced to the hash. -/
def headerHash (db : Db) (n : Nat) : Option Nat := db.headers.lookup n

/-- `events_for_block`, transaction.rs 311-337: no row means no transactions. -/
def eventsForBlock (db : Db) (n : Nat) : List (Nat × List Event) := (db.txs.lookup n).getD []

/-! ### storing a block -/

/-- `INSERT INTO event_filters .. ON CONFLICT DO UPDATE SET bitmap`, event.rs 114-121. -/
def putFilter (filters : List Agg) (a : Agg) : List Agg :=
  if filters.any fun f => f.fromBlock == a.fromBlock && f.toBlock == a.toBlock then
    filters.map fun f => if f.fromBlock = a.fromBlock ∧ f.toBlock = a.toBlock then a else f
  else filters ++ [a]

/-- `upsert_block_event_filters`, event.rs 109-150. -/
def upsertFilters (c : Cfg) (filters : List Agg) (mem : Mem) (n : Nat) (events : List Event) : Option (List Agg × Mem) :=
  (aggInsert c mem.running (blockBloom c events) n).map fun a =>
    if n = a.toBlock then (putFilter filters a, { mem with running := aggNew c (n + 1), next := n + 1 })
    else (filters, { mem with running := a, next := n + 1 })

/-- The number of the block that is stored next. -/
def nextNumber (db : Db) : Nat :=
  match latestBlock db with
  | none => 0
  | some n => n + 1

/-- `insert_block_header` and `insert_transaction_data` in l2_update (sync.rs 1386-1402, transaction.rs 95-171). The
outer `none` is a panic; a block whose hash is already stored is refused by the primary key and changes nothing. -/
def storeBlock (c : Cfg) (s : Sys) (b : Body) : Option Sys :=
  let n := nextNumber s.db
  if s.db.headers.any fun h => h.2 == b.hash then some s
  else (upsertFilters c s.db.filters s.mem n (b.txs.flatMap (·.2))).map fun r =>
    { db := { s.db with
        headers := s.db.headers ++ [(n, b.hash)]
        txs := if b.txs.isEmpty then s.db.txs else s.db.txs ++ [(n, b.txs)]
        filters := r.1 }
      mem := r.2 }

/-! ### start-up, shutdown, rebuild -/

/-- `SELECT .. FROM event_filters ORDER BY from_block DESC LIMIT 1`, event.rs 684-689. -/
def lastFilter : List Agg → Option Agg
  | [] => none
  | f :: fs => match lastFilter fs with
    | none => some f
    | some g => if f.fromBlock < g.fromBlock then some g else some f

/-- The first block of a rebuilt filter, event.rs 704-726. The arm for a filter that ends at the latest block is in
`rebuild`. -/
def rebuildFrom (c : Cfg) (db : Db) (latest : Nat) : Nat :=
  match lastFilter db.filters with
  | some f => f.toBlock + 1
  | none => latest - latest % c.len

/-- `RunningEventFilter::rebuild`, event.rs 675-803. -/
def rebuild (c : Cfg) (db : Db) (latest : Nat) : Option (Agg × Nat) :=
  if (lastFilter db.filters).map (·.toBlock) = some latest then some (aggNew c (latest + 1), latest + 1)
  else
    let first := rebuildFrom c db latest
    ((db.txs.filter fun r => first ≤ r.1).foldlM
      (fun a r => aggInsert c a (blockBloom c (r.2.flatMap (·.2))) r.1) (aggNew c first)).map fun a => (a, latest + 1)

/-- `RunningEventFilter::load`, event.rs 617-667. -/
def loadRunning (c : Cfg) (db : Db) : Option (Agg × Nat) :=
  match latestBlock db with
  | none => some (aggNew c 0, 0)
  | some latest => if db.stored.2 = latest + 1 then some db.stored else rebuild c db latest

/-- Opening the storage, lib.rs 376-393: the running filter is loaded, the cache is empty. -/
def openStorage (c : Cfg) (db : Db) : Option Sys :=
  (loadRunning c db).map fun r => { db, mem := { running := r.1, next := r.2, cache := [] } }

/-- `store_in_memory_state`, connection.rs 145-147 and event.rs 72-93. -/
def storeInMemoryState (s : Sys) : Db := { s.db with stored := (s.mem.running, s.mem.next) }

/-- `reset_in_memory_state`, connection.rs 151-154. -/
def resetInMemoryState (c : Cfg) (s : Sys) (head : Nat) : Option Sys :=
  (rebuild c s.db head).map fun r => { s with mem := { running := r.1, next := r.2, cache := [] } }

/-! ### removing blocks -/

/-- `purge_block`, block.rs 96-199, restricted to the modelled tables (transactions go with the header). -/
def purgeBlock (db : Db) (n : Nat) : Db :=
  { db with
    filters := db.filters.filter fun f => !(decide (f.fromBlock ≤ n) && decide (n ≤ f.toBlock))
    headers := db.headers.filter fun h => h.1 != n
    txs := db.txs.filter fun t => t.1 != n }

/-- The purge loop of l2_reorg, sync.rs 1590-1601, for blocks `tail + d`, ..., `tail`. -/
def purgeDown (db : Db) (tail : Nat) : Nat → Db
  | 0 => purgeBlock db tail
  | d + 1 => purgeDown (purgeBlock db (tail + d + 1)) tail d

def hasBlock (db : Db) (n : Nat) : Bool := db.headers.any fun h => h.1 == n

/-- `l2_reorg`, sync.rs 1543-1606. A missing tail or parent is an error and changes nothing. The filter is rebuilt for
the new head, which is genesis also if genesis itself was purged. -/
def l2Reorg (c : Cfg) (s : Sys) (tail : Nat) : Option Sys :=
  match latestBlock s.db with
  | none => some s
  | some h =>
    if hasBlock s.db tail && (tail == 0 || hasBlock s.db (tail - 1)) then
      resetInMemoryState c { s with db := purgeDown s.db tail (h - tail) } (tail - 1)
    else some s

/-- `prune_block`, pruning.rs 44-85, restricted to the modelled tables. -/
def pruneBlock (c : Cfg) (db : Db) (n : Nat) : Db :=
  { db with
    headers := db.headers.filter fun h => h.1 != n
    txs := db.txs.filter fun t => t.1 != n
    filters := if (n + 1) % c.len = 0 then db.filters.filter fun f => f.toBlock != n else db.filters }

/-- The loop of perform_blockchain_pruning, sync.rs 1157-1166. -/
def pruneLoop (c : Cfg) (db : Db) (first : Nat) : Nat → Db
  | 0 => db
  | d + 1 => pruneLoop c (if hasBlock db first then pruneBlock c db first else db) (first + 1) d

/-- `perform_blockchain_pruning`, sync.rs 1103-1171; `point` is the pruning point, at most the head. -/
def prune (c : Cfg) (db : Db) (point numKept : Nat) : Db :=
  match latestBlock db, earliestBlock db with
  | some h, some e => if point ≤ h ∧ numKept ≤ point then pruneLoop c db e (point - numKept - e) else db
  | _, _ => db

/-! ### queries -/

/-- `AggregateBloomCache::get_many`, bloom.rs 372-408. -/
def cacheGetMany (c : Cfg) (cache : List Agg) (fromBlock toBlock : Nat) : List Agg :=
  let fromA := fromBlock - fromBlock % c.len
  let toA := toBlock + c.len - toBlock % c.len - 1
  (List.range ((toA + 1 - fromA) / c.len)).filterMap fun i =>
    cache.find? fun f => f.fromBlock == fromA + i * c.len && f.toBlock == fromA + i * c.len + c.len - 1

/-- `set_many`, bloom.rs 410-420. (Evictions are separate steps of the system.) -/
def cacheSetMany (cache : List Agg) (fs : List Agg) : List Agg := fs.foldl putFilter cache

def filterLe (a b : Agg) : Bool := decide (a.fromBlock ≤ b.fromBlock)

/-- Insertion into a sorted list, for `sortFilters`. -/
def insertFilter (f : Agg) : List Agg → List Agg
  | [] => [f]
  | g :: gs => if filterLe f g then f :: g :: gs else g :: insertFilter f gs

/-- A stable sort by first block: `ORDER BY from_block`, event.rs 466, and `sort_by_key`, event.rs 495. -/
def sortFilters (fs : List Agg) : List Agg := fs.foldr insertFilter []

/-- Rows selected by load_event_filter_range, event.rs 459-491. -/
def loadRows (db : Db) (cached : List Agg) (start stop : Nat) : List Agg :=
  sortFilters (db.filters.filter fun f => decide (f.fromBlock ≤ stop) && decide (start ≤ f.toBlock) &&
    !(cached.any fun g => g.fromBlock == f.fromBlock))

/-- `should_include_running`, event.rs 499-501. -/
def includeRunning (running : Agg) (stop : Nat) : Option Agg → Bool
  | none => true
  | some last => last.toBlock + 1 == running.fromBlock && decide (last.toBlock < stop)

/-- `load_event_filter_range`, event.rs 440-507: the filters and the new cache. -/
def loadFilters (c : Cfg) (db : Db) (mem : Mem) (start stop : Nat) : List Agg × List Agg :=
  let cached := cacheGetMany c mem.cache start stop
  let rows := loadRows db cached start stop
  let fs := sortFilters (rows ++ cached)
  (if includeRunning mem.running stop fs.getLast? then fs ++ [mem.running] else fs, cacheSetMany mem.cache rows)

/-- `EventConstraints`, event.rs 22-30. -/
structure Constraints where
  fromBlock : Option Nat
  toBlock : Option Nat
  addrs : List Felt
  keys : List (List Felt)
  pageSize : Nat
  offset : Nat
deriving DecidableEq, Repr

/-- `EmittedEvent`, event.rs 32-42. -/
structure Emitted where
  event : Event
  blockHash : Nat
  blockNumber : Nat
  txHash : Nat
  txIndex : Nat
  eventIndex : Nat
deriving DecidableEq, Repr

/-- `ContinuationToken`, event.rs 58-62. -/
structure Token where
  block : Nat
  offset : Nat
deriving DecidableEq, Repr

structure Page where
  events : List Emitted
  token : Option Token
deriving DecidableEq, Repr

/-- The address condition, event.rs 214-220, 338-344. -/
def addrMatches (addrs : List Felt) (e : Event) : Bool := if addrs.isEmpty then true else addrs.contains e.addr

/-- The key condition, event.rs 221-236, 345-360. -/
def keysMatch (keys : List (List Felt)) (e : Event) : Bool :=
  if keys.flatten.length = 0 then true
  else if e.keys.length < keys.length then false
  else (List.zip e.keys keys).all fun kg => kg.2.isEmpty || kg.2.contains kg.1

/-- The events of a block with their positions, before filtering: event.rs 331-337 and 366-375. -/
def emitBlock (n hash : Nat) (txs : List (Nat × List Event)) : List Emitted :=
  txs.zipIdx.flatMap fun ti => ti.1.2.zipIdx.map fun ei =>
    { event := ei.1, blockHash := hash, blockNumber := n, txHash := ti.1.1, txIndex := ti.2, eventIndex := ei.2 }

/-- `skip_while` with the counter `offset`, event.rs 361-365: the rest and the counter. -/
def skipWhile {α : Type} : Nat → List α → List α × Nat
  | off, [] => ([], off)
  | off, x :: xs => if off > 0 then skipWhile (off - 1) xs else (x :: xs, off)

/-- Result of the block loop: a page plus one event, or all blocks scanned. -/
inductive Scan where
  | full (events : List Emitted)
  | done (events : List Emitted)

/-- The loop over the blocks, event.rs 314-402. The outer `none` is the panic on a missing header. -/
def scan (db : Db) (addrs : List Felt) (keys : List (List Felt)) (pageSize : Nat) :
    List Nat → Nat → List Emitted → Option Scan
  | [], _, acc => some (.done acc)
  | b :: bs, offset, acc =>
    match headerHash db b with
    | none => none
    | some hash =>
      let hits := (emitBlock b hash (eventsForBlock db b)).filter fun e => addrMatches addrs e.event && keysMatch keys e.event
      let r := skipWhile offset hits
      let acc := acc ++ r.1.take (pageSize + 1 - acc.length)
      if acc.length > pageSize then some (.full acc) else scan db addrs keys pageSize bs r.2 acc

/-- Number of trailing events of the last block, event.rs 814-819. -/
def trailing (events : List Emitted) (n : Nat) : Nat := (events.reverse.takeWhile fun e => e.blockNumber == n).length

/-- `continuation_token`, event.rs 806-839. -/
def continuationToken (events : List Emitted) (prev : Token) : Option Token :=
  match events.getLast? with
  | none => none
  | some last =>
    if trailing events last.blockNumber < events.length then some ⟨last.blockNumber, trailing events last.blockNumber⟩
    else some ⟨prev.block, prev.offset + events.length⟩

inductive QueryError where
  | pageSizeTooSmall
  | panic
deriving DecidableEq, Repr

/-- First block of a query, event.rs 279-293. -/
def queryFrom (db : Db) (pruning : Bool) (latest : Nat) : Option Nat → Nat
  | none => 0
  | some f => if pruning then (earliestBlock db).getD latest else f

/-- Last block of a query, event.rs 296-300. -/
def queryTo (latest : Nat) : Option Nat → Nat
  | none => latest
  | some t => min t latest

/-- The page made of a scan, event.rs 379-421. -/
def pageOf (pageSize from_ offset covered : Nat) (more : Bool) : Scan → Except QueryError Page
  | .full evs =>
    match continuationToken evs ⟨from_, offset⟩ with
    | none => .error .panic
    | some t => .ok ⟨evs.take pageSize, some ⟨t.block, t.offset - 1⟩⟩
  | .done evs => .ok ⟨evs, if more then some ⟨covered + 1, 0⟩ else none⟩

/-- The blocks to scan, event.rs 308-311. -/
def blocksToScan (c : Cfg) (fs : List Agg) (addrs : List Felt) (keys : List (List Felt)) (from_ covered : Nat) : List Nat :=
  (fs.flatMap fun f => aggCheck c f addrs keys).filter fun b => decide (from_ ≤ b) && decide (b ≤ covered)

/-- `events`, event.rs 258-436: the page and the new cache. `limit` is the (non-zero) block range limit. -/
def events (c : Cfg) (db : Db) (mem : Mem) (pruning : Bool) (limit : Nat) (q : Constraints) :
    Except QueryError Page × List Agg :=
  if q.pageSize < 1 then (.error .pageSizeTooSmall, mem.cache)
  else match latestBlock db with
    | none => (.ok ⟨[], none⟩, mem.cache)
    | some latest =>
      let from_ := queryFrom db pruning latest q.fromBlock
      let to := queryTo latest q.toBlock
      let limited := min to (from_ + limit - 1)
      let r := loadFilters c db mem from_ limited
      match r.1.getLast? with
      | none => (.error .panic, r.2)
      | some last =>
        let covered := min limited last.toBlock
        match scan db q.addrs q.keys q.pageSize (blocksToScan c r.1 q.addrs q.keys from_ covered) q.offset [] with
        | none => (.error .panic, r.2)
        | some sc => (pageOf q.pageSize from_ q.offset covered (decide (covered < to)) sc, r.2)

/-! ### the system -/

/-- What can happen to the storage. -/
inductive Op where
  | block (b : Body)
  | reorg (tail : Nat)
  | prune (point numKept : Nat)
  | query (pruning : Bool) (limit : Nat) (q : Constraints)
  | evict (keep : List Nat)
  | shutdown
  | crash
deriving DecidableEq

/-- One step. `evict` stands for whatever the bounded cache forgets: it keeps the entries whose first block is listed.
`shutdown` is a graceful stop followed by a start, `crash` a start on what was committed. -/
def step (c : Cfg) (s : Sys) : Op → Option Sys
  | .block b => storeBlock c s b
  | .reorg tail => l2Reorg c s tail
  | .prune p k => some { s with db := prune c s.db p k }
  | .query pr limit q => some { s with mem := { s.mem with cache := (events c s.db s.mem pr limit q).2 } }
  | .evict keep => some { s with mem := { s.mem with cache := s.mem.cache.filter fun f => keep.contains f.fromBlock } }
  | .shutdown => openStorage c (storeInMemoryState s)
  | .crash => openStorage c s.db

/-- The database after the migrations, schema/revision_0068.rs 35-63, opened for the first time. -/
def initial (c : Cfg) : Sys :=
  { db := { headers := [], txs := [], filters := [], stored := (aggNew c 0, 0) }
    mem := { running := aggNew c 0, next := 0, cache := [] } }

def run (c : Cfg) (ops : List Op) : Option Sys := ops.foldlM (step c) (initial c)

end Verif.Events
